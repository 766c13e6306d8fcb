import Verif.Model.Input
import Verif.Model.Tables

/-!
# The descriptor interpreter

Modelled code: `wreport/bulletin/interpreter.h` lines 25-213,
`wreport/bulletin/interpreter.cc` lines 22-542, `wreport/bulletin/bitmaps.h` and
`bitmaps.cc`, `wreport/bulletin/associated_fields.h` and `associated_fields.cc`.
Not modelled here: `Printer` (see `Model.Listing`), tracing and notes.

The interpreter is generic in the virtual functions it calls, which make up a
`Target`. Descriptor lists are the lists seen through `Opcodes` views; that the
views behave as lists is C59. An interpreter whose function throws is not used
again, so functions return `Res`.
-/

namespace Wreport

/-! ## Data present bitmaps -/

/-- `Bitmap`, `wreport/bulletin/bitmaps.h` lines 14-64: positions in the order
`refs` holds them (backwards) and how many were visited from the end. The copy of
the bitmap variable it keeps is never read and is left out. -/
structure Bitmap where
  refs : List Nat
  iter : Nat
deriving DecidableEq

namespace Bitmap

/-- Skipping variables that are not elements, `wreport/bulletin/bitmaps.cc` lines
39-43; `codes` are the codes of the variables in the subset. -/
def skipBack (codes : List Varcode) : Nat → Res Nat
  | 0 => match codes[0]? with
    | none => .ub
    | some c => if WR_VAR_F c ≠ 0 then .err .consistency else .ok 0
  | s + 1 => match codes[s + 1]? with
    | none => .ub
    | some c => if WR_VAR_F c ≠ 0 then skipBack codes s else .ok (s + 1)

/-- Reading one character of the bitmap, `wreport/bulletin/bitmaps.cc` line 45. -/
def marked (m : Mem) (i : Nat) : Res Bool :=
  match m[i]? with
  | some (some c) => .ok (c = 43)
  | _ => .ub

/-- Recording a position, `wreport/bulletin/bitmaps.cc` lines 45-46. -/
def addRef (refs : List Nat) (s : Nat) (present : Bool) : List Nat :=
  if present then refs ++ [s] else refs

/-- The loop of the constructor, `wreport/bulletin/bitmaps.cc` lines 35-52; `b` is
`b_cur` at the start of a turn, `s` is `s_cur`. `text` gives the bitmap memory:
`enqc` is called in each turn. -/
def build (codes : List Varcode) (text : Res Mem) : (b : Nat) → (s : Nat) → List Nat → Res (List Nat)
  | 0, _, _ => .ub
  | b + 1, s, refs => do
    let s ← skipBack codes (s - 1)
    let m ← text
    let p ← marked m b
    if b = 0 then return addRef refs s p
    else if s = 0 then .err .consistency
    else build codes text b s (addRef refs s p)

/-- Constructor, `wreport/bulletin/bitmaps.cc` lines 13-55. -/
def new (E : Env) (bitmap : VarCore) (codes : List Varcode) (anchor : Nat) : Res Bitmap :=
  if bitmap.info.len = 0 then .err .consistency
  else if anchor = 0 then .err .consistency
  else do
    let refs ← build codes (bitmap.enqc E) bitmap.info.len anchor []
    return ⟨refs, 0⟩

/-- `Bitmap::eob`, `wreport/bulletin/bitmaps.cc` line 61. -/
def eob (b : Bitmap) : Bool := b.iter = b.refs.length

/-- `Bitmap::next`, `wreport/bulletin/bitmaps.cc` line 62: dereferences the
iterator without looking whether it is at the end. -/
def next (b : Bitmap) : Res (Nat × Bitmap) :=
  match b.refs.reverse[b.iter]? with
  | none => .ub
  | some p => .ok (p, { b with iter := b.iter + 1 })

/-- `Bitmap::reuse`, `wreport/bulletin/bitmaps.cc` lines 64-67. -/
def reuse (b : Bitmap) : Bitmap := { b with iter := 0 }

end Bitmap

/-- `Bitmaps`, `wreport/bulletin/bitmaps.h` lines 66-98. -/
structure Bitmaps where
  pending_definitions : Varcode
  current : Option Bitmap
  last : Option Bitmap
deriving DecidableEq

namespace Bitmaps

/-- State at construction, `wreport/bulletin/bitmaps.h` lines 69-75. -/
def new : Bitmaps := { pending_definitions := 0, current := none, last := none }

/-- `Bitmaps::active`, `wreport/bulletin/bitmaps.h` line 97. -/
def active (b : Bitmaps) : Bool := b.current.isSome

/-- `Bitmaps::next`, `wreport/bulletin/bitmaps.cc` lines 76-88. -/
def next (b : Bitmaps) : Res (Nat × Bitmaps) :=
  match b.current with
  | none => .err .consistency
  | some c => do
    let r ← c.next
    if r.2.eob then return (r.1, { b with last := some r.2, current := none })
    else return (r.1, { b with current := some r.2 })

/-- `Bitmaps::define`, `wreport/bulletin/bitmaps.cc` lines 90-99. If the
constructor throws, `current` still points to the bitmap just deleted, which the
destructor `Bitmaps::~Bitmaps` deletes again. -/
def define (E : Env) (b : Bitmaps) (bitmap : VarCore) (codes : List Varcode) (anchor : Nat) :
    Res Bitmaps :=
  match Bitmap.new E bitmap codes anchor with
  | .ok c => .ok { b with current := some c }
  | .err e => if b.current.isSome then .ub else .err e
  | .ub => .ub

/-- `Bitmaps::reuse_last`, `wreport/bulletin/bitmaps.cc` lines 101-110. -/
def reuse_last (b : Bitmaps) : Bitmaps :=
  { b with current := b.last.map Bitmap.reuse, last := none }

/-- `Bitmaps::discard_last`, `wreport/bulletin/bitmaps.cc` lines 112-116. -/
def discard_last (b : Bitmaps) : Bitmaps := { b with last := none }

end Bitmaps

/-! ## Associated fields -/

/-- Constructor `Var(Varinfo, int)`, `wreport/var.cc` lines 104-108. -/
def Var.newInt (O : Opts) (info : Varinfo) (val : Int) : Res Var := do
  let r := (Var.new info).seti O val
  let _ ← r.2
  return r.1

/-- Constructor `Var(Varinfo, const std::string&)`, `wreport/var.cc` lines
122-126. -/
def Var.newStr (O : Opts) (info : Varinfo) (val : List Byte) : Res Var := do
  let r := (Var.new info).sets O val
  let _ ← r.2
  return r.1

/-- `AssociatedField`, `wreport/bulletin/associated_fields.h` lines 12-51. -/
structure AssociatedField where
  skip_missing : Bool
  bit_count : Nat
  significance : Nat
deriving DecidableEq

namespace AssociatedField

/-- Constructor, `wreport/bulletin/associated_fields.cc` lines 17-20. -/
def new : AssociatedField := { skip_missing := true, bit_count := 0, significance := 63 }

/-- An attribute holding `value`, or unset if it is missing,
`wreport/bulletin/associated_fields.cc` lines 30-33 and others. -/
def fieldAttr (O : Opts) (btable : Vartable) (code : Varcode) (missing : Bool) (value : Nat) :
    Res (Option Var) := do
  let info ← btable.query code
  if missing then return some (Var.new info)
  else do
    let v ← Var.newInt O info (ofU32 value)
    return some v

/-- `AssociatedField::make_attribute`, `wreport/bulletin/associated_fields.cc`
lines 23-107. -/
def make_attribute (E : Env) (O : Opts) (btable : Vartable) (f : AssociatedField) (value : Nat) :
    Res (Option Var) := do
  let ones ← all_ones E f.bit_count
  let missing : Bool := value = ones
  if f.significance = 1 then fieldAttr O btable (WR_VAR 0 33 2) missing value
  else if f.significance = 2 then fieldAttr O btable (WR_VAR 0 33 3) missing value
  else if f.significance = 6 then
    if missing && f.skip_missing then return none
    else fieldAttr O btable (WR_VAR 0 33 50) missing value
  else if f.significance = 7 then fieldAttr O btable (WR_VAR 0 33 40) missing value
  else if f.significance = 8 then
    if missing && f.skip_missing then return none
    else fieldAttr O btable (WR_VAR 0 33 2) missing value
  else if f.significance = 21 then
    if !f.skip_missing || !missing then fieldAttr O btable (WR_VAR 0 33 41) false 0
    else return none
  else if 1 ≤ f.significance ∧ f.significance ≤ 63 then return none
  else .err .unimplemented

/-- `AssociatedField::get_attribute`, `wreport/bulletin/associated_fields.cc`
lines 109-163. -/
def get_attribute (f : AssociatedField) (var : Var) : Res (Option VarCore) :=
  if f.significance = 1 ∨ f.significance = 8 then .ok (var.enqa (WR_VAR 0 33 2))
  else if f.significance = 2 then .ok (var.enqa (WR_VAR 0 33 3))
  else if f.significance = 6 then .ok (var.enqa (WR_VAR 0 33 50))
  else if f.significance = 7 then .ok (var.enqa (WR_VAR 0 33 40))
  else if f.significance = 21 then .ok (var.enqa (WR_VAR 0 33 41))
  else if 1 ≤ f.significance ∧ f.significance ≤ 63 then .ok none
  else .err .unimplemented

end AssociatedField

/-! ## The interpreter -/

/-- What an interpreter is given and does not change: arithmetic, options, the two
tables. The chains of altered descriptors that `query_altered` leaves in the table
are not part of the state: by C41 (`Vartable.query_altered_result`) its answers do
not depend on them. -/
structure Ctx where
  E : Env
  O : Opts
  btable : Vartable
  dtable : DTable

/-- `Interpreter`, `wreport/bulletin/interpreter.h` lines 25-60, without
`opcode_stack`, whose top is an argument of `run`; `caches` are the maps of
`tables`, `tgt` is the state of the derived class. `c03_refval_overrides` is a
`std::map`, kept as a list of pairs searched from the front. -/
structure Interp (σ : Type) where
  bitmaps : Bitmaps
  associated_field : AssociatedField
  c_scale_change : Int
  c_width_change : Int
  c_scale_ref_width_increase : Int
  c_string_len_override : Int
  c03_refval_overrides : List (Varcode × Nat)
  c03_refval_override_bits : Nat
  caches : TableCaches
  tgt : σ

/-- State at construction, `wreport/bulletin/interpreter.h` lines 30-56 and
`wreport/bulletin/interpreter.cc` lines 22-26. -/
def Interp.new {σ : Type} (caches : TableCaches) (tgt : σ) : Interp σ where
  bitmaps := .new
  associated_field := .new
  c_scale_change := 0
  c_width_change := 0
  c_scale_ref_width_increase := 0
  c_string_len_override := 0
  c03_refval_overrides := []
  c03_refval_override_bits := 0
  caches := caches
  tgt := tgt

/-- The virtual functions of `Interpreter` that encoders, decoders and validators
provide, `wreport/bulletin/interpreter.h` lines 138-212. -/
structure Target (σ : Type) where
  define_bitmap : Interp σ → Nat → Res (Interp σ)
  define_variable : Interp σ → Varinfo → Res (Interp σ)
  define_variable_with_associated_field : Interp σ → Varinfo → Res (Interp σ)
  define_delayed_replication_factor : Interp σ → Varinfo → Res (Nat × Interp σ)
  define_bitmap_delayed_replication_factor : Interp σ → Varinfo → Res (Nat × Interp σ)
  define_associated_field_significance : Interp σ → Varinfo → Res (Nat × Interp σ)
  define_substituted_value : Interp σ → Nat → Res (Interp σ)
  define_attribute : Interp σ → Varinfo → Nat → Res (Interp σ)
  define_raw_character_data : Interp σ → Varcode → Res (Interp σ)
  define_c03_refval_override : Interp σ → Varcode → Res (Interp σ)

namespace Interp

variable {σ : Type}

/-- The test at the start of `get_varinfo`, `wreport/bulletin/interpreter.cc` lines
84-85. -/
def unmodified (st : Interp σ) : Bool :=
  st.c_scale_change = 0 && st.c_width_change = 0 && st.c_string_len_override = 0 &&
    st.c_scale_ref_width_increase = 0 && st.c03_refval_overrides.isEmpty

/-- Width with the C01 and C08 operators applied,
`wreport/bulletin/interpreter.cc` lines 95-105. -/
def changedWidth (E : Env) (st : Interp σ) (peek : Varinfo) : Res Int :=
  if peek.type = .string ∧ st.c_string_len_override ≠ 0 then
    E.sint (st.c_string_len_override * 8)
  else E.sint (wrapInt peek.bit_len + st.c_width_change)

/-- Reference value with the C07 operator applied,
`wreport/bulletin/interpreter.cc` lines 107-117: indexes a table of ten powers of
ten. -/
def increasedRef (E : Env) (st : Interp σ) (peek : Varinfo) : Res Int :=
  if st.c_scale_ref_width_increase = 0 then .ok peek.bit_ref
  else if 0 ≤ st.c_scale_ref_width_increase ∧ st.c_scale_ref_width_increase < 10 then
    E.sint (peek.bit_ref * 10 ^ st.c_scale_ref_width_increase.toNat)
  else .ub

/-- Reference value with the C03 operator applied,
`wreport/bulletin/interpreter.cc` lines 119-124. -/
def overriddenRef (st : Interp σ) (code : Varcode) (bit_ref : Int) : Int :=
  ((st.c03_refval_overrides.lookup code).map ofU32).getD bit_ref

/-- `Interpreter::get_varinfo`, `wreport/bulletin/interpreter.cc` lines 80-128. -/
def get_varinfo (C : Ctx) (st : Interp σ) (code : Varcode) : Res Varinfo := do
  let peek ← C.btable.query code
  if st.unmodified then return peek
  else do
    let scale ← C.E.sint (peek.scale + st.c_scale_change)
    let bit_len ← changedWidth C.E st peek
    let scale ← C.E.sint (scale + st.c_scale_ref_width_increase)
    let bit_len ← C.E.sint (bit_len + (10 * st.c_scale_ref_width_increase + 2) / 3)
    let bit_ref ← increasedRef C.E st peek
    let r ← (C.btable.query_altered C.E code scale (toU32 bit_len)
      (overriddenRef st code bit_ref)).2
    return r.2

/-- The element part of `b_variable`, `wreport/bulletin/interpreter.cc` lines
138-154. -/
def elementOrAttribute (T : Target σ) (st : Interp σ) (code : Varcode) (info : Varinfo) :
    Res (Interp σ) :=
  if WR_VAR_F code = 0 ∧ WR_VAR_X code = 33 ∧ st.bitmaps.active = true then do
    let r ← st.bitmaps.next
    T.define_attribute { st with bitmaps := r.2 } info r.1
  else if st.associated_field.bit_count ≠ 0 then
    T.define_variable_with_associated_field st info
  else T.define_variable st info

/-- `Interpreter::b_variable`, `wreport/bulletin/interpreter.cc` lines 130-156. -/
def b_variable (C : Ctx) (T : Target σ) (st : Interp σ) (code : Varcode) : Res (Interp σ) :=
  if st.c03_refval_override_bits ≠ 0 then T.define_c03_refval_override st code
  else do
    let info ← get_varinfo C st code
    elementOrAttribute T st code info

/-- `Opcodes::pop_left()` on the descriptors of a view. -/
def pop (ops : List Varcode) : Res (Varcode × List Varcode) :=
  match ops with
  | [] => .err .consistency
  | c :: rest => .ok (c, rest)

/-- `Opcodes::pop_left(count)` on the descriptors of a view. -/
def popN (ops : List Varcode) (n : Nat) : Res (List Varcode × List Varcode) :=
  if ops.length < n then .err .consistency else .ok (ops.take n, ops.drop n)

/-- Change given by the operand of C01 and C02, `wreport/bulletin/interpreter.cc`
lines 169 and 179. -/
def change (y : Nat) : Int := if y ≠ 0 then (y : Int) - 128 else 0

/-- The significance read by a C04 operator, `wreport/bulletin/interpreter.cc`
lines 239-248. -/
def c04_significance (C : Ctx) (T : Target σ) (st : Interp σ) (sig_code : Varcode) :
    Res (Interp σ) :=
  if sig_code ≠ WR_VAR 0 31 21 then .err .consistency
  else do
    let info ← C.btable.query (WR_VAR 0 31 21)
    let r ← T.define_associated_field_significance st info
    return { r.2 with
      associated_field := { r.2.associated_field with significance := r.1 } }

/-- The C04 operator, `wreport/bulletin/interpreter.cc` lines 230-252. -/
def c04 (C : Ctx) (T : Target σ) (st : Interp σ) (nbits : Nat) (next : List Varcode) :
    Res (List Varcode × Interp σ) :=
  if nbits ≠ 0 ∧ st.associated_field.bit_count ≠ 0 then .err .unimplemented
  else if 32 < nbits then .err .unimplemented
  else if nbits = 0 then
    .ok (next, { st with associated_field := { st.associated_field with bit_count := 0 } })
  else do
    let p ← pop next
    let st ← c04_significance C T st p.1
    return (p.2, { st with associated_field := { st.associated_field with bit_count := nbits } })

/-- The description of the data for a C06 operator,
`wreport/bulletin/interpreter.cc` lines 275-290: the table's if it has the right
width, otherwise a binary one made up. -/
def c06_info (C : Ctx) (st : Interp σ) (code : Varcode) (nbits : Nat) : Res (Option Varinfo) := do
  let known ← C.btable.contains code
  if known then do
    let info ← get_varinfo C st code
    if info.bit_len = nbits then return some info else return none
  else return none

/-- Lines 287-291 of `wreport/bulletin/interpreter.cc`. -/
def c06_define (C : Ctx) (T : Target σ) (st : Interp σ) (code : Varcode) (nbits : Nat) :
    Option Varinfo → Res (Interp σ)
  | some info => T.define_variable st info
  | none => do
    let r := st.caches.get_unknown C.E code nbits
    let info ← r.2
    T.define_variable { st with caches := r.1 } info

/-- The C06 operator, `wreport/bulletin/interpreter.cc` lines 271-293. -/
def c06 (C : Ctx) (T : Target σ) (st : Interp σ) (nbits : Nat) (next : List Varcode) :
    Res (List Varcode × Interp σ) := do
  let p ← pop next
  if nbits = 0 then return (p.2, st)
  else do
    let info ← c06_info C st p.1 nbits
    let st ← c06_define C T st p.1 nbits info
    return (p.2, st)

/-- The C23 operator, `wreport/bulletin/interpreter.cc` lines 342-370. -/
def c23 (T : Target σ) (st : Interp σ) (code : Varcode) : Res (Interp σ) :=
  if WR_VAR_Y code = 0 then
    .ok { st with bitmaps := { st.bitmaps with pending_definitions := code } }
  else if WR_VAR_Y code = 255 then
    if st.bitmaps.active = false then .err .consistency
    else do
      let r ← st.bitmaps.next
      T.define_substituted_value { st with bitmaps := r.2 } r.1
  else .err .consistency

/-- The C37 operator, `wreport/bulletin/interpreter.cc` lines 385-398. -/
def c37 (st : Interp σ) (y : Nat) : Res (Interp σ) :=
  if y = 0 then
    .ok { st with bitmaps := { st.bitmaps.reuse_last with pending_definitions := 0 } }
  else if y = 255 then .ok { st with bitmaps := st.bitmaps.discard_last }
  else .err .consistency

/-- The operators that take no further descriptor,
`wreport/bulletin/interpreter.cc` lines 161-422 without cases 4 and 6. -/
def c_simple (T : Target σ) (st : Interp σ) (code : Varcode) : Res (Interp σ) :=
  let y := WR_VAR_Y code
  match WR_VAR_X code with
  | 1 => .ok { st with c_width_change := change y }
  | 2 => .ok { st with c_scale_change := change y }
  | 3 => .ok { st with c03_refval_override_bits := if y = 255 then 0 else y }
  | 5 => T.define_raw_character_data st code
  | 7 => .ok { st with c_scale_ref_width_increase := y }
  | 8 => .ok { st with c_string_len_override := y }
  | 22 => if y ≠ 0 then .err .consistency
    else .ok { st with bitmaps := { st.bitmaps with pending_definitions := code } }
  | 23 => c23 T st code
  | 37 => c37 st y
  | _ => .ok st

/-- `Interpreter::c_modifier`, `wreport/bulletin/interpreter.cc` lines 158-423:
descriptors left and new state. -/
def c_modifier (C : Ctx) (T : Target σ) (st : Interp σ) (code : Varcode) (next : List Varcode) :
    Res (List Varcode × Interp σ) :=
  if WR_VAR_X code = 4 then c04 C T st (WR_VAR_Y code) next
  else if WR_VAR_X code = 6 then c06 C T st (WR_VAR_Y code) next
  else do
    let st ← c_simple T st code
    return (next, st)

/-- Doing something `n` times. -/
def times {α : Type} (f : α → Res α) : Nat → α → Res α
  | 0, a => .ok a
  | n + 1, a => do
    let a ← f a
    times f n a

/-- `Interpreter::r_replication`, `wreport/bulletin/interpreter.cc` lines 425-459;
`body` runs the replicated descriptors once. -/
def r_replication (C : Ctx) (T : Target σ) (body : Interp σ → Res (Interp σ)) (st : Interp σ)
    (code delayed_code : Varcode) : Res (Interp σ) :=
  if WR_VAR_Y code ≠ 0 then times body (WR_VAR_Y code) st
  else do
    let info ← C.btable.query delayed_code
    let r ← T.define_delayed_replication_factor st info
    times body r.1 r.2

/-- Size of a bitmap, `wreport/bulletin/interpreter.cc` lines 477-483. -/
def bitmapSize (C : Ctx) (T : Target σ) (st : Interp σ) (code delayed_code : Varcode) :
    Res (Nat × Interp σ) :=
  if WR_VAR_Y code ≠ 0 then .ok (WR_VAR_Y code, st)
  else do
    let info ← C.btable.query delayed_code
    T.define_bitmap_delayed_replication_factor st info

/-- `Interpreter::r_bitmap`, `wreport/bulletin/interpreter.cc` lines 466-487. -/
def r_bitmap (C : Ctx) (T : Target σ) (st : Interp σ) (code delayed_code : Varcode)
    (ops : List Varcode) : Res (Interp σ) :=
  if WR_VAR_X code ≠ 1 then .err .consistency
  else if ops.head? ≠ some (WR_VAR 0 31 31) then .err .consistency
  else do
    let r ← bitmapSize C T st code delayed_code
    let st ← T.define_bitmap r.2 r.1
    return { st with bitmaps := { st.bitmaps with pending_definitions := 0 } }

/-- The delayed replication descriptor, `wreport/bulletin/interpreter.cc` lines
41-55: the descriptor (0 if the count is given) and the descriptors left. -/
def delayedCode (cur : Varcode) (rest : List Varcode) : Varcode × List Varcode :=
  if WR_VAR_Y cur ≠ 0 then (0, rest)
  else match rest with
  | [] => (WR_VAR 0 31 12, [])
  | next :: rest' =>
    if WR_VAR_F next = 0 ∧ WR_VAR_X next = 31 then (next, rest')
    else (WR_VAR 0 31 12, rest)

/-- Choice between bitmap and replication, `wreport/bulletin/interpreter.cc` lines
57-60. -/
def bitmapOrRepeat (C : Ctx) (T : Target σ) (exec : List Varcode → Interp σ → Res (Interp σ))
    (st : Interp σ) (cur delayed_code : Varcode) (ops : List Varcode) : Res (Interp σ) :=
  if st.bitmaps.pending_definitions ≠ 0 then r_bitmap C T st cur delayed_code ops
  else r_replication C T (exec ops) st cur delayed_code

/-- The replication case of `run`, `wreport/bulletin/interpreter.cc` lines 39-62. -/
def replication (C : Ctx) (T : Target σ) (exec : List Varcode → Interp σ → Res (Interp σ))
    (st : Interp σ) (cur : Varcode) (rest : List Varcode) : Res (List Varcode × Interp σ) := do
  let d := delayedCode cur rest
  let p ← popN d.2 (WR_VAR_X cur)
  let st ← bitmapOrRepeat C T exec st cur d.1 p.1
  return (p.2, st)

/-- One turn of the loop of `run`, `wreport/bulletin/interpreter.cc` lines 35-76:
descriptors left and new state. `exec` runs replicated descriptors, `expand` runs
the descriptors of a sequence. -/
def step (C : Ctx) (T : Target σ) (expand exec : List Varcode → Interp σ → Res (Interp σ))
    (st : Interp σ) (cur : Varcode) (rest : List Varcode) : Res (List Varcode × Interp σ) :=
  match WR_VAR_F cur with
  | 0 => do
    let st ← b_variable C T st cur
    return (rest, st)
  | 1 => replication C T exec st cur rest
  | 2 => c_modifier C T st cur rest
  | 3 => do
    let ops ← C.dtable.query cur
    let st ← expand ops st
    return (rest, st)
  | _ => .err .consistency

/-- The loop of `run`; `n` bounds the number of descriptors (it is their number in
`run`, and each turn uses up at least one, so it is never what stops the loop). -/
def loop (C : Ctx) (T : Target σ) (expand : List Varcode → Interp σ → Res (Interp σ)) :
    (n : Nat) → List Varcode → Interp σ → Res (Interp σ)
  | _, [], st => .ok st
  | 0, _ :: _, _ => .ub
  | n + 1, cur :: rest, st => do
    let r ← step C T expand (loop C T expand n) st cur rest
    loop C T expand n r.1 r.2

/-- `Interpreter::run`, `wreport/bulletin/interpreter.cc` lines 30-78. `depth` is
how many nested sequence expansions the stack of the process has room for: nothing
in the code limits them, and a table can define a sequence in terms of itself; more
than that overflows the stack. -/
def run (C : Ctx) (T : Target σ) : (depth : Nat) → List Varcode → Interp σ → Res (Interp σ)
  | 0, ops, st => loop C T (fun _ _ => .ub) ops.length ops st
  | depth + 1, ops, st => loop C T (run C T depth) ops.length ops st

end Interp

end Wreport
