import Verif.Model.Interp
import Verif.Spec.Assoc
import Verif.Spec.Bitmap
import Verif.Spec.Field

/-!
# What a data section holds

The fields of a subset, written down without any bit buffer: each element
descriptor stands for the next variable of the subset, whose value becomes a
field.
-/

namespace Wreport.Spec

/-- Sign and magnitude of a reference value in `bits` bits. -/
def signMagnitude (bits : Nat) (ref : Int) : Nat :=
  if ref < 0 then 2 ^ (bits - 1) + ref.natAbs else ref.natAbs

/-- The field of a value. -/
def fieldOf (v : VarCore) : List Bool :=
  match v.view with
  | none => missingField v.info.bit_len
  | some (.num k) => bits v.info.bit_len (k - v.info.bit_ref).toNat
  | some (.text t) => textField v.info.bit_len t
  | some (.bits w) => binField v.info.bit_len w

instance (n i j : Nat) : Decidable (DeclaredBit n i j) := by unfold DeclaredBit; infer_instance

/-- Bits of a byte string, by byte and position. -/
def bitAt (w : List Byte) (i j : Nat) : Bool := (w.getD i 0).toNat.testBit j

/-- A missing value can be told from all others: numbers of 1 to 31 bits other than
replication factors, and texts and binary values of 1 to 4 bytes. -/
def missingFits (info : Varinfo) : Bool :=
  match info.type with
  | .integer | .decimal => decide (0 < info.bit_len ∧ info.bit_len ≤ 31 ∧ info.code < 65536 ∧
      ¬ info.code ∈ [WR_VAR 0 31 0, WR_VAR 0 31 1, WR_VAR 0 31 2, WR_VAR 0 31 11, WR_VAR 0 31 12])
  | .string | .binary => decide (0 < info.bit_len ∧ info.bit_len ≤ 32 ∧ info.bit_len % 8 = 0)

/-- A number is in the range of its descriptor and its field is at most 31 bits,
large enough, and not all ones. -/
def numFits (info : Varinfo) (k : Int) : Bool :=
  decide (0 < info.bit_len ∧ info.bit_len ≤ 31 ∧ info.imin ≤ k ∧ k ≤ info.imax ∧
    0 ≤ k - info.bit_ref ∧ k - info.bit_ref < 2 ^ info.bit_len - 1)

/-- A replication factor of all ones is a value as any other. -/
def factorFits (info : Varinfo) (k : Int) : Bool :=
  decide (0 < info.bit_len ∧ info.bit_len ≤ 31 ∧ info.imin ≤ k ∧ k ≤ info.imax ∧
    k - info.bit_ref = 2 ^ info.bit_len - 1 ∧ info.code ∈ factorCodes)

/-- A text fits its field, does not end with a blank unless it is one character, and
does not fill the field with 0xff bytes only. -/
def textFits (info : Varinfo) (t : List Byte) : Bool :=
  decide (t.length ≤ info.bit_len / 8) &&
    (match t.getLast? with
      | none => false
      | some b => decide (t.length = 1) || !isSpace b && b != 0) &&
    (t.any (· != 0xff) || decide (t.length < info.bit_len / 8))

/-- A binary value has only declared bits, and not all of them are ones. -/
def bitsFits (info : Varinfo) (w : List Byte) : Bool :=
  (List.range w.length).all (fun i => (List.range 8).all fun j =>
    !bitAt w i j || decide (DeclaredBit info.bit_len i j)) &&
  (List.range w.length).any (fun i => (List.range 8).any fun j =>
    !bitAt w i j && decide (DeclaredBit info.bit_len i j))

/-- The value of a variable has a field of its own. -/
def fits (v : VarCore) : Bool :=
  match v.view with
  | none => missingFits v.info
  | some (.num k) => numFits v.info k || factorFits v.info k
  | some (.text t) => textFits v.info t
  | some (.bits w) => bitsFits v.info w

/-- The variables of a subset are as the library makes them. -/
def Sound (E : Env) (S : List Var) : Prop := ∀ v ∈ S, v.toVarCore.WF ∧ v.info.Made E

/-- The attributes of the variables of a subset are as the library makes them. -/
def SoundAttrs (E : Env) (S : List Var) : Prop :=
  ∀ v ∈ S, v.WF ∧ ∀ a ∈ v.attrs, a.info.Made E

/-- The attribute with a code, if it has a value. -/
def attrOf (v : Var) (code : Varcode) : Option VarCore :=
  v.attrs.find? fun a => decide (a.code = code ∧ a.view ≠ none)

/-- Descriptor and value of the attribute with a code, if it has a value. -/
def attrShown (v : Var) (code : Varcode) : Option (Varinfo × Option Value) :=
  (attrOf v code).map fun a => (a.info, a.view)

/-- A variable that shows the same as another, and whose attributes show the same;
attributes without a value do not count. -/
def Faithful (x v : Var) : Prop :=
  x.WF ∧ x.info = v.info ∧ x.toVarCore.view = v.toVarCore.view ∧
    ∀ code, attrShown x code = attrShown v code

/-- Character data descriptors kept so far are the ones that would be made now. -/
def CharData (E : Env) (c : TableCaches) : Prop :=
  ∀ code info, c.chardata_table.lookup code = some info →
    Varinfo.set_string E code (WR_VAR_Y code) = .ok info

/-- Variables that show the same as others, with no attributes. -/
def Copies (out : List Var) (vars : List Var) : Prop :=
  out.map (fun v => (v.info, v.toVarCore.view)) = vars.map (fun v => (v.info, v.toVarCore.view)) ∧
    ∀ v ∈ out, v.WF ∧ v.attrs = []

/-- A walk through a subset: the variables passed, the fields written, the attributes
written so far (position of the variable and code), and the descriptors of the bitmaps
met so far. -/
structure Walk where
  subset : List Var
  pos : Nat
  bits : List Bool
  carried : List (Nat × Varcode)
  seen : List (List Byte × Varinfo)

namespace Walk

/-- A walk at the start of a subset. -/
def start (subset : List Var) (seen : List (List Byte × Varinfo)) : Walk := ⟨subset, 0, [], [], seen⟩

/-- The next variable of the subset. -/
def next (st : Interp Walk) : Option Var := st.tgt.subset[st.tgt.pos]?

/-- The walk after taking a variable whose field is `f`. -/
def took (st : Interp Walk) (f : List Bool) : Interp Walk :=
  { st with tgt := { st.tgt with
      pos := st.tgt.pos + 1
      bits := st.tgt.bits ++ f } }

/-- An element descriptor: the next variable has that descriptor and its value
fits. -/
def element (st : Interp Walk) (info : Varinfo) : Res (Interp Walk) :=
  match next st with
  | none => .err .consistency
  | some v =>
    if v.info = info ∧ fits v.toVarCore = true then .ok (took st (fieldOf v.toVarCore))
    else .err .consistency

/-- A replication factor: the next variable tells how many times. -/
def factor (st : Interp Walk) (info : Varinfo) : Res (Nat × Interp Walk) :=
  match next st with
  | none => .err .consistency
  | some v => match v.toVarCore.view with
    | some (.num k) => do
      let st' ← element st info
      return (toU32 k, st')
    | _ => .err .consistency

/-- Characters written in place: the next variable is a text of exactly that many
characters. -/
def characters (E : Env) (st : Interp Walk) (code : Varcode) : Res (Interp Walk) :=
  match next st with
  | none => .err .consistency
  | some v => match v.toVarCore.view with
    | some (.text t) =>
      if Varinfo.set_string E code (WR_VAR_Y code) = .ok v.info ∧ t.length = WR_VAR_Y code then
        .ok (took st (bytesBits t))
      else .err .consistency
    | _ => .err .consistency

/-- The reference value to use for a code: that of the first variable with that
code, or that of the table. -/
def reference (C : Ctx) (subset : List Var) (code : Varcode) : Res Int :=
  match subset.find? (fun v => v.info.code == code) with
  | some v => .ok v.info.bit_ref
  | none => do
    let info ← C.btable.query code
    return info.bit_ref

/-- A change of reference value: written in sign and magnitude. -/
def override (C : Ctx) (st : Interp Walk) (code : Varcode) : Res (Interp Walk) := do
  let ref ← reference C st.tgt.subset code
  if ref ≠ 0 ∧ 1 ≤ st.c03_refval_override_bits ∧ st.c03_refval_override_bits ≤ 32 ∧
      ref.natAbs < 2 ^ (st.c03_refval_override_bits - 1) then
    .ok { st with
      c03_refval_overrides := (code, toU32 ref) :: st.c03_refval_overrides
      tgt := { st.tgt with
        bits := st.tgt.bits ++ Spec.bits st.c03_refval_override_bits
          (signMagnitude st.c03_refval_override_bits ref) } }
  else .err .consistency

/-- The meaning of the associated fields that follow: 63 if missing. -/
def significance (st : Interp Walk) (info : Varinfo) : Res (Nat × Interp Walk) :=
  match next st with
  | none => .err .consistency
  | some v => match v.toVarCore.view with
    | none => do
      let st' ← element st info
      return (63, st')
    | some (.num k) => do
      let st' ← element st info
      return (toU32 k, st')
    | _ => .err .consistency

/-- The value of an associated field of `n` bits: a number other than all ones, in the
range of its descriptor. Significance 21 has no other value than 0. -/
def assocFits (n significance : Nat) (info : Varinfo) (k : Int) : Bool :=
  decide (0 ≤ k ∧ k < 2 ^ n - 1 ∧ info.imin ≤ k ∧ k ≤ info.imax ∧ (significance = 21 → k = 0))

/-- The associated field of a variable, `n` bits wide, and the attribute it carries.
Without such an attribute, all bits are one. -/
def assocField (C : Ctx) (n significance : Nat) (v : Var) : Res (List Bool × Option Varcode) :=
  match qualityCode significance with
  | none =>
    if 0 < n ∧ n ≤ 31 ∧ 1 ≤ significance ∧ significance ≤ 63 then .ok (missingField n, none)
    else .err .consistency
  | some q => do
    let info ← C.btable.query q
    match attrShown v q with
    | none =>
      if 0 < n ∧ n ≤ 31 ∧ info.code = q ∧ significance ≠ 21 then .ok (missingField n, some q)
      else .err .consistency
    | some (i, some (.num k)) =>
      if 0 < n ∧ n ≤ 31 ∧ info.code = q ∧ i = info ∧ assocFits n significance info k = true then
        .ok (Spec.bits n k.toNat, some q)
      else .err .consistency
    | _ => .err .consistency

/-- An element with an associated field before it. -/
def withField (C : Ctx) (st : Interp Walk) (info : Varinfo) : Res (Interp Walk) :=
  match next st with
  | none => .err .consistency
  | some v =>
    if v.info = info ∧ fits v.toVarCore = true then do
      let f ← assocField C st.associated_field.bit_count st.associated_field.significance v
      .ok { st with tgt := { st.tgt with
        pos := st.tgt.pos + 1
        bits := st.tgt.bits ++ (f.1 ++ fieldOf v.toVarCore)
        carried := st.tgt.carried ++ (f.2.map fun q => (st.tgt.pos, q)).toList } }
    else .err .consistency

/-- The descriptor of a bitmap is that of its operator; one with the same marks was
not met under another operator. -/
def bitmapKnown (C : Ctx) (seen : List (List Byte × Varinfo)) (code : Varcode) (t : List Byte)
    (info : Varinfo) : Bool :=
  match seen.lookup t with
  | some i => decide (i = info ∧ i.code = code)
  | none => decide (Varinfo.set_string C.E code t.length = .ok info)

/-- A bitmap: the next variable has a mark for each element, `+` for those present.
They become the ones in use. -/
def bitmap (C : Ctx) (st : Interp Walk) (size : Nat) : Res (Interp Walk) :=
  match next st with
  | none => .err .consistency
  | some v => match v.toVarCore.view with
    | some (.text t) =>
      let codes := (st.tgt.subset.take (st.tgt.pos + 1)).map (·.code)
      if WR_VAR_F v.code = 2 ∧ v.info.len = size ∧ t.length = size ∧ 1 ≤ size ∧
          t.all (fun c => c = 43 || c = 45) = true ∧
          size ≤ (elementsBefore codes (st.tgt.pos + 1)).length ∧
          bitmapKnown C st.tgt.seen st.bitmaps.pending_definitions t v.info = true then
        .ok { took st (t.map fun c => decide (c ≠ 43)) with
          bitmaps := { st.bitmaps with
            current := some ⟨(selected codes (st.tgt.pos + 1) t).reverse, 0⟩ }
          tgt := { (took st (t.map fun c => decide (c ≠ 43))).tgt with
            seen := if (st.tgt.seen.lookup t).isSome then st.tgt.seen
              else (t, v.info) :: st.tgt.seen } }
      else .err .consistency
    | _ => .err .consistency

/-- A descriptor as the tables make it. -/
def asMade (E : Env) (info : Varinfo) : Bool :=
  decide (info.compute_range E = .ok info ∧ inInt info.bit_ref = true ∧
    (info.type = .integer → info.scale = 0) ∧
    (info.type = .binary → info.len = (info.bit_len + 7) / 8))

/-- The number of marks of the bitmap that comes next; it is not kept as a variable. -/
def bitmapFactor (C : Ctx) (st : Interp Walk) (info : Varinfo) : Res (Nat × Interp Walk) :=
  match next st with
  | none => .err .consistency
  | some v =>
    if (info.type = .integer ∨ info.type = .decimal) ∧ asMade C.E info = true ∧
        (numFits info v.info.len || factorFits info v.info.len) = true ∧ v.info.len < 2 ^ 31 then
      .ok (v.info.len, { st with tgt := { st.tgt with
        bits := st.tgt.bits ++ Spec.bits info.bit_len (v.info.len - info.bit_ref).toNat } })
    else .err .consistency

/-- The field of an attribute of a variable already passed. -/
def quality (st : Interp Walk) (info : Varinfo) (pos : Nat) : Res (Interp Walk) :=
  match st.tgt.subset[pos]? with
  | none => .err .consistency
  | some v =>
    if pos < st.tgt.pos then
      match attrOf v info.code with
      | none =>
        if missingFits info = true then
          .ok { st with tgt := { st.tgt with
            bits := st.tgt.bits ++ missingField info.bit_len
            carried := st.tgt.carried ++ [(pos, info.code)] } }
        else .err .consistency
      | some a =>
        if a.info = info ∧ fits a = true then
          .ok { st with tgt := { st.tgt with
            bits := st.tgt.bits ++ fieldOf a
            carried := st.tgt.carried ++ [(pos, info.code)] } }
        else .err .consistency
    else .err .consistency

/-- A substituted value is an attribute with the descriptor of the variable. -/
def substituted (st : Interp Walk) (pos : Nat) : Res (Interp Walk) :=
  match st.tgt.subset[pos]? with
  | none => .err .consistency
  | some v => quality st v.info pos

/-- What each kind of descriptor stands for. -/
def target (C : Ctx) : Target Walk where
  define_bitmap := bitmap C
  define_variable := element
  define_variable_with_associated_field := withField C
  define_delayed_replication_factor := factor
  define_bitmap_delayed_replication_factor := bitmapFactor C
  define_associated_field_significance := significance
  define_substituted_value := substituted
  define_attribute := quality
  define_raw_character_data := characters C.E
  define_c03_refval_override := override C

/-- All attributes that have a value were written. -/
def allCarried (w : Walk) : Bool :=
  (List.range w.subset.length).all fun p =>
    ((w.subset[p]?).map (·.attrs)).getD [] |>.all fun a =>
      a.view.isNone || decide ((p, a.code) ∈ w.carried)

end Walk

/-- The subset matches the descriptors to its end with all its attributes, and its
fields are `bits`. The maps of unknown descriptors and bitmaps go from `caches` to
`caches'`. -/
def Matches (C : Ctx) (depth : Nat) (datadesc : List Varcode) (subset : List Var)
    (caches : TableCaches) (bits : List Bool) (caches' : TableCaches) : Prop :=
  ∃ st, Interp.run C (Walk.target C) depth datadesc
      (.new caches (Walk.start subset caches.bitmap_table)) = .ok st ∧
    st.tgt.pos = subset.length ∧ st.tgt.bits = bits ∧ st.tgt.allCarried = true ∧
    { st.caches with bitmap_table := st.tgt.seen } = caches'

/-- The same for many subsets, one after the other. -/
inductive MatchesAll (C : Ctx) (depth : Nat) (datadesc : List Varcode) :
    List (List Var) → TableCaches → List Bool → Prop
  | nil (caches : TableCaches) : MatchesAll C depth datadesc [] caches []
  | cons (s : List Var) (rest : List (List Var)) (caches caches' : TableCaches)
      (b b' : List Bool) : Matches C depth datadesc s caches b caches' →
      MatchesAll C depth datadesc rest caches' b' →
      MatchesAll C depth datadesc (s :: rest) caches (b ++ b')

end Wreport.Spec
