import Verif.Model.Varinfo

/-!
# Variables

Modelled code: `wreport/var.cc` lines 16-952, `wreport/var.h` lines 25-290.
Not modelled: `format`, the `print` family, Lua bindings, logging.

Memory: a heap buffer is the list of its bytes, `none` standing for a byte that
was never written. Reading such a byte as a value, reading or writing outside a
buffer, and using an integer as a pointer are undefined behaviour.
-/

namespace Wreport

/-- Contents of readable memory from some address on. -/
abbrev Mem := List (Option Byte)

/-- Reading a NUL-terminated string (`strlen`, `strcmp`, `std::string(const
char*)` and hand-written loops). -/
def cstr : Mem → Res (List Byte)
  | [] => .ub
  | none :: _ => .ub
  | some b :: m => if b = 0 then .ok [] else do
    let s ← cstr m
    return b :: s

/-- Bytes written by `strncpy(dst, src, n)`: the string cut to `n` bytes, padded
with NULs to `n`. -/
def strncpy : Mem → Nat → Res (List Byte)
  | _, 0 => .ok []
  | [], _ + 1 => .ub
  | none :: _, _ + 1 => .ub
  | some b :: m, n + 1 => if b = 0 then .ok (List.replicate (n + 1) 0) else do
    let s ← strncpy m n
    return b :: s

/-- Writing `w` at the beginning of the buffer `dst`. -/
def memWrite (dst w : Mem) : Res Mem :=
  if w.length ≤ dst.length then .ok (w ++ dst.drop w.length) else .ub

/-- The `n` bytes `memcpy` reads from `src`. Copying bytes never written is
allowed. -/
def memRead (src : Mem) (n : Nat) : Res Mem :=
  if n ≤ src.length then .ok (src.take n) else .ub

/-- Bytes as memory. -/
def toMem (s : List Byte) : Mem := s.map some

/-- Memory behind `std::string::c_str()`. -/
def c_str (s : List Byte) : Mem := toMem (s ++ [0])

/-- The union `Var::m_value`, `wreport/var.h` lines 43-46: an integer, or a
pointer to a heap buffer. `word 0` is also the null pointer (the whole union is
taken to be zeroed by `m_value{}`); any other integer is not a valid pointer. Storing the
integer 0 over a pointer gives `word 0` too, although where pointers are wider than
`int32_t` the rest of the pointer would stay. -/
inductive Cell where
  | word (i : Int)
  | mem (m : Mem)
deriving DecidableEq

/-- A variable without its attribute chain, `wreport/var.h` lines 25-46. -/
structure VarCore where
  info : Varinfo
  isset : Bool
  cell : Cell
deriving DecidableEq

/-- `Var`, `wreport/var.h` lines 25-49. The chain of `m_attrs` pointers is the
list `attrs`: its head is `*m_attrs`, whose own chain is the tail. -/
structure Var extends VarCore where
  attrs : List VarCore
deriving DecidableEq

/-- `options::DomainErrorHook`, `wreport/options.h` lines 55-60. -/
structure Hook where
  int : Var → Int → Var × Res Unit
  double : Var → Dbl → Var × Res Unit

/-- The options of `wreport/options.h` lines 30-68. -/
structure Opts where
  silent : Bool
  clamp : Bool
  hook : Option Hook

/-- Default options, `wreport/options.cc` lines 6-13. -/
def Opts.default : Opts := { silent := false, clamp := false, hook := none }

namespace VarCore

/-- `Var::code`, `wreport/var.h` line 138. -/
def code (v : VarCore) : Varcode := v.info.code

/-- Memory at `m_value.c`. -/
def ptr (v : VarCore) : Res Mem :=
  match v.cell with
  | .mem m => .ok m
  | .word _ => .ub

/-- `Var::allocate`, `wreport/var.cc` lines 200-204: the buffer at `m_value.c`
afterwards. -/
def allocate (v : VarCore) : Res Mem :=
  match v.cell with
  | .mem m => .ok m
  | .word i => if i = 0 then .ok (List.replicate (v.info.len + 1) none) else .ub

/-- `Var::value_equals`, `wreport/var.cc` lines 250-267. -/
def value_equals (a b : VarCore) : Res Bool :=
  if !a.isset && !b.isset then .ok true
  else if !a.isset || !b.isset then .ok false
  else match a.info.type with
  | .binary => do
    let x ← a.ptr
    let y ← b.ptr
    let x ← memRead x a.info.len
    let y ← memRead y a.info.len
    if none ∈ x ∨ none ∈ y then .ub else .ok (x = y)
  | .string => do
    let x ← a.ptr
    let y ← b.ptr
    let x ← cstr x
    let y ← cstr y
    return x = y
  | .integer | .decimal =>
    match a.cell, b.cell with
    | .word i, .word j => .ok (i = j)
    | _, _ => .ub

end VarCore

/-! ## Decimal text -/

/-- `count_digits`, `wreport/var.cc` lines 20-46. -/
def count_digits (x : Nat) : Nat :=
  if x ≥ 10000 then
    if x ≥ 10000000 then
      if x ≥ 100000000 then
        if x ≥ 1000000000 then 10 else 9
      else 8
    else if x ≥ 100000 then
      if x ≥ 1000000 then 7 else 6
    else 5
  else if x ≥ 100 then
    if x ≥ 1000 then 4 else 3
  else if x ≥ 10 then 2 else 1

/-- The `k`-th digit pair of the table in `uint32_to_str`, `wreport/var.cc` lines
51-56. -/
def digitPair (k : Nat) : List Byte := [UInt8.ofNat (48 + k / 10), UInt8.ofNat (48 + k % 10)]

/-- The digits that `uint32_to_str` writes, `wreport/var.cc` lines 58-73, from
the end towards the beginning; `acc` holds those already written. -/
def u32Digits (value : Nat) (acc : List Byte) : List Byte :=
  if value ≥ 100 then u32Digits (value / 100) (digitPair (value % 100) ++ acc)
  else if value < 10 then UInt8.ofNat (48 + value) :: acc
  else digitPair value ++ acc
termination_by value

/-- `uint32_to_str`, `wreport/var.cc` lines 49-75: the text written into a buffer
of `value_digits` bytes. A wrong digit count would leave bytes unwritten or
write before the buffer. -/
def uint32_to_str (value value_digits : Nat) : Res (List Byte) :=
  let s := u32Digits value []
  if s.length = value_digits then .ok s else .ub

/-- Conversion of an `int` to `uint32_t`. -/
def toU32 (i : Int) : Nat := (i % 4294967296).toNat

/-- Conversion of a `uint32_t` to `int32_t`. -/
def ofU32 (n : Nat) : Int := wrapInt n

/-- `int32_to_stdstr`, `wreport/var.cc` lines 337-357. -/
def int32_to_stdstr (E : Env) (val : Int) : Res (List Byte) :=
  if val < 0 then do
    let neg ← E.sint (-val)
    let dec := toU32 neg
    let t ← uint32_to_str dec (count_digits dec)
    return 45 :: t
  else
    uint32_to_str (toU32 val) (count_digits (toU32 val))

/-- `int32_to_str` on the 20-byte buffer of `Var::enqc`, `wreport/var.cc` lines
316-335: text, NUL, and the rest of the buffer. The check at line 331 cannot
trigger with this buffer size. -/
def int32_to_str (E : Env) (val : Int) : Res Mem :=
  if val < 0 then do
    let neg ← E.sint (-val)
    let dec := toU32 neg
    let digits := count_digits dec
    if 18 < digits then .err .consistency else do
      let t ← uint32_to_str dec digits
      return toMem ((45 :: t) ++ [0]) ++ List.replicate (20 - (digits + 2)) none
  else do
    let dec := toU32 val
    let digits := count_digits dec
    if 19 < digits then .err .consistency else do
      let t ← uint32_to_str dec digits
      return toMem (t ++ [0]) ++ List.replicate (20 - (digits + 1)) none

/-- `str_to_unsigned`, `wreport/var.cc` lines 78-84, on the bytes before the
NUL. Unsigned arithmetic wraps; `char` is signed. -/
def str_to_unsigned (s : List Byte) : Nat :=
  s.foldl (fun val b => toU32 (val * 10 + charSub0 b)) 0

/-- `isnumber`, `wreport/var.cc` lines 86-93, on the bytes before the NUL. -/
def isnumber (s : List Byte) : Bool :=
  match s with
  | 45 :: t => t.all isDigit
  | _ => s.all isDigit

/-- The integer that `setc` and `sets` assign, `wreport/var.cc` lines 552-555 and
585-588. -/
def strToInt32 (s : List Byte) : Int :=
  match s with
  | 45 :: t => ofU32 (toU32 (-(str_to_unsigned t : Int)))
  | _ => ofU32 (str_to_unsigned s)

namespace VarCore

/-- `Var::enqi`, `wreport/var.cc` lines 275-293. -/
def enqi (v : VarCore) : Res Int :=
  if !v.isset then .err .notfound
  else match v.info.type with
  | .string | .binary => .err .type
  | .integer | .decimal =>
    match v.cell with
    | .word i => .ok i
    | .mem _ => .ub

/-- `Var::enqd`, `wreport/var.cc` lines 295-314. -/
def enqd (E : Env) (v : VarCore) : Res ℚ :=
  if !v.isset then .err .notfound
  else match v.info.type with
  | .string | .binary => .err .type
  | .integer =>
    match v.cell with
    | .word i => .ok i
    | .mem _ => .ub
  | .decimal =>
    match v.cell with
    | .word i => v.info.decode_decimal E i
    | .mem _ => .ub

/-- `Var::enqc`, `wreport/var.cc` lines 359-384: the memory behind the returned
pointer. -/
def enqc (E : Env) (v : VarCore) : Res Mem :=
  if !v.isset then .err .notfound
  else match v.info.type with
  | .string | .binary => v.ptr
  | .integer | .decimal =>
    match v.cell with
    | .word i => int32_to_str E i
    | .mem _ => .ub

/-- `Var::enqs`, `wreport/var.cc` lines 386-402. -/
def enqs (E : Env) (v : VarCore) : Res (List Byte) :=
  if !v.isset then .err .notfound
  else match v.info.type with
  | .string | .binary => do
    let m ← v.ptr
    cstr m
  | .integer | .decimal =>
    match v.cell with
    | .word i => int32_to_stdstr E i
    | .mem _ => .ub

end VarCore

namespace Var

/-- Constructor from a descriptor, `wreport/var.cc` lines 99-102. -/
def new (info : Varinfo) : Var := { info, isset := false, cell := .word 0, attrs := [] }

/-- `Var::unset`, `wreport/var.cc` lines 620-623. -/
def unset (v : Var) : Var := { v with isset := false }

/-- Storing a number, `wreport/var.cc` lines 428-429 and 475-476. -/
def putInt (v : Var) (i : Int) : Var := { v with isset := true, cell := .word i }

/-- Storing a buffer. -/
def putMem (v : Var) (m : Mem) : Var := { v with isset := true, cell := .mem m }

/-- A mutator that changes the variable only on normal return. -/
def ofRes (v : Var) (r : Res Var) : Var × Res Unit :=
  match r with
  | .ok v' => (v', .ok ())
  | .err e => (v, .err e)
  | .ub => (v, .ub)

/-- `Var::assign_i_checked`, `wreport/var.cc` lines 404-430. -/
def assign_i_checked (O : Opts) (v : Var) (val : Int) : Var × Res Unit :=
  if val < v.info.imin ∨ v.info.imax < val then
    if O.silent then (v.unset, .ok ())
    else if O.clamp then
      (v.putInt (if val < v.info.imin then v.info.imin else v.info.imax), .ok ())
    else match O.hook with
      | some h => h.int v val
      | none => (v.unset, .err .domain)
  else (v.putInt val, .ok ())

/-- Last step of `assign_d_checked`, `wreport/var.cc` lines 475-476. -/
def putDbl (E : Env) (v : Var) (val : Dbl) : Var × Res Unit :=
  v.ofRes (do
    let i ← v.info.encode_decimal E val
    return v.putInt i)

/-- `Var::assign_d_checked`, `wreport/var.cc` lines 432-477. -/
def assign_d_checked (E : Env) (O : Opts) (v : Var) (val : Dbl) : Var × Res Unit :=
  if val = .nan then
    if O.silent then (v.unset, .ok ())
    else match O.hook with
      | some h => h.double v val
      | none => (v.unset, .err .domain)
  else if val.lt v.info.dmin ∨ val.gt v.info.dmax then
    if O.silent then (v.unset, .ok ())
    else if O.clamp then
      v.putDbl E (.fin (if val.lt v.info.dmin then v.info.dmin else v.info.dmax))
    else match O.hook with
      | some h => h.double v val
      | none => (v.unset, .err .domain)
  else v.putDbl E val

/-- Clearing of the unused bits, `wreport/var.cc` lines 490-491. -/
def maskLast (info : Varinfo) (m : Mem) : Res Mem :=
  if info.bit_len % 8 = 0 then .ok m
  else if info.len = 0 then .ub
  else match m[info.len - 1]? with
    | some (some b) =>
      .ok (m.set (info.len - 1) (some (b &&& UInt8.ofNat (2 ^ (info.bit_len % 8) - 1))))
    | _ => .ub

/-- `Var::assign_b_checked`, `wreport/var.cc` lines 479-494. -/
def assign_b_checked (v : Var) (val : Mem) (size : Nat) : Var × Res Unit :=
  v.ofRes (do
    let m ← v.allocate
    if size < v.info.len then do
      let w ← memRead val size
      let m ← memWrite m (w ++ List.replicate (v.info.len - size) (some 0))
      return v.putMem m
    else do
      let w ← memRead val v.info.len
      let m ← memWrite m w
      let m ← maskLast v.info m
      return v.putMem m)

/-- `Var::assign_c_checked`, `wreport/var.cc` lines 496-508. -/
def assign_c_checked (v : Var) (val : Mem) (size : Nat) : Var × Res Unit :=
  v.ofRes (do
    let m ← v.allocate
    let w ← strncpy val (if size < v.info.len then size else v.info.len)
    let m ← memWrite m (toMem w ++ [some 0])
    return v.putMem m)

/-- `Var::seti`, `wreport/var.cc` lines 510-525. -/
def seti (O : Opts) (v : Var) (val : Int) : Var × Res Unit :=
  match v.info.type with
  | .string | .binary => (v, .err .type)
  | .integer | .decimal => v.assign_i_checked O val

/-- `Var::setd`, `wreport/var.cc` lines 527-540. -/
def setd (E : Env) (O : Opts) (v : Var) (val : Dbl) : Var × Res Unit :=
  match v.info.type with
  | .string | .binary => (v, .err .type)
  | .integer => v.assign_i_checked O (wrapInt (E.lround val))
  | .decimal => v.assign_d_checked E O val

/-- The numeric case of `setc` and `sets`, `wreport/var.cc` lines 550-555 and
583-588. -/
def setNumText (O : Opts) (v : Var) (s : List Byte) : Var × Res Unit :=
  if !isnumber s then (v.unset, .ok ()) else v.assign_i_checked O (strToInt32 s)

/-- `Var::setc`, `wreport/var.cc` lines 542-558. -/
def setc (O : Opts) (v : Var) (val : Mem) : Var × Res Unit :=
  match v.info.type with
  | .string => v.assign_c_checked val v.info.len
  | .binary => v.assign_b_checked val v.info.len
  | .integer | .decimal =>
    match cstr val with
    | .ok s => v.setNumText O s
    | .err e => (v, .err e)
    | .ub => (v, .ub)

/-- `Var::setc_truncate`, `wreport/var.cc` lines 560-573. -/
def setc_truncate (v : Var) (val : Mem) : Var × Res Unit :=
  match v.info.type with
  | .integer | .decimal => (v, .err .type)
  | .string =>
    match cstr val with
    | .ok s => v.assign_c_checked val s.length
    | .err e => (v, .err e)
    | .ub => (v, .ub)
  | .binary => v.assign_b_checked val v.info.len

/-- `Var::sets`, `wreport/var.cc` lines 575-591. The numeric case looks at the
bytes before the first NUL. -/
def sets (O : Opts) (v : Var) (val : List Byte) : Var × Res Unit :=
  match v.info.type with
  | .string => v.assign_c_checked (c_str val) val.length
  | .binary => v.assign_b_checked (c_str val) val.length
  | .integer | .decimal => v.setNumText O (val.takeWhile (· ≠ 0))

/-- `Var::setf`, `wreport/var.cc` lines 593-618; `none` is a null pointer. -/
def setf (E : Env) (O : Opts) (v : Var) (val : Option (List Byte)) : Var × Res Unit :=
  match val with
  | none => (v.unset, .ok ())
  | some [] => (v.unset, .ok ())
  | some s =>
    match v.info.type with
    | .string => v.assign_c_checked (c_str s) v.info.len
    | .binary => (v, .err .unimplemented)
    | .integer | .decimal => v.setd E O (E.strtod s)

/-- `Var::setval`, `wreport/var.cc` lines 691-708. -/
def setval (E : Env) (O : Opts) (v : Var) (src : VarCore) : Var × Res Unit :=
  if !src.isset then (v.unset, .ok ())
  else match v.info.type with
  | .string =>
    match src.enqc E with
    | .ok m => v.assign_c_checked m v.info.len
    | .err e => (v, .err e)
    | .ub => (v, .ub)
  | .binary =>
    match src.enqc E with
    | .ok m => v.assign_b_checked m v.info.len
    | .err e => (v, .err e)
    | .ub => (v, .ub)
  | .integer | .decimal =>
    match (do let d ← src.enqd E; E.conv src.info.unit v.info.unit (.fin d)) with
    | .ok d => v.setd E O d
    | .err e => (v, .err e)
    | .ub => (v, .ub)

/-! ## Copies -/

/-- `Var::copy_value`, `wreport/var.cc` lines 206-226. -/
def copy_value (v : Var) (src : VarCore) : Res Var :=
  if !src.isset then .ok { v with isset := false }
  else match v.info.type with
  | .binary => do
    let m ← v.allocate
    let p ← src.ptr
    let w ← memRead p v.info.len
    let m ← memWrite m w
    return v.putMem m
  | .string => do
    let m ← v.allocate
    let p ← src.ptr
    let w ← memRead p (v.info.len + 1)
    let m ← memWrite m w
    return v.putMem m
  | .integer | .decimal =>
    match src.cell with
    | .word i => .ok (v.putInt i)
    | .mem _ => .ub

/-- Copy construction of a chain of attributes: each step copies a value into a
fresh variable, `wreport/var.cc` lines 128-133 and 710-715. -/
def copyAttrs : List VarCore → Res (List VarCore)
  | [] => .ok []
  | a :: l => do
    let c ← (Var.new a.info).copy_value a
    let l ← copyAttrs l
    return c.toVarCore :: l

/-- `Var::setattrs`, `wreport/var.cc` lines 710-715. -/
def setattrs (v : Var) (src : Var) : Res Var := do
  let l ← copyAttrs src.attrs
  return { v with attrs := l }

/-- Copy constructor, `wreport/var.cc` lines 128-133. -/
def copy (src : Var) : Res Var := do
  let v ← (Var.new src.info).copy_value src.toVarCore
  v.setattrs src

/-- Constructor with another variable's value, `wreport/var.cc` lines 142-147. -/
def newFrom (E : Env) (O : Opts) (info : Varinfo) (src : Var) : Res Var := do
  let r := (Var.new info).setval E O src.toVarCore
  let _ ← r.2
  r.1.setattrs src

/-- `Var::operator=(const Var&)`, `wreport/var.cc` lines 149-162, for distinct
objects. -/
def assign (v src : Var) : Res Var := do
  let v := { v with info := src.info }
  let v ← v.copy_value src.toVarCore
  v.setattrs src

/-- `Var::move_value`, `wreport/var.cc` lines 228-248: new target and source.
Values are moved whole, so a word moved as a pointer stays a word. -/
def move_value (v src : Var) : Var × Var :=
  if !src.isset then ({ v with isset := false }, src)
  else match v.info.type with
  | .binary | .string =>
    ({ v with isset := true, cell := src.cell }, { src with isset := false, cell := .word 0 })
  | .integer | .decimal =>
    ({ v with isset := true, cell := src.cell }, { src with isset := false })

/-- Move constructor, `wreport/var.cc` lines 135-140. -/
def move (src : Var) : Var × Var :=
  let r := (Var.new src.info).move_value src
  ({ r.1 with attrs := src.attrs }, { r.2 with attrs := [] })

/-- `Var::operator=(Var&&)`, `wreport/var.cc` lines 164-172, for distinct
objects. -/
def moveAssign (v src : Var) : Var × Var :=
  let r := v.move_value src
  ({ r.1 with attrs := src.attrs }, { r.2 with attrs := [] })

/-! ## Attributes -/

/-- `Var::enqa`, `wreport/var.cc` lines 625-631, on the chain. -/
def enqaList (code : Varcode) : List VarCore → Option VarCore
  | [] => none
  | a :: l => if a.code ≤ code then if a.code = code then some a else enqaList code l else none

/-- `Var::enqa`. -/
def enqa (v : Var) (code : Varcode) : Option VarCore := enqaList code v.attrs

/-- `Var::seta(unique_ptr<Var>&&)`, `wreport/var.cc` lines 643-666, on the chain;
the attribute has lost its own attributes. -/
def setaList (attr : VarCore) : List VarCore → List VarCore
  | [] => [attr]
  | a :: l =>
    if attr.code < a.code then attr :: a :: l
    else if a.code = attr.code then attr :: l
    else a :: setaList attr l

/-- `Var::seta(unique_ptr<Var>&&)`. -/
def setaMove (v attr : Var) : Var := { v with attrs := setaList attr.toVarCore v.attrs }

/-- `Var::seta(const Var&)` and `Var::seta(Var&&)`, `wreport/var.cc` lines
633-641: both copy. -/
def seta (v attr : Var) : Res Var := do
  let a ← attr.copy
  return v.setaMove a

/-- `Var::unseta`, `wreport/var.cc` lines 668-684, on the chain. -/
def unsetaList (code : Varcode) : List VarCore → List VarCore
  | [] => []
  | a :: l =>
    if code < a.code then a :: l
    else if a.code = code then l
    else a :: unsetaList code l

/-- `Var::unseta`. -/
def unseta (v : Var) (code : Varcode) : Var := { v with attrs := unsetaList code v.attrs }

/-- `Var::clear_attrs`, `wreport/var.cc` lines 269-273. -/
def clear_attrs (v : Var) : Var := { v with attrs := [] }

/-! ## Comparison -/

/-- `operator==` on a variable and the chain behind it, `wreport/var.cc` lines
189-198. -/
def eqChain (a : VarCore) (l : List VarCore) (b : VarCore) (m : List VarCore) : Res Bool :=
    if a.code ≠ b.code then .ok false
    else do
      let ve ← a.value_equals b
      if !ve then .ok false
      else match l, m with
      | [], [] => .ok true
      | a' :: l', b' :: m' => eqChain a' l' b' m'
      | _, _ => .ok false

/-- `Var::operator==`. -/
def eq (a b : Var) : Res Bool := eqChain a.toVarCore a.attrs b.toVarCore b.attrs

/-- The part of `Var::diff` before attributes, `wreport/var.cc` lines 819-891:
`some n` when the function returns there. -/
def diffValue (a b : VarCore) : Res (Option Nat) :=
  if a.code ≠ b.code then .ok (some 1)
  else if !a.isset && !b.isset then .ok (some 0)
  else if !a.isset || !b.isset then .ok (some 1)
  else if a.info.type ≠ b.info.type then .ok (some 1)
  else if a.info.type = .binary ∧ a.info.bit_len ≠ b.info.bit_len then .ok (some 1)
  else do
    let e ← a.value_equals b
    return if e then none else some 1

mutual
/-- `Var::diff`, `wreport/var.cc` lines 816-952, on a variable and the chain
behind it. The comparisons of set values at lines 846-891 read memory as
`value_equals` does. -/
def diffChain : (a : VarCore) → (l : List VarCore) → (b : VarCore) → (m : List VarCore) → Res Nat
  | a, l, b, m => do
    match ← diffValue a b with
    | some n => .ok n
    | none =>
      if l.isEmpty ≠ m.isEmpty then .ok 1
      else if l.length ≠ m.length then .ok ((l.length : Int) - m.length).natAbs
      else diffAttrs l m
termination_by _ l => 2 * l.length + 1

/-- The loop over attributes of `Var::diff`, `wreport/var.cc` lines 923-948. -/
def diffAttrs : (l m : List VarCore) → Res Nat
  | a :: l, b :: m => do
    let extracode := if a.code < b.code then a.code else if b.code < a.code then b.code else 0
    if extracode ≠ 0 then .ok 1
    else do
      let d ← diffChain a l b m
      if d ≠ 0 then .ok d else diffAttrs l m
  | _, _ => .ok 0
termination_by l => 2 * l.length
end

/-- `Var::diff`. -/
def diff (a b : Var) : Res Nat := diffChain a.toVarCore a.attrs b.toVarCore b.attrs

end Var

end Wreport
