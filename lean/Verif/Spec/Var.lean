import Verif.Model.Var

/-!
# What users see of a variable, and decimal text
-/

namespace Wreport.Spec

/-- The value of a set variable. -/
inductive Value where
  | num (i : Int)
  | text (s : List Byte)
  | bits (b : List Byte)
deriving DecidableEq

/-- A byte that is not the string terminator. -/
def NulFree (s : List Byte) : Prop := ∀ b ∈ s, b ≠ 0

/-- The number written by a text made of decimal digits. -/
def digitsValue (s : List Byte) : Nat := s.foldl (fun v b => v * 10 + (b.toNat - 48)) 0

/-- `s` is the usual way of writing `n` in decimal: digits only, at least one, no
leading zero unless it is the only digit. -/
def IsDecimalNat (s : List Byte) (n : Nat) : Prop :=
  s ≠ [] ∧ (∀ b ∈ s, 48 ≤ b.toNat ∧ b.toNat ≤ 57) ∧ digitsValue s = n ∧
    (s.head? = some 48 → s.length = 1)

/-- `s` is the usual way of writing `i` in decimal. -/
def IsDecimalInt (s : List Byte) (i : Int) : Prop :=
  if i < 0 then ∃ t, s = 45 :: t ∧ IsDecimalNat t i.natAbs else IsDecimalNat s i.natAbs

end Wreport.Spec

namespace Wreport

open Spec

/-- The value a variable shows: its stored number, its text up to the NUL, or its
bytes. `none` when unset (or not readable). -/
def VarCore.view (v : VarCore) : Option Value :=
  if !v.isset then none
  else match v.info.type, v.cell with
  | .integer, .word i | .decimal, .word i => some (.num i)
  | .string, .mem m => match cstr m with
    | .ok s => some (.text s)
    | _ => none
  | .binary, .mem m => some (.bits ((m.take v.info.len).map (·.getD 0)))
  | _, _ => none

/-- What the public operations keep true of a variable: numeric variables hold a
32-bit integer, string and binary variables own a buffer of the declared size
(or none yet), which is readable when the variable is set. -/
def VarCore.WF (v : VarCore) : Prop :=
  match v.info.type with
  | .integer | .decimal => ∃ i, v.cell = .word i ∧ inInt i = true
  | .string => (v.isset = false ∧ v.cell = .word 0) ∨
      ∃ m, v.cell = .mem m ∧ m.length = v.info.len + 1 ∧ (v.isset = true → ∃ s, cstr m = .ok s)
  | .binary => (v.isset = false ∧ v.cell = .word 0) ∨
      ∃ m, v.cell = .mem m ∧ m.length = v.info.len + 1 ∧
        (v.isset = true → none ∉ m.take v.info.len)

/-- A variable and all its attributes are well formed, and attributes are in
increasing code order. -/
structure Var.WF (v : Var) : Prop where
  core : v.toVarCore.WF
  attrs : ∀ a ∈ v.attrs, a.WF
  sorted : v.attrs.Pairwise (fun a b => a.code < b.code)

/-- What users see of a whole variable: code, value, and the code and value of
each attribute. -/
def Var.view (v : Var) : (Nat × Option Value) × List (Nat × Option Value) :=
  ((v.code, v.toVarCore.view), v.attrs.map fun a => (a.code, a.view))

/-- A descriptor as the library makes them: every constructor of `_Varinfo` ends
with `compute_range`, integer descriptors have no scale, and the fields fit the
C++ types. -/
def Varinfo.Made (E : Env) (info : Varinfo) : Prop :=
  (∃ raw : Varinfo, raw.compute_range E = .ok info) ∧ inInt info.bit_ref = true ∧
    (info.type = .integer → info.scale = 0) ∧
    (info.type = .binary → info.len = (info.bit_len + 7) / 8)

/-- Numeric descriptors. -/
def Varinfo.IsNum (info : Varinfo) : Prop := info.type = .integer ∨ info.type = .decimal

end Wreport
