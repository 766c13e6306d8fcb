import Verif.Spec.Sane
import Verif.Model.Interp

/-! # Descriptors that ask for nothing out of the ordinary -/

namespace Wreport.Spec

/-- How far operators go: bits taken off and put on a width by C01, powers of ten of
C07, and the widest element of the table. -/
structure Bounds where
  narrow : Nat
  widen : Nat
  power : Nat
  width : Nat

/-- Bits that C07 adds at most. -/
def Bounds.more (l : Bounds) : Nat := (10 * l.power + 2) / 3

/-- Bits of the widest element once altered. -/
def Bounds.room (l : Bounds) : Nat := l.width + 2040 + l.widen + l.more

/-- Bounds for which the arithmetic on widths and powers of ten works. -/
structure Bounds.Fair (l : Bounds) : Prop where
  widen : l.widen ≤ 127
  power : l.power ≤ 9
  width : l.width ≤ 1000000

/-- An element stays usable when operators go as far as the bounds: it keeps at least
one bit, its reference value does not overflow, and a number has at most 31 bits (or
32, if signed arithmetic wraps). -/
structure TameInfo (E : Env) (l : Bounds) (i : Varinfo) : Prop where
  narrow : l.narrow < i.bit_len
  width : i.bit_len ≤ l.width
  scale : -1000 ≤ i.scale ∧ i.scale ≤ 1000
  ref : |i.bit_ref| * 10 ^ l.power < 2 ^ 30
  num : i.IsNum → i.bit_len ≤ 32 ∧ (E.wrapv = true ∨ i.bit_len + l.widen + l.more ≤ 31)

/-- An operator that changes widths and powers of ten within the bounds. -/
def MildOperator (l : Bounds) (x y : Nat) : Prop :=
  match x with
  | 1 => y = 0 ∨ (128 ≤ y + l.narrow ∧ y ≤ 128 + l.widen)
  | 7 => y ≤ l.power
  | _ => True

/-- An operator that defines no bitmap, and no reference values or associated fields
that are too wide. -/
def PlainOperator (E : Env) (x y : Nat) : Prop :=
  match x with
  | 3 => y ≤ 30 ∨ y = 255
  | 4 => y ≤ 31 ∨ E.wrapv = true
  | 22 => y ≠ 0
  | 23 => y ≠ 0
  | _ => True

/-- A descriptor within the bounds. -/
def Mild (E : Env) (l : Bounds) (t : Vartable) (c : Varcode) : Prop :=
  (∀ i, t.query c = .ok i → TameInfo E l i) ∧
    (WR_VAR_F c = 2 → MildOperator l (WR_VAR_X c) (WR_VAR_Y c))

/-- A descriptor that asks for nothing out of the ordinary. -/
def Tame (E : Env) (l : Bounds) (t : Vartable) (c : Varcode) : Prop :=
  Mild E l t c ∧ (WR_VAR_F c = 2 → PlainOperator E (WR_VAR_X c) (WR_VAR_Y c))

/-- The descriptors that some descriptors stand for: themselves, and what is in the
sequences among them. -/
inductive StandsFor (t : DTable) (ops : List Varcode) : Varcode → Prop
  | here {c : Varcode} (h : c ∈ ops) : StandsFor t ops c
  | inside {c d : Varcode} {seq : List Varcode} (h : StandsFor t ops d) (f : WR_VAR_F d = 3)
    (q : t.query d = .ok seq) (m : c ∈ seq) : StandsFor t ops c

/-- Sequences within sequences, at most that deep. -/
def NestedWithin (t : DTable) : Nat → List Varcode → Prop
  | 0, ops => ∀ c ∈ ops, WR_VAR_F c = 3 → ∀ seq, t.query c ≠ .ok seq
  | d + 1, ops => ∀ c ∈ ops, WR_VAR_F c = 3 → ∀ seq, t.query c = .ok seq → NestedWithin t d seq

end Wreport.Spec
