import Verif.Spec.Var

/-! # Numbers in fixed notation -/

namespace Wreport.Spec

/-- `t` is the usual way of writing `k / 10^p` with `p` decimals: the sign if negative,
the integer part, and the point and the decimals if there are any. -/
def FixedText (t : List Byte) (p : Nat) (k : Int) : Prop :=
  ∃ a b : List Byte, t = (if k < 0 then [45] else []) ++ a ++ (if p = 0 then [] else 46 :: b) ∧
    IsDecimalNat a (k.natAbs / 10 ^ p) ∧ b.length = p ∧
    (∀ x ∈ b, 48 ≤ x.toNat ∧ x.toNat ≤ 57) ∧ digitsValue b = k.natAbs % 10 ^ p

/-- Decimals that are written for a scale. -/
def decimals (scale : Int) : Nat := scale.toNat

/-- The number in units of the last decimal written: positive scales count decimals,
negative scales stand for zeros at the end. -/
def wholeUnits (scale i : Int) : Int := i * 10 ^ (-scale).toNat

/-- The value of a hexadecimal digit in upper case. -/
def hexValue (b : Byte) : Option Nat :=
  if 48 ≤ b.toNat ∧ b.toNat ≤ 57 then some (b.toNat - 48)
  else if 65 ≤ b.toNat ∧ b.toNat ≤ 70 then some (b.toNat - 55)
  else none

/-- The bytes written by a hexadecimal text with two digits for each byte. -/
def hexRead : List Byte → Option (List Byte)
  | [] => some []
  | [_] => none
  | a :: b :: s => do
    let x ← hexValue a
    let y ← hexValue b
    let r ← hexRead s
    return UInt8.ofNat (16 * x + y) :: r

end Wreport.Spec
