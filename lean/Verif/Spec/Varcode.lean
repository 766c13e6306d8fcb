import Verif.Model.Basic

/-!
# Specification: text form of descriptors

Independent of the model: a descriptor is a triple F, X, Y with F below 4, X
below 64, Y below 256; its text is a letter, two digits, three digits.
-/

namespace Wreport.Spec

/-- Number written by a list of ASCII digits, most significant first. -/
def natOfDigits (ds : List Byte) : Nat := ds.foldl (fun n d => n * 10 + (d.toNat - 48)) 0

/-- The table letter or digit for F. -/
def letterF : Byte → Option Nat
  | 0x42 => some 0 | 0x30 => some 0
  | 0x52 => some 1 | 0x31 => some 1
  | 0x43 => some 2 | 0x32 => some 2
  | 0x44 => some 3 | 0x33 => some 3
  | _ => none

/-- `s` is the text of the descriptor F=f, X=x, Y=y. -/
def IsDescriptorText (s : List Byte) (f x y : Nat) : Prop :=
  ∃ c d1 d2 d3 d4 d5, s = [c, d1, d2, d3, d4, d5] ∧
    letterF c = some f ∧
    (∀ d ∈ [d1, d2, d3, d4, d5], 48 ≤ d.toNat ∧ d.toNat ≤ 57) ∧
    natOfDigits [d1, d2] = x ∧ x < 64 ∧ natOfDigits [d3, d4, d5] = y ∧ y < 256

/-- The 16-bit code of a descriptor: two bits F, six bits X, eight bits Y. -/
def descriptorCode (f x y : Nat) : Nat := f * 16384 + x * 256 + y

end Wreport.Spec
