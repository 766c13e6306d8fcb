import Verif.Model.Basic

/-! # Bit strings -/

namespace Wreport.Spec

/-- The low `n` bits of `v`, most significant first. -/
def bits : Nat → Nat → List Bool
  | 0, _ => []
  | n + 1, v => v.testBit n :: bits n v

/-- The bits of a byte string, most significant bit of each byte first. -/
def bytesBits (s : List Byte) : List Bool := s.flatMap fun b => bits 8 b.toNat

/-- The number written by a list of bits, most significant first. -/
def ofBits (l : List Bool) : Nat := l.foldl (fun acc b => 2 * acc + b.toNat) 0

end Wreport.Spec
