import Verif.Spec.Bits
import Verif.Spec.Var

/-! # Fields of the BUFR data section -/

namespace Wreport.Spec

/-- Text padded with blanks to `n` bytes. -/
def padText (n : Nat) (t : List Byte) : List Byte := t ++ List.replicate (n - t.length) 32

/-- A text field of `width` bits: the text padded with blanks, and zero bits if
the width is not a whole number of bytes. -/
def textField (width : Nat) (t : List Byte) : List Bool :=
  bytesBits (padText (width / 8) t) ++ List.replicate (width % 8) false

/-- A binary field of `width` bits: whole bytes, then the low bits of the last
byte. -/
def binField (width : Nat) (w : List Byte) : List Bool :=
  bytesBits (w.take (width / 8)) ++ bits (width % 8) (w.getD (width / 8) 0).toNat

/-- A missing value of `width` bits: all ones. -/
def missingField (width : Nat) : List Bool := List.replicate width true

/-- Text that survives blank padding: not empty, and its last byte is neither
blank nor NUL. -/
def NoTrailingBlank (t : List Byte) : Prop := ∃ s b, t = s ++ [b] ∧ isSpace b = false ∧ b ≠ 0

/-- The replication and repetition factors, whose value is never missing. -/
def factorCodes : List Varcode :=
  [WR_VAR 0 31 0, WR_VAR 0 31 1, WR_VAR 0 31 2, WR_VAR 0 31 11, WR_VAR 0 31 12]

/-- Bit `j` (0 is the least significant) of byte `i` belongs to a value of
`bit_len` bits: whole bytes come first and the remaining bits are the low bits of
the last byte. -/
def DeclaredBit (bit_len i j : Nat) : Prop :=
  8 * i + 8 ≤ bit_len ∨ (8 * i < bit_len ∧ j < bit_len % 8)

end Wreport.Spec
