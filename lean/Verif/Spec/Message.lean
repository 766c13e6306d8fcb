import Verif.Spec.Bits

/-! # BUFR messages as sections -/

namespace Wreport.Spec

/-- The low `8 * k` bits of `v` as bytes, most significant first. -/
def be : Nat → Nat → List Byte
  | 0, _ => []
  | k + 1, v => UInt8.ofNat (v / 256 ^ k) :: be k v

/-- The number written by bytes, most significant first. -/
def ofBe (s : List Byte) : Nat := s.foldl (fun acc b => 256 * acc + b.toNat) 0

/-- A section whose first three octets hold its length. -/
def LengthPrefixed (s : List Byte) : Prop := 3 ≤ s.length ∧ ofBe (s.take 3) = s.length

/-- The sections of a BUFR message: it starts with `BUFR`, its own length in three
octets and the edition; sections 1, 3 and 4 follow, with section 2 if present,
each starting with its own length; it ends in `7777`. -/
structure Sections (msg : List Byte) (ed : Byte) (s1 s2 s3 s4 : List Byte) : Prop where
  whole : ∃ len, len.length = 3 ∧ ofBe len = msg.length ∧
    msg = ascii "BUFR" ++ len ++ [ed] ++ s1 ++ s2 ++ s3 ++ s4 ++ ascii "7777"
  sec1 : LengthPrefixed s1
  sec2 : s2 = [] ∨ LengthPrefixed s2
  sec3 : LengthPrefixed s3
  sec4 : LengthPrefixed s4

/-- A section of `data` that starts at `a` and ends at `b`: its first three octets
hold its length and it ends inside the data. -/
structure SectionAt (data : List Byte) (a b : Nat) : Prop where
  indicator : a + 3 ≤ data.length
  size : b = a + ofBe ((data.drop a).take 3)
  inside : b ≤ data.length

/-- Position of the flag that tells whether there is an optional section. -/
def flagPos (ed : Byte) : Nat := if ed = 4 then 17 else 15

/-- Sections 1-4 start at `s1`...`s4`, and section 5 at `s5`: they are contiguous
and inside the message; section 2 is there if section 1 says so. -/
structure Located (data : List Byte) (s1 s2 s3 s4 s5 : Nat) : Prop where
  start : data.take 4 = ascii "BUFR"
  edition : data[7]? = some 2 ∨ data[7]? = some 3 ∨ data[7]? = some 4
  first : s1 = 8
  sec1 : SectionAt data s1 s2
  sec2 : ∃ ed flag, data[7]? = some ed ∧ data[flagPos ed]? = some flag ∧
    (if flag.toNat.testBit 7 then SectionAt data s2 s3 else s3 = s2)
  sec3 : SectionAt data s3 s4
  sec4 : SectionAt data s4 s5

end Wreport.Spec
