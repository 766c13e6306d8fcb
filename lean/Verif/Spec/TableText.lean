import Verif.Spec.Varcode
import Verif.Spec.Tables

/-! # Text of table files -/

namespace Wreport.Spec

/-- A character that is a decimal digit. -/
def DigitText (b : Byte) : Prop := 48 ≤ b.toNat ∧ b.toNat ≤ 57

/-- `l` starts with the number `n`: blanks, digits, then anything that is not a
digit. -/
def StartsNumber (l : List Byte) (n : Nat) : Prop :=
  ∃ k ds rest, l = List.replicate k 32 ++ (ds ++ rest) ∧ ds ≠ [] ∧ (∀ d ∈ ds, DigitText d) ∧
    natOfDigits ds = n ∧ n < 2 ^ 63 ∧ ∀ b ∈ rest.head?, ¬ DigitText b

/-- `l` starts with the number `i`, with blanks allowed after a minus sign. -/
def StartsInt (l : List Byte) (i : Int) : Prop :=
  ∃ n : Nat, (i = n ∧ StartsNumber l n) ∨
    (i = -n ∧ ∃ k r, l = List.replicate k 32 ++ 45 :: r ∧ StartsNumber r n)

/-- `l` has `u`, which is shorter than `n` and does not end in white space, followed by
blanks up to `n` characters. -/
def Padded (l : List Byte) (n : Nat) (u : List Byte) : Prop :=
  u.length < n ∧ l.take n = u ++ List.replicate (n - u.length) 32 ∧
    ∀ b ∈ u.getLast?, b.toNat ≠ 32 ∧ ¬ (9 ≤ b.toNat ∧ b.toNat ≤ 13)

/-- Units of code and flag tables may go on with the name of the table. -/
def unitName (u : List Byte) : List Byte :=
  if ascii "CODE TABLE" <+: u ∨ ascii "CODETABLE" <+: u then ascii "CODE TABLE"
  else if ascii "FLAG TABLE" <+: u ∨ ascii "FLAGTABLE" <+: u then ascii "FLAG TABLE"
  else u

/-- What a row of an element table says of an element in BUFR. -/
structure BufrRow where
  x : Nat
  y : Nat
  unit : List Byte
  scale : Int
  ref : Int
  bits : Nat

/-- A line of a table file in columns: code, description, unit, scale, reference
value, width in bits. -/
structure BufrRow.WrittenIn (r : BufrRow) (line : List Byte) : Prop where
  size : 119 ≤ line.length
  code : ∃ c s rest, line = c :: (s ++ rest) ∧ IsDescriptorText s 0 r.x r.y
  unit : Padded (line.drop 73) 24 r.unit
  scale : StartsInt (line.drop 98) r.scale
  ref : StartsInt (line.drop 102) r.ref
  bits : StartsInt (line.drop 115) r.bits
  scale_fits : -2147483648 ≤ r.scale ∧ r.scale ≤ 2147483647
  ref_fits : -2147483648 ≤ r.ref ∧ r.ref ≤ 2147483647
  bits_fits : r.bits < 4294967296

/-- `v` is the element that the row describes: text if the unit is `CCITTIA5`, of as
many characters as there are whole octets, otherwise a number with enough digits and
none too many for the width, one bit counting as one digit. -/
structure BufrRow.Describes (r : BufrRow) (v : Varinfo) : Prop where
  code : v.code = descriptorCode 0 r.x r.y
  unit : v.unit = unitName r.unit
  scale : v.scale = r.scale
  ref : v.bit_ref = r.ref
  bits : v.bit_len = r.bits
  text : unitName r.unit = ascii "CCITTIA5" → v.type = .string ∧ v.len = r.bits / 8
  number : unitName r.unit ≠ ascii "CCITTIA5" →
    v.type = (if r.scale = 0 then .integer else .decimal) ∧
    (r.bits = 1 → v.len = 1) ∧
    (r.bits ≠ 1 → 2 ^ r.bits ≤ 10 ^ v.len ∧ (v.len = 0 ∨ 10 ^ (v.len - 1) < 2 ^ r.bits))

/-- What a row of an element table says of an element in CREX. -/
structure CrexRow where
  x : Nat
  y : Nat
  unit : List Byte
  scale : Int
  len : Nat

/-- The columns of a line with the code and with the CREX unit, scale and length. -/
structure CrexRow.WrittenIn (r : CrexRow) (line : List Byte) : Prop where
  size : 157 ≤ line.length
  code : ∃ c s rest, line = c :: (s ++ rest) ∧ IsDescriptorText s 0 r.x r.y
  unit : Padded (line.drop 119) 24 r.unit
  scale : StartsInt (line.drop 143) r.scale
  len : StartsInt (line.drop 149) r.len
  scale_fits : -2147483648 ≤ r.scale ∧ r.scale ≤ 2147483647
  len_fits : r.len < 4294967296

/-- `v` is the element that the row describes. -/
structure CrexRow.Describes (r : CrexRow) (v : Varinfo) : Prop where
  code : v.code = descriptorCode 0 r.x r.y
  unit : v.unit = unitName r.unit
  scale : v.scale = r.scale
  len : v.len = r.len
  bufr : v.bit_ref = 0 ∧ v.bit_len = 0
  type : v.type = if unitName r.unit = ascii "CHARACTER" then .string
    else if r.scale = 0 then .integer else .decimal

/-- A line of text with its newline, of less than 200 characters. -/
def TextLine (line : List Byte) : Prop :=
  ∃ body, line = body ++ [10] ∧ 10 ∉ body ∧ 0 ∉ body ∧ body.length < 199

/-- `line` starts a sequence of `count` members: a character, the code, the count and
the first member. -/
def SequenceLine (line : List Byte) (x y count : Nat) (first : Nat × Nat × Nat) : Prop :=
  18 ≤ line.length ∧ ∃ c s r m t rest, line = c :: (s ++ r) ∧ IsDescriptorText s 3 x y ∧
    (∃ k ds, r = List.replicate k 32 ++ (ds ++ (List.replicate (m + 1) 32 ++ (t ++ rest))) ∧
      ds ≠ [] ∧ (∀ d ∈ ds, DigitText d) ∧ natOfDigits ds = count ∧ count < 4294967296) ∧
    IsDescriptorText t first.1 first.2.1 first.2.2

/-- `line` has a further member: eleven blanks and the member. -/
def MemberLine (line : List Byte) (member : Nat × Nat × Nat) : Prop :=
  18 ≤ line.length ∧ ∃ t rest, line = List.replicate 11 32 ++ (t ++ rest) ∧
    IsDescriptorText t member.1 member.2.1 member.2.2

/-- The lines write these sequences: X and Y of each, and its members. -/
inductive WritesSequences : List (List Byte) →
    List ((Nat × Nat) × List (Nat × Nat × Nat)) → Prop where
  | nil : WritesSequences [] []
  | seq (start : List Byte) (x y : Nat) (first : Nat × Nat × Nat) (more : List (List Byte))
      (members : List (Nat × Nat × Nat)) (lines : List (List Byte))
      (rest : List ((Nat × Nat) × List (Nat × Nat × Nat))) :
      SequenceLine start x y (members.length + 1) first →
      List.Forall₂ MemberLine more members →
      WritesSequences lines rest →
      WritesSequences (start :: (more ++ lines)) (((x, y), first :: members) :: rest)

end Wreport.Spec
