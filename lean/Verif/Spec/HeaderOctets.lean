import Verif.Spec.Message
import Verif.Model.Header

/-! # The header fields of a BUFR message, by octet

Octets of a section are counted from 1, as in the WMO Manual on Codes. -/

namespace Wreport.Spec

/-- The number in the `n` octets from octet `o` of the section that starts at
`s`. -/
def num (data : List Byte) (s o n : Nat) : Nat := ofBe ((data.drop (s + o - 1)).take n)

/-- The full year for a year of the century: 1951-2050, with the code figures above
99 taken as they come. -/
def centuryYear (y : Nat) : Nat := if 50 < y then 1900 + y else 2000 + y

/-- Section 1 of edition 4. -/
structure Section1Ed4 (data : List Byte) (s : Nat) (h : Header) : Prop where
  master : h.master_table_number.toNat = num data s 4 1
  centre : h.originating_centre.toNat = num data s 5 2
  subcentre : h.originating_subcentre.toNat = num data s 7 2
  update : h.update_sequence_number.toNat = num data s 9 1
  category : h.data_category.toNat = num data s 11 1
  subcategory : h.data_subcategory.toNat = num data s 12 1
  local_subcategory : h.data_subcategory_local.toNat = num data s 13 1
  version : h.master_table_version_number.toNat = num data s 14 1
  local_version : h.master_table_version_number_local.toNat = num data s 15 1
  year : h.rep_year.toNat = num data s 16 2
  month : h.rep_month.toNat = num data s 18 1
  day : h.rep_day.toNat = num data s 19 1
  hour : h.rep_hour.toNat = num data s 20 1
  minute : h.rep_minute.toNat = num data s 21 1
  second : h.rep_second.toNat = num data s 22 1

/-- Section 1 of editions 2 and 3. They have no international subcategory, and no
seconds. -/
structure Section1Ed3 (data : List Byte) (s : Nat) (h : Header) : Prop where
  master : h.master_table_number.toNat = num data s 4 1
  subcentre : h.originating_subcentre.toNat = num data s 5 1
  centre : h.originating_centre.toNat = num data s 6 1
  update : h.update_sequence_number.toNat = num data s 7 1
  category : h.data_category.toNat = num data s 9 1
  subcategory : h.data_subcategory = 255
  local_subcategory : h.data_subcategory_local.toNat = num data s 10 1
  version : h.master_table_version_number.toNat = num data s 11 1
  local_version : h.master_table_version_number_local.toNat = num data s 12 1
  year : h.rep_year.toNat = centuryYear (num data s 13 1)
  month : h.rep_month.toNat = num data s 14 1
  day : h.rep_day.toNat = num data s 15 1
  hour : h.rep_hour.toNat = num data s 16 1
  minute : h.rep_minute.toNat = num data s 17 1
  second : h.rep_second = 0

/-- Octets that section 1 must have before the end of the message. -/
def section1Size (data : List Byte) : Nat := if data[7]? = some 4 then 22 else 18

/-- The sections of `data` are at the given places, and the fields of the header
are what the octets say. -/
structure HeaderAt (data : List Byte) (s1 s2 s3 s4 s5 : Nat) (h : Header) (subsets : Nat) :
    Prop where
  located : Located data s1 s2 s3 s4 s5
  room : s1 + section1Size data ≤ data.length
  opt : s3 = s2 ∨ s2 + 4 ≤ s3
  desc : s3 + 8 ≤ s4
  edition : h.edition_number.toNat = num data 0 8 1
  sec1 : if data[7]? = some 4 then Section1Ed4 data s1 h else Section1Ed3 data s1 h
  optional : h.optional_section = (data.drop (s2 + 4)).take (s3 - (s2 + 4))
  subsets : subsets = num data s3 5 2
  compression : h.compression = (num data s3 7 1).testBit 6
  descriptors : h.datadesc =
    (List.range ((s4 - s3 - 7) / 2)).map fun i => num data s3 (8 + 2 * i) 2

end Wreport.Spec
