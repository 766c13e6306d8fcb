import Verif.Model.Crex
import Verif.Spec.Crex

/-!
# A whole CREX message
-/

namespace Wreport.Spec

/-- A descriptor: the letter for F, two digits for X and three for Y. -/
def crexDescriptor (c : Varcode) : List Byte :=
  (match c / 16384 with | 0 => ascii "B" | 1 => ascii "R" | 2 => ascii "C" | _ => ascii "D") ++
    zeroPadded 2 (c / 256 % 64) ++ zeroPadded 3 (c % 256)

/-- Sections 0 and 1, without check digits. -/
def crexStart (h : Crex.Header) : List Byte :=
  ascii "CREX++\r\r\nT" ++ zeroPadded 2 h.master_table_number.toNat ++
    zeroPadded 2 h.edition_number.toNat ++ zeroPadded 2 h.master_table_version_number.toNat ++
    ascii " A" ++ zeroPadded 3 h.data_category.toNat ++
    (if h.data_subcategory = 255 then [] else zeroPadded 3 h.data_subcategory.toNat) ++
    h.datadesc.flatMap (fun c => 32 :: crexDescriptor c) ++ ascii "++\r\r\n"

/-- A message with one subset whose fields are `text`. -/
def crexMessage (h : Crex.Header) (text : List Byte) : List Byte :=
  crexStart h ++ text ++ ascii "++\r\r\n7777\r\r\n"

/-- The header fits its places: version numbers of two digits, categories below 128, at
least one descriptor, and none of those that are left out. -/
structure CrexHeaderFits (h : Crex.Header) : Prop where
  table : h.master_table_number.toNat < 100
  edition : h.edition_number.toNat < 100
  version : h.master_table_version_number.toNat < 100
  category : h.data_category.toNat < 128
  subcategory : h.data_subcategory = 255 ∨ h.data_subcategory.toNat < 128
  some : h.datadesc ≠ []
  codes : ∀ c ∈ h.datadesc, c < 65536 ∧ c ∉ [WR_VAR 0 31 0, WR_VAR 0 31 1, WR_VAR 0 31 2]

/-- The header that is read back: the version of the BUFR tables, the local subcategory
and the flag for check digits are not in the message. -/
def crexReread (h : Crex.Header) : Crex.Header :=
  { h with
    master_table_version_number_bufr := 0
    data_subcategory_local := if h.data_subcategory = 255 then 0 else 255
    has_check_digit := false }

end Wreport.Spec
