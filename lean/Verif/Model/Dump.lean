import Verif.Model.Notes

/-!
# Printing of messages

Modelled code: `Bulletin::print` (`wreport/bulletin.cc` lines 90-116), `print_details`
(lines 402-408 and 564-570), and `Var::print(FILE*)` with `print_without_attrs`
(`wreport/var.cc` lines 771-781 and 792-802). Not modelled: what was written before an
exception, failing writes.
-/

namespace Wreport

namespace Dump

/-- `%hhu`, `%hu`, `%u` and `%zu`. -/
def num (n : Nat) : List Byte := Crex.decDigits n

/-- The first line, `wreport/bulletin.cc` lines 92-99. -/
def headLine (b : Bulletin) : List Byte :=
  b.encoding_name ++ ascii " " ++ num b.data_category.toNat ++ ascii ":" ++
    num b.data_subcategory.toNat ++ ascii ":" ++ num b.data_subcategory_local.toNat ++ ascii " " ++
    num b.originating_centre.toNat ++ ascii ":" ++ num b.originating_subcentre.toNat ++ ascii " " ++
    Crex.fmtU 4 b.rep_year.toNat ++ ascii "-" ++ Crex.fmtU 2 b.rep_month.toNat ++ ascii "-" ++
    Crex.fmtU 2 b.rep_day.toNat ++ ascii " " ++ Crex.fmtU 2 b.rep_hour.toNat ++ ascii ":" ++
    Crex.fmtU 2 b.rep_minute.toNat ++ ascii ":" ++ Crex.fmtU 2 b.rep_second.toNat ++ ascii " " ++
    num b.update_sequence_number.toNat ++ ascii " " ++ num b.subsets.length ++ ascii " subsets\n"

/-- The name of a table, `wreport/bulletin.cc` lines 101-102. -/
def tableName {α : Type} : Option (List Byte × α) → List Byte
  | some t => Notes.cut t.1
  | none => ascii "(not loaded)"

/-- The line on tables, `wreport/bulletin.cc` lines 100-102. -/
def tablesLine (b : Bulletin) : List Byte :=
  ascii " Tables: " ++ tableName b.tables.btable ++ ascii " " ++ tableName b.tables.dtable ++ ascii "\n"

/-- A line with a descriptor, `wreport/bulletin.cc` lines 104-105. -/
def descLine (c : Varcode) : List Byte := ascii "  " ++ Printer.digits c ++ ascii "\n"

/-- `BufrBulletin::print_details` and `CrexBulletin::print_details`,
`wreport/bulletin.cc` lines 402-408 and 564-570. -/
def details (b : Bulletin) : List Byte :=
  match b.details with
  | .bufr d => ascii " BUFR details: ed" ++ num d.edition_number.toNat ++ ascii " t" ++
      num b.master_table_number.toNat ++ ascii ":" ++ num d.master_table_version_number.toNat ++
      ascii ":" ++ num d.master_table_version_number_local.toNat ++ ascii " " ++
      (if d.compression then ascii "c" else ascii "-") ++ ascii " osl" ++
      num d.optional_section.length ++ ascii "\n"
  | .crex d => ascii " CREX details: ed" ++ num d.edition_number.toNat ++ ascii " t" ++
      num b.master_table_number.toNat ++ ascii ":" ++ num d.master_table_version_number.toNat ++
      ascii ":" ++ num d.master_table_version_number_local.toNat ++ ascii ":" ++
      num d.master_table_version_number_bufr.toNat ++ ascii " " ++
      (if d.has_check_digit then ascii "C" else ascii "-") ++ ascii "\n"

/-- What comes before the variables, `wreport/bulletin.cc` lines 92-107; the same as in
`Bulletin::print_structured`, lines 120-135. -/
def head (b : Bulletin) : List Byte :=
  headLine b ++ tablesLine b ++ ascii " Data descriptors:\n" ++ b.datadesc.flatMap descLine ++
    details b ++ ascii " Variables:\n"

/-- `Var::print_without_attrs(FILE*, const char*)`, `wreport/var.cc` lines 771-781, with the
default end of `wreport/var.h`; `desc` is the description of an element. -/
def printOne (E : Env) (desc : Varinfo → List Byte) (v : VarCore) : Res (List Byte) := do
  let s ← v.formatFile E (ascii "(undef)")
  return Printer.digits v.code ++ ascii " " ++ (desc v.info).take 64 ++ ascii "(" ++ v.info.unit ++
    ascii "): " ++ s ++ ascii "\n"

/-- The attributes that `Var::print(FILE*)` prints, `wreport/var.cc` lines 796-801. -/
def printAttrs (E : Env) (desc : Varinfo → List Byte) : List VarCore → Res (List Byte)
  | [] => .ok []
  | a :: l => do
    let x ← printOne E desc a
    let y ← printAttrs E desc l
    return ascii "           " ++ x ++ y

/-- `Var::print(FILE*)`, `wreport/var.cc` lines 792-802. -/
def printVar (E : Env) (desc : Varinfo → List Byte) (v : Var) : Res (List Byte) := do
  let x ← printOne E desc v.toVarCore
  let y ← printAttrs E desc v.attrs
  return x ++ y

/-- The variables of a subset from number `j` on, `wreport/bulletin.cc` lines 111-115. -/
def printVars (E : Env) (desc : Varinfo → List Byte) (i : Nat) : (j : Nat) → List Var →
    Res (List Byte)
  | _, [] => .ok []
  | j, v :: vs => do
    let x ← printVar E desc v
    let y ← printVars E desc i (j + 1) vs
    return ascii "  [" ++ num i ++ ascii "][" ++ num j ++ ascii "] " ++ x ++ y

/-- The subsets from number `i` on, `wreport/bulletin.cc` lines 108-116. -/
def printSubsets (E : Env) (desc : Varinfo → List Byte) : (i : Nat) → List Subset →
    Res (List Byte)
  | _, [] => .ok []
  | i, s :: ss => do
    let x ← printVars E desc i 0 s
    let y ← printSubsets E desc (i + 1) ss
    return x ++ y

/-- `Bulletin::print`, `wreport/bulletin.cc` lines 90-117. -/
def print (E : Env) (desc : Varinfo → List Byte) (b : Bulletin) : Res (List Byte) := do
  let x ← printSubsets E desc 0 b.subsets
  return head b ++ x

end Dump

end Wreport
