import Verif.Model.Crex
import Verif.Model.Tabledir

/-!
# Printing and explaining of tables

Modelled code: the functions of `wreport/tableinfo.cc` and
`wreport/internals/tabledir.cc` that print, and the default directories. What is printed is a
list of bytes; writing it does not fail.
-/

namespace Wreport

/-- `BufrTableID::print`, `wreport/tableinfo.cc` lines 226-232. -/
def BufrTableID.print (id : BufrTableID) : List Byte :=
  ascii "BUFR(" ++ Crex.fmtU 3 id.originating_centre.toNat ++ ascii ":" ++
    Crex.fmtU 2 id.originating_subcentre.toNat ++ ascii ", " ++
    Crex.fmtU 2 id.master_table_number.toNat ++ ascii ":" ++
    Crex.fmtU 2 id.master_table_version_number.toNat ++ ascii ":" ++
    Crex.fmtU 2 id.master_table_version_number_local.toNat ++ ascii ")"

/-- `CrexTableID::print`, `wreport/tableinfo.cc` lines 340-347. -/
def CrexTableID.print (id : CrexTableID) : List Byte :=
  ascii "CREX(" ++ Crex.fmtU 2 id.edition_number.toNat ++ ascii ", " ++
    Crex.fmtU 2 id.originating_centre.toNat ++ ascii ":" ++
    Crex.fmtU 2 id.originating_subcentre.toNat ++ ascii ", " ++
    Crex.fmtU 2 id.master_table_number.toNat ++ ascii ":" ++
    Crex.fmtU 2 id.master_table_version_number.toNat ++ ascii ":" ++
    Crex.fmtU 2 id.master_table_version_number_local.toNat ++ ascii ":" ++
    Crex.fmtU 2 id.master_table_version_number_bufr.toNat ++ ascii ")"

namespace Tabledir

/-- `Table::print_id`, `BufrTable::print_id` and `CrexTable::print_id`,
`wreport/internals/tabledir.cc` lines 37-50. -/
def Table.print_id (t : Table) : List Byte :=
  match t.kind with
  | .raw => ascii "(raw data)"
  | .bufr id => id.print
  | .crex id => id.print

/-- A text with `%s`: up to a NUL. -/
def shown (s : List Byte) : List Byte := s.takeWhile (· ≠ 0)

namespace Query

/-- The name of a best table or `none`, `wreport/internals/tabledir.cc` lines 168-176. -/
def bestText : Option Table → List Byte
  | some t => t.print_id
  | none => ascii "none"

/-- `Query::explain_search`, `wreport/internals/tabledir.cc` lines 160-179: what is printed, and
the best tables after it. -/
def explain_search (q : Query) (pathname : List Byte) : Best → List Table → List Byte × Best
  | b, [] => ([], b)
  | b, t :: ts =>
    let b' := q.consider_table b t
    let r := explain_search q pathname b' ts
    (shown pathname ++ ascii ": considering " ++ t.print_id ++ ascii ": best bufr: " ++
      bestText (b'.bufr.map Prod.snd) ++ ascii ", best crex: " ++
      bestText (b'.crex.map Prod.snd) ++ ascii "\n" ++ r.1, r.2)

/-- `Query::explain_result`, `wreport/internals/tabledir.cc` lines 195-204. -/
def explain_result (q : Query) (b : Best) : List Byte :=
  ascii "Result chosen: " ++ bestText (q.result b) ++ ascii "\n"

/-- The loop of `Index::explain_find_bufr` and `Index::explain_find_crex`,
`wreport/internals/tabledir.cc` lines 329-332 and 362-365, for the rest of the directories. -/
def explain (q : Query) : Best → List (List Byte × List Table) → List Byte
  | b, [] => q.explain_result b
  | b, d :: ds =>
    let r := q.explain_search d.1 b d.2
    r.1 ++ explain q r.2 ds

end Query

namespace Tabledirs

/-- The directories of the index with their names: the index is made from `dirs` and deleted
when that changes. -/
def indexed (names : List Byte → List (List Byte)) (t : Tabledirs) :
    List (List Byte × List Table) := t.dirs.zip (t.getIndex names).dirs

/-- The line about a table of `Index::print`, `wreport/internals/tabledir.cc` lines 382-384. -/
def tableLine (pathname : List Byte) (t : Table) : List Byte :=
  shown pathname ++ ascii "/" ++ shown t.btable_id ++ ascii ":" ++ t.print_id ++ ascii "\n"

/-- `Tabledirs::print` and `Index::print`, `wreport/internals/tabledir.cc` lines 447-451 and
377-386. -/
def print (names : List Byte → List (List Byte)) (t : Tabledirs) : List Byte :=
  (t.indexed names).flatMap fun d => d.2.flatMap (tableLine d.1)

/-- `Tabledirs::explain_find_bufr` and `Index::explain_find_bufr`,
`wreport/internals/tabledir.cc` lines 453-457 and 326-333. -/
def explain_find_bufr (names : List Byte → List (List Byte)) (t : Tabledirs) (id : BufrTableID) :
    List Byte × Tabledirs :=
  ((BufrQuery id).explain ⟨none, none⟩ (t.indexed names), { t with index := some (t.getIndex names) })

/-- `Tabledirs::explain_find_crex` and `Index::explain_find_crex`,
`wreport/internals/tabledir.cc` lines 459-463 and 359-366. -/
def explain_find_crex (names : List Byte → List (List Byte)) (t : Tabledirs) (id : CrexTableID) :
    List Byte × Tabledirs :=
  ((CrexQuery id).explain ⟨none, none⟩ (t.indexed names), { t with index := some (t.getIndex names) })

end Tabledirs

/-- Where tables are by default: the variables `WREPORT_EXTRA_TABLES` and `WREPORT_TABLES` if
they are set, and the constant `TABLE_DIR`. -/
structure Environ where
  extra : Option (List Byte)
  tables : Option (List Byte)
  table_dir : List Byte

namespace Tabledirs

/-- `Tabledirs::add_default_directories`, `wreport/internals/tabledir.cc` lines 400-407. -/
def add_default_directories (e : Environ) (t : Tabledirs) : Tabledirs :=
  let t := match e.extra with
    | some d => t.add_directory d
    | none => t
  let t := match e.tables with
    | some d => t.add_directory d
    | none => t
  t.add_directory e.table_dir

/-- `Tabledirs::get`, `wreport/internals/tabledir.cc` lines 465-474, the first time. -/
def get (e : Environ) : Tabledirs := add_default_directories e ⟨[], none⟩

end Tabledirs

end Tabledir

end Wreport
