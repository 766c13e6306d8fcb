import Verif.Model.PythonTables
import Verif.Spec.Process
import Verif.Spec.Python
import Verif.Spec.Varcode

/-!
What Python programs may expect from tables.
-/

namespace Wreport.Spec

open Py Tabledir

/-- What a program can do with tables: what the library does for it, and the calls from
Python. -/
inductive TableOp where
  | lib (op : ProcessOp)
  | getBufr (a : BufrArgs)
  | getCrex (a : CrexArgs)
  | loadBufr (pathname : Obj)
  | loadCrex (pathname : Obj)

/-- References asked for are C++ `int`s. -/
def TableOp.InRange : TableOp → Prop
  | .lib op => op.InRange
  | _ => True

/-- An argument that is the number `n`, also because it is not given and `n` is the
default. -/
def Num (o : Option Obj) (dflt n : Int) : Prop := (o = none ∧ n = dflt) ∨ o = some (.int n)

/-- The arguments are the numbers of the table `id`. -/
structure BufrAsked (a : BufrArgs) (id : BufrTableID) : Prop where
  basename : a.basename = none
  centre : Num a.originating_centre 0 id.originating_centre.toNat
  subcentre : Num a.originating_subcentre 0 id.originating_subcentre.toNat
  table : Num a.master_table_number 0 id.master_table_number.toNat
  version : a.master_table_version_number = some (.int id.master_table_version_number.toNat)
  version_local : Num a.master_table_version_number_local 0 id.master_table_version_number_local.toNat

/-- The same for CREX tables, when both versions are given. -/
structure CrexAsked (a : CrexArgs) (id : CrexTableID) : Prop where
  basename : a.basename = none
  edition : Num a.edition_number 2 id.edition_number.toNat
  centre : Num a.originating_centre 0 id.originating_centre.toNat
  subcentre : Num a.originating_subcentre 0 id.originating_subcentre.toNat
  table : Num a.master_table_number 0 id.master_table_number.toNat
  version : a.master_table_version_number = some (.int id.master_table_version_number.toNat)
  version_bufr : a.master_table_version_number_bufr = some (.int id.master_table_version_number_bufr.toNat)
  version_local : Num a.master_table_version_number_local 0 id.master_table_version_number_local.toNat

/-- How a call that should give the element table of a candidate such that `C` ends, when
the files are as they are: with that table as its file says; with `KeyError` if there is
no candidate, `OSError` if its file cannot be opened, `ValueError` if it cannot be
parsed. Nothing is said only if reading the file is undefined. -/
def TableAnswer (E : Env) (files : List Byte → Option (List Byte)) (load : List Byte → Res Vartable)
    (C : Table → Prop) : Done (List Byte × Vartable) → Prop
  | .returned (path, t) => ∃ f data t0, C f ∧ path = f.btable_pathname ∧ files path = some data ∧
      load data = .ok t0 ∧ SameAnswers E t0 t
  | .raised .key => ∀ f, ¬ C f
  | .raised .os => ∃ f, C f ∧ files f.btable_pathname = none
  | .raised .value => ∃ f data, C f ∧ files f.btable_pathname = some data ∧ load data = .err .parse
  | .raised _ => False
  | .ub => ∃ f data, C f ∧ files f.btable_pathname = some data ∧ load data = .ub

/-- The first table with a name. -/
def FirstNamed (tables : List Table) (name : List Byte) (f : Table) : Prop :=
  ∃ pre post, tables = pre ++ f :: post ∧ f.btable_id = name ∧ ∀ u ∈ pre, u.btable_id ≠ name

end Wreport.Spec

namespace Wreport

open Spec

/-- One operation. -/
def Process.tableStep (S : System) (p : Process) : TableOp → Process
  | .lib op => p.step S op
  | .getBufr a => (Py.get_bufr S p a).1
  | .getCrex a => (Py.get_crex S p a).1
  | .loadBufr k => (Py.load_bufr S p k).1
  | .loadCrex k => (Py.load_crex S p k).1

/-- A process after some operations, while files and directories stay as they are. -/
def Process.afterTables (S : System) (ops : List TableOp) : Process :=
  ops.foldl (fun p op => p.tableStep S op) (.fresh [])

end Wreport
