import Verif.Model.TabledirPrint
import Verif.Spec.Tabledir
import Verif.Spec.Var

/-!
# What is told about tables
-/

namespace Wreport.Spec

open Tabledir

/-- A number with zeros before it up to a width. -/
def ZerosBefore (w n : Nat) (t : List Byte) : Prop :=
  ∃ d, IsDecimalNat d n ∧ t = List.replicate (w - d.length) 48 ++ d

/-- How a table is identified: for BUFR centre and subcentre, number, version and local version
of the table; for CREX edition, centre and subcentre, number, version, local version and BUFR
version of the table. -/
inductive IdText : Kind → List Byte → Prop where
  | raw : IdText .raw (ascii "(raw data)")
  | bufr {id : BufrTableID} {ce sc mt v l : List Byte} :
      ZerosBefore 3 id.originating_centre.toNat ce → ZerosBefore 2 id.originating_subcentre.toNat sc →
      ZerosBefore 2 id.master_table_number.toNat mt →
      ZerosBefore 2 id.master_table_version_number.toNat v →
      ZerosBefore 2 id.master_table_version_number_local.toNat l →
      IdText (.bufr id) (ascii "BUFR(" ++ ce ++ ascii ":" ++ sc ++ ascii ", " ++ mt ++ ascii ":" ++ v ++
        ascii ":" ++ l ++ ascii ")")
  | crex {id : CrexTableID} {ed ce sc mt v l b : List Byte} :
      ZerosBefore 2 id.edition_number.toNat ed →
      ZerosBefore 2 id.originating_centre.toNat ce → ZerosBefore 2 id.originating_subcentre.toNat sc →
      ZerosBefore 2 id.master_table_number.toNat mt →
      ZerosBefore 2 id.master_table_version_number.toNat v →
      ZerosBefore 2 id.master_table_version_number_local.toNat l →
      ZerosBefore 2 id.master_table_version_number_bufr.toNat b →
      IdText (.crex id) (ascii "CREX(" ++ ed ++ ascii ", " ++ ce ++ ascii ":" ++ sc ++ ascii ", " ++ mt ++
        ascii ":" ++ v ++ ascii ":" ++ l ++ ascii ":" ++ b ++ ascii ")")

/-- The files in some directories that are tables, with the table that each is. -/
def tableFiles (names : List Byte → List (List Byte)) (dirs : List (List Byte)) :
    List (List Byte × List Byte × Kind) :=
  dirs.flatMap fun d => (names d).filterMap fun n => (fileKind n).map fun k => (d, n, k)

/-- The line about a file: its path without `.txt`, and the table that it is. -/
def FileLine (f : List Byte × List Byte × Kind) (t : List Byte) : Prop :=
  ∃ stem id, f.2.1 = stem ++ ascii ".txt" ∧ IdText f.2.2 id ∧
    t = f.1 ++ ascii "/" ++ stem ++ ascii ":" ++ id ++ ascii "\n"

/-- A best one of some tables, or none. -/
def BestText (usable : Kind → Prop) (closer : Kind → Kind → Prop) (tables : List Table)
    (t : List Byte) : Prop :=
  ((∀ u ∈ tables, ¬ usable u.kind) ∧ t = ascii "none") ∨
    ∃ b, IsBest usable closer tables b ∧ IdText b.kind t

/-- One line for each table, with the best tables of both kinds up to it. -/
inductive StepLines (usableB usableC : Kind → Prop) (closer : Kind → Kind → Prop) :
    List Table → List (List Byte × Table) → List Byte → Prop where
  | nil {seen : List Table} : StepLines usableB usableC closer seen [] []
  | cons {seen : List Table} {d : List Byte} {x : Table} {l : List (List Byte × Table)}
      {id b c rest : List Byte} : IdText x.kind id →
      BestText usableB closer (seen ++ [x]) b → BestText usableC closer (seen ++ [x]) c →
      StepLines usableB usableC closer (seen ++ [x]) l rest →
      StepLines usableB usableC closer seen ((d, x) :: l)
        (d ++ ascii ": considering " ++ id ++ ascii ": best bufr: " ++ b ++ ascii ", best crex: " ++ c ++
          ascii "\n" ++ rest)

/-- Whether a table is one for BUFR. -/
def IsBufrTable : Kind → Prop
  | .bufr _ => True
  | _ => False

/-- Whether a table is one for CREX. -/
def IsCrexTable : Kind → Prop
  | .crex _ => True
  | _ => False

/-- The last line, about the table that is used. -/
def ChosenLine (r : Option Table) (t : List Byte) : Prop :=
  match r with
  | none => t = ascii "Result chosen: none\n"
  | some x => ∃ id, IdText x.kind id ∧ t = ascii "Result chosen: " ++ id ++ ascii "\n"

end Wreport.Spec
