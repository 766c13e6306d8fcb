import Verif.Model.Wrep
import Verif.Spec.Listing
import Verif.Spec.Wrep

/-! # What `wrep` says about tables and features -/

namespace Wreport

namespace Spec

/-- The numbers about a message on its line: for BUFR the centre, the subcentre and the versions
of the master and of the local table, for CREX the number of the master table, the edition and
the version. -/
def tableNumbers : Wrep.Head → List Nat
  | .bufr h => [h.originating_centre.toNat, h.originating_subcentre.toNat,
      h.master_table_version_number.toNat, h.master_table_version_number_local.toNat]
  | .crex h => [h.master_table_number.toNat, h.edition_number.toNat,
      h.master_table_version_number.toNat]

/-- The names of the columns. -/
def columnNames : Wrep.Head → List (List Byte)
  | .bufr _ => [ascii "Offset", ascii "Centre", ascii "Subc.", ascii "Master", ascii "Local"]
  | .crex _ => [ascii "Offset", ascii "Master", ascii "Edition", ascii "Table"]

/-- A line of cells with tabulators between. -/
def tabLine (first : List Byte) (cells : List (List Byte)) : List Byte :=
  first ++ cells.flatMap (ascii "\t" ++ ·) ++ ascii "\n"

/-- The line about a message: the name of its file, its offset, and the numbers. -/
def TableLine (fname : List Byte) (offset : Nat) (h : Wrep.Head) (t : List Byte) : Prop :=
  ∃ cells, List.Forall₂ IsDecimalNat cells (offset :: tableNumbers h) ∧ t = tabLine fname cells

/-- The line of titles. In front of the line of a BUFR message the titles stand over the
columns, the name of the file being at least as long as its title. -/
def TitleLine (fname : List Byte) (h : Wrep.Head) (t : List Byte) : Prop :=
  ∃ pad, t = tabLine (ascii "Filename" ++ List.replicate pad 32) (columnNames h) ∧
    match h with
    | .bufr _ => 8 + pad = max 8 fname.length
    | .crex _ => pad = 0

/-- What is written about tables, when the messages have been read to `r`: after titles, a line
for each message that has been read. -/
inductive TableSheet (r : List Byte → Option (Res (Wrep.Head × Ctx × TableCaches))) :
    (titled : Bool) → List (List Byte × Stream.Msg) → List Byte → Prop
  | nil {b : Bool} : TableSheet r b [] []
  | refused {b : Bool} {f : List Byte} {m : Stream.Msg} {ms : List (List Byte × Stream.Msg)}
      {t : List Byte} {e : Err} : r m.1 = some (.err e) → TableSheet r b ms t →
      TableSheet r b ((f, m) :: ms) t
  | first {f : List Byte} {m : Stream.Msg} {ms : List (List Byte × Stream.Msg)}
      {h : Wrep.Head} {x : Ctx × TableCaches} {title line t : List Byte} :
      r m.1 = some (.ok (h, x)) → TitleLine f h title → TableLine f m.2 h line →
      TableSheet r true ms t → TableSheet r false ((f, m) :: ms) (title ++ line ++ t)
  | next {f : List Byte} {m : Stream.Msg} {ms : List (List Byte × Stream.Msg)}
      {h : Wrep.Head} {x : Ctx × TableCaches} {line t : List Byte} :
      r m.1 = some (.ok (h, x)) → TableLine f m.2 h line →
      TableSheet r true ms t → TableSheet r true ((f, m) :: ms) (line ++ t)

/-- Texts with commas between. -/
def commas : List (List Byte) → List Byte
  | [] => []
  | [f] => f
  | f :: g :: fs => f ++ ascii "," ++ commas (g :: fs)

/-- What is written about the features of a message that has been read to `r`: nothing if it has
been refused or its descriptors cannot be scanned, or else a line. -/
def FeatureLine (depth : Nat) (r : Option (Res (Wrep.Head × Ctx × TableCaches))) (fname : List Byte)
    (offset : Nat) (t : List Byte) : Prop :=
  (∃ e, r = some (.err e) ∧ t = []) ∨
  ∃ h C c, r = some (.ok (h, C, c)) ∧
    ((∃ e, Scan.features C depth h.datadesc c = .err e ∧ t = []) ∨
     ∃ fs k, Scan.features C depth h.datadesc c = .ok fs ∧ IsDecimalNat k offset ∧
      t = fname ++ ascii ":" ++ k ++ ascii ":" ++ commas fs ++ ascii "\n")

end Spec

end Wreport
