import Verif.Spec.Verbose
import Verif.Spec.Wrep

/-! # What `wrep` prints of messages -/

namespace Wreport

namespace Spec

/-- What is written about a message that has been read to `r`: nothing if it has been
refused, or else what is told of what has been read. -/
def SaidOf {α : Type} (r : Option (Res α)) (tells : α → List Byte → Prop) (t : List Byte) : Prop :=
  (∃ e, r = some (.err e) ∧ t = []) ∨ ∃ a, r = some (.ok a) ∧ tells a t

/-- What a process that has read nothing before decodes a message to, without undefined
attributes. -/
def decodedAlone (M : Wrep.Machine) (crex : Bool) (raw : List Byte) :
    Option (Res (Wrep.Head × List (List Var))) :=
  match crex with
  | true => ((Process.fresh M.dirs).decodeCrex M.S M.O M.depth M.fuel raw).2.map fun r =>
      r >>= fun x => .ok (.crex x.1, x.2)
  | false => some (((Process.fresh M.dirs).decodeBufr M.S M.O false M.depth raw).2 >>= fun x =>
      .ok (.bufr x.1.header, x.2.1))

/-- The descriptions of elements for a message: those of the file of its table. -/
def described (M : Wrep.Machine) (h : Wrep.Head) : Varinfo → List Byte :=
  M.desc (((Wrep.loaded M (.fresh M.dirs) h).2.1.btable.map Prod.fst).getD [])

/-- A number with leading fillers up to a width. -/
def Filled (fill : Byte) (k : List Byte) (n : Nat × Nat) : Prop :=
  ∃ d, IsDecimalNat d n.2 ∧ k = List.replicate (n.1 - d.length) fill ++ d

/-- Texts, each after another text. -/
def woven (before texts : List (List Byte)) : List Byte :=
  (List.zipWith (· ++ ·) before texts).flatten

/-- Which widths and numbers are on the first line of a message with `n` subsets: category,
subcategory and local subcategory, centre and subcentre, date and time, number of the update, and
`n`. CREX messages are shown with the centre and subcentre 65535, and without date. -/
def firstNumbers : Wrep.Head → Nat → List (Nat × Nat)
  | .bufr h, n => [(0, h.data_category.toNat), (0, h.data_subcategory.toNat),
      (0, h.data_subcategory_local.toNat), (0, h.originating_centre.toNat),
      (0, h.originating_subcentre.toNat), (4, h.rep_year.toNat), (2, h.rep_month.toNat),
      (2, h.rep_day.toNat), (2, h.rep_hour.toNat), (2, h.rep_minute.toNat),
      (2, h.rep_second.toNat), (0, h.update_sequence_number.toNat), (0, n)]
  | .crex h, n => [(0, h.data_category.toNat), (0, h.data_subcategory.toNat),
      (0, h.data_subcategory_local.toNat), (0, 65535), (0, 65535), (4, 0), (2, 0), (2, 0), (2, 0),
      (2, 0), (2, 0), (0, 0), (0, n)]

/-- How a message is encoded. -/
def codingName : Wrep.Head → List Byte
  | .bufr _ => ascii "BUFR"
  | .crex _ => ascii "CREX"

/-- The numbers on the line about the edition and the tables. -/
def editionNumbers : Wrep.Head → List (Nat × Nat)
  | .bufr h => [(0, h.edition_number.toNat), (0, h.master_table_number.toNat),
      (0, h.master_table_version_number.toNat), (0, h.master_table_version_number_local.toNat)]
  | .crex h => [(0, h.edition_number.toNat), (0, h.master_table_number.toNat),
      (0, h.master_table_version_number.toNat), (0, 0), (0, h.master_table_version_number_bufr.toNat)]

/-- The end of that line: whether data are compressed and how long the optional section is, or
whether there are check digits. -/
def EditionEnd : Wrep.Head → List Byte → Prop
  | .bufr h, t => ∃ k, IsDecimalNat k h.optional_section.length ∧
      t = (if h.compression then ascii " c osl" else ascii " - osl") ++ k ++ ascii "\n"
  | .crex h, t => t = if h.has_check_digit then ascii " C\n" else ascii " -\n"

/-- The name of a table that has been loaded, up to a zero. -/
def ofTable {α : Type} (t : Option (List Byte × α)) (name : List Byte) : Prop :=
  match t with
  | some x => name = x.1.takeWhile (· ≠ 0)
  | none => name = ascii "(not loaded)"

/-- What is written before the variables of a message. -/
def HeadText (tables : Tables) (h : Wrep.Head) (n : Nat) (t : List Byte) : Prop :=
  ∃ ks es last b d, List.Forall₂ (Filled 48) ks (firstNumbers h n) ∧
    List.Forall₂ (Filled 48) es (editionNumbers h) ∧ EditionEnd h last ∧
    ofTable tables.btable b ∧ ofTable tables.dtable d ∧
    t = woven [codingName h ++ ascii " ", ascii ":", ascii ":", ascii " ", ascii ":", ascii " ",
        ascii "-", ascii "-", ascii " ", ascii ":", ascii ":", ascii " ", ascii " "] ks ++
      ascii " subsets\n" ++
      (ascii " Tables: " ++ b ++ ascii " " ++ d ++ ascii "\n") ++
      ascii " Data descriptors:\n" ++
      h.datadesc.flatMap (fun c => ascii "  " ++ sixDigits c ++ ascii "\n") ++
      (ascii " " ++ codingName h ++ ascii " details" ++
        woven [ascii ": ed", ascii " t", ascii ":", ascii ":", ascii ":"] es ++ last) ++
      ascii " Variables:\n"

/-- A line with a value: the digits, the description in at most 64 characters, the unit, and
the value. -/
def ValueLine (E : Env) (desc : Varinfo → List Byte) (v : VarCore) (t : List Byte) : Prop :=
  ∃ x, v.formatFile E (ascii "(undef)") = .ok x ∧
    t = sixDigits v.code ++ ascii " " ++ (desc v.info).take 64 ++ ascii "(" ++ v.info.unit ++
      ascii "): " ++ x ++ ascii "\n"

/-- A variable, and after it its attributes, indented. -/
def VarLines (E : Env) (desc : Varinfo → List Byte) (v : Var) (t : List Byte) : Prop :=
  ∃ x as, ValueLine E desc v.toVarCore x ∧ List.Forall₂ (ValueLine E desc) v.attrs as ∧
    t = x ++ as.flatMap (List.replicate 11 32 ++ ·)

/-- The variables of subset number `i`, from number `j` on. -/
inductive SubsetLines (E : Env) (desc : Varinfo → List Byte) (i : Nat) :
    Nat → List Var → List Byte → Prop
  | nil {j : Nat} : SubsetLines E desc i j [] []
  | cons {j : Nat} {v : Var} {vs : List Var} {a b x t : List Byte} : IsDecimalNat a i →
      IsDecimalNat b j → VarLines E desc v x → SubsetLines E desc i (j + 1) vs t →
      SubsetLines E desc i j (v :: vs)
        (ascii "  [" ++ a ++ ascii "][" ++ b ++ ascii "] " ++ x ++ t)

/-- The subsets, from number `i` on. -/
inductive AllLines (E : Env) (desc : Varinfo → List Byte) :
    Nat → List (List Var) → List Byte → Prop
  | nil {i : Nat} : AllLines E desc i [] []
  | cons {i : Nat} {s : List Var} {ss : List (List Var)} {x t : List Byte} :
      SubsetLines E desc i 0 s x → AllLines E desc (i + 1) ss t →
      AllLines E desc i (s :: ss) (x ++ t)

/-- A message as a whole. -/
def DumpText (E : Env) (tables : Tables) (desc : Varinfo → List Byte)
    (a : Wrep.Head × List (List Var)) (t : List Byte) : Prop :=
  ∃ x y, HeadText tables a.1 a.2.length x ∧ AllLines E desc 0 a.2 y ∧ t = x ++ y

/-- What is written of an item of a message with its structure: a variable, an attribute, or that
there is none. -/
def ContentLines (E : Env) (desc : Varinfo → List Byte) : Content → List Byte → Prop
  | .var v, t => VarLines E desc v t
  | .attr v, t => ∃ x, ValueLine E desc v x ∧ t = ascii "(attr)" ++ x
  | .undef, t => t = ascii "(attr)(undef)"
  | .field v, t => ValueLine E desc v t
  | .noField n, t => ∃ k, IsDecimalNat k n ∧
      t = ascii "associated field with significance " ++ k ++ ascii " is not present"

/-- An item with the number of the subset, its position and what it is nested in. -/
def ItemLines (E : Env) (desc : Varinfo → List Byte) (x : Item) (t : List Byte) : Prop :=
  ∃ a b c, Filled 32 a (2, x.subset_no) ∧ Filled 32 b (2, x.var_pos) ∧
    ContentLines E desc x.content c ∧
    t = a ++ ascii "." ++ b ++ ascii " " ++ x.path.flatMap (fun c => sixDigits c ++ ascii "/") ++
      sixDigits x.code ++ ascii ": " ++ c

/-- The trace of decoding the subsets of a BUFR message. -/
def TraceText (C : Ctx) (desc : Varinfo → List Byte) (h : Header) (ss : List (List Var))
    (t : List Byte) : Prop :=
  if h.compression then
    ∃ cols : List (List Var), ss = subsetsOf ss.length cols ∧ (∀ vs ∈ cols, vs.length = ss.length) ∧
      Report (.ofColumns C.dtable.query C.btable.query desc C.E) 0 h.datadesc cols t
  else
    ∃ ts, t = ts.flatten ∧
      List.Forall₂ (Report (.ofVars C.dtable.query C.btable.query desc C.E) 0 h.datadesc) ss ts

end Spec

end Wreport
