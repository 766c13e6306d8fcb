import Verif.Model.Wrep
import Verif.Spec.Format
import Verif.Spec.Stream
import Verif.Spec.Varcode

/-! # What the program `wrep` is for -/

namespace Wreport

/-- The reader that an option chooses, `src/wrep.cc` lines 161-163. -/
def Stream.readOf (crex : Bool) (s : Stream) : Res (Option (Stream.Msg × Stream)) :=
  if crex then s.readCrex else s.readBufr

namespace Spec

/-- The messages of a stream up to its end, or up to where one cannot be read. -/
inductive ReadsUpTo (read : Stream → Res (Option (Stream.Msg × Stream))) :
    Stream → List Stream.Msg → Prop
  | done (s : Stream) : read s = .ok none → ReadsUpTo read s []
  | failed (s : Stream) (e : Err) : read s = .err e → ReadsUpTo read s []
  | more (s s' : Stream) (m : Stream.Msg) (ms : List Stream.Msg) : read s = .ok (some (m, s')) →
      ReadsUpTo read s' ms → ReadsUpTo read s (m :: ms)

/-- The messages of a file; one that cannot be opened has none. -/
def FileHolds (read : Stream → Res (Option (Stream.Msg × Stream))) (file : Option (List Byte))
    (ms : List Stream.Msg) : Prop :=
  match file with
  | none => ms = []
  | some data => ReadsUpTo read ⟨data, 0⟩ ms

/-- Decoding that ends with an error. -/
def isRefused {α : Type} : Option (Res α) → Bool
  | some (.err _) => true
  | _ => false

/-- Decoding that ends, with data or with an error. -/
def Settled {α : Type} (r : Option (Res α)) : Prop := (∃ x, r = some (.ok x)) ∨ ∃ e, r = some (.err e)

/-- The cells of a row: for each code, the text of the first variable with that code; none
if there is no such variable. -/
inductive Cells (E : Env) (subset : List Var) : List Varcode → List (List Byte) → Prop
  | nil : Cells E subset [] []
  | absent {c : Varcode} {cs : List Varcode} {xs : List (List Byte)} :
      (∀ v ∈ subset, v.code ≠ c) → Cells E subset cs xs → Cells E subset (c :: cs) xs
  | found {c : Varcode} {cs : List Varcode} {xs : List (List Byte)} {pre post : List Var} {v : Var}
      {x : List Byte} : subset = pre ++ v :: post → (∀ w ∈ pre, w.code ≠ c) → v.code = c →
      v.toVarCore.format E [] = .ok x → Cells E subset cs xs → Cells E subset (c :: cs) (x :: xs)

/-- A row: the name of the file, the number of the subset, and the cells. -/
def rowText (fname k : List Byte) (cells : List (List Byte)) : List Byte :=
  fname ++ ascii ":" ++ k ++ ascii ":" ++ cells.flatMap (ascii "\t" ++ ·) ++ ascii "\n"

/-- The rows about a message, from subset number `n` on. -/
inductive Rows (E : Env) (fname : List Byte) (codes : List Varcode) :
    Nat → List (List Var) → List Byte → Prop
  | nil {n : Nat} : Rows E fname codes n [] []
  | cons {n : Nat} {s : List Var} {ss : List (List Var)} {k t : List Byte}
      {cells : List (List Byte)} : IsDecimalNat k n → Cells E s codes cells →
      Rows E fname codes (n + 1) ss t →
      Rows E fname codes n (s :: ss) (rowText fname k cells ++ t)

/-- What is written about a message of a file that has been decoded to `r`: the rows of its
subsets, or nothing if it has been refused. -/
def Listed (E : Env) (fname : List Byte) (codes : List Varcode) (r : Option (Res (List (List Var))))
    (t : List Byte) : Prop :=
  (∃ e, r = some (.err e) ∧ t = []) ∨ ∃ ss, r = some (.ok ss) ∧ Rows E fname codes 1 ss t

/-- The messages of files, each with the name of its file. -/
def named : List (List Byte) → List (List Stream.Msg) → List (List Byte × Stream.Msg)
  | f :: fs, ms :: mss => ms.map (f, ·) ++ named fs mss
  | _, _ => []

/-- The options without an argument that the help text lists, `src/wrep.cc` lines 37-53:
their letters, their names, and what they ask for. -/
def documented : List (Byte × List Byte × (Wrep.Options → Wrep.Options)) :=
  [(118, ascii "verbose", fun o => { o with verbose := true }),
    (99, ascii "crex", fun o => { o with crex := true }),
    (104, ascii "help", fun o => { o with action := .help }),
    (105, ascii "info", fun o => { o with action := .info }),
    (100, ascii "dump", fun o => { o with action := .dump }),
    (116, ascii "trace", fun o => { o with action := .trace }),
    (115, ascii "structure", fun o => { o with action := .dumpStructure }),
    (68, ascii "dds", fun o => { o with action := .dumpDds }),
    (85, ascii "unparsable", fun o => { o with action := .unparsable }),
    (84, ascii "tables", fun o => { o with action := .tables }),
    (70, ascii "features", fun o => { o with action := .features }),
    (76, ascii "list-tables", fun o => { o with action := .listTables })]

/-- A comma-separated list of descriptors. -/
inductive CodeList : List Byte → List Varcode → Prop
  | one {s : List Byte} {f x y : Nat} : IsDescriptorText s f x y → CodeList s [descriptorCode f x y]
  | more {s t : List Byte} {f x y : Nat} {cs : List Varcode} : IsDescriptorText s f x y →
      CodeList t cs → CodeList (s ++ ascii "," ++ t) (descriptorCode f x y :: cs)

/-- A command line as the help text describes it, with options that begin with two dashes
or, but for `-h` and `-p`, one: what it asks for, when `o` has been asked for before, and
the files it names. -/
inductive Command : List (List Byte) → Wrep.Options → Wrep.Options → List (List Byte) → Prop
  | nil {o : Wrep.Options} : Command [] o o []
  | letter {e : Byte × List Byte × (Wrep.Options → Wrep.Options)} {args files : List (List Byte)}
      {o o' : Wrep.Options} : e ∈ documented → e.1 ≠ 104 → Command args (e.2.2 o) o' files →
      Command ([45, e.1] :: args) o o' files
  | name {e : Byte × List Byte × (Wrep.Options → Wrep.Options)} {args files : List (List Byte)}
      {o o' : Wrep.Options} : e ∈ documented → Command args (e.2.2 o) o' files →
      Command ((ascii "--" ++ e.2.1) :: args) o o' files
  | print {s : List Byte} {cs : List Varcode} {args files : List (List Byte)}
      {o o' : Wrep.Options} : CodeList s cs →
      Command args { o with action := .printVars, varcodes := cs } o' files →
      Command ((ascii "--print=" ++ s) :: args) o o' files
  | printNext {s : List Byte} {cs : List Varcode} {args files : List (List Byte)}
      {o o' : Wrep.Options} : CodeList s cs →
      Command args { o with action := .printVars, varcodes := cs } o' files →
      Command (ascii "--print" :: s :: args) o o' files
  | file {f : List Byte} {args files : List (List Byte)} {o o' : Wrep.Options} :
      f.head? ≠ some 45 → Command args o o' files → Command (f :: args) o o' (f :: files)
  | stop {o : Wrep.Options} {files : List (List Byte)} : Command (ascii "--" :: files) o o files

end Spec

end Wreport
