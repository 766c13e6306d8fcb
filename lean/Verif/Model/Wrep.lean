import Verif.Model.Dump
import Verif.Model.Format
import Verif.Model.Listing
import Verif.Model.Process
import Verif.Model.Stream
import Verif.Model.TabledirPrint
import Verif.Model.Verbose

/-!
# The program `wrep`

Modelled code: `src/options.cc`, `src/options.h`, `src/input.cc`, `src/unparsable.cc`,
`src/iterate.cc`, `src/wrep.cc` and `src/output.cc`. Simplifications: what is written to
standard error is left out; reading and writing files gives no errors except that a file
cannot be opened; what has been printed when an exception ends the printing of a
message is a parameter, see `Machine.other`.
-/

namespace Wreport

namespace Wrep

/-- How a program goes: it ends, an exception leaves `main`, its behaviour is not
defined, or it never ends. -/
inductive Ran (α : Type) where
  | ended (a : α)
  | aborted
  | undefined
  | endless
deriving DecidableEq

namespace Ran

/-- Going on after a part that ended. -/
def andThen {α β : Type} (r : Ran α) (f : α → Ran β) : Ran β :=
  match r with
  | ended a => f a
  | aborted => aborted
  | undefined => undefined
  | endless => endless

end Ran

/-- `enum Action`, `src/options.h` lines 33-45. -/
inductive Action where
  | dump | dumpStructure | dumpDds | trace | printVars | info | unparsable | tables | features
  | listTables | help
deriving DecidableEq

/-- `struct Options`, `src/options.h` lines 48-68. -/
structure Options where
  crex : Bool
  verbose : Bool
  action : Action
  varcodes : List Varcode
deriving DecidableEq

/-- The constructor of `Options`, `src/options.h` lines 62-65. -/
def Options.new : Options := ⟨false, false, .dump, []⟩

/-- `strchr(str, ',')` and the step past the comma, `src/options.cc` lines 34-35. -/
def afterComma : List Byte → Option (List Byte)
  | [] => none
  | c :: s => if c = 44 then some s else afterComma s

/-- The loop of `Options::init_varcodes`, `src/options.cc` lines 31-36. Each turn
leaves a shorter text, so that as many turns as characters are enough. -/
def varcodeLoop : Nat → List Byte → Res (List Varcode)
  | 0, _ => .ok []
  | n + 1, s =>
    if s.length < 6 then .ok []
    else do
      let c ← varcode_parse s
      match afterComma s with
      | none => return [c]
      | some s => do
        let cs ← varcodeLoop n s
        return c :: cs

/-- `Options::init_varcodes`, `src/options.cc` lines 28-37; `none` is a null pointer. -/
def init_varcodes : Option (List Byte) → Res (List Varcode)
  | none => .ok []
  | some s => varcodeLoop s.length s

/-- The string of options `"cdsDpivtUTFLh:"`, `src/wrep.cc` line 92: whether an option
has an argument. -/
def shortOption (c : Byte) : Option Bool :=
  if c = 104 then some true
  else if c ∈ ascii "cdsDpivtUTFL" then some false
  else none

/-- `long_options`, `src/wrep.cc` lines 64-81: names, whether they have an argument, and
letters. -/
def longOptions : List (List Byte × Bool × Byte) :=
  [(ascii "crex", false, 99), (ascii "dump", false, 100), (ascii "trace", false, 116),
    (ascii "structure", false, 115), (ascii "dds", false, 68), (ascii "print", true, 112),
    (ascii "info", false, 105), (ascii "verbose", false, 118), (ascii "unparsable", false, 85),
    (ascii "tables", false, 84), (ascii "features", false, 70), (ascii "list-tables", false, 76),
    (ascii "help", false, 104)]

/-- What a call of `getopt_long` gives: the letter, a question mark for what is not
understood, and `optarg`. -/
abbrev Event := Byte × Option (List Byte)

/-- The letters of an argument that begins with one dash: what they give, and the letter
that takes the next argument. -/
def cluster : List Byte → List Event × Option Byte
  | [] => ([], none)
  | c :: cs => match shortOption c with
    | none => ((63, none) :: (cluster cs).1, (cluster cs).2)
    | some false => ((c, none) :: (cluster cs).1, (cluster cs).2)
    | some true => if cs = [] then ([], some c) else ([(c, some cs)], none)

/-- The part before the first equals sign, and the part after it. -/
def splitValue : List Byte → List Byte × Option (List Byte)
  | [] => ([], none)
  | c :: s => if c = 61 then ([], some s) else (c :: (splitValue s).1, (splitValue s).2)

/-- The long option meant by a name: the one with that name, or else the only one whose
name begins so. -/
def findLong (name : List Byte) : Option (Bool × Byte) :=
  match longOptions.lookup name with
  | some o => some o
  | none => match longOptions.filter (fun o => name.isPrefixOf o.1) with
    | [o] => some o.2
    | _ => none

/-- An argument that begins with two dashes. -/
def longOption (s : List Byte) : List Event × Option Byte :=
  match findLong (splitValue s).1 with
  | none => ([(63, none)], none)
  | some (false, c) => match (splitValue s).2 with
    | none => ([(c, none)], none)
    | some _ => ([(63, none)], none)
  | some (true, c) => match (splitValue s).2 with
    | none => ([], some c)
    | some v => ([(c, some v)], none)

/-- What an argument is. -/
inductive Arg where
  | file
  | stop
  | options (es : List Event) (next : Option Byte)

/-- Telling options from file names. -/
def classify : List Byte → Arg
  | 45 :: 45 :: [] => .stop
  | 45 :: 45 :: s => .options (longOption s).1 (longOption s).2
  | 45 :: c :: s => .options (cluster (c :: s)).1 (cluster (c :: s)).2
  | _ => .file

/-- The calls of `getopt_long` in `main`, `src/wrep.cc` lines 86-100, as the C library of
GNU does them, which moves file names after the options: what they give until they give
−1, and the arguments that remain. `pending` is an option whose argument comes next. -/
def getopt (pending : Option Byte) : List (List Byte) → List Event × List (List Byte)
  | [] => match pending with
    | none => ([], [])
    | some _ => ([(63, none)], [])
  | a :: args => match pending with
    | some c => ((c, some a) :: (getopt none args).1, (getopt none args).2)
    | none => match classify a with
      | .file => ((getopt none args).1, a :: (getopt none args).2)
      | .stop => ([], args)
      | .options es next => (es ++ (getopt next args).1, (getopt next args).2)

/-- One turn of the loop on options, `src/wrep.cc` lines 102-124; `none` is an unknown
option. -/
def option (o : Options) (e : Event) : Res (Option Options) :=
  if e.1 = 99 then .ok (some { o with crex := true })
  else if e.1 = 118 then .ok (some { o with verbose := true })
  else if e.1 = 100 then .ok (some { o with action := .dump })
  else if e.1 = 116 then .ok (some { o with action := .trace })
  else if e.1 = 115 then .ok (some { o with action := .dumpStructure })
  else if e.1 = 68 then .ok (some { o with action := .dumpDds })
  else if e.1 = 112 then do
    let cs ← init_varcodes e.2
    return some { o with action := .printVars, varcodes := cs }
  else if e.1 = 105 then .ok (some { o with action := .info })
  else if e.1 = 85 then .ok (some { o with action := .unparsable })
  else if e.1 = 84 then .ok (some { o with action := .tables })
  else if e.1 = 70 then .ok (some { o with action := .features })
  else if e.1 = 76 then .ok (some { o with action := .listTables })
  else if e.1 = 104 then .ok (some { o with action := .help })
  else .ok none

/-- The loop on options, `src/wrep.cc` lines 86-125. -/
def options (o : Options) : List Event → Res (Option Options)
  | [] => .ok (some o)
  | e :: es => do
    match ← option o e with
    | none => return none
    | some o => options o es

/-- Where the program runs: what loading of tables depends on, what tells the directories of
tables, the global options of variables, the stack and the time there is, and the files
that can be opened. `desc` are the descriptions of elements, which are not in `Varinfo`,
for the table with a name. `other` is what has been printed about a message when an
exception ends the printing, and `help` the help text. -/
structure Machine where
  S : System
  environ : Tabledir.Environ
  O : Opts
  depth : Nat
  fuel : Nat
  inputs : List Byte → Option (List Byte)
  desc : List Byte → Varinfo → List Byte
  other : Action → List Byte → List Byte → List Byte
  help : List Byte

/-- The directories of tables. -/
def Machine.dirs (M : Machine) : List (List Byte) := (Tabledir.Tabledirs.get M.environ).dirs

/-- `BufrBulletin::decode` or `CrexBulletin::decode` as the handlers call them: what
decoding gives are the subsets. -/
def decode (M : Machine) (crex : Bool) (p : Process) (raw : List Byte) :
    Process × Option (Res (List (List Var))) :=
  if crex then
    let r := p.decodeCrex M.S M.O M.depth M.fuel raw
    (r.1, r.2.map fun x => x >>= fun y => .ok y.2)
  else
    let r := p.decodeBufr M.S M.O false M.depth raw
    (r.1, some (r.2 >>= fun y => .ok y.2.1))

/-- The handlers of `CopyUnparsable`, `src/unparsable.cc` lines 30-50, after decoding:
what they write. -/
def copyUnparsable (raw : List Byte) : Option (Res (List (List Var))) → Ran (List Byte)
  | none => .endless
  | some .ub => .undefined
  | some (.ok _) => .ended []
  | some (.err _) => .ended raw

/-- `PrintVars::find_varcode`, `src/iterate.cc` lines 32-38. -/
def find_varcode (subset : List Var) (code : Varcode) : Option Var :=
  match subset with
  | [] => none
  | v :: vs => if v.code = code then some v else find_varcode vs code

/-- The loop on codes of `PrintVars::handle`, `src/iterate.cc` lines 46-54, what it has
written, and whether `format` has thrown; `fprintf` writes the text up to a NUL. -/
def printCells (E : Env) (subset : List Var) : List Varcode → List Byte × Res Unit
  | [] => ([], .ok ())
  | c :: cs => match find_varcode subset c with
    | none => printCells E subset cs
    | some v => match v.toVarCore.format E [] with
      | .err e => ([], .err e)
      | .ub => ([], .ub)
      | .ok x => (ascii "\t" ++ x ++ (printCells E subset cs).1, (printCells E subset cs).2)

/-- `PrintVars::handle`, `src/iterate.cc` lines 41-57, from subset number `n` on. -/
def printVars (E : Env) (fname : List Byte) (codes : List Varcode) :
    (n : Nat) → List (List Var) → List Byte × Res Unit
  | _, [] => ([], .ok ())
  | n, s :: ss =>
    let cells := printCells E s codes
    let start := fname ++ ascii ":" ++ Crex.decDigits (n + 1) ++ ascii ":" ++ cells.1
    match cells.2 with
    | .err e => (start, .err e)
    | .ub => (start, .ub)
    | .ok () => (start ++ ascii "\n" ++ (printVars E fname codes (n + 1) ss).1,
        (printVars E fname codes (n + 1) ss).2)

/-- `BulletinFullHandler::handle_raw_bufr` and `handle_raw_crex`, `src/options.cc` lines
67-95, after decoding, with `PrintVars::handle`: exceptions are reported, what has been
written stays. -/
def printSelected (M : Machine) (fname : List Byte) (codes : List Varcode) :
    Option (Res (List (List Var))) → Ran (List Byte)
  | none => .endless
  | some .ub => .undefined
  | some (.err _) => .ended []
  | some (.ok subsets) => match (printVars M.S.E fname codes 0 subsets).2 with
    | .ub => .undefined
    | _ => .ended (printVars M.S.E fname codes 0 subsets).1

/-- A bulletin of which the header has been read. -/
inductive Head where
  | bufr (h : Header)
  | crex (h : Crex.Header)
deriving DecidableEq

/-- `datadesc` of a bulletin. -/
def Head.datadesc : Head → List Varcode
  | .bufr h => h.datadesc
  | .crex h => h.datadesc

/-- What `BulletinHeadHandler::handle_raw_bufr` and `handle_raw_crex` decode,
`src/options.cc` lines 39-65: of a BUFR message the header, of a CREX message all. The
tables are those that have been loaded, without what interpreters have kept in them. -/
def readHead (M : Machine) (crex : Bool) (p : Process) (raw : List Byte) :
    Process × Option (Res (Head × Ctx × TableCaches)) :=
  if crex then
    let r := p.decodeCrex M.S M.O M.depth M.fuel raw
    (r.1, r.2.map fun x => do
      let y ← x
      let t ← Process.context M.S M.O (p.load_crex M.S .new (Process.crexId y.1))
      return (.crex y.1, t))
  else match BufrDec.decode_header raw with
    | .ok h =>
      let r := p.load_bufr M.S .new (Process.bufrId h.header)
      (r.1, some do
        let t ← Process.context M.S M.O r
        return (.bufr h.header, t))
    | .err e => (p, some (.err e))
    | .ub => (p, some .ub)

/-- `%zd` and `%d` of a number that is not negative, after a tabulator. -/
def cell (n : Nat) : List Byte := ascii "\t" ++ Crex.decDigits n

/-- The titles of `PrintTables::handle`, `src/output.cc` lines 95-98 and 107-110; `%-*s`
fills with spaces on the right. -/
def tablesTitle (fname : List Byte) : Head → List Byte
  | .bufr _ => ascii "Filename" ++ List.replicate (fname.length - 8) 32 ++
      ascii "\tOffset\tCentre\tSubc.\tMaster\tLocal\n"
  | .crex _ => ascii "Filename\tOffset\tMaster\tEdition\tTable\n"

/-- The row that `PrintTables::handle` writes, `src/output.cc` lines 100-103 and
112-114. -/
def tablesRow (fname : List Byte) (offset : Nat) : Head → List Byte
  | .bufr h => fname ++ cell offset ++ cell h.originating_centre.toNat ++
      cell h.originating_subcentre.toNat ++ cell h.master_table_version_number.toNat ++
      cell h.master_table_version_number_local.toNat ++ ascii "\n"
  | .crex h => fname ++ cell offset ++ cell h.master_table_number.toNat ++
      cell h.edition_number.toNat ++ cell h.master_table_version_number.toNat ++ ascii "\n"

/-- `PrintTables::handle`, `src/output.cc` lines 91-122, after decoding; the flag is
`header_printed`. -/
def printTables (fname : List Byte) (offset : Nat) (header_printed : Bool) :
    Option (Res (Head × Ctx × TableCaches)) → Ran (Bool × List Byte)
  | none => .endless
  | some .ub => .undefined
  | some (.err _) => .ended (header_printed, [])
  | some (.ok (h, _)) => .ended (true,
      (if header_printed then [] else tablesTitle fname h) ++ tablesRow fname offset h)

/-- The loop on features of `PrintFeatures::handle`, `src/output.cc` lines 135-142; the
flag is `first`. -/
def featureList : Bool → List (List Byte) → List Byte
  | _, [] => []
  | true, f :: fs => f ++ featureList false fs
  | false, f :: fs => ascii "," ++ f ++ featureList false fs

/-- `PrintFeatures::handle`, `src/output.cc` lines 130-144, after decoding. -/
def printFeatures (M : Machine) (fname : List Byte) (offset : Nat) :
    Option (Res (Head × Ctx × TableCaches)) → Ran (List Byte)
  | none => .endless
  | some .ub => .undefined
  | some (.err _) => .ended []
  | some (.ok (h, C, caches)) => match Scan.features C M.depth h.datadesc caches with
    | .ub => .undefined
    | .err _ => .ended []
    | .ok fs => .ended (fname ++ ascii ":" ++ Crex.decDigits offset ++ ascii ":" ++
        featureList true fs ++ ascii "\n")

/-- `PrintTrace::handle`, `src/output.cc` line 57, after `handle_raw_crex` of
`BulletinFullHandler` has decoded. -/
def traceCrex : Option (Res (List (List Var))) → Ran (List Byte)
  | none => .endless
  | some .ub => .undefined
  | some _ => .ended []

/-- The tables of a bulletin of which the header has been read, as they have been
loaded. -/
def loaded (M : Machine) (p : Process) : Head → Process × Tables × Res Unit
  | .bufr h => p.load_bufr M.S .new (Process.bufrId h)
  | .crex h => p.load_crex M.S .new (Process.crexId h)

/-- `tables.btable->path()`. -/
def tablePath (t : Tables) : List Byte :=
  match t.btable with
  | some b => b.1
  | none => []

/-- The bulletin that has been decoded. The decoder of CREX leaves the other members as
`Bulletin.newCrex` has them. -/
def bulletin (fname : List Byte) (offset : Nat) (t : Tables) (subsets : List (List Var)) :
    Head → Bulletin
  | .bufr h =>
    { fname := fname
      offset := offset
      master_table_number := h.master_table_number
      data_category := h.data_category
      data_subcategory := h.data_subcategory
      data_subcategory_local := h.data_subcategory_local
      originating_centre := h.originating_centre
      originating_subcentre := h.originating_subcentre
      update_sequence_number := h.update_sequence_number
      rep_year := h.rep_year
      rep_month := h.rep_month
      rep_day := h.rep_day
      rep_hour := h.rep_hour
      rep_minute := h.rep_minute
      rep_second := h.rep_second
      tables := t
      datadesc := h.datadesc
      subsets := subsets
      details := .bufr ⟨h.edition_number, h.master_table_version_number,
        h.master_table_version_number_local, h.compression, h.optional_section⟩ }
  | .crex h =>
    { Bulletin.newCrex with
      fname := fname
      offset := offset
      master_table_number := h.master_table_number
      data_category := h.data_category
      data_subcategory := h.data_subcategory
      data_subcategory_local := h.data_subcategory_local
      tables := t
      datadesc := h.datadesc
      subsets := subsets
      details := .crex ⟨h.edition_number, h.master_table_version_number,
        h.master_table_version_number_bufr, 0, h.has_check_digit⟩ }

/-- What `BulletinFullHandler::handle_raw_bufr` and `handle_raw_crex` decode,
`src/options.cc` lines 67-95: the header and the subsets. -/
def readWhole (M : Machine) (crex : Bool) (p : Process) (raw : List Byte) :
    Process × Option (Res (Head × List (List Var))) :=
  if crex then
    let r := p.decodeCrex M.S M.O M.depth M.fuel raw
    (r.1, r.2.map fun x => x >>= fun y => .ok (.crex y.1, y.2))
  else
    let r := p.decodeBufr M.S M.O false M.depth raw
    (r.1, some (r.2 >>= fun y => .ok (.bufr y.1.header, y.2.1)))

/-- What has been printed when a handler ends; it catches exceptions, `src/options.cc`
lines 48-50, 62-64, 76-78 and 90-92 and `src/output.cc` lines 53-55. -/
def printed (M : Machine) (a : Action) (fname raw : List Byte) : Res (List Byte) → Ran (List Byte)
  | .ok x => .ended x
  | .err _ => .ended (M.other a fname raw)
  | .ub => .undefined

/-- `PrintContents::handle`, `src/output.cc` lines 33-36, after decoding. -/
def printContents (M : Machine) (p : Process) (fname raw : List Byte) (offset : Nat) :
    Option (Res (Head × List (List Var))) → Ran (List Byte)
  | none => .endless
  | some .ub => .undefined
  | some (.err _) => .ended []
  | some (.ok (h, subsets)) =>
    let t := (loaded M p h).2.1
    printed M .dump fname raw
      (Dump.print M.S.E (M.desc (tablePath t)) (bulletin fname offset t subsets h))

/-- A number with `%2u`. -/
def fmt2 (n : Nat) : List Byte := List.replicate (2 - (Crex.decDigits n).length) 32 ++ Crex.decDigits n

/-- What follows the context of an item that `DDSPrinter` prints,
`wreport/bulletin/dds-printer.cc` lines 43-93; attributes have no attributes. -/
def contentText (E : Env) (desc : Varinfo → List Byte) : Content → Res (List Byte)
  | .var v => Dump.printVar E desc v
  | .attr v => do
    let x ← Dump.printOne E desc v
    return ascii "(attr)" ++ x
  | .undef => .ok (ascii "(attr)(undef)")
  | .field v => Dump.printOne E desc v
  | .noField n => .ok (ascii "associated field with significance " ++ Crex.decDigits n ++
      ascii " is not present")

/-- An item that `DDSPrinter` prints, `print_context` being
`wreport/bulletin/dds-printer.cc` lines 20-27. -/
def itemText (E : Env) (desc : Varinfo → List Byte) (x : Item) : Res (List Byte) := do
  let t ← contentText E desc x.content
  return fmt2 x.subset_no ++ ascii "." ++ fmt2 x.var_pos ++ ascii " " ++
    x.path.flatMap (fun c => Printer.digits c ++ ascii "/") ++ Printer.digits x.code ++
    ascii ": " ++ t

/-- The items that `DDSPrinter` prints, one after the other. -/
def itemsText (E : Env) (desc : Varinfo → List Byte) : List Item → Res (List Byte)
  | [] => .ok []
  | x :: xs => do
    let t ← itemText E desc x
    let ts ← itemsText E desc xs
    return t ++ ts

/-- `Bulletin::print_structured`, `wreport/bulletin.cc` lines 118-141, of the bulletin that
has been decoded; the tables are those that have been loaded, without what interpreters
have kept in them. -/
def structureText (M : Machine) (p : Process) (fname : List Byte) (offset : Nat) (h : Head)
    (subsets : List (List Var)) : Res (List Byte) := do
  let t := (loaded M p h).2.1
  let c ← Process.context M.S M.O (loaded M p h)
  let items ← DDSPrinter.printSubsets c.1 M.depth h.datadesc 0 subsets c.2
  let x ← itemsText M.S.E (M.desc (tablePath t)) items
  return Dump.head (bulletin fname offset t subsets h) ++ x

/-- `PrintStructure::handle`, `src/output.cc` lines 66-69, after decoding. -/
def printStructure (M : Machine) (p : Process) (fname raw : List Byte) (offset : Nat) :
    Option (Res (Head × List (List Var))) → Ran (List Byte)
  | none => .endless
  | some .ub => .undefined
  | some (.err _) => .ended []
  | some (.ok (h, subsets)) =>
    printed M .dumpStructure fname raw (structureText M p fname offset h subsets)

/-- What the table says about elements. -/
def texts (desc : Varinfo → List Byte) (path : List Byte) (C : Ctx) : Texts where
  desc := fun c => match C.btable.query c with
    | .ok info => desc info
    | _ => []
  unit := fun c => match C.btable.query c with
    | .ok info => info.unit
    | _ => []
  path := path

/-- `PrintDDS::handle`, `src/output.cc` lines 77-80, after decoding. -/
def printDds (M : Machine) (p : Process) (fname raw : List Byte) :
    Option (Res (Head × Ctx × TableCaches)) → Ran (List Byte)
  | none => .endless
  | some .ub => .undefined
  | some (.err _) => .ended []
  | some (.ok (h, C, caches)) =>
    let path := tablePath (loaded M p h).2.1
    printed M .dumpDds fname raw
      (Printer.print_datadesc C (texts (M.desc path) path C) M.depth h.datadesc 0 caches)

/-- What `BufrBulletin::decode_verbose` prints, called in `PrintTrace::handle_raw_bufr`,
`src/output.cc` lines 43-56; what decoding a header that is refused prints is
nothing. -/
def traceText (M : Machine) (p : Process) (raw : List Byte) : Res (List Byte) :=
  match BufrDec.decode_header raw with
  | .err _ => .ok []
  | .ub => .ub
  | .ok h => do
    let path := tablePath (loaded M p (.bufr h.header)).2.1
    let r ← Verbose.decodeMessage
      (fun h => Process.context M.S M.O (p.load_bufr M.S .new (Process.bufrId h)))
      ⟨M.desc path, path⟩ false M.depth raw
    return r.2.1.2

/-- The state of the program: that of the library, and `PrintTables::header_printed`,
`src/output.cc` line 87. -/
structure Run where
  process : Process
  header_printed : Bool

/-- What the handler that `main` chooses does with a message, `src/wrep.cc` lines
132-152. -/
def handle (M : Machine) (o : Options) (fname : List Byte) (s : Run) (m : Stream.Msg) :
    Ran (Run × List Byte) :=
  let d := decode M o.crex s.process m.1
  let h := readHead M o.crex s.process m.1
  let w := readWhole M o.crex s.process m.1
  match o.action with
  | .dump => (printContents M s.process fname m.1 m.2 w.2).andThen fun out =>
      .ended (⟨w.1, s.header_printed⟩, out)
  | .dumpStructure => (printStructure M s.process fname m.1 m.2 w.2).andThen fun out =>
      .ended (⟨w.1, s.header_printed⟩, out)
  | .dumpDds => (printDds M s.process fname m.1 h.2).andThen fun out =>
      .ended (⟨h.1, s.header_printed⟩, out)
  | .unparsable => (copyUnparsable m.1 d.2).andThen fun out =>
      .ended (⟨d.1, s.header_printed⟩, out)
  | .printVars => (printSelected M fname o.varcodes d.2).andThen fun out =>
      .ended (⟨d.1, s.header_printed⟩, out)
  | .tables => (printTables fname m.2 s.header_printed h.2).andThen fun r =>
      .ended (⟨h.1, r.1⟩, r.2)
  | .features => (printFeatures M fname m.2 h.2).andThen fun out =>
      .ended (⟨h.1, s.header_printed⟩, out)
  | .trace => if o.crex then (traceCrex d.2).andThen fun out =>
        .ended (⟨d.1, s.header_printed⟩, out)
      else (printed M .trace fname m.1 (traceText M s.process m.1)).andThen fun out =>
        .ended (⟨d.1, s.header_printed⟩, out)
  | .info | .listTables | .help => .ended (s, [])

/-- The loops of `read_bufr_raw` and `read_crex_raw`, `src/input.cc` lines 51-52 and
94-95. An exception ends them and is reported, `src/wrep.cc` lines 170-174. Each turn
takes some of the file, so that one turn more than it has bytes is enough. -/
def readLoop (M : Machine) (o : Options) (fname : List Byte) :
    Nat → Run → Stream → Ran (Run × List Byte)
  | 0, _, _ => .endless
  | n + 1, p, s =>
    match if o.crex then s.readCrex else s.readBufr with
    | .err _ => .ended (p, [])
    | .ub => .undefined
    | .ok none => .ended (p, [])
    | .ok (some (m, s)) =>
      (handle M o fname p m).andThen fun r =>
        (readLoop M o fname n r.1 s).andThen fun r' => .ended (r'.1, r.2 ++ r'.2)

/-- The loop on files, `src/wrep.cc` lines 166-175; a file that cannot be opened is
reported. -/
def readFiles (M : Machine) (o : Options) : Run → List (List Byte) → Ran (List Byte)
  | _, [] => .ended []
  | p, f :: fs => match M.inputs f with
    | none => readFiles M o p fs
    | some data =>
      (readLoop M o f (data.length + 1) p ⟨data, 0⟩).andThen fun r =>
        (readFiles M o r.1 fs).andThen fun out => .ended (r.2 ++ out)

/-- `do_info`, `src/info.cc` lines 27-33. To print a null pointer with `%s` is undefined. -/
def do_info (e : Tabledir.Environ) : Ran (List Byte) :=
  match e.extra, e.tables with
  | some x, some t => .ended (
      ascii "Tables search paths (tried in order):\n" ++
      ascii "Extra tables directory: " ++ x ++ ascii " (env var WREPORT_EXTRA_TABLES)\n" ++
      ascii "System tables directory: " ++ t ++ ascii " (env var WREPORT_TABLES)\n" ++
      ascii "Compiled-in default tables directory: " ++ e.table_dir ++ ascii "\n")
  | _, _ => .undefined

/-- `main`, `src/wrep.cc` lines 61-184: what is written to standard output, and the exit
status. -/
def main (M : Machine) (args : List (List Byte)) : Ran (List Byte × Nat) :=
  let g := getopt none args
  match options .new g.1 with
  | .err _ => .aborted
  | .ub => .undefined
  | .ok none => .ended ([], 1)
  | .ok (some o) =>
    if o.action = .help then .ended (M.help, 0)
    else if o.action = .info then (do_info M.environ).andThen fun out => .ended (out, 0)
    else if o.action = .listTables then .ended ((Tabledir.Tabledirs.get M.environ).print M.S.names, 0)
    else if g.2 = [] then .ended ([], 1)
    else (readFiles M o ⟨.fresh M.dirs, false⟩ g.2).andThen fun out => .ended (out, 0)

end Wrep

end Wreport
