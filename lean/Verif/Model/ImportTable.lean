import Verif.Model.Python
import Verif.Model.Listing
import Mathlib.Data.List.Sort

/-!
# Model: making table files from those of the WMO

The script `src/wrep-importtable`. Texts are lists of characters. Reading the zip archive,
XML and the text of numbers is left out: what is modelled starts from the dictionaries made
from the XML elements, with numbers already in place of their text. Files are written in
UTF-8, and how much of a file is left behind by an exception is not modelled.
-/

namespace Wreport

namespace Import

/-- `str.upper`, for letters of ASCII only. -/
def upper (s : List Char) : List Char := s.map Char.toUpper

/-- `normalise_bufr_unit`, `src/wrep-importtable` lines 21-34. -/
def normalise_bufr_unit (unit : List Char) : List Char :=
  if upper unit = "CCITT IA5".toList then "CCITTIA5".toList else upper unit

/-- `normalise_crex_unit`, `src/wrep-importtable` lines 22 and 37-42. -/
def normalise_crex_unit (unit : List Char) : List Char := upper unit

/-- `%-n.ns`: cut to `n` characters, then filled up with blanks. -/
def field (n : Nat) (s : List Char) : List Byte :=
  Py.encode (s.take n ++ List.replicate (n - s.length) ' ')

/-- `%nd`. -/
def num (n : Nat) (i : Int) : List Byte :=
  List.replicate (n - (Printer.dec i).length) 32 ++ Printer.dec i

/-- Order of texts by code points. -/
def leText : List Char → List Char → Bool
  | [], _ => true
  | _ :: _, [] => false
  | a :: s, b :: t => decide (a.toNat < b.toNat) || (decide (a = b) && leText s t)

/-- An element of a B table, made by `TableB.parse_xml`, `src/wrep-importtable` lines
80-96. Keys that are not always looked up may be missing. -/
structure BEntry where
  FXY : List Char
  ElementName_en : Option (List Char)
  ElementName_E : Option (List Char)
  BUFR_Unit : List Char
  BUFR_Scale : Int
  BUFR_ReferenceValue : Int
  BUFR_DataWidth_Bits : Int
  CREX_Unit : Option (List Char)
  CREX_Scale : Option Int
  CREX_DataWidth_Char : Option Int

/-- `TableB.parse`, `src/wrep-importtable` lines 98-99. -/
def sortB (entries : List BEntry) : List BEntry :=
  entries.insertionSort fun a b => leText a.FXY b.FXY

/-- The name of an element, `src/wrep-importtable` lines 107-109; nothing if both are
missing, which raises `KeyError`. -/
def elName (e : BEntry) : Option (List Char) :=
  match e.ElementName_en with
  | some n => some n
  | none => e.ElementName_E

/-- One line with its newline, `src/wrep-importtable` lines 106-128 and 137. -/
def bLine (e : BEntry) : Option (List Byte) :=
  (elName e).map fun el_name =>
    let bufr := 32 :: field 6 e.FXY ++ 32 :: field 64 el_name ++
      32 :: field 24 (normalise_bufr_unit e.BUFR_Unit) ++ 32 :: num 3 e.BUFR_Scale ++
      32 :: num 12 e.BUFR_ReferenceValue ++ 32 :: num 3 e.BUFR_DataWidth_Bits
    match e.CREX_Unit, e.CREX_Scale, e.CREX_DataWidth_Char with
    | some u, some s, some w =>
      bufr ++ 32 :: field 24 (normalise_crex_unit u) ++ 32 :: num 2 s ++ 32 :: num 9 w ++ [10]
    | _, _, _ => bufr ++ [10]

/-- `TableB.make_xml_b_lines` and `TableB.write_files`, `src/wrep-importtable` lines
101-141: what is written to both files. -/
def bFile (entries : List BEntry) : Option (List Byte) :=
  ((sortB entries).mapM bLine).map List.flatten

/-- `{:0nd}` of a number that is not negative. -/
def zeros (n k : Nat) : List Byte :=
  List.replicate (n - (Crex.decDigits k).length) 48 ++ Crex.decDigits k

/-- The name of the BUFR file, `src/wrep-importtable` line 131, for version `v` and
subversion `sv`. -/
def bufrName (v sv : Nat) : List Byte := ascii "B0000000000000" ++ zeros 3 v ++ zeros 3 sv ++ ascii ".txt"

/-- The name of the CREX file, `src/wrep-importtable` line 133. -/
def crexName (v sv : Nat) : List Byte := ascii "B00" ++ zeros 2 v ++ zeros 2 sv ++ ascii ".txt"

/-- The names of the sequence files, `src/wrep-importtable` lines 189 and 200. -/
def bufrNameD (v sv : Nat) : List Byte := ascii "D0000000000000" ++ zeros 3 v ++ zeros 3 sv ++ ascii ".txt"

/-- The name of the file of CREX sequences. -/
def crexNameD (v sv : Nat) : List Byte := ascii "D00" ++ zeros 2 v ++ zeros 2 sv ++ ascii ".txt"

/-- Keys and what is listed under them, in the order in which keys were added. -/
abbrev Groups := List (List Char × List (List Char))

/-- `res.setdefault(fxy1, []).append(fxy2)`, `src/wrep-importtable` line 174. -/
def addPair (d : Groups) (p : List Char × List Char) : Groups :=
  if p.1 ∈ d.map (·.1) then d.map fun e => if e.1 = p.1 then (e.1, e.2 ++ [p.2]) else e
  else d ++ [(p.1, [p.2])]

/-- `TableD.parse`, `src/wrep-importtable` lines 145-147 and 149-175, from the pairs of
codes in the XML elements that have both. -/
def groupD (pairs : List (List Char × List Char)) : Groups :=
  ((pairs.foldl addPair []).filter fun e => e.2 ≠ []).insertionSort fun a b => leText a.1 b.1

/-- The lines of one sequence, `src/wrep-importtable` lines 181-184. -/
def seqLines (e : List Char × List (List Char)) : List (List Byte) :=
  match e.2 with
  | [] => []
  | v :: vals => (32 :: field 6 e.1 ++ 32 :: num 2 (e.2.length : Nat) ++ 32 :: field 6 v ++ [10]) ::
      vals.map fun w => List.replicate 11 32 ++ field 6 w ++ [10]

/-- `TableD.output_lines` and `write_files`, `src/wrep-importtable` lines 177-206. -/
def dFile (pairs : List (List Char × List Char)) : List Byte :=
  ((groupD pairs).flatMap seqLines).flatten

end Import

end Wreport
