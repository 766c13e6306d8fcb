import Verif.Model.Process
import Verif.Model.Python

/-!
# Tables from Python

Modelled code: `python/vartable.cc`, `python/varinfo.cc` (the code of an element and the
numbers), and `Vartable::get_bufr` and `Vartable::get_crex` in `wreport/vartable.cc`.
Not modelled: reference counts, the other getters of `wreport.Varinfo`, `pathname` and
the printed forms of `wreport.Vartable`. A table is its path together with its contents.
-/

namespace Wreport

open Tabledir

/-- `Tabledirs::find`, `wreport/internals/tabledir.cc` lines 441-445. -/
def Tabledir.Tabledirs.find (names : List Byte → List (List Byte)) (t : Tabledirs) (basename : List Byte) :
    Option Table × Tabledirs :=
  ((t.getIndex names).find basename, { t with index := some (t.getIndex names) })

namespace Process

/-- `Vartable::load_bufr`, `wreport/vartable.cc` lines 485-497. -/
def vartableBufr (S : System) (p : Process) (path : List Byte) : Process × Res (List Byte × Vartable) :=
  let b := loadOnce S.files (Vartable.load_bufr S.E) p.bufr_b path
  ({ p with bufr_b := b.1 }, do let t ← b.2; return (path, t))

/-- `Vartable::load_crex`, `wreport/vartable.cc` lines 509-521. -/
def vartableCrex (S : System) (p : Process) (path : List Byte) : Process × Res (List Byte × Vartable) :=
  let b := loadOnce S.files (Vartable.load_crex S.E) p.crex_b path
  ({ p with crex_b := b.1 }, do let t ← b.2; return (path, t))

/-- `Vartable::get_bufr(const BufrTableID&)`, `wreport/vartable.cc` lines 523-531. -/
def getBufr (S : System) (p : Process) (id : BufrTableID) : Process × Res (List Byte × Vartable) :=
  let r := p.dirs.find_bufr S.names id
  match r.1 with
  | none => ({ p with dirs := r.2 }, .err .notfound)
  | some f => vartableBufr S { p with dirs := r.2 } f.btable_pathname

/-- `Vartable::get_crex(const CrexTableID&)`, `wreport/vartable.cc` lines 533-543. -/
def getCrex (S : System) (p : Process) (id : CrexTableID) : Process × Res (List Byte × Vartable) :=
  let r := p.dirs.find_crex S.names id
  match r.1 with
  | none => ({ p with dirs := r.2 }, .err .notfound)
  | some f => vartableCrex S { p with dirs := r.2 } f.btable_pathname

/-- `Vartable::get_bufr(const std::string&)`, `wreport/vartable.cc` lines 545-551. -/
def nameBufr (S : System) (p : Process) (basename : List Byte) : Process × Res (List Byte × Vartable) :=
  let r := p.dirs.find S.names basename
  match r.1 with
  | none => ({ p with dirs := r.2 }, .err .notfound)
  | some f => vartableBufr S { p with dirs := r.2 } f.btable_pathname

/-- `Vartable::get_crex(const std::string&)`, `wreport/vartable.cc` lines 553-559. -/
def nameCrex (S : System) (p : Process) (basename : List Byte) : Process × Res (List Byte × Vartable) :=
  let r := p.dirs.find S.names basename
  match r.1 with
  | none => ({ p with dirs := r.2 }, .err .notfound)
  | some f => vartableCrex S { p with dirs := r.2 } f.btable_pathname

end Process

namespace Py

/-! ## Arguments -/

/-- `PyArg_ParseTupleAndKeywords` with format `i`; other objects have no `__index__`. -/
def argInt : Obj → Except Exc Int
  | .int i => if inInt i then .ok i else .error .overflow
  | _ => .error .type

/-- An argument after `|`: it keeps its default if it is not given. -/
def optInt (dflt : Int) : Option Obj → Except Exc Int
  | none => .ok dflt
  | some o => argInt o

/-- The same with format `s`, and a null pointer as default. -/
def optText : Option Obj → Except Exc (Option (List Byte))
  | none => .ok none
  | some o => match argText o with
    | .ok s => .ok (some s)
    | .error e => .error e

/-- The arguments of `get_bufr`, `python/vartable.cc` lines 109-126. -/
structure BufrArgs where
  basename : Option Obj := none
  originating_centre : Option Obj := none
  originating_subcentre : Option Obj := none
  master_table_number : Option Obj := none
  master_table_version_number : Option Obj := none
  master_table_version_number_local : Option Obj := none

/-- The arguments of `get_crex`, `python/vartable.cc` lines 174-193. -/
structure CrexArgs where
  basename : Option Obj := none
  edition_number : Option Obj := none
  originating_centre : Option Obj := none
  originating_subcentre : Option Obj := none
  master_table_number : Option Obj := none
  master_table_version_number : Option Obj := none
  master_table_version_number_bufr : Option Obj := none
  master_table_version_number_local : Option Obj := none

/-- What `get_bufr` asks for, `python/vartable.cc` lines 114-141: a name or an
identifier. The numbers are converted to the types of the fields of `BufrTableID`. -/
def bufrAsk (a : BufrArgs) : Except Exc (List Byte ⊕ BufrTableID) := do
  let name ← optText a.basename
  let ce ← optInt 0 a.originating_centre
  let sc ← optInt 0 a.originating_subcentre
  let mt ← optInt 0 a.master_table_number
  let mv ← optInt (-1) a.master_table_version_number
  let ml ← optInt 0 a.master_table_version_number_local
  match name with
  | some n => return .inl n
  | none =>
    if mv = -1 then throw .value
    else return .inr ⟨toU16 ce, toU16 sc, toU8 mt, toU8 mv, toU8 ml⟩

/-- `get_bufr`, `python/vartable.cc` lines 107-143. -/
def get_bufr (S : System) (p : Process) (a : BufrArgs) : Process × Ret (List Byte × Vartable) :=
  match bufrAsk a with
  | .error e => (p, .ret none (some e))
  | .ok (.inl n) => ((p.nameBufr S n).1, caught none (p.nameBufr S n).2)
  | .ok (.inr id) => ((p.getBufr S id).1, caught none (p.getBufr S id).2)

/-- What `get_crex` asks for, `python/vartable.cc` lines 179-211: versions that are not
given are 255. -/
def crexAsk (a : CrexArgs) : Except Exc (List Byte ⊕ CrexTableID) := do
  let name ← optText a.basename
  let ed ← optInt 2 a.edition_number
  let ce ← optInt 0 a.originating_centre
  let sc ← optInt 0 a.originating_subcentre
  let mt ← optInt 0 a.master_table_number
  let mv ← optInt (-1) a.master_table_version_number
  let mb ← optInt (-1) a.master_table_version_number_bufr
  let ml ← optInt 0 a.master_table_version_number_local
  match name with
  | some n => return .inl n
  | none =>
    if mv = -1 ∧ mb = -1 then throw .value
    else return .inr ⟨toU8 ed, toU16 ce, toU16 sc, toU8 mt, if mv = -1 then 255 else toU8 mv,
      if mb = -1 then 255 else toU8 mb, toU8 ml⟩

/-- `get_crex`, `python/vartable.cc` lines 172-213. -/
def get_crex (S : System) (p : Process) (a : CrexArgs) : Process × Ret (List Byte × Vartable) :=
  match crexAsk a with
  | .error e => (p, .ret none (some e))
  | .ok (.inl n) => ((p.nameCrex S n).1, caught none (p.nameCrex S n).2)
  | .ok (.inr id) => ((p.getCrex S id).1, caught none (p.getCrex S id).2)

/-- `load_bufr`, `python/vartable.cc` lines 49-58. -/
def load_bufr (S : System) (p : Process) (pathname : Obj) : Process × Ret (List Byte × Vartable) :=
  match argText pathname with
  | .error e => (p, .ret none (some e))
  | .ok k => ((p.vartableBufr S k).1, caught none (p.vartableBufr S k).2)

/-- `load_crex`, `python/vartable.cc` lines 73-82. -/
def load_crex (S : System) (p : Process) (pathname : Obj) : Process × Ret (List Byte × Vartable) :=
  match argText pathname with
  | .error e => (p, .ret none (some e))
  | .ok k => ((p.vartableCrex S k).1, caught none (p.vartableCrex S k).2)

/-! ## Tables -/

/-- `string_from_python` and `c_str`, `python/utils/values.cc` lines 18-28: what a
function that takes a C string reads. -/
def keyText : Obj → Except Exc (List Byte)
  | .str s => .ok ((encode s).takeWhile (· ≠ 0))
  | .surrogates => .error .unicodeEncode
  | _ => .error .type

/-- `VartableDef::sq_contains`, `python/vartable.cc` lines 270-276. -/
def inTable (t : Vartable) (key : Obj) : Ret Bool :=
  match keyText key with
  | .error e => .ret none (some e)
  | .ok s => caught none (do let c ← varcode_parse s; t.contains c)

/-- `VartableDef::mp_subscript`, `python/vartable.cc` lines 284-290. -/
def subscript (t : Vartable) (key : Obj) : Ret Varinfo :=
  match keyText key with
  | .error e => .ret none (some e)
  | .ok s => caught none (do let c ← varcode_parse s; t.query c)

/-- `VartableDef::sq_length` and `mp_length`, `python/vartable.cc` lines 259-263 and
278-282. -/
def length (_t : Vartable) : Int := 0

/-- `VartableDef::sq_item`, `python/vartable.cc` lines 265-268. -/
def item (_t : Vartable) (_i : Nat) : Ret Obj := .ret (some .none) none

/-- Iterating over an object that has `sq_item` (`iter_iternext` of CPython): items are
asked for until one of the calls raises. Here at most `fuel` of them; `none` if the
iteration has not ended by then. -/
def iterate (t : Vartable) (fuel : Nat) (i : Nat := 0) : Option (List Obj) :=
  match fuel with
  | 0 => none
  | fuel + 1 => match (item t i).done with
    | .returned o => (iterate t fuel (i + 1)).map (o :: ·)
    | _ => some []

/-- The getter `code` of `wreport.Varinfo`, `python/varinfo.cc` lines 34-46, and
`VarinfoDef::_str`, lines 152-157; `wrpy_varcode_format`, `python/common.cc` lines 9-19,
prints as `varcode_format` does. -/
def infoCode (info : Varinfo) : Ret Obj := strToPython (varcode_format info.code)

end Py

end Wreport
