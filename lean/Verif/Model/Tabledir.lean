import Verif.Model.Basic

/-!
# Choice of tables

Modelled code: `wreport/tableinfo.{h,cc}` and `wreport/internals/tabledir.cc`. Not
modelled: printing and explaining, reading the directory itself (a directory is the
list of its file names, in the order in which the system gives them), environment
variables.
-/

namespace Wreport

/-- `BufrTableID`, `wreport/tableinfo.h` lines 13-38. -/
structure BufrTableID where
  originating_centre : UInt16
  originating_subcentre : UInt16
  master_table_number : UInt8
  master_table_version_number : UInt8
  master_table_version_number_local : UInt8
deriving DecidableEq

/-- `CrexTableID`, `wreport/tableinfo.h` lines 43-79. -/
structure CrexTableID where
  edition_number : UInt8
  originating_centre : UInt16
  originating_subcentre : UInt16
  master_table_number : UInt8
  master_table_version_number : UInt8
  master_table_version_number_bufr : UInt8
  master_table_version_number_local : UInt8
deriving DecidableEq

/-! ## Comparing candidates -/

namespace TableCompare

/-- `Compare::compare_mtv`, `compare_mtv_bufr` and `compare_mtv_bufrcrex`,
`wreport/tableinfo.cc` lines 75-117: they differ only in the two numbers. The result
if it is decided. -/
def mtv (first second : UInt8) : Option Int :=
  if first < second then some (-1)
  else if second < first then some 1
  else none

/-- `centre_match`, `wreport/tableinfo.cc` lines 121-126. -/
def centre_match (wanted cand : UInt16) : Nat :=
  if wanted = cand then 3
  else if cand = 0 then 2
  else if cand = 0xffff then 1
  else 0

/-- `Compare::compare_centre`, `wreport/tableinfo.cc` lines 119-141. -/
def centre (base first second : UInt16) : Option Int :=
  let f := centre_match base first
  let s := centre_match base second
  if s < f then some (-1)
  else if f < s then some 1
  else if f ≠ 3 then some 0
  else none

/-- `Compare::compare_subcentre`, `wreport/tableinfo.cc` lines 143-157. -/
def subcentre (base first second : UInt16) : Option Int :=
  if first = base then
    if second = base then some 0 else some (-1)
  else
    if second = base then some 1 else some 0

/-- `Compare::compare_mt_local`, `wreport/tableinfo.cc` lines 159-187. -/
def mt_local (base first second : UInt8) : Option Int :=
  if base ≠ 0 then
    if first < base then
      if second < base then
        if first < second then some 1
        else if second < first then some (-1)
        else none
      else some 1
    else
      if second < base then some (-1)
      else
        if first < second then some (-1)
        else if second < first then some 1
        else none
  else none

end TableCompare

open TableCompare

namespace BufrTableID

/-- `BufrTableID::operator<`, `wreport/tableinfo.cc` lines 11-24. -/
def lt (a o : BufrTableID) : Bool :=
  if a.originating_centre < o.originating_centre then true
  else if o.originating_centre < a.originating_centre then false
  else if a.originating_subcentre < o.originating_subcentre then true
  else if o.originating_subcentre < a.originating_subcentre then false
  else if a.master_table_number < o.master_table_number then true
  else if o.master_table_number < a.master_table_number then false
  else if a.master_table_version_number < o.master_table_version_number then true
  else if o.master_table_version_number < a.master_table_version_number then false
  else if a.master_table_version_number_local < o.master_table_version_number_local then true
  else if o.master_table_version_number_local < a.master_table_version_number_local then false
  else false

/-- `BufrTableID::is_acceptable_replacement(const BufrTableID&)`,
`wreport/tableinfo.cc` lines 26-33. -/
def is_acceptable_bufr (wanted id : BufrTableID) : Bool :=
  if id.master_table_number ≠ wanted.master_table_number then false
  else if id.master_table_version_number < wanted.master_table_version_number then false
  else true

/-- `BufrTableID::is_acceptable_replacement(const CrexTableID&)`,
`wreport/tableinfo.cc` lines 35-38. -/
def is_acceptable_crex (_wanted : BufrTableID) (_id : CrexTableID) : Bool := false

/-- `BufrTableID::closest_match(const BufrTableID&, const BufrTableID&)`,
`wreport/tableinfo.cc` lines 198-213. -/
def closest_bufr (wanted first second : BufrTableID) : Int :=
  ((mtv first.master_table_version_number second.master_table_version_number).or
    ((centre wanted.originating_centre first.originating_centre second.originating_centre).or
      ((mt_local wanted.master_table_version_number_local first.master_table_version_number_local
          second.master_table_version_number_local).or
        (subcentre wanted.originating_subcentre first.originating_subcentre
          second.originating_subcentre)))).getD 0

end BufrTableID

namespace CrexTableID

/-- `CrexTableID::operator<`, `wreport/tableinfo.cc` lines 235-252. -/
def lt (a o : CrexTableID) : Bool :=
  if a.edition_number < o.edition_number then true
  else if o.edition_number < a.edition_number then false
  else if a.originating_centre < o.originating_centre then true
  else if o.originating_centre < a.originating_centre then false
  else if a.originating_subcentre < o.originating_subcentre then true
  else if o.originating_subcentre < a.originating_subcentre then false
  else if a.master_table_number < o.master_table_number then true
  else if o.master_table_number < a.master_table_number then false
  else if a.master_table_version_number < o.master_table_version_number then true
  else if o.master_table_version_number < a.master_table_version_number then false
  else if a.master_table_version_number_local < o.master_table_version_number_local then true
  else if o.master_table_version_number_local < a.master_table_version_number_local then false
  else if a.master_table_version_number_bufr < o.master_table_version_number_bufr then true
  else if o.master_table_version_number_bufr < a.master_table_version_number_bufr then false
  else false

/-- `CrexTableID::is_acceptable_replacement(const BufrTableID&)`,
`wreport/tableinfo.cc` lines 254-265. -/
def is_acceptable_bufr (wanted : CrexTableID) (id : BufrTableID) : Bool :=
  if id.master_table_number ≠ wanted.master_table_number then false
  else if id.master_table_version_number < wanted.master_table_version_number_bufr then false
  else true

/-- `CrexTableID::is_acceptable_replacement(const CrexTableID&)`,
`wreport/tableinfo.cc` lines 267-286. -/
def is_acceptable_crex (wanted id : CrexTableID) : Bool :=
  if id.edition_number ≠ wanted.edition_number then false
  else if id.master_table_number ≠ wanted.master_table_number then false
  else if id.master_table_version_number < wanted.master_table_version_number then false
  else if id.master_table_version_number_bufr < wanted.master_table_version_number_bufr then false
  else true

/-- `CrexTableID::closest_match(const BufrTableID&, const BufrTableID&)`,
`wreport/tableinfo.cc` lines 288-303. -/
def closest_bufr (wanted : CrexTableID) (first second : BufrTableID) : Int :=
  ((mtv first.master_table_version_number second.master_table_version_number).or
    ((centre wanted.originating_centre first.originating_centre second.originating_centre).or
      ((mt_local wanted.master_table_version_number_local first.master_table_version_number_local
          second.master_table_version_number_local).or
        (subcentre wanted.originating_subcentre first.originating_subcentre
          second.originating_subcentre)))).getD 0

/-- `CrexTableID::closest_match(const CrexTableID&, const CrexTableID&)`,
`wreport/tableinfo.cc` lines 305-321. -/
def closest_crex (wanted first second : CrexTableID) : Int :=
  ((mtv first.master_table_version_number second.master_table_version_number).or
    ((mtv first.master_table_version_number_bufr second.master_table_version_number_bufr).or
      ((centre wanted.originating_centre first.originating_centre second.originating_centre).or
        ((mt_local wanted.master_table_version_number_local first.master_table_version_number_local
            second.master_table_version_number_local).or
          (subcentre wanted.originating_subcentre first.originating_subcentre
            second.originating_subcentre))))).getD 0

/-- `CrexTableID::closest_match(const BufrTableID&, const CrexTableID&)`,
`wreport/tableinfo.cc` lines 323-338. -/
def closest_mixed (wanted : CrexTableID) (first : BufrTableID) (second : CrexTableID) : Int :=
  ((mtv first.master_table_version_number second.master_table_version_number_bufr).or
    ((centre wanted.originating_centre first.originating_centre second.originating_centre).or
      ((mt_local wanted.master_table_version_number_local first.master_table_version_number_local
          second.master_table_version_number_local).or
        (subcentre wanted.originating_subcentre first.originating_subcentre
          second.originating_subcentre)))).getD 0

end CrexTableID

/-! ## Directories -/

namespace Tabledir

/-- The identifier of a `Table`, `BufrTable` or `CrexTable`,
`wreport/internals/tabledir.h` lines 16-50. -/
inductive Kind where
  | raw
  | bufr (id : BufrTableID)
  | crex (id : CrexTableID)
deriving DecidableEq

/-- `Table`, `wreport/internals/tabledir.h` lines 16-28. -/
structure Table where
  btable_id : List Byte
  btable_pathname : List Byte
  dtable_id : List Byte
  dtable_pathname : List Byte
  kind : Kind
deriving DecidableEq

/-- `std::string::rfind` of a character: the text before its last occurrence. -/
def beforeLast (c : Byte) (s : List Byte) : Option (List Byte) :=
  if c ∈ s then some ((s.reverse.dropWhile (· ≠ c)).drop 1).reverse else none

/-- `dirname / filename` for a relative file name. -/
def join (dirname filename : List Byte) : List Byte :=
  if dirname = [] ∨ dirname.getLast? = some 47 then dirname ++ filename else dirname ++ 47 :: filename

/-- `Table::Table`, `wreport/internals/tabledir.cc` lines 19-35, for a name that is not
empty. -/
def Table.make (kind : Kind) (dirname filename : List Byte) : Table :=
  let btable_id := (beforeLast 46 filename).getD filename
  { btable_id
    btable_pathname := join dirname filename
    dtable_id := 68 :: btable_id.tail
    dtable_pathname := join dirname (68 :: filename.tail)
    kind }

/-- One `%d` of `sscanf` with a width: white space is skipped and not counted, a sign is
counted. The value and what follows. -/
def scanD (width : Nat) (s : List Byte) : Option (Int × List Byte) :=
  let s := s.dropWhile isSpace
  let sign := s.head? = some 45 ∨ s.head? = some 43
  let t := if sign then s.tail else s
  let d := (t.take (if sign then width - 1 else width)).takeWhile isDigit
  let n : Nat := d.foldl (fun v b => v * 10 + (b.toNat - 48)) 0
  if d = [] then none
  else some (if s.head? = some 45 then -(n : Int) else n, t.drop d.length)

/-- Literal text in a format of `sscanf`, without white space. -/
def scanLit (lit s : List Byte) : Option (List Byte) := if s.take lit.length = lit then some (s.drop lit.length) else none

/-- Several `%d` one after the other. -/
def scanDs : List Nat → List Byte → Option (List Int)
  | [], _ => some []
  | w :: ws, s => do
    let r ← scanD w s
    let l ← scanDs ws r.2
    return r.1 :: l

/-- Conversion to `uint8_t`. -/
def toU8 (i : Int) : UInt8 := UInt8.ofNat (i % 256).toNat
/-- Conversion to `uint16_t`. -/
def toU16 (i : Int) : UInt16 := UInt16.ofNat (i % 65536).toNat

/-- The names that begin with B, `wreport/internals/tabledir.cc` lines 87-112. -/
def bKind (name : List Byte) : Option Kind :=
  match name.length with
  | 11 => match (scanLit (ascii "B") name).bind (scanDs [2, 2, 2]) with
    | some [mt, ed, mtv] => some (.crex ⟨toU8 ed, 0, 0, toU8 mt, toU8 mtv, 0, 0⟩)
    | _ => none
  | 20 => match (scanLit (ascii "B00000") name).bind (scanDs [3, 3, 2, 2]) with
    | some [sc, ce, mt, lt] => some (.bufr ⟨toU16 ce, toU16 sc, 0, toU8 mt, toU8 lt⟩)
    | _ => none
  | 24 => match (scanLit (ascii "B00") name).bind (scanDs [3, 4, 4, 3, 3]) with
    | some [_dummy, sc, ce, mt, lt] => some (.bufr ⟨toU16 ce, toU16 sc, 0, toU8 mt, toU8 lt⟩)
    | _ => none
  | _ => none

/-- One file of a directory, `wreport/internals/tabledir.cc` lines 77-122. -/
def fileKind (name : List Byte) : Option Kind :=
  if name.length < 5 then none
  else if name.drop (name.length - 4) ≠ ascii ".txt" then none
  else match name.headD 0 with
  | 66 => bKind name
  | 68 => none
  | _ => some .raw

/-- `Dir::Dir` and `Dir::refresh`, `wreport/internals/tabledir.cc` lines 53-124, given
the names in the directory. -/
def Dir.tables (pathname : List Byte) (names : List (List Byte)) : List Table :=
  names.filterMap fun name => (fileKind name).map fun k => .make k pathname name

/-! ## Queries -/

/-- `Query`, `wreport/internals/tabledir.cc` lines 128-212: what `BufrQuery` and
`CrexQuery` have in common. -/
structure Query where
  acceptable_bufr : BufrTableID → Bool
  acceptable_crex : CrexTableID → Bool
  /-- `choose_best` takes the second of two BUFR tables. -/
  second_bufr : BufrTableID → BufrTableID → Bool
  /-- The same for CREX tables; `none` if neither is taken. -/
  second_crex : CrexTableID → CrexTableID → Option Bool
  /-- The same for one of each. -/
  second_mixed : BufrTableID → CrexTableID → Bool

/-- `BufrQuery`, `wreport/internals/tabledir.cc` lines 214-247. -/
def BufrQuery (id : BufrTableID) : Query where
  acceptable_bufr := id.is_acceptable_bufr
  acceptable_crex := id.is_acceptable_crex
  second_bufr a b := !decide (id.closest_bufr a b ≤ 0)
  second_crex _ _ := none
  second_mixed _ _ := false

/-- `CrexQuery`, `wreport/internals/tabledir.cc` lines 249-287. -/
def CrexQuery (id : CrexTableID) : Query where
  acceptable_bufr := id.is_acceptable_bufr
  acceptable_crex := id.is_acceptable_crex
  second_bufr a b := !decide (id.closest_bufr a b ≤ 0)
  second_crex a b := some (!decide (id.closest_crex a b ≤ 0))
  second_mixed a b := !decide (id.closest_mixed a b ≤ 0)

/-- `bufr_best` and `crex_best`, with the identifiers. -/
structure Best where
  bufr : Option (BufrTableID × Table)
  crex : Option (CrexTableID × Table)

namespace Query

/-- `Query::consider_table`, `wreport/internals/tabledir.cc` lines 133-152. -/
def consider_table (q : Query) (b : Best) (t : Table) : Best :=
  match t.kind with
  | .bufr id =>
    if !q.acceptable_bufr id then b
    else match b.bufr with
      | none => { b with bufr := some (id, t) }
      | some best => if q.second_bufr best.1 id then { b with bufr := some (id, t) } else b
  | .crex id =>
    if !q.acceptable_crex id then b
    else match b.crex with
      | none => { b with crex := some (id, t) }
      | some best => match q.second_crex best.1 id with
        | none => { b with crex := none }
        | some true => { b with crex := some (id, t) }
        | some false => b
  | .raw => b

/-- `Query::search`, `wreport/internals/tabledir.cc` lines 154-158. -/
def search (q : Query) (b : Best) (tables : List Table) : Best := tables.foldl q.consider_table b

/-- `Query::result`, `wreport/internals/tabledir.cc` lines 181-193. -/
def result (q : Query) (b : Best) : Option Table :=
  match b.bufr, b.crex with
  | none, none => none
  | none, some c => some c.2
  | some t, none => some t.2
  | some t, some c => if q.second_mixed t.1 c.1 then some c.2 else some t.2

/-- The search through all the directories and its result. -/
def run (q : Query) (dirs : List (List Table)) : Option Table :=
  q.result (dirs.foldl q.search ⟨none, none⟩)

end Query

/-- `Index`, `wreport/internals/tabledir.cc` lines 289-293. A `std::map` is the list of
what was stored in it. -/
structure Index where
  dirs : List (List Table)
  bufr_cache : List (BufrTableID × Table)
  crex_cache : List (CrexTableID × Table)

namespace Index

/-- `Index::Index`, `wreport/internals/tabledir.cc` lines 295-300. -/
def new (dirs : List (List Table)) : Index := ⟨dirs, [], []⟩

/-- `std::map::find`: two keys are the same if neither is less. -/
def mapFind {κ α : Type} (lt : κ → κ → Bool) (m : List (κ × α)) (k : κ) : Option α :=
  (m.find? fun e => !lt e.1 k && !lt k e.1).map (·.2)

/-- `Index::find_bufr`, `wreport/internals/tabledir.cc` lines 302-324. -/
def find_bufr (x : Index) (id : BufrTableID) : Option Table × Index :=
  match mapFind BufrTableID.lt x.bufr_cache id with
  | some t => (some t, x)
  | none => match (BufrQuery id).run x.dirs with
    | some t => (some t, { x with bufr_cache := (id, t) :: x.bufr_cache })
    | none => (none, x)

/-- `Index::find_crex`, `wreport/internals/tabledir.cc` lines 335-357. -/
def find_crex (x : Index) (id : CrexTableID) : Option Table × Index :=
  match mapFind CrexTableID.lt x.crex_cache id with
  | some t => (some t, x)
  | none => match (CrexQuery id).run x.dirs with
    | some t => (some t, { x with crex_cache := (id, t) :: x.crex_cache })
    | none => (none, x)

/-- `Index::find`, `wreport/internals/tabledir.cc` lines 368-375. -/
def find (x : Index) (basename : List Byte) : Option Table :=
  x.dirs.flatten.find? fun t => t.btable_id = basename

end Index

/-- `Tabledirs`, `wreport/internals/tabledir.h` lines 72-76. -/
structure Tabledirs where
  dirs : List (List Byte)
  index : Option Index

namespace Tabledirs

/-- Stripping of slashes, `wreport/internals/tabledir.cc` lines 411-416. -/
def clean (dir : List Byte) : List Byte :=
  let d := (dir.reverse.dropWhile (· = 47)).reverse
  if d = [] then [47] else d

/-- `Tabledirs::add_directory`, `wreport/internals/tabledir.cc` lines 409-427. -/
def add_directory (t : Tabledirs) (dir : List Byte) : Tabledirs :=
  if clean dir ∈ t.dirs then t else ⟨t.dirs ++ [clean dir], none⟩

/-- The index, made when it is first used, `wreport/internals/tabledir.cc` lines
429-445; `names` lists a directory. -/
def getIndex (names : List Byte → List (List Byte)) (t : Tabledirs) : Index :=
  t.index.getD (.new (t.dirs.map fun d => Dir.tables d (names d)))

/-- `Tabledirs::find_bufr`, `wreport/internals/tabledir.cc` lines 429-433. -/
def find_bufr (names : List Byte → List (List Byte)) (t : Tabledirs) (id : BufrTableID) :
    Option Table × Tabledirs :=
  let r := (t.getIndex names).find_bufr id
  (r.1, { t with index := some r.2 })

/-- `Tabledirs::find_crex`, `wreport/internals/tabledir.cc` lines 435-439. -/
def find_crex (names : List Byte → List (List Byte)) (t : Tabledirs) (id : CrexTableID) :
    Option Table × Tabledirs :=
  let r := (t.getIndex names).find_crex id
  (r.1, { t with index := some r.2 })

end Tabledirs

end Tabledir

end Wreport
