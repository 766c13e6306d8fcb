import Verif.Model.Bulletin
import Verif.Model.Crex
import Verif.Model.Message
import Verif.Model.Tabledir

/-!
# Loading of tables in a process

The tables a process has read are kept for ever, by the name of their file.
-/

namespace Wreport

open Tabledir

/-- What loading depends on: arithmetic, the names of the files in a directory, and the
contents of the files that can be opened. -/
structure System where
  E : Env
  names : List Byte → List (List Byte)
  files : List Byte → Option (List Byte)

/-- The static data of the library: `Tabledirs::get`,
`wreport/internals/tabledir.cc` lines 465-474, and the maps in the functions
`Vartable::load_bufr`, `Vartable::load_crex`, `DTable::load_bufr` and
`DTable::load_crex`, `wreport/vartable.cc` lines 485-521 and `wreport/dtable.cc` lines
162-188. Maps are lists of pairs with different keys. -/
structure Process where
  dirs : Tabledirs
  bufr_b : List (List Byte × Vartable)
  crex_b : List (List Byte × Vartable)
  bufr_d : List (List Byte × DTable)
  crex_d : List (List Byte × DTable)

/-- One of the functions `Vartable::load_bufr`, `Vartable::load_crex`,
`DTable::load_bufr`, `DTable::load_crex`, `wreport/vartable.cc` lines 485-521 and
`wreport/dtable.cc` lines 162-188; `parse` is the constructor after the file has been
opened. In C++17 the right side of the assignment is evaluated first, so a
constructor that throws leaves the map as it was. -/
def loadOnce {α : Type} (files : List Byte → Option (List Byte)) (parse : List Byte → Res α)
    (m : List (List Byte × α)) (pathname : List Byte) : List (List Byte × α) × Res α :=
  match m.lookup pathname with
  | some t => (m, .ok t)
  | none => match files pathname with
    | none => (m, .err .system)
    | some data => match parse data with
      | .ok t => ((pathname, t) :: m, .ok t)
      | .err e => (m, .err e)
      | .ub => (m, .ub)

namespace Process

/-- A process that has only been told its directories. -/
def fresh (dirs : List (List Byte)) : Process := ⟨⟨dirs, none⟩, [], [], [], []⟩

/-- `Tables::load_bufr` from line 62, `wreport/tables.cc` lines 62-63. The element table
of a bulletin is shared with the map; here it is the table as it was when it was
loaded. -/
def setBufr (S : System) (p : Process) (t : Tables) (f : Table) : Process × Tables × Res Unit :=
  let b := loadOnce S.files (Vartable.load_bufr S.E) p.bufr_b f.btable_pathname
  match b.2 with
  | .err e => ({ p with bufr_b := b.1 }, t, .err e)
  | .ub => ({ p with bufr_b := b.1 }, t, .ub)
  | .ok bt =>
    let d := loadOnce S.files DTable.load p.bufr_d f.dtable_pathname
    let p := { p with bufr_b := b.1, bufr_d := d.1 }
    let t := { t with btable := some (f.btable_pathname, bt) }
    match d.2 with
    | .err e => (p, t, .err e)
    | .ub => (p, t, .ub)
    | .ok dt => (p, { t with dtable := some (f.dtable_pathname, dt) }, .ok ())

/-- `Tables::load_bufr`, `wreport/tables.cc` lines 53-64. -/
def load_bufr (S : System) (p : Process) (t : Tables) (id : BufrTableID) :
    Process × Tables × Res Unit :=
  let r := p.dirs.find_bufr S.names id
  match r.1 with
  | none => ({ p with dirs := r.2 }, t, .err .notfound)
  | some f => setBufr S { p with dirs := r.2 } t f

/-- `Tables::load_crex` from line 75, `wreport/tables.cc` lines 75-76. -/
def setCrex (S : System) (p : Process) (t : Tables) (f : Table) : Process × Tables × Res Unit :=
  let b := loadOnce S.files (Vartable.load_crex S.E) p.crex_b f.btable_pathname
  match b.2 with
  | .err e => ({ p with crex_b := b.1 }, t, .err e)
  | .ub => ({ p with crex_b := b.1 }, t, .ub)
  | .ok bt =>
    let d := loadOnce S.files DTable.load p.crex_d f.dtable_pathname
    let p := { p with crex_b := b.1, crex_d := d.1 }
    let t := { t with btable := some (f.btable_pathname, bt) }
    match d.2 with
    | .err e => (p, t, .err e)
    | .ub => (p, t, .ub)
    | .ok dt => (p, { t with dtable := some (f.dtable_pathname, dt) }, .ok ())

/-- `Tables::load_crex`, `wreport/tables.cc` lines 66-77. -/
def load_crex (S : System) (p : Process) (t : Tables) (id : CrexTableID) :
    Process × Tables × Res Unit :=
  let r := p.dirs.find_crex S.names id
  match r.1 with
  | none => ({ p with dirs := r.2 }, t, .err .notfound)
  | some f => setCrex S { p with dirs := r.2 } t f

/-- The tables a BUFR header asks for: `BufrBulletin::load_tables`,
`wreport/bulletin.cc` lines 341-344. -/
def bufrId (h : Header) : BufrTableID :=
  ⟨h.originating_centre, h.originating_subcentre, h.master_table_number,
    h.master_table_version_number, h.master_table_version_number_local⟩

/-- The tables a CREX header asks for: `CrexBulletin::load_tables`,
`wreport/bulletin.cc` lines 552-562. The decoder never sets the centre, the subcentre
and the version of the local table, which are as in `wreport/bulletin.h` lines 88, 91
and 431. -/
def crexId (h : Crex.Header) : CrexTableID :=
  { edition_number := h.edition_number
    originating_centre := 0xffff
    originating_subcentre := 0xffff
    master_table_number := h.master_table_number
    master_table_version_number := h.master_table_version_number
    master_table_version_number_bufr := h.master_table_version_number_bufr
    master_table_version_number_local := 0 }

/-- What an interpreter uses of tables that have been loaded. -/
def context (S : System) (O : Opts) (r : Process × Tables × Res Unit) : Res (Ctx × TableCaches) :=
  match r.2.2 with
  | .err e => .err e
  | .ub => .ub
  | .ok () => match r.2.1.btable, r.2.1.dtable with
    | some b, some d => .ok (⟨S.E, O, b.2, d.2⟩, r.2.1.caches)
    | _, _ => .ub

/-- `BufrBulletin::decode`, `wreport/bulletin.cc` lines 379-388: decoding a message
loads the tables its header asks for. The alterations that the interpreter asks for
while decoding are left out; see `alterBufr`. -/
def decodeBufr (S : System) (p : Process) (O : Opts) (add_undef : Bool) (depth : Nat)
    (data : List Byte) : Process × Res (BufrDec.Head × List (List Var) × List Nat) :=
  (match BufrDec.decode_header data with
    | .ok h => (p.load_bufr S .new (bufrId h.header)).1
    | _ => p,
   decodeMessage (fun h => context S O (p.load_bufr S .new (bufrId h))) add_undef depth data)

/-- `CrexBulletin::decode`, `wreport/crex_decoder.cc` lines 238-247. -/
def decodeCrex (S : System) (p : Process) (O : Opts) (depth fuel : Nat) (data : List Byte) :
    Process × Option (Res (Crex.Header × List (List Var))) :=
  (match Crex.Decoder.decode_header fuel data with
    | some (.ok (_, h)) => (p.load_crex S .new (crexId h)).1
    | _ => p,
   Crex.Decoder.decode (fun h => context S O (p.load_crex S .new (crexId h))) depth fuel data)

/-- Replacing what a map holds for a key. -/
def change {α : Type} (f : α → α) (key : List Byte) (m : List (List Byte × α)) :
    List (List Byte × α) :=
  m.map fun e => if e.1 = key then (e.1, f e.2) else e

/-- Someone has asked the BUFR element table read from a file for an alteration. -/
def alterBufr (S : System) (p : Process) (pathname : List Byte) (code : Varcode) (scale : Int)
    (bit_len : Nat) (bit_ref : Int) : Process :=
  { p with
    bufr_b := change (fun t => (t.query_altered S.E code scale bit_len bit_ref).1) pathname p.bufr_b }

/-- Someone has asked the CREX element table read from a file for an alteration. -/
def alterCrex (S : System) (p : Process) (pathname : List Byte) (code : Varcode) (scale : Int)
    (bit_len : Nat) (bit_ref : Int) : Process :=
  { p with
    crex_b := change (fun t => (t.query_altered S.E code scale bit_len bit_ref).1) pathname p.crex_b }

end Process

end Wreport
