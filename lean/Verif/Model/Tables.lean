import Verif.Model.Varinfo
import Mathlib.Data.Nat.Log

/-!
# Element and sequence tables

Modelled code: `wreport/vartable.cc` lines 28-470, `wreport/dtable.cc` lines
15-156, `wreport/opcodes.h` lines 19-119, `wreport/tables.cc` lines 79-128. File
access is left out: a table file is its list of bytes. The per-pathname caches of
`Vartable::load_*` and `DTable::load_*` are left out too.
-/

namespace Wreport

/-- The lookup loop shared by `VartableBase::query_entry`, `wreport/vartable.cc`
lines 232-250, and `DTableBase::query`, `wreport/dtable.cc` lines 136-156, on the
codes of the entries: returns the final `begin`. -/
def searchLoop (codes : List Varcode) (code : Varcode) (b e : Int) : Res Int :=
  if 1 < e - b then
    let cur := (e + b).tdiv 2
    if _h : b < cur ∧ cur < e then
      match codes[cur.toNat]? with
      | none => .ub
      | some c => if c > code then searchLoop codes code b cur else searchLoop codes code cur e
    else .ub
  else .ok b
termination_by (e - b).toNat
decreasing_by all_goals omega

/-- Binary search, same code: the index of the entry, or `none`. -/
def searchCode (codes : List Varcode) (code : Varcode) : Res (Option Nat) := do
  let b ← searchLoop codes code (-1) codes.length
  if b = -1 then return none
  else match codes[b.toNat]? with
    | none => .ub
    | some c => if c ≠ code then return none else return some b.toNat

/-! ## Element tables -/

/-- `digits_per_bits`, `wreport/vartable.cc` lines 28-69. -/
def digits_per_bits (n : Nat) : Res Nat :=
  if n = 0 then .err .consistency
  else if n ≤ 3 then .ok 1 else if n ≤ 6 then .ok 2 else if n ≤ 9 then .ok 3
  else if n ≤ 13 then .ok 4 else if n ≤ 16 then .ok 5 else if n ≤ 19 then .ok 6
  else if n ≤ 23 then .ok 7 else if n ≤ 26 then .ok 8 else if n ≤ 29 then .ok 9
  else if n ≤ 32 then .ok 10 else .err .consistency

/-- `VartableEntry`, `wreport/vartable.cc` lines 94-182. The chain of altered
versions is a list, most recently created first. An altered version is identified
by its rank of creation, counted from 1; it does not move in memory. -/
structure VartableEntry where
  varinfo : Varinfo
  alterations : List Varinfo
deriving DecidableEq

/-- Length in characters after alteration, `wreport/vartable.cc` lines 129-140.
`ceil` is applied after an integer division. -/
def alteredLen (type : Vartype) (bit_len : Nat) : Res Nat :=
  match type with
  | .integer | .decimal => digits_per_bits bit_len
  | .string => .ok (bit_len / 8)
  | .binary => .ok (bit_len / 8)

/-- Type after alteration, `wreport/vartable.cc` lines 142-154. -/
def alteredType (type : Vartype) (scale : Int) : Vartype :=
  match type with
  | .integer => if scale ≠ 0 then .decimal else .integer
  | .decimal => if scale = 0 then .integer else .decimal
  | t => t

/-- The altering constructor of `VartableEntry`, `wreport/vartable.cc` lines
118-167, without the chain. -/
def Varinfo.alter (E : Env) (info : Varinfo) (scale : Int) (bit_len : Nat) (bit_ref : Int) :
    Res Varinfo := do
  let len ← alteredLen info.type bit_len
  Varinfo.compute_range E { info with
    bit_len := bit_len, len := len, scale := scale, type := alteredType info.type scale,
    bit_ref := bit_ref }

/-- The test of `get_alteration`, `wreport/vartable.cc` line 176. -/
def Varinfo.matchesAlt (info : Varinfo) (scale : Int) (bit_len : Nat) (bit_ref : Int) : Bool :=
  info.scale == scale && info.bit_len == bit_len && info.bit_ref == bit_ref

/-- `get_alteration` on the chain after the original, `wreport/vartable.cc` lines
174-181: the altered version and its rank. -/
def findAlt (scale : Int) (bit_len : Nat) (bit_ref : Int) : List Varinfo → Option (Nat × Varinfo)
  | [] => none
  | a :: rest =>
    if a.matchesAlt scale bit_len bit_ref then some (rest.length + 1, a)
    else findAlt scale bit_len bit_ref rest

/-- `get_alteration`, `wreport/vartable.cc` lines 174-181. Rank 0 is the original. -/
def VartableEntry.get_alteration (e : VartableEntry) (scale : Int) (bit_len : Nat)
    (bit_ref : Int) : Option (Nat × Varinfo) :=
  if e.varinfo.matchesAlt scale bit_len bit_ref then some (0, e.varinfo)
  else findAlt scale bit_len bit_ref e.alterations

/-- Entries of `VartableBase`, `wreport/vartable.cc` lines 185-202. -/
structure Vartable where
  entries : List VartableEntry
deriving DecidableEq

namespace Vartable

/-- The codes of the entries. -/
def codes (t : Vartable) : List Varcode := t.entries.map (·.varinfo.code)

/-- `VartableBase::query_entry`, `wreport/vartable.cc` lines 232-250: index and
entry. -/
def query_entry (t : Vartable) (code : Varcode) : Res (Option (Nat × VartableEntry)) := do
  match ← searchCode t.codes code with
  | none => return none
  | some i => match t.entries[i]? with
    | none => .ub
    | some e => return some (i, e)

/-- `VartableBase::query`, `wreport/vartable.cc` lines 252-261. -/
def query (t : Vartable) (code : Varcode) : Res Varinfo := do
  match ← t.query_entry code with
  | none => .err .notfound
  | some (_, e) => return e.varinfo

/-- `VartableBase::contains`, `wreport/vartable.cc` lines 263-266. -/
def contains (t : Vartable) (code : Varcode) : Res Bool := do
  match ← t.query_entry code with
  | none => return false
  | some _ => return true

/-- The checks of `query_altered`, `wreport/vartable.cc` lines 281-292. -/
def checkAlter (info : Varinfo) (scale : Int) (bit_len : Nat) : Res Unit :=
  match info.type with
  | .integer | .decimal =>
    if scale < -16 ∨ 16 < scale then .err .consistency
    else if 32 < bit_len then .err .consistency
    else .ok ()
  | _ => .ok ()

/-- Last part of `query_altered`, `wreport/vartable.cc` lines 281-303: check,
create the altered version, put it first in the chain. -/
def addAltered (E : Env) (t : Vartable) (i : Nat) (e : VartableEntry) (scale : Int)
    (bit_len : Nat) (bit_ref : Int) : Vartable × Res (Nat × Varinfo) :=
  match (do checkAlter e.varinfo scale bit_len; e.varinfo.alter E scale bit_len bit_ref) with
  | .ok v => ({ entries := t.entries.set i { e with alterations := v :: e.alterations } },
      .ok (e.alterations.length + 1, v))
  | .err x => (t, .err x)
  | .ub => (t, .ub)

/-- `VartableBase::query_altered`, `wreport/vartable.cc` lines 268-304. The table
changes (the C++ member function is `const`, the chain is `mutable`); the result
is the identity of the metadata (rank in the chain of that code) with its
contents. -/
def query_altered (E : Env) (t : Vartable) (code : Varcode) (scale : Int) (bit_len : Nat)
    (bit_ref : Int) : Vartable × Res (Nat × Varinfo) :=
  match t.query_entry code with
  | .ok none => (t, .err .notfound)
  | .ok (some (i, e)) =>
    match e.get_alteration scale bit_len bit_ref with
    | some r => (t, .ok r)
    | none => t.addAltered E i e scale bit_len bit_ref
  | .err x => (t, .err x)
  | .ub => (t, .ub)

/-- `VartableBase::iterate`, `wreport/vartable.cc` lines 306-313, for a function
that never stops the iteration: everything it is called with. -/
def iterate (t : Vartable) : List Varinfo := t.entries.flatMap fun e => e.varinfo :: e.alterations

/-- `VartableBase::obtain`, `wreport/vartable.cc` lines 219-230. The new entry is
filled by the caller; here the caller passes what it fills in. -/
def obtain (t : Vartable) (info : Varinfo) : Res Vartable :=
  match t.entries.getLast? with
  | some e => if e.varinfo.code ≥ info.code then .err .parse
              else .ok { entries := t.entries ++ [⟨info, []⟩] }
  | none => .ok { entries := t.entries ++ [⟨info, []⟩] }

end Vartable

/-! ## Text lines -/

/-- `fgets(line, 200, in)` applied until end of file: lines with their newline,
cut after 199 bytes; what follows a NUL byte in a line is not seen by the code.
`n` is the room left in the buffer, `acc` the current line backwards. -/
def fgetsLoop : (n : Nat) → (acc : List Byte) → (data : List Byte) → List (List Byte)
  | _, acc, [] => if acc = [] then [] else [acc.reverse]
  | 0, acc, b :: data => acc.reverse :: (if b = 10 then [b] :: fgetsLoop 199 [] data
      else fgetsLoop 198 [b] data)
  | n + 1, acc, b :: data =>
    if b = 10 then (b :: acc).reverse :: fgetsLoop 199 [] data else fgetsLoop n (b :: acc) data

/-- The lines of a file as the table loaders see them. -/
def fgetsLines (data : List Byte) : List (List Byte) :=
  (fgetsLoop 199 [] data).map fun l => l.takeWhile (· ≠ 0)

/-- Decimal digits at the start of a text, as a number. -/
def leadDigits (acc : Nat) : List Byte → Nat
  | [] => acc
  | c :: s => if isDigit c then leadDigits (acc * 10 + (c.toNat - 48)) s else acc

/-- `strtol(s, 0, 10)`: optional blanks and sign, digits; saturates at the limits
of a 64-bit `long`. -/
def strtol (s : List Byte) : Int :=
  match s.dropWhile isSpace with
  | [] => 0
  | c :: r =>
    if c = 45 then max (-(leadDigits 0 r : Int)) (-9223372036854775808)
    else if c = 43 then min (leadDigits 0 r : Int) 9223372036854775807
    else min (leadDigits 0 (c :: r) : Int) 9223372036854775807

/-- `getnumber`, `wreport/vartable.cc` lines 78-92. After a minus sign and blanks
`strtol` takes another sign; the least `long` cannot be negated. -/
def getnumber (s : List Byte) : Res Int :=
  match s.dropWhile isSpace with
  | [] => .ok 0
  | c :: r =>
    if c = 45 then
      if strtol (r.dropWhile isSpace) = -9223372036854775808 then .ub
      else .ok (-strtol (r.dropWhile isSpace))
    else .ok (strtol (c :: r))

/-- The five bytes at `line + 2` read by `WR_STRING_TO_VAR`. Reading past the end
of the line finds what an earlier line left in the buffer, or uninitialised
bytes: both are treated as undefined. Nothing tests that they are digits; a negative
number is shifted left. -/
def lineCode (line : List Byte) : Res Varcode :=
  match line.drop 2 with
  | c1 :: c2 :: c3 :: c4 :: c5 :: _ =>
    if charSub0 c1 * 10 + charSub0 c2 < 0 then .ub else .ok (WR_STRING_TO_VAR c1 c2 c3 c4 c5)
  | _ => .ub

/-- `normalise_unit`, `wreport/vartable.cc` lines 316-324. -/
def normalise_unit (unit : List Byte) : List Byte :=
  if unit.take 10 = ascii "CODE TABLE" ∨ unit.take 9 = ascii "CODETABLE" then ascii "CODE TABLE"
  else if unit.take 10 = ascii "FLAG TABLE" ∨ unit.take 9 = ascii "FLAGTABLE" then
    ascii "FLAG TABLE"
  else unit

/-- Reading a unit, `wreport/vartable.cc` lines 352-358 and 428-434: 24 bytes
without trailing blanks. If all 24 remain the array has no terminator, and what the
`strcmp` that follows is given is not a string. -/
def readUnit (line : List Byte) (pos : Nat) : Res (List Byte) :=
  let u := normalise_unit (((line.drop pos).take 24).reverse.dropWhile isSpace).reverse
  if u.length < 24 then .ok u else .ub

/-- `static_cast<int>` of a `long`. -/
def toInt32 (i : Int) : Int := wrapInt i

/-- Decimal length of a BUFR number, `wreport/vartable.cc` lines 376-383.
`ceil(bit_len * log10(2))` is the least `k` with `2^bit_len ≤ 10^k`; double
rounding does not matter for lengths below 10^8, because these multiples of `log10(2)`
are further than it from the next integer. -/
def bufrDigits (bit_len : Nat) : Nat := if bit_len = 1 then 1 else Nat.clog 10 (2 ^ bit_len)

/-- The rest of an entry of a BUFR table, `wreport/vartable.cc` lines 364-386. -/
def bufrInfo (E : Env) (code : Varcode) (unit : List Byte) (scale bit_ref : Int) (bit_len : Nat) :
    Res Varinfo :=
  if unit = ascii "CCITTIA5" then
    (Varinfo.raw code .string unit scale (bit_len / 8) bit_ref bit_len).compute_range E
  else
    (Varinfo.raw code (if scale ≠ 0 then .decimal else .integer) unit scale
      (bufrDigits bit_len) bit_ref bit_len).compute_range E

/-- One line of a BUFR table file without its code, `wreport/vartable.cc` lines
345-386. -/
def bufrEntry (E : Env) (code : Varcode) (line : List Byte) : Res Varinfo := do
  let unit ← readUnit line 73
  let scale ← getnumber (line.drop 98)
  let bit_ref ← getnumber (line.drop 102)
  let bit_len ← getnumber (line.drop 115)
  bufrInfo E code unit (toInt32 scale) (toInt32 bit_ref) (bit_len % 4294967296).toNat

/-- The rest of an entry of a CREX table, `wreport/vartable.cc` lines 443-460. -/
def crexInfo (E : Env) (code : Varcode) (unit : List Byte) (scale : Int) (len : Nat) : Res Varinfo :=
  (Varinfo.raw code
    (if unit = ascii "CHARACTER" then .string else if scale ≠ 0 then .decimal else .integer)
    unit scale len 0 0).compute_range E

/-- One line of a CREX table file, `wreport/vartable.cc` lines 420-460. -/
def crexEntry (E : Env) (code : Varcode) (line : List Byte) : Res Varinfo := do
  let unit ← readUnit line 119
  let scale ← getnumber (line.drop 143)
  let len ← getnumber (line.drop 149)
  crexInfo E code unit (toInt32 scale) (len % 4294967296).toNat

namespace Vartable

/-- Body of the BUFR loading loop, `wreport/vartable.cc` lines 336-391. The order
of the test for sorting and of the computation of the entry is exchanged: they do
not interfere except in which of two failures is reported, and the sorting test
comes first here as it does there. -/
def addBufrLine (E : Env) (t : Vartable) (line : List Byte) : Res Vartable := do
  if line.length < 119 then .err .parse
  else
    let code ← lineCode line
    let _ ← t.obtain (Varinfo.raw code .integer [] 0 0 0 0)
    let info ← bufrEntry E code line
    t.obtain info

/-- `BufrVartable`, `wreport/vartable.cc` lines 326-397, on the contents of the
file. -/
def load_bufr (E : Env) (data : List Byte) : Res Vartable :=
  (fgetsLines data).foldlM (addBufrLine E) ⟨[]⟩

/-- Body of the CREX loading loop, `wreport/vartable.cc` lines 409-466. -/
def addCrexLine (E : Env) (t : Vartable) (line : List Byte) : Res Vartable := do
  let code ← lineCode line
  if line.length < 157 then
    (if WR_VAR_X code ≠ 31 then .err .parse else .ok t)
  else
    let _ ← t.obtain (Varinfo.raw code .integer [] 0 0 0 0)
    let info ← crexEntry E code line
    t.obtain info

/-- `CrexVartable`, `wreport/vartable.cc` lines 399-470. -/
def load_crex (E : Env) (data : List Byte) : Res Vartable :=
  (fgetsLines data).foldlM (addCrexLine E) ⟨[]⟩

end Vartable

/-! ## Sequence tables -/

/-- `Entry` of `wreport/dtable.cc` lines 15-31. -/
structure DEntry where
  code : Varcode
  begin_ : Nat
  end_ : Nat
deriving DecidableEq

/-- `DTableBase` with the local variables of its constructor,
`wreport/dtable.cc` lines 42-66. -/
structure DLoad where
  varcodes : List Varcode
  entries : List DEntry
  dcode : Varcode
  begin_ : Nat
  check : Nat
deriving DecidableEq

/-- `DTableBase`, `wreport/dtable.cc` lines 42-54. -/
structure DTable where
  varcodes : List Varcode
  entries : List DEntry
deriving DecidableEq

/-- `strtoul(s, &next, 10)`: the value and the text from `next` on. Without digits
`next` is `s`. A leading minus sign negates modulo 2^64. -/
def strtoul (s : List Byte) : Nat × List Byte :=
  let neg := (s.dropWhile isSpace).head? = some 45
  let body := match s.dropWhile isSpace with
    | [] => []
    | c :: r => if c = 45 ∨ c = 43 then r else c :: r
  let ds := body.takeWhile isDigit
  if ds = [] then (0, s)
  else
    let v := leadDigits 0 ds
    let v := if v ≤ 18446744073709551615 then (if neg then (18446744073709551616 - v) % 18446744073709551616 else v)
      else 18446744073709551615
    (v, body.dropWhile isDigit)

/-- `varcode_parse` on the text at a pointer into the line. -/
def parseAt (s : List Byte) : Res Varcode := varcode_parse s

namespace DTable

/-- `last_count`, `wreport/dtable.cc` line 78. -/
def lastCount (d : DLoad) : Nat := d.varcodes.length - d.begin_

/-- The entry being read is appended, `wreport/dtable.cc` line 88. -/
def closeEntry (d : DLoad) : List DEntry :=
  d.entries ++ [⟨d.dcode, d.begin_, d.varcodes.length⟩]

/-- Start of a sequence, `wreport/dtable.cc` lines 76-98. -/
def startEntry (d : DLoad) (line : List Byte) : Res DLoad :=
  if lastCount d ≠ d.check then .err .parse
  else
    let r := strtoul (line.drop 7)
    let n := r.1 % 4294967296
    if n < 1 then .err .parse
    else do
      let dcode ← parseAt (line.drop 1)
      let first ← parseAt (r.2.dropWhile isSpace)
      return {
        varcodes := d.varcodes ++ [first]
        entries := if d.varcodes = [] then d.entries else closeEntry d
        dcode := dcode
        begin_ := d.varcodes.length
        check := n }

/-- Continuation of a sequence, `wreport/dtable.cc` lines 99-111. -/
def contEntry (d : DLoad) (line : List Byte) : Res DLoad :=
  if d.varcodes = [] then .err .parse
  else if lastCount d = d.check then .err .parse
  else do
    let c ← parseAt (line.drop 11)
    return { d with varcodes := d.varcodes ++ [c] }

/-- Body of the loading loop, `wreport/dtable.cc` lines 68-114. -/
def addLine (d : DLoad) (line : List Byte) : Res DLoad :=
  if line.length < 18 then .err .parse
  else if line.getD 1 0 = 0x44 ∨ line.getD 1 0 = 0x33 then startEntry d line
  else if line.take 11 = List.replicate 11 32 then contEntry d line
  else .err .parse

/-- End of the loading, `wreport/dtable.cc` lines 116-126. -/
def finish (d : DLoad) : Res DTable :=
  if d.varcodes = [] then .err .parse
  else if lastCount d ≠ d.check then .err .parse
  else .ok ⟨d.varcodes, closeEntry d⟩

/-- `DTableBase::DTableBase`, `wreport/dtable.cc` lines 56-127, on the contents of
the file. -/
def load (data : List Byte) : Res DTable := do
  let d ← (fgetsLines data).foldlM addLine ⟨[], [], 0, 0, 0⟩
  finish d

/-- `DTableBase::query`, `wreport/dtable.cc` lines 136-156. The result is the view
`[begin, end)` of `varcodes`, given as the list of codes in it. -/
def query (t : DTable) (code : Varcode) : Res (List Varcode) := do
  match ← searchCode (t.entries.map (·.code)) code with
  | none => .err .notfound
  | some i => match t.entries[i]? with
    | none => .ub
    | some e => return (t.varcodes.drop e.begin_).take (e.end_ - e.begin_)

end DTable

/-! ## Views of descriptor lists -/

/-- `Opcodes`, `wreport/opcodes.h` lines 19-119: positions of `begin` and `end` in
the array of descriptors `data` they point to. -/
structure Opcodes where
  data : List Varcode
  b : Nat
  e : Nat
deriving DecidableEq

namespace Opcodes

/-- Reading `*p` for a pointer into the array. -/
def deref (o : Opcodes) (p : Nat) : Res Varcode :=
  match o.data[p]? with
  | some c => .ok c
  | none => .ub

/-- Pointer arithmetic `begin + i` is defined up to one past the end of the array. -/
def offset (o : Opcodes) (p i : Nat) : Res Nat := if p + i ≤ o.data.length then .ok (p + i) else .ub

/-- Constructor from a vector, line 29. -/
def ofVector (v : List Varcode) : Opcodes := ⟨v, 0, v.length⟩

/-- `operator[]`, lines 37-44. -/
def get (o : Opcodes) (i : Nat) : Res Varcode := do
  let p ← o.offset o.b i
  if o.e < p then return 0 else o.deref p

/-- `size`, line 47. -/
def size (o : Opcodes) : Nat := o.e - o.b

/-- `empty`, line 50. -/
def empty (o : Opcodes) : Bool := o.b = o.e

/-- `pop_left()`, lines 57-61. -/
def pop_left (o : Opcodes) : Res (Varcode × Opcodes) :=
  if o.empty then .err .consistency
  else do
    let c ← o.deref o.b
    return (c, { o with b := o.b + 1 })

/-- `pop_left(count)`, lines 69-76. -/
def pop_leftN (o : Opcodes) (count : Nat) : Res (Opcodes × Opcodes) :=
  if o.size < count then .err .consistency
  else .ok ({ o with e := o.b + count }, { o with b := o.b + count })

/-- `head`, lines 79-84. -/
def head (o : Opcodes) : Res Varcode := if o.b = o.e then .ok 0 else o.deref o.b

/-- `next`, lines 91-97. -/
def next (o : Opcodes) : Opcodes := if o.b = o.e then o else { o with b := o.b + 1 }

/-- `sub(skip)`, lines 100-106. -/
def sub (o : Opcodes) (skip : Nat) : Res Opcodes := do
  let p ← o.offset o.b skip
  if o.e < p then return { o with b := o.e } else return { o with b := p }

/-- `sub(skip, len)`, lines 109-117. -/
def subN (o : Opcodes) (skip len : Nat) : Res Opcodes := do
  let p ← o.offset o.b skip
  if o.e < p then return { o with b := o.e }
  else do
    let q ← o.offset p len
    if o.e ≤ q then return { o with b := p } else return { o with b := p, e := q }

end Opcodes

/-! ## Descriptors made up while decoding -/

/-- The maps of `Tables`, `wreport/tables.h` lines 20-60: by bitmap text, by code,
by bit length. -/
structure TableCaches where
  bitmap_table : List (List Byte × Varinfo)
  chardata_table : List (Varcode × Varinfo)
  unknown_table : List (Nat × Varinfo)

namespace TableCaches

/-- `map::find` followed by the code test, or insertion of a new entry. -/
def lookupOrAdd {κ : Type} [DecidableEq κ] (m : List (κ × Varinfo)) (k : κ) (code : Varcode)
    (mk : Res Varinfo) : List (κ × Varinfo) × Res Varinfo :=
  match m.lookup k with
  | some i => if i.code ≠ code then (m, .err .consistency) else (m, .ok i)
  | none => match mk with
    | .ok i => ((k, i) :: m, .ok i)
    | .err x => (m, .err x)
    | .ub => (m, .ub)

/-- `Tables::get_bitmap`, `wreport/tables.cc` lines 79-94. -/
def get_bitmap (E : Env) (c : TableCaches) (code : Varcode) (bitmap : List Byte) :
    TableCaches × Res Varinfo :=
  let r := lookupOrAdd c.bitmap_table bitmap code (Varinfo.set_string E code bitmap.length)
  ({ c with bitmap_table := r.1 }, r.2)

/-- `Tables::get_chardata`, `wreport/tables.cc` lines 96-111. -/
def get_chardata (E : Env) (c : TableCaches) (code : Varcode) (len : Nat) :
    TableCaches × Res Varinfo :=
  let r := lookupOrAdd c.chardata_table code code (Varinfo.set_string E code len)
  ({ c with chardata_table := r.1 }, r.2)

/-- `Tables::get_unknown`, `wreport/tables.cc` lines 113-128. -/
def get_unknown (E : Env) (c : TableCaches) (code : Varcode) (bit_len : Nat) :
    TableCaches × Res Varinfo :=
  let r := lookupOrAdd c.unknown_table bit_len code (Varinfo.set_binary E code bit_len)
  ({ c with unknown_table := r.1 }, r.2)

end TableCaches

end Wreport
