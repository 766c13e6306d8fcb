import Verif.Model.Interp

/-!
# Bulletins and subsets

Modelled code: `wreport/bulletin.{h,cc}` and `wreport/subset.{h,cc}` without encoding,
decoding (see `Message` and `Crex`) and printing. All the subsets of a bulletin refer
to its tables. When a vector grows its elements stay as they are.
-/

namespace Wreport

/-- `Tables`, `wreport/tables.h` lines 14-54: the B and D table with their paths, if
loaded. -/
structure Tables where
  btable : Option (List Byte × Vartable)
  dtable : Option (List Byte × DTable)
  caches : TableCaches

namespace Tables

/-- `Tables::Tables`, `wreport/tables.cc` lines 11-14. -/
def new : Tables := ⟨none, none, ⟨[], [], []⟩⟩

/-- `Tables::loaded`, `wreport/tables.cc` lines 39-42. -/
def loaded (t : Tables) : Bool := t.btable.isSome && t.dtable.isSome

/-- `Tables::clear`, `wreport/tables.cc` lines 44-51. -/
def clear (_ : Tables) : Tables := ⟨none, none, ⟨[], [], []⟩⟩

/-- `tables->btable->query`: undefined behaviour without a table. -/
def query (t : Tables) (code : Varcode) : Res Varinfo :=
  match t.btable with
  | some b => b.2.query code
  | none => .ub

end Tables

/-- `Subset`, `wreport/subset.h` lines 20-40. -/
abbrev Subset := List Var

namespace Subset

/-- `Subset::Subset`, `wreport/subset.cc` lines 13-17. -/
def new (t : Tables) : Res Subset := if !t.loaded then .err .consistency else .ok []

/-- `Subset::store_variable(const Var&)`, `wreport/subset.cc` lines 29-32. -/
def store_variable (s : Subset) (v : Var) : Res Subset := do
  let c ← v.copy
  return s ++ [c]

/-- `Subset::store_variable(Varcode, const Var&)`, `wreport/subset.cc` lines 39-43. -/
def store_variable_as (E : Env) (O : Opts) (t : Tables) (s : Subset) (code : Varcode) (v : Var) :
    Res Subset := do
  let info ← t.query code
  let x ← Var.newFrom E O info v
  return s ++ [x]

/-- `Subset::store_variable_i`, `wreport/subset.cc` lines 45-49. -/
def store_variable_i (O : Opts) (t : Tables) (s : Subset) (code : Varcode) (val : Int) : Res Subset := do
  let info ← t.query code
  let x ← Var.newInt O info val
  return s ++ [x]

/-- `Var(Varinfo, double)`, `wreport/var.cc` lines 110-114. -/
def newD (E : Env) (O : Opts) (info : Varinfo) (val : Dbl) : Res Var := do
  let r := (Var.new info).setd E O val
  let _ ← r.2
  return r.1

/-- `Subset::store_variable_d`, `wreport/subset.cc` lines 51-55. -/
def store_variable_d (E : Env) (O : Opts) (t : Tables) (s : Subset) (code : Varcode) (val : Dbl) :
    Res Subset := do
  let info ← t.query code
  let x ← newD E O info val
  return s ++ [x]

/-- `Var(Varinfo, const char*)`, `wreport/var.cc` lines 116-120. -/
def newC (O : Opts) (info : Varinfo) (val : Mem) : Res Var := do
  let r := (Var.new info).setc O val
  let _ ← r.2
  return r.1

/-- `Subset::store_variable_c`, `wreport/subset.cc` lines 57-61. -/
def store_variable_c (O : Opts) (t : Tables) (s : Subset) (code : Varcode) (val : Mem) :
    Res Subset := do
  let info ← t.query code
  let x ← newC O info val
  return s ++ [x]

/-- `Subset::store_variable_undef(Varcode)`, `wreport/subset.cc` lines 63-67. -/
def store_variable_undef (t : Tables) (s : Subset) (code : Varcode) : Res Subset := do
  let info ← t.query code
  return s ++ [Var.new info]

/-- `Subset::store_variable_undef(Varinfo)`, `wreport/subset.cc` lines 69-72. -/
def store_variable_undef_info (s : Subset) (info : Varinfo) : Subset := s ++ [Var.new info]

/-- `Subset::append_c_with_dpb`, `wreport/subset.cc` lines 74-83; the size is not used.
New tables too, because of the descriptor made up. -/
def append_c_with_dpb (E : Env) (O : Opts) (t : Tables) (s : Subset) (ccode : Varcode) (bitmap : Mem) :
    Res (Subset × Tables) := do
  let text ← cstr bitmap
  let r := t.caches.get_bitmap E ccode text
  let info ← r.2
  let v ← newC O info bitmap
  let s ← s.store_variable v
  return (s, { t with caches := r.1 })

/-- The inner loop of `append_dpb`, `wreport/subset.cc` lines 94-96: how many variables
are skipped. -/
def specials : Subset → Nat
  | [] => 0
  | v :: l => if WR_VAR_F v.code ≠ 0 then specials l + 1 else 0

/-- The loop of `append_dpb`, `wreport/subset.cc` lines 91-106, from variable `src` on
with room for `room` more entries: the entries written. A variable past the end cannot
be read. -/
def scan (attr : Varcode) (s : Subset) : (src room : Nat) → Res (List Byte)
  | _, 0 => .ok []
  | src, room + 1 =>
    if s.length ≤ src then .ok []
    else
      let src := src + specials (s.drop src)
      match s[src]? with
      | none => .ub
      | some v => do
        let rest ← scan attr s (src + 1) room
        return (if (v.enqa attr).isNone then 45 else 43) :: rest

/-- `Subset::append_dpb`, `wreport/subset.cc` lines 85-113. `TempBuffer` does not
initialise its memory, so entries that are not written cannot be read. -/
def append_dpb (E : Env) (O : Opts) (t : Tables) (s : Subset) (ccode : Varcode) (size : Nat)
    (attr : Varcode) : Res (Nat × Subset × Tables) := do
  let written ← scan attr s 0 size
  let bitmap : Mem := toMem written ++ List.replicate (size - written.length) none ++ [some 0]
  let r ← append_c_with_dpb E O t s ccode bitmap
  return (written.count 43, r)

/-- `Subset::append_fixed_dpb`, `wreport/subset.cc` lines 115-123, for a size that is not
negative. -/
def append_fixed_dpb (E : Env) (O : Opts) (t : Tables) (s : Subset) (ccode : Varcode) (size : Nat) :
    Res (Subset × Tables) :=
  append_c_with_dpb E O t s ccode (toMem (List.replicate size 43) ++ [some 0])

/-- The loop of `Subset::diff`, `wreport/subset.cc` lines 151-155. -/
def diffVars : Subset → Subset → Res Nat
  | a :: s, b :: s' => do
    let d ← a.diff b
    if 0 < d then .ok d else diffVars s s'
  | _, _ => .ok 0

/-- `Subset::diff`, `wreport/subset.cc` lines 134-157, given the tables of both. -/
def diff (t : Tables) (s : Subset) (t' : Tables) (s' : Subset) : Res Nat :=
  match t.btable, t'.btable with
  | some b, some b' =>
    if b.1 ≠ b'.1 then .ok 1
    else if s.length ≠ s'.length then .ok 1
    else diffVars s s'
  | _, _ => .ub

end Subset

/-- The members of `BufrBulletin`, `wreport/bulletin.h` lines 225-262. -/
structure BufrDetails where
  edition_number : UInt8
  master_table_version_number : UInt8
  master_table_version_number_local : UInt8
  compression : Bool
  optional_section : List Byte
deriving DecidableEq

/-- The members of `CrexBulletin`, `wreport/bulletin.h` lines 395-435. -/
structure CrexDetails where
  edition_number : UInt8
  master_table_version_number : UInt8
  master_table_version_number_bufr : UInt8
  master_table_version_number_local : UInt8
  has_check_digit : Bool
deriving DecidableEq

/-- The derived class. -/
inductive Details where
  | bufr (d : BufrDetails)
  | crex (d : CrexDetails)
deriving DecidableEq

/-- `Bulletin`, `wreport/bulletin.h` lines 29-117. -/
structure Bulletin where
  fname : List Byte
  offset : Int
  master_table_number : UInt8
  data_category : UInt8
  data_subcategory : UInt8
  data_subcategory_local : UInt8
  originating_centre : UInt16
  originating_subcentre : UInt16
  update_sequence_number : UInt8
  rep_year : UInt16
  rep_month : UInt8
  rep_day : UInt8
  rep_hour : UInt8
  rep_minute : UInt8
  rep_second : UInt8
  tables : Tables
  datadesc : List Varcode
  subsets : List Subset
  details : Details

namespace Bulletin

/-- `BufrBulletin::create`, `wreport/bulletin.h` lines 39-117 and 225-262;
`compression` is not initialised. -/
def newBufr (compression : Bool) : Bulletin :=
  ⟨[], 0, 0, 0xff, 0xff, 0xff, 0xffff, 0xffff, 0, 0, 0, 0, 0, 0, 0, Tables.new, [], [],
    .bufr ⟨4, 19, 0, compression, []⟩⟩

/-- `CrexBulletin::create`, `wreport/bulletin.h` lines 39-117 and 395-435. -/
def newCrex : Bulletin :=
  ⟨[], 0, 0, 0xff, 0xff, 0xff, 0xffff, 0xffff, 0, 0, 0, 0, 0, 0, 0, Tables.new, [], [],
    .crex ⟨2, 19, 19, 0, false⟩⟩

/-- `BufrBulletin::clear` and `CrexBulletin::clear`, `wreport/bulletin.cc` lines
331-339 and 541-549. -/
def clearDetails : Details → Details
  | .bufr d => .bufr
    { d with
      edition_number := 4
      master_table_version_number := 19
      master_table_version_number_local := 0
      compression := false
      optional_section := [] }
  | .crex d => .crex
    { d with
      edition_number := 2
      master_table_version_number := 19
      master_table_version_number_bufr := 19
      master_table_version_number_local := 0
      has_check_digit := false }

/-- `Bulletin::clear`, `wreport/bulletin.cc` lines 60-73, and the overrides. -/
def clear (b : Bulletin) : Bulletin :=
  { b with
    fname := []
    offset := 0
    master_table_number := 0
    data_category := 0xff
    data_subcategory := 0xff
    data_subcategory_local := 0xff
    originating_centre := 0xffff
    originating_subcentre := 0xffff
    update_sequence_number := 0
    rep_year := 0
    rep_month := 0
    rep_day := 0
    rep_hour := 0
    rep_minute := 0
    rep_second := 0
    tables := b.tables.clear
    datadesc := []
    subsets := []
    details := clearDetails b.details }

/-- The loop of `obtain_subset`, `wreport/bulletin.cc` lines 77-78, `n` times. -/
def addSubsets (b : Bulletin) : Nat → Bulletin × Res Unit
  | 0 => (b, .ok ())
  | n + 1 => match Subset.new b.tables with
    | .ok s => addSubsets { b with subsets := b.subsets ++ [s] } n
    | .err e => (b, .err e)
    | .ub => (b, .ub)

/-- `Bulletin::obtain_subset`, `wreport/bulletin.cc` lines 75-80: the bulletin and the
subset. -/
def obtain_subset (b : Bulletin) (subsection : Nat) : Bulletin × Res Subset :=
  let r := b.addSubsets (subsection + 1 - b.subsets.length)
  (r.1, do
    let _ ← r.2
    match r.1.subsets[subsection]? with
    | some s => return s
    | none => .ub)

/-- `Bulletin::subset`, `wreport/bulletin.cc` lines 82-88. -/
def subset (b : Bulletin) (subsection : Nat) : Res Subset :=
  if b.subsets.length ≤ subsection then .err .notfound
  else match b.subsets[subsection]? with
    | some s => .ok s
    | none => .ub

/-- Use of the reference that `obtain_subset` returns: the subset is changed. -/
def setSubset (b : Bulletin) (subsection : Nat) (s : Subset) : Bulletin :=
  { b with subsets := b.subsets.set subsection s }

/-- `++diffs` if two members differ. -/
def differ {α : Type} [DecidableEq α] (a b : α) : Nat := if a ≠ b then 1 else 0

/-- `encoding_name`, `wreport/bulletin.h` lines 268 and 437. -/
def encoding_name (b : Bulletin) : List Byte :=
  match b.details with
  | .bufr _ => ascii "BUFR"
  | .crex _ => ascii "CREX"

/-- `BufrBulletin::diff_details` and `CrexBulletin::diff_details`,
`wreport/bulletin.cc` lines 410-456 and 572-610. -/
def diff_details (d : Details) (m : Bulletin) : Res Nat :=
  match d, m.details with
  | .bufr d, .bufr m => .ok (differ d.edition_number m.edition_number +
      differ d.master_table_version_number m.master_table_version_number +
      differ d.master_table_version_number_local m.master_table_version_number_local +
      differ d.optional_section.length m.optional_section.length +
      differ d.optional_section m.optional_section)
  | .crex d, .crex m => .ok (differ d.edition_number m.edition_number +
      differ d.master_table_version_number m.master_table_version_number +
      differ d.master_table_version_number_local m.master_table_version_number_local +
      differ d.master_table_version_number m.master_table_version_number +
      differ d.has_check_digit m.has_check_digit)
  | _, _ => .err .consistency

/-- Comparison of the paths of tables, `wreport/bulletin.cc` lines 236-267. -/
def diffPath (a b : Option (List Byte)) : Nat :=
  if a.isNone && b.isSome then 1
  else if a.isSome && b.isNone then 1
  else if a.isSome && b.isSome && a ≠ b then 1
  else 0

/-- Comparison of the data descriptors, `wreport/bulletin.cc` lines 269-284. -/
def diffDesc (a b : List Varcode) : Nat :=
  if a.length ≠ b.length then 1
  else ((a.zip b).filter fun p => p.1 ≠ p.2).length

/-- The loop over subsets, `wreport/bulletin.cc` lines 292-293. -/
def diffSubsets (t t' : Tables) : List Subset → List Subset → Res Nat
  | s :: l, s' :: l' => do
    let d ← Subset.diff t s t' s'
    let n ← diffSubsets t t' l l'
    return d + n
  | _, _ => .ok 0

/-- The members of `Bulletin` that are compared, `wreport/bulletin.cc` lines 162-234. -/
def diffFields (b m : Bulletin) : Nat :=
  differ b.master_table_number m.master_table_number +
  differ b.data_category m.data_category +
  differ b.data_subcategory m.data_subcategory +
  differ b.data_subcategory_local m.data_subcategory_local +
  differ b.originating_centre m.originating_centre +
  differ b.originating_subcentre m.originating_subcentre +
  differ b.update_sequence_number m.update_sequence_number +
  differ b.rep_year m.rep_year +
  differ b.rep_month m.rep_month +
  differ b.rep_day m.rep_day +
  differ b.rep_hour m.rep_hour +
  differ b.rep_minute m.rep_minute +
  differ b.rep_second m.rep_second

/-- The encoding and what is specific to it, `wreport/bulletin.cc` lines 156-162. -/
def diffEncoding (b m : Bulletin) : Res Nat :=
  if b.encoding_name ≠ m.encoding_name then .ok 1 else diff_details b.details m

/-- The subsets, `wreport/bulletin.cc` lines 286-293. -/
def diffAllSubsets (b m : Bulletin) : Res Nat :=
  if b.subsets.length ≠ m.subsets.length then .ok 1
  else diffSubsets b.tables m.tables b.subsets m.subsets

/-- `Bulletin::diff`, `wreport/bulletin.cc` lines 153-295. The count is an `unsigned`
in the code; its wrapping after 2^32 differences is not modelled. -/
def diff (b m : Bulletin) : Res Nat := do
  let d ← diffEncoding b m
  let s ← diffAllSubsets b m
  return d + diffFields b m +
    diffPath (b.tables.btable.map (·.1)) (m.tables.btable.map (·.1)) +
    diffPath (b.tables.dtable.map (·.1)) (m.tables.dtable.map (·.1)) +
    diffDesc b.datadesc m.datadesc + s

end Bulletin

end Wreport
