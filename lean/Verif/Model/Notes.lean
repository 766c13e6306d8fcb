import Verif.Model.Bulletin
import Verif.Model.Verbose

/-!
# Notes about differences

Modelled code: `wreport/notes.cc`, `wreport/notes.h`, the texts that `Var::diff`
(`wreport/var.cc` lines 816-952), `Subset::diff` (`wreport/subset.cc` lines 134-157) and
`Bulletin::diff` (`wreport/bulletin.cc` lines 153-295, 410-456 and 572-610) write, and
`Var::print(std::ostream&)` (`wreport/var.cc` lines 783-790 and 804-814). Not modelled: a
failing `vasprintf`, failing streams, more than one thread.
-/

namespace Wreport

namespace Notes

/-- What a call of `notes::logf` writes, `wreport/notes.cc` lines 52-69: nothing without a
target (`on` tells if there is one), and then what its arguments point at is not read. -/
def logf (on : Bool) (text : Res (List Byte)) : Res (List Byte) := if on then text else .ok []

/-- `%s` with the text of a `std::string`. -/
def cut (s : List Byte) : List Byte := s.takeWhile (· ≠ 0)

/-- `"[%d%02d%03d %s] "` with the code and the description of a variable. -/
def head (desc : Varinfo → List Byte) (v : VarCore) : List Byte :=
  ascii "[" ++ Printer.digits v.code ++ ascii " " ++ desc v.info ++ ascii "] "

/-- `Var::print_without_attrs(std::ostream&)`, `wreport/var.cc` lines 783-790. -/
def printOne (E : Env) (desc : Varinfo → List Byte) (v : VarCore) : Res (List Byte) := do
  let s ← v.format E (ascii "(undef)")
  return varcode_format v.code ++ ascii " " ++ desc v.info ++ ascii "(" ++ v.info.unit ++
    ascii "): " ++ s ++ ascii "\n"

/-- The attributes that `Var::print(std::ostream&)` prints, `wreport/var.cc` lines
808-813. -/
def printAttrs (E : Env) (desc : Varinfo → List Byte) : List VarCore → Res (List Byte)
  | [] => .ok []
  | a :: l => do
    let x ← printOne E desc a
    let y ← printAttrs E desc l
    return ascii "           \n" ++ x ++ y

/-- `Var::print(std::ostream&)`, `wreport/var.cc` lines 804-814. -/
def print (E : Env) (desc : Varinfo → List Byte) (v : VarCore) (chain : List VarCore) :
    Res (List Byte) := do
  let x ← printOne E desc v
  let y ← printAttrs E desc chain
  return x ++ y

/-- The part of `Var::diff` before attributes, `wreport/var.cc` lines 819-891, and what it
writes. Arguments are computed before it is known if there is a target. -/
def diffValue (E : Env) (desc : Varinfo → List Byte) (on : Bool) (a b : VarCore) :
    Res (Option Nat × List Byte) :=
  if a.code ≠ b.code then do
    let t ← logf on (.ok (ascii "varcodes differ: first is " ++ Printer.digits a.code ++ ascii "'" ++
      desc a.info ++ ascii "', second is " ++ Printer.digits b.code ++ ascii "'" ++ desc b.info ++
      ascii "'\n"))
    return (some 1, t)
  else if !a.isset && !b.isset then .ok (some 0, [])
  else if !a.isset then do
    let p ← b.enqc E
    let t ← logf on (do
      let s ← cstr p
      return head desc a ++ ascii "first value is NULL, second value is " ++ s ++ ascii "\n")
    return (some 1, t)
  else if !b.isset then do
    let p ← a.enqc E
    let t ← logf on (do
      let s ← cstr p
      return head desc a ++ ascii "first value is " ++ s ++ ascii ", second value is NULL\n")
    return (some 1, t)
  else if a.info.type ≠ b.info.type then do
    let t ← logf on (.ok (head desc a ++ ascii "first variable has type " ++
      vartype_format a.info.type ++ ascii ", second has type " ++ vartype_format b.info.type ++
      ascii "\n"))
    return (some 1, t)
  else match a.info.type with
  | .binary =>
    if a.info.bit_len ≠ b.info.bit_len then do
      let t ← logf on (.ok (head desc a ++ ascii "binary values differ: first is " ++
        Printer.dec a.info.bit_len ++ ascii " bits, second is " ++ Printer.dec b.info.bit_len ++
        ascii " bits\n"))
      return (some 1, t)
    else do
      let e ← a.value_equals b
      if e then .ok (none, []) else do
        let x ← a.format E []
        let y ← b.format E []
        let t ← logf on (.ok (head desc a ++ ascii "binary values differ: first is \"" ++ x ++
          ascii "\", second is \"" ++ y ++ ascii "\"\n"))
        return (some 1, t)
  | .string => do
    let e ← a.value_equals b
    if e then .ok (none, []) else do
      let p ← a.ptr
      let q ← b.ptr
      let t ← logf on (do
        let x ← cstr p
        let y ← cstr q
        return head desc a ++ ascii "values differ: first is \"" ++ x ++ ascii "\", second is \"" ++
          y ++ ascii "\"\n")
      return (some 1, t)
  | .integer => do
    let e ← a.value_equals b
    if e then .ok (none, []) else do
      let i ← a.enqi
      let j ← b.enqi
      let t ← logf on (.ok (head desc a ++ ascii "values differ: first is " ++ Printer.dec i ++
        ascii ", second is " ++ Printer.dec j ++ ascii "\n"))
      return (some 1, t)
  | .decimal => do
    let e ← a.value_equals b
    if e then .ok (none, []) else do
      let i ← a.enqi
      let j ← b.enqi
      let x ← a.info.decode_decimal E i
      let y ← a.info.decode_decimal E j
      let t ← logf on (.ok (head desc a ++ ascii "values differ: first is " ++ fmtF 6 x ++
        ascii ", second is " ++ fmtF 6 y ++ ascii "\n"))
      return (some 1, t)

mutual
/-- `Var::diff`, `wreport/var.cc` lines 816-952, on a variable and the chain behind it: the
count and what is written. -/
def diffChain (E : Env) (desc : Varinfo → List Byte) (on : Bool) :
    (a : VarCore) → (l : List VarCore) → (b : VarCore) → (m : List VarCore) →
    Res (Nat × List Byte)
  | a, l, b, m => do
    match ← diffValue E desc on a b with
    | (some n, t) => .ok (n, t)
    | (none, _) =>
      if l.isEmpty ≠ m.isEmpty then do
        let t ← logf on (.ok (head desc a ++ ascii (if l.isEmpty then
          "attributes differ: first does not have attributes, second does\n" else
          "attributes differ: first has attributes, second does not\n")))
        return (1, t)
      else if l.length ≠ m.length then do
        let t ← logf on (.ok (head desc a ++ ascii "attributes differ: first has " ++
          Printer.dec l.length ++ ascii ", second has " ++ Printer.dec m.length ++ ascii "\n"))
        return (((l.length : Int) - m.length).natAbs, t)
      else diffAttrs E desc on a l l m
termination_by _ l => 2 * l.length + 1

/-- The loop over attributes of `Var::diff`, `wreport/var.cc` lines 923-948, in the variable
`owner` with attributes `chain`. -/
def diffAttrs (E : Env) (desc : Varinfo → List Byte) (on : Bool) (owner : VarCore)
    (chain : List VarCore) : (l m : List VarCore) → Res (Nat × List Byte)
  | a :: l, b :: m => do
    let extracode := if a.code < b.code then a.code else if b.code < a.code then b.code else 0
    if extracode ≠ 0 then do
      let t ← logf on (.ok (head desc owner ++ ascii "attributes differ: attribute " ++
        Printer.digits extracode ++ ascii " exists only on first\n"))
      return (1, t)
    else do
      let d ← diffChain E desc on a l b m
      if d.1 ≠ 0 then do
        let x ← print E desc owner chain
        let t ← logf on (.ok (ascii "  comparing attr of variable " ++ x))
        return (d.1, d.2 ++ t)
      else diffAttrs E desc on owner chain l m
  | _, _ => .ok (0, [])
termination_by l => 2 * l.length
end

/-- `Var::diff`. -/
def diffVar (E : Env) (desc : Varinfo → List Byte) (on : Bool) (a b : Var) :
    Res (Nat × List Byte) :=
  diffChain E desc on a.toVarCore a.attrs b.toVarCore b.attrs

/-- The loop of `Subset::diff`, `wreport/subset.cc` lines 151-155. -/
def diffVars (E : Env) (desc : Varinfo → List Byte) (on : Bool) : Subset → Subset →
    Res (Nat × List Byte)
  | a :: s, b :: s' => do
    let d ← diffVar E desc on a b
    if 0 < d.1 then .ok d else diffVars E desc on s s'
  | _, _ => .ok (0, [])

/-- `Subset::diff`, `wreport/subset.cc` lines 134-157. -/
def diffSubset (E : Env) (desc : Varinfo → List Byte) (on : Bool) (t : Tables) (s : Subset)
    (t' : Tables) (s' : Subset) : Res (Nat × List Byte) :=
  match t.btable, t'.btable with
  | some b, some b' =>
    if b.1 ≠ b'.1 then do
      let x ← logf on (.ok (ascii "B tables differ (first is " ++ cut b.1 ++ ascii ", second is " ++
        cut b'.1 ++ ascii ")\n"))
      return (1, x)
    else if s.length ≠ s'.length then do
      let x ← logf on (.ok (ascii "Number of variables differ (first is " ++ Printer.dec s.length ++
        ascii ", second is " ++ Printer.dec s'.length ++ ascii ")\n"))
      return (1, x)
    else diffVars E desc on s s'
  | _, _ => .ub

/-- A note that needs no memory to be read. -/
def note (on : Bool) (text : List Byte) : List Byte := if on then text else []

/-- A difference that is counted, and the note about it. -/
def one (on : Bool) (text : List Byte) : Nat × List Byte := (1, note on text)

/-- What is counted and written one after the other. -/
def both (a b : Nat × List Byte) : Nat × List Byte := (a.1 + b.1, a.2 ++ b.2)

/-- `"… (first is …, second is …)\n"`. -/
def firstSecond (name : String) (a b : List Byte) : List Byte :=
  ascii name ++ ascii " (first is " ++ a ++ ascii ", second is " ++ b ++ ascii ")\n"

/-- The comparison of two numbers. -/
def number (on : Bool) (name : String) (a b : Nat) : Nat × List Byte :=
  if a ≠ b then one on (firstSecond name (Printer.dec a) (Printer.dec b)) else (0, [])

/-- `BufrBulletin::diff_details` and `CrexBulletin::diff_details`, `wreport/bulletin.cc`
lines 410-456 and 572-610. -/
def diffDetails (on : Bool) (d : Details) (m : Bulletin) : Res (Nat × List Byte) :=
  match d, m.details with
  | .bufr d, .bufr m => .ok <|
    both (number on "BUFR edition numbers differ" d.edition_number.toNat m.edition_number.toNat) <|
    both (number on "BUFR master table version numbers differ"
      d.master_table_version_number.toNat m.master_table_version_number.toNat) <|
    both (number on "BUFR master table local version numbers differ"
      d.master_table_version_number_local.toNat m.master_table_version_number_local.toNat) <|
    both (number on "BUFR optional section lenght"
      d.optional_section.length m.optional_section.length)
      (if d.optional_section ≠ m.optional_section then
        one on (ascii "BUFR optional section contents differ\n") else (0, []))
  | .crex d, .crex m => .ok <|
    both (number on "CREX edition numbers differ" d.edition_number.toNat m.edition_number.toNat) <|
    both (number on "CREX master table version numbers differ"
      d.master_table_version_number.toNat m.master_table_version_number.toNat) <|
    both (number on "CREX master table local version numbers differ"
      d.master_table_version_number_local.toNat m.master_table_version_number_local.toNat) <|
    both (if d.master_table_version_number ≠ m.master_table_version_number then
        one on (firstSecond "BUFR master table version numbers differ"
          (Printer.dec d.master_table_version_number_bufr.toNat)
          (Printer.dec m.master_table_version_number_bufr.toNat)) else (0, []))
      (number on "CREX has_check_digit differ" d.has_check_digit.toNat m.has_check_digit.toNat)
  | _, _ => .err .consistency

/-- The encoding and what is specific to it, `wreport/bulletin.cc` lines 156-162. -/
def diffEncoding (on : Bool) (b m : Bulletin) : Res (Nat × List Byte) :=
  if b.encoding_name ≠ m.encoding_name then
    .ok (one on (firstSecond "Encodings differ" b.encoding_name m.encoding_name))
  else diffDetails on b.details m

/-- The members of `Bulletin` that are compared, `wreport/bulletin.cc` lines 163-234. -/
def diffFields (on : Bool) (b m : Bulletin) : Nat × List Byte :=
  both (number on "MAster table numbers differ"
    b.master_table_number.toNat m.master_table_number.toNat) <|
  both (number on "Data categories differ" b.data_category.toNat m.data_category.toNat) <|
  both (number on "Data subcategories differ" b.data_subcategory.toNat m.data_subcategory.toNat) <|
  both (number on "Data local subcategories differ"
    b.data_subcategory_local.toNat m.data_subcategory_local.toNat) <|
  both (number on "Originating centres differ"
    b.originating_centre.toNat m.originating_centre.toNat) <|
  both (number on "Originating subcentres differ"
    b.originating_subcentre.toNat m.originating_subcentre.toNat) <|
  both (number on "Update sequence numbers differ"
    b.update_sequence_number.toNat m.update_sequence_number.toNat) <|
  both (number on "Reference years differ" b.rep_year.toNat m.rep_year.toNat) <|
  both (number on "Reference months differ" b.rep_month.toNat m.rep_month.toNat) <|
  both (number on "Reference days differ" b.rep_day.toNat m.rep_day.toNat) <|
  both (number on "Reference hours differ" b.rep_hour.toNat m.rep_hour.toNat) <|
  both (number on "Reference minutes differ" b.rep_minute.toNat m.rep_minute.toNat)
    (number on "Reference seconds differ" b.rep_second.toNat m.rep_second.toNat)

/-- Comparison of the paths of tables, `wreport/bulletin.cc` lines 236-264, with the names
that the three notes use. -/
def diffPath (on : Bool) (what tables : String) (a b : Option (List Byte)) : Nat × List Byte :=
  match a, b with
  | none, some q =>
    one on (ascii "First message did not load B " ++ ascii what ++ ascii ", second message has " ++
      cut q ++ ascii "\n")
  | some p, none =>
    one on (ascii "Second message did not load B " ++ ascii what ++ ascii ", first message has " ++
      cut p ++ ascii "\n")
  | some p, some q =>
    if p ≠ q then
      one on (ascii tables ++ ascii " differ (first has " ++ cut p ++ ascii ", second has " ++ cut q ++
        ascii ")\n")
    else (0, [])
  | none, none => (0, [])

/-- The loop over descriptors, `wreport/bulletin.cc` lines 272-280, from index `i`. -/
def descLoop (on : Bool) (i : Nat) : List Varcode → List Varcode → Nat × List Byte
  | a :: l, b :: m =>
    both (if a ≠ b then
        one on (ascii "Data descriptors differ at element " ++ Printer.dec i ++ ascii " (first has " ++
          Printer.digits a ++ ascii ", second has " ++ Printer.digits b ++ ascii ")\n")
      else (0, [])) (descLoop on (i + 1) l m)
  | _, _ => (0, [])

/-- Comparison of the data descriptors, `wreport/bulletin.cc` lines 266-281. -/
def diffDesc (on : Bool) (a b : List Varcode) : Nat × List Byte :=
  if a.length ≠ b.length then
    one on (ascii "Data descriptor sections differ (first has " ++ Printer.dec a.length ++
      ascii " elements, second has " ++ Printer.dec b.length ++ ascii ")\n")
  else descLoop on 0 a b

/-- The loop over subsets, `wreport/bulletin.cc` lines 289-291. -/
def diffSubsets (E : Env) (desc : Varinfo → List Byte) (on : Bool) (t t' : Tables) :
    List Subset → List Subset → Res (Nat × List Byte)
  | s :: l, s' :: l' => do
    let d ← diffSubset E desc on t s t' s'
    let n ← diffSubsets E desc on t t' l l'
    return both d n
  | _, _ => .ok (0, [])

/-- The subsets, `wreport/bulletin.cc` lines 283-291. -/
def diffAllSubsets (E : Env) (desc : Varinfo → List Byte) (on : Bool) (b m : Bulletin) :
    Res (Nat × List Byte) :=
  if b.subsets.length ≠ m.subsets.length then
    .ok (number on "Number of subsets differ" b.subsets.length m.subsets.length)
  else diffSubsets E desc on b.tables m.tables b.subsets m.subsets

/-- `Bulletin::diff`, `wreport/bulletin.cc` lines 153-293. -/
def diffBulletin (E : Env) (desc : Varinfo → List Byte) (on : Bool) (b m : Bulletin) :
    Res (Nat × List Byte) := do
  let d ← diffEncoding on b m
  let s ← diffAllSubsets E desc on b m
  return both d (both (diffFields on b m)
    (both (diffPath on "btables" "B tables" (b.tables.btable.map (·.1)) (m.tables.btable.map (·.1)))
    (both (diffPath on "dtable" "D tables" (b.tables.dtable.map (·.1)) (m.tables.dtable.map (·.1)))
    (both (diffDesc on b.datadesc m.datadesc) s))))

/-! ## Where notes go -/

/-- A part of a program that writes notes: a comparison (`run` tells what it counts and
writes, given if there is a target), a call of `set_target`, a sequence, or a block with a
`notes::Collect` for stream `out` in it. -/
inductive Prog where
  | compare (run : Bool → Res (Nat × List Byte))
  | set_target (out : Nat)
  | skip
  | seq (p q : Prog)
  | collect (out : Nat) (p : Prog)

/-- The target of notes, `wreport/notes.cc` line 19, what streams were sent, and the counts
that comparisons gave. -/
structure St where
  target : Option Nat
  sent : List (Nat × List Byte)
  counts : List Nat

/-- Running a part of a program. `Collect`, `wreport/notes.h` lines 41-58: its destructor
binds a reference to `*old`, which may be null. Notes are sent to `target`,
`wreport/notes.cc` lines 52-69. Comparisons that throw are not followed further. -/
def Prog.exec : Prog → St → Res St
  | .compare run, st => do
    let r ← run st.target.isSome
    return { st with
      sent := st.sent ++ (match st.target with
        | some k => if r.2 = [] then [] else [(k, r.2)]
        | none => [])
      counts := st.counts ++ [r.1] }
  | .set_target k, st => .ok { st with target := some k }
  | .skip, st => .ok st
  | .seq p q, st => do
    let st' ← p.exec st
    q.exec st'
  | .collect k p, st => do
    let old := st.target
    let st' ← p.exec { st with target := some k }
    match old with
    | some o => .ok { st' with target := some o }
    | none => .ub

end Notes

end Wreport
