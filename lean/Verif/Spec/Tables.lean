import Verif.Model.Tables

/-! # What tables promise -/

namespace Wreport.Spec

/-- A request for metadata with changed scale, width and reference. The scale and
the reference are C++ `int`s. -/
structure Request where
  code : Varcode
  scale : Int
  bit_len : Nat
  bit_ref : Int
deriving DecidableEq

/-- The metadata says what was requested and otherwise describes the same element
as `base`. -/
structure Request.Answers (q : Request) (base v : Varinfo) : Prop where
  code : v.code = q.code
  scale : v.scale = q.scale
  bit_len : v.bit_len = q.bit_len
  bit_ref : v.bit_ref = q.bit_ref
  unit : v.unit = base.unit
  numeric : (v.type = .integer ∨ v.type = .decimal) ↔
    (base.type = .integer ∨ base.type = .decimal)
  string : v.type = .string ↔ base.type = .string

/-- Codes in strictly increasing order. -/
def Increasing (codes : List Varcode) : Prop := codes.Pairwise (· < ·)

/-- The consecutive pieces of a list, with the given lengths. -/
def pieces {α : Type} : List Nat → List α → List (List α)
  | [], _ => []
  | n :: ns, l => l.take n :: pieces ns (l.drop n)

end Wreport.Spec

namespace Wreport

open Spec

/-- Issue a request, keep the table. -/
def Vartable.after (E : Env) (t : Vartable) (q : Request) : Vartable :=
  (t.query_altered E q.code q.scale q.bit_len q.bit_ref).1

/-- Answer to a request: identity and contents of the metadata. -/
def Vartable.answer (E : Env) (t : Vartable) (q : Request) : Res (Nat × Varinfo) :=
  (t.query_altered E q.code q.scale q.bit_len q.bit_ref).2

/-- A table as programs have it: loaded from a file, then used for any sequence of
requests. -/
inductive Vartable.Reachable (E : Env) : Vartable → Prop where
  | bufr (data : List Byte) (t : Vartable) : Vartable.load_bufr E data = .ok t → Reachable E t
  | crex (data : List Byte) (t : Vartable) : Vartable.load_crex E data = .ok t → Reachable E t
  | request (t : Vartable) (q : Request) : Reachable E t → inInt q.bit_ref = true →
      Reachable E (t.after E q)

/-- What the metadata identified by `code` and `rank` contains now: the table
entry for rank 0, otherwise the `rank`-th alteration created for the code. -/
def Vartable.contentsOf (t : Vartable) (code : Varcode) (rank : Nat) : Option Varinfo :=
  (t.entries.find? fun e => e.varinfo.code == code).bind fun e =>
    match rank with
    | 0 => some e.varinfo
    | n + 1 => e.alterations.reverse[n]?

end Wreport

namespace Wreport.Spec

/-- `line` starts the sequence `code` with `count` members, the first of which is
`first`: a character, the code, the count, the first member. -/
def StartsSequence (line : List Byte) (code count first : Nat) : Prop :=
  18 ≤ line.length ∧ (line.getD 1 0 = 0x44 ∨ line.getD 1 0 = 0x33) ∧
    varcode_parse (line.drop 1) = .ok code ∧ count = (strtoul (line.drop 7)).1 % 4294967296 ∧
    varcode_parse ((strtoul (line.drop 7)).2.dropWhile isSpace) = .ok first

/-- `line` gives a further member of a sequence: eleven blanks and a code. -/
def GivesMember (line : List Byte) (member : Nat) : Prop :=
  18 ≤ line.length ∧ line.take 11 = List.replicate 11 32 ∧
    varcode_parse (line.drop 11) = .ok member

/-- The lines list these sequences: code and members of each. -/
inductive Lists : List (List Byte) → List (Varcode × List Varcode) → Prop where
  | nil : Lists [] []
  | seq (start : List Byte) (code first : Varcode) (more : List (List Byte))
      (members : List Varcode) (lines : List (List Byte)) (rest : List (Varcode × List Varcode)) :
      StartsSequence start code (members.length + 1) first →
      List.Forall₂ GivesMember more members →
      Lists lines rest →
      Lists (start :: (more ++ lines)) ((code, first :: members) :: rest)

end Wreport.Spec
