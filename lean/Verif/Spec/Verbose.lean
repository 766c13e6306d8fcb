import Verif.Spec.Listing
import Verif.Spec.Structure
import Verif.Model.Format
import Verif.Model.Interp

/-! # What a report of decoding looks like -/

namespace Wreport

namespace Spec

/-- What a report is told with: the definitions of sequences and of elements, the
descriptions of elements, and of what is decoded for an element its code, its text and
the number it stands for as a replication factor. -/
structure Telling (α : Type) where
  query : Varcode → Res (List Varcode)
  element : Varcode → Res Varinfo
  desc : Varinfo → List Byte
  code : α → Varcode → Prop
  value : α → List Byte → Prop
  count : α → Nat → Prop

/-- Variables, whose values are told. -/
def Telling.ofVars (query : Varcode → Res (List Varcode)) (element : Varcode → Res Varinfo)
    (desc : Varinfo → List Byte) (E : Env) : Telling Var where
  query := query
  element := element
  desc := desc
  code := fun v c => v.info.code = c
  value := fun v x => v.toVarCore.formatFile E (ascii "-") = .ok x
  count := fun v k => counts v.toVarCore k

/-- Columns of compressed data, which have a variable for each subset: their values are
told in order, with a blank after each. -/
def Telling.ofColumns (query : Varcode → Res (List Varcode)) (element : Varcode → Res Varinfo)
    (desc : Varinfo → List Byte) (E : Env) : Telling (List Var) where
  query := query
  element := element
  desc := desc
  code := fun vs c => ∀ v ∈ vs, v.info.code = c
  value := fun vs x => ∃ xs, List.Forall₂ (fun (v : Var) x =>
    v.toVarCore.formatFile E (ascii "-") = .ok x) vs xs ∧ x = xs.flatMap (· ++ ascii " ")
  count := fun vs k => ∀ v ∈ vs, counts v.toVarCore k

/-- The subsets that columns make up. -/
def subsetsOf (n : Nat) (columns : List (List Var)) : List (List Var) :=
  (List.range n).map fun j => columns.filterMap fun vs => vs[j]?

/-- The two lines about an element: its digits, description and unit, and its value. -/
def elementLines (indent : Nat) (desc : Varinfo → List Byte) (c : Varcode) (info : Varinfo)
    (value : List Byte) : List Byte :=
  List.replicate indent 32 ++ sixDigits c ++ ascii " " ++ desc info ++ ascii "[" ++
    info.unit ++ ascii "]\n" ++ List.replicate (indent + 7) 32 ++ value ++ ascii "\n"

/-- The line about a sequence. -/
def groupLine (indent : Nat) (c : Varcode) : List Byte :=
  List.replicate indent 32 ++ sixDigits c ++ ascii "  (group)\n"

/-- An operator that changes how the elements that follow are written, and nothing
else: width, scale, both and the reference value, and the length of texts. -/
def Adjusts (c : Varcode) : Prop :=
  WR_VAR_F c = 2 ∧ (WR_VAR_X c = 1 ∨ WR_VAR_X c = 2 ∨ WR_VAR_X c = 7 ∨ WR_VAR_X c = 8)

/-- The line about a replication with a given count; `x` and `y` are the numbers of
descriptors and of times. -/
def timesLine (indent : Nat) (c : Varcode) (x y : List Byte) : List Byte :=
  List.replicate indent 32 ++ sixDigits c ++ ascii " replicate " ++ x ++ ascii " descriptors " ++
    y ++ ascii " times\n"

/-- The lines about a replication whose count is the value `k` of the factor `d`. -/
def delayedLines (indent : Nat) (c d : Varcode) (x k : List Byte) : List Byte :=
  List.replicate indent 32 ++ sixDigits c ++ ascii " replicate " ++ x ++
    ascii " descriptors (delayed " ++ sixDigits d ++ ascii ") times\n" ++
    List.replicate (indent + 9) 32 ++ ascii "delayed replication factor: " ++ k ++ ascii "\n"

/-- The report of decoding descriptors, `n` sequences and replications deep: what
is decoded for elements, and what is printed. -/
inductive Report {α : Type} (T : Telling α) : Nat → List Varcode → List α → List Byte → Prop
  | nil {n : Nat} : Report T n [] [] []
  | element {n : Nat} {c : Varcode} {rest : List Varcode} {v : α} {i : Varinfo} {x t : List Byte}
      {vs : List α} (hf : WR_VAR_F c = 0) (hc : T.code v c) (hi : T.element c = .ok i)
      (hx : T.value v x) (h : Report T n rest vs t) :
      Report T n (c :: rest) (v :: vs) (elementLines (2 * n) T.desc c i x ++ t)
  | operator {n : Nat} {c : Varcode} {rest : List Varcode} {text t : List Byte} {vs : List α}
      (ha : Adjusts c) (ht : 10 ∉ text) (hs : Says c text) (h : Report T n rest vs t) :
      Report T n (c :: rest) vs (lineText 0 2 (n, c) text ++ t)
  | replication {n : Nat} {c : Varcode} {g rest : List Varcode} {x y t : List Byte}
      {turns : List (List α × List Byte)} {vs : List α} (hf : WR_VAR_F c = 1)
      (hy : WR_VAR_Y c ≠ 0) (hg : g.length = WR_VAR_X c) (tx : IsDecimalNat x (WR_VAR_X c))
      (ty : IsDecimalNat y (WR_VAR_Y c)) (hn : turns.length = WR_VAR_Y c)
      (hb : ∀ r ∈ turns, Report T (n + 1) g r.1 r.2) (h : Report T n rest vs t) :
      Report T n (c :: (g ++ rest)) (turns.flatMap Prod.fst ++ vs)
        (timesLine (2 * n) c x y ++ turns.flatMap Prod.snd ++ t)
  | delayed {n : Nat} {c d : Varcode} {f g rest : List Varcode} {v : α} {x k t : List Byte}
      {turns : List (List α × List Byte)} {vs : List α} (hf : WR_VAR_F c = 1)
      (hy : WR_VAR_Y c = 0) (hc : Factor c f (g ++ rest))
      (hd : (f = [] ∧ d = WR_VAR 0 31 12) ∨ f = [d]) (hg : g.length = WR_VAR_X c)
      (hv : T.code v d) (hk : T.count v turns.length)
      (tx : IsDecimalNat x (WR_VAR_X c)) (tk : IsDecimalNat k turns.length)
      (hb : ∀ r ∈ turns, Report T (n + 1) g r.1 r.2) (h : Report T n rest vs t) :
      Report T n (c :: (f ++ (g ++ rest))) (v :: (turns.flatMap Prod.fst ++ vs))
        (delayedLines (2 * n) c d x k ++ turns.flatMap Prod.snd ++ t)
  | sequence {n : Nat} {c : Varcode} {l rest : List Varcode} {t t' : List Byte}
      {vs vs' : List α} (hf : WR_VAR_F c = 3) (hl : T.query c = .ok l)
      (hb : Report T (n + 1) l vs t) (h : Report T n rest vs' t') :
      Report T n (c :: rest) (vs ++ vs') (groupLine (2 * n) c ++ t ++ t')

end Spec

end Wreport
