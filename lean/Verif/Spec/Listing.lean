import Verif.Spec.Interp

/-!
# What listings of descriptors should contain

`D` gives the descriptors of a sequence.
-/

namespace Wreport.Spec

/-- An operator that takes the next descriptor as a local one. -/
def LocalOp (c : Varcode) : Prop := WR_VAR_F c = 2 ∧ WR_VAR_X c = 6

/-- An operator after which the next replication is a data present bitmap. -/
def BitmapOp (c : Varcode) : Prop :=
  WR_VAR_F c = 2 ∧ (WR_VAR_X c = 22 ∨ WR_VAR_X c = 23)

/-- A descriptor in a list or in the sequences it mentions. -/
inductive Occurs (D : Varcode → Res (List Varcode)) : List Varcode → Varcode → Prop where
  | here {ops : List Varcode} {c : Varcode} (h : c ∈ ops) : Occurs D ops c
  | inside {ops l : List Varcode} {s c : Varcode} (hs : s ∈ ops) (hf : WR_VAR_F s = 3)
      (hl : D s = .ok l) (h : Occurs D l c) : Occurs D ops c

/-- The same, leaving out local descriptors (those right after a local operator) and
giving the descriptors that follow in the list. -/
inductive Reads (D : Varcode → Res (List Varcode)) :
    List Varcode → Varcode → List Varcode → Prop where
  | here {pre rest : List Varcode} {c : Varcode}
      (hp : ∀ p, pre.getLast? = some p → ¬LocalOp p) : Reads D (pre ++ c :: rest) c rest
  | inside {pre rest l r : List Varcode} {s c : Varcode}
      (hp : ∀ p, pre.getLast? = some p → ¬LocalOp p) (hf : WR_VAR_F s = 3)
      (hl : D s = .ok l) (h : Reads D l c r) : Reads D (pre ++ s :: rest) c r

/-- The texts that name a descriptor among the features of a bulletin: operators by
their code, with the local descriptor if they take one; replications as such, with the
descriptor of the factor if it is delayed. -/
def Names (c : Varcode) (f : List Byte) : Prop :=
  (WR_VAR_F c = 2 ∧ WR_VAR_X c ≠ 6 ∧ f = varcode_format c) ∨
  (LocalOp c ∧ ∃ n, f = varcode_format c ++ ascii ":" ++ varcode_format n) ∨
  (WR_VAR_F c = 1 ∧ WR_VAR_Y c ≠ 0 ∧ f = ascii "Rxxyyy") ∨
  (WR_VAR_F c = 1 ∧ WR_VAR_Y c = 0 ∧ ∃ d, WR_VAR_F d = 0 ∧ WR_VAR_X d = 31 ∧
    f = ascii "Rxx000:" ++ varcode_format d)

/-- A line of a listing: how deep its descriptor is nested, and the descriptor. -/
abbrev Line := Nat × Varcode

/-- Whether a bitmap is awaited after an operator. -/
def awaits (w : Bool) (c : Varcode) : Bool :=
  if WR_VAR_X c = 22 then true
  else if WR_VAR_X c = 23 ∧ WR_VAR_Y c = 0 then true
  else if WR_VAR_X c = 37 ∧ WR_VAR_Y c = 0 then false
  else w

/-- Of the descriptors `f ++ ops` after a replication `c`, `f` is that of its factor:
only delayed replications have one, and it may be left out. -/
def Factor (c : Varcode) (f ops : List Varcode) : Prop :=
  (f = [] ∧ (WR_VAR_Y c = 0 → ∀ d, ops.head? = some d → ¬IsFactor d)) ∨
    (WR_VAR_Y c = 0 ∧ ∃ d, f = [d] ∧ IsFactor d)

/-- The lines of a listing of descriptors nested `n` deep: each descriptor in order,
followed one step deeper by what it repeats or stands for. A local descriptor is on
the line of its operator, a replication factor on the line of its replication; the
replication that makes up a bitmap is not listed. `w` and `w'` tell whether a bitmap is
awaited before and after. -/
inductive Outline (D : Varcode → Res (List Varcode)) :
    Nat → Bool → List Varcode → List Line → Bool → Prop where
  | nil {n : Nat} {w : Bool} : Outline D n w [] [] w
  | element {n : Nat} {w w' : Bool} {c : Varcode} {rest : List Varcode} {ls : List Line}
      (hf : WR_VAR_F c = 0) (h : Outline D n w rest ls w') :
      Outline D n w (c :: rest) ((n, c) :: ls) w'
  | operator {n : Nat} {w w' : Bool} {c : Varcode} {rest : List Varcode} {ls : List Line}
      (hf : WR_VAR_F c = 2) (hx : WR_VAR_X c ≠ 6) (h : Outline D n (awaits w c) rest ls w') :
      Outline D n w (c :: rest) ((n, c) :: ls) w'
  | localOp {n : Nat} {w w' : Bool} {c l : Varcode} {rest : List Varcode} {ls : List Line}
      (hc : LocalOp c) (h : Outline D n w rest ls w') :
      Outline D n w (c :: l :: rest) ((n, c) :: ls) w'
  | replication {n : Nat} {w' w'' : Bool} {c : Varcode} {f g rest : List Varcode}
      {ls ls' : List Line} (hf : WR_VAR_F c = 1) (hc : Factor c f (g ++ rest))
      (hg : g.length = WR_VAR_X c) (hb : Outline D (n + 1) false g ls w') (h : Outline D n w' rest ls' w'') :
      Outline D n false (c :: (f ++ (g ++ rest))) ((n, c) :: (ls ++ ls')) w''
  | bitmap {n : Nat} {w' : Bool} {c : Varcode} {f rest : List Varcode} {ls : List Line}
      (hf : WR_VAR_F c = 1) (hc : Factor c f ([WR_VAR 0 31 31] ++ rest)) (hx : WR_VAR_X c = 1)
      (h : Outline D n false rest ls w') :
      Outline D n true (c :: (f ++ ([WR_VAR 0 31 31] ++ rest))) ls w'
  | sequence {n : Nat} {w w' w'' : Bool} {c : Varcode} {l rest : List Varcode}
      {ls ls' : List Line} (hf : WR_VAR_F c = 3) (hl : D c = .ok l)
      (hb : Outline D (n + 1) w l ls w') (h : Outline D n w' rest ls' w'') :
      Outline D n w (c :: rest) ((n, c) :: (ls ++ ls')) w''

/-- The six digits of a descriptor: one of F, two of X, three of Y. -/
def sixDigits (c : Varcode) : List Byte :=
  [c / 16384 % 4, c / 256 % 64 / 10, c / 256 % 64 % 10, c % 256 / 100, c % 256 / 10 % 10,
    c % 256 % 10].map (fun d => UInt8.ofNat (48 + d))

/-- A line of text for a line of a listing: spaces, the digits, and more text. -/
def lineText (indent step : Nat) (l : Line) (text : List Byte) : List Byte :=
  List.replicate (indent + step * l.1) 32 ++ sixDigits l.2 ++ text ++ [10]

/-- The numbers in a text, after a sign and the digits so far. -/
def numbersFrom (neg : Bool) (cur : Option Nat) : List Byte → List Int
  | [] => (cur.map fun n => if neg then -(n : Int) else n).toList
  | b :: t =>
    if 48 ≤ b ∧ b ≤ 57 then numbersFrom neg (some (10 * cur.getD 0 + (b.toNat - 48))) t
    else (cur.map fun n => if neg then -(n : Int) else n).toList ++
      numbersFrom (decide (b = 45)) none t

/-- The numbers in a text. -/
def numbersIn (t : List Byte) : List Int := numbersFrom false none t

/-- The amount an operator is about: changes of width and scale are Y less 128, where 0
ends a change. -/
def amount (c : Varcode) : Option (List Int) :=
  match WR_VAR_X c with
  | 1 | 2 => some [if WR_VAR_Y c = 0 then 0 else (WR_VAR_Y c : Int) - 128]
  | 4 | 7 | 8 => some [(WR_VAR_Y c : Int)]
  | 5 | 22 | 23 | 36 | 37 => some []
  | _ => none

/-- The text about a descriptor tells its amounts: for replications how many descriptors
and how many times or the factor, for operators the change, for local descriptors the
number of bits. -/
def Says (c : Varcode) (text : List Byte) : Prop :=
  (WR_VAR_F c = 1 → WR_VAR_Y c ≠ 0 →
    numbersIn text = [(WR_VAR_X c : Int), (WR_VAR_Y c : Int)]) ∧
  (WR_VAR_F c = 1 → WR_VAR_Y c = 0 → ∃ d : Nat, d < 256 ∧
    numbersIn text = [(WR_VAR_X c : Int), 31000 + (d : Int)]) ∧
  (WR_VAR_F c = 2 → ∀ l, amount c = some l → numbersIn text = l) ∧
  (WR_VAR_F c = 2 → WR_VAR_X c = 6 → (numbersIn text).getLast? = some (WR_VAR_Y c : Int))

/-- The text shows these lines, one each. -/
inductive ShowsLines (indent step : Nat) : List Line → List Byte → Prop where
  | nil : ShowsLines indent step [] []
  | cons {l : Line} {ls : List Line} {text out : List Byte} (ht : 10 ∉ text)
      (hs : Says l.2 text) (h : ShowsLines indent step ls out) :
      ShowsLines indent step (l :: ls) (lineText indent step l text ++ out)

/-- `g` is repeated or stands for something under the descriptors `path`, outermost
first. -/
inductive NestedIn (D : Varcode → Res (List Varcode)) :
    List Varcode → List Varcode → List Varcode → Prop where
  | top {ops : List Varcode} : NestedIn D ops [] ops
  | group {pre f g post g' path : List Varcode} {r : Varcode} (hf : WR_VAR_F r = 1)
      (hc : Factor r f (g ++ post)) (hg : g.length = WR_VAR_X r) (h : NestedIn D g path g') :
      NestedIn D (pre ++ r :: (f ++ (g ++ post))) (r :: path) g'
  | factor {pre f post : List Varcode} {r : Varcode} (hf : WR_VAR_F r = 1)
      (hc : Factor r f post) : NestedIn D (pre ++ r :: (f ++ post)) [r] f
  | sequence {pre post l g' path : List Varcode} {s : Varcode} (hf : WR_VAR_F s = 3)
      (hl : D s = .ok l) (h : NestedIn D l path g') :
      NestedIn D (pre ++ s :: post) (s :: path) g'

end Wreport.Spec
