import Verif.Spec.Interp
import Verif.Spec.Var

/-!
# What descriptors say about the variables of a subset

Which variables a list of descriptors stands for, said without any interpreter: only
their codes, the values of replication factors and the marks of bitmaps matter.
-/

namespace Wreport.Spec

/-- What earlier descriptors leave for those that follow. -/
structure Mode where
  /-- inside a change of reference values, between 2 03 yyy and 2 03 255 -/
  references : Bool
  /-- operator that announced a bitmap, or 0 -/
  announced : Varcode
  /-- marks of the bitmap in use, and how many of them were used -/
  inUse : Option (Nat × Nat)
  /-- marks of the bitmap that can be used again -/
  last : Option Nat
deriving DecidableEq

namespace Mode

/-- At the start of a subset. -/
def start : Mode := ⟨false, 0, none, none⟩

/-- Using a mark of the bitmap. -/
def mark (m : Mode) : Option Mode :=
  match m.inUse with
  | none => none
  | some (n, k) =>
    if k + 1 < n then some { m with inUse := some (n, k + 1) }
    else if k + 1 = n then
      some { m with
        inUse := none
        last := some n }
    else none

/-- Using the last bitmap again. -/
def again (m : Mode) : Mode :=
  { m with
    inUse := m.last.map fun n => (n, 0)
    last := none
    announced := 0 }

end Mode

/-- The marks of a bitmap that are `+`, if it has as many as its descriptor says. -/
def MarksOf (v : VarCore) (n : Nat) : Prop :=
  ∀ t, v.view = some (.text t) → t.length = v.info.len → n = t.count 43

/-- The altered descriptors a table keeps have the code they were made from. -/
def AlterationsKeepCode (t : Vartable) : Prop :=
  ∀ e ∈ t.entries, ∀ a ∈ e.alterations, a.code = e.varinfo.code

/-- A domain error hook leaves the descriptor of the variable alone. -/
def HookKeepsInfo (O : Opts) : Prop :=
  ∀ h, O.hook = some h →
    (∀ v x, (h.int v x).1.info = v.info) ∧ ∀ v x, (h.double v x).1.info = v.info

/-- How descriptors are read: `query` gives the definition of sequences; `bitmapCode op
code` tells whether a bitmap announced by `op` may have `code`; `count v n` tells whether
the replication factor `v` stands for `n` times. -/
structure Reading where
  query : Varcode → Res (List Varcode)
  bitmapCode : Varcode → Varcode → Prop
  count : VarCore → Nat → Prop

/-- A replication factor is a number. -/
def counts (v : VarCore) (n : Nat) : Prop := ∃ k, v.view = some (.num k) ∧ n = toU32 k

/-- A replication factor of CREX: one that is not a number stands for `0xffffffff`. -/
def countsCrex (v : VarCore) (n : Nat) : Prop :=
  counts v n ∨ ((∀ k, v.view ≠ some (.num k)) ∧ n = 4294967295)

mutual

/-- `Follows R m ops vs m'`: the variables that `ops` stands for are `vs`. -/
inductive Follows (R : Reading) :
    Mode → List Varcode → List VarCore → Mode → Prop
  | nil (m : Mode) : Follows R m [] [] m
  /-- an element is a variable with its code, unless it is a quality value for a bitmap -/
  | element (m m' : Mode) (c : Varcode) (ops : List Varcode) (v : VarCore) (vs : List VarCore) :
      WR_VAR_F c = 0 → m.references = false → WR_VAR_X c ≠ 33 ∨ m.inUse = none → v.code = c →
      Follows R m ops vs m' → Follows R m (c :: ops) (v :: vs) m'
  /-- a quality value uses a mark and is no variable -/
  | quality (m m1 m' : Mode) (c : Varcode) (ops : List Varcode) (vs : List VarCore) :
      WR_VAR_F c = 0 → m.references = false → WR_VAR_X c = 33 → m.mark = some m1 →
      Follows R m1 ops vs m' → Follows R m (c :: ops) vs m'
  /-- an element whose reference value changes is no variable -/
  | reference (m m' : Mode) (c : Varcode) (ops : List Varcode) (vs : List VarCore) :
      WR_VAR_F c = 0 → m.references = true → Follows R m ops vs m' →
      Follows R m (c :: ops) vs m'
  /-- 2 03 yyy and 2 03 255 -/
  | references (m m' : Mode) (c : Varcode) (ops : List Varcode) (vs : List VarCore) :
      WR_VAR_F c = 2 → WR_VAR_X c = 3 →
      Follows R { m with
        references := decide (WR_VAR_Y c ≠ 0 ∧ WR_VAR_Y c ≠ 255) } ops vs m' →
      Follows R m (c :: ops) vs m'
  /-- 2 04 yyy is followed by a variable with the meaning of the field -/
  | field (m m' : Mode) (c : Varcode) (ops : List Varcode) (v : VarCore) (vs : List VarCore) :
      WR_VAR_F c = 2 → WR_VAR_X c = 4 → WR_VAR_Y c ≠ 0 → v.code = WR_VAR 0 31 21 →
      Follows R m ops vs m' →
      Follows R m (c :: WR_VAR 0 31 21 :: ops) (v :: vs) m'
  /-- 2 04 000 -/
  | fieldEnd (m m' : Mode) (c : Varcode) (ops : List Varcode) (vs : List VarCore) :
      WR_VAR_F c = 2 → WR_VAR_X c = 4 → WR_VAR_Y c = 0 → Follows R m ops vs m' →
      Follows R m (c :: ops) vs m'
  /-- 2 05 yyy is a variable -/
  | characters (m m' : Mode) (c : Varcode) (ops : List Varcode) (v : VarCore) (vs : List VarCore) :
      WR_VAR_F c = 2 → WR_VAR_X c = 5 → v.code = c → Follows R m ops vs m' →
      Follows R m (c :: ops) (v :: vs) m'
  /-- 2 06 yyy is followed by a variable, whatever its descriptor -/
  | localWidth (m m' : Mode) (c x : Varcode) (ops : List Varcode) (v : VarCore)
      (vs : List VarCore) : WR_VAR_F c = 2 → WR_VAR_X c = 6 → WR_VAR_Y c ≠ 0 → v.code = x →
      Follows R m ops vs m' →
      Follows R m (c :: x :: ops) (v :: vs) m'
  /-- 2 06 000 skips a descriptor -/
  | localNothing (m m' : Mode) (c x : Varcode) (ops : List Varcode) (vs : List VarCore) :
      WR_VAR_F c = 2 → WR_VAR_X c = 6 → WR_VAR_Y c = 0 → Follows R m ops vs m' →
      Follows R m (c :: x :: ops) vs m'
  /-- 2 22 000 and 2 23 000 announce a bitmap -/
  | announce (m m' : Mode) (c : Varcode) (ops : List Varcode) (vs : List VarCore) :
      WR_VAR_F c = 2 → WR_VAR_X c = 22 ∨ WR_VAR_X c = 23 → WR_VAR_Y c = 0 →
      Follows R { m with announced := c } ops vs m' →
      Follows R m (c :: ops) vs m'
  /-- 2 23 255, a substituted value, uses a mark -/
  | substituted (m m1 m' : Mode) (c : Varcode) (ops : List Varcode) (vs : List VarCore) :
      WR_VAR_F c = 2 → WR_VAR_X c = 23 → WR_VAR_Y c = 255 → m.mark = some m1 →
      Follows R m1 ops vs m' → Follows R m (c :: ops) vs m'
  /-- 2 37 000 takes the last bitmap again -/
  | again (m m' : Mode) (c : Varcode) (ops : List Varcode) (vs : List VarCore) :
      WR_VAR_F c = 2 → WR_VAR_X c = 37 → WR_VAR_Y c = 0 →
      Follows R m.again ops vs m' → Follows R m (c :: ops) vs m'
  /-- 2 37 255 gives it up -/
  | forget (m m' : Mode) (c : Varcode) (ops : List Varcode) (vs : List VarCore) :
      WR_VAR_F c = 2 → WR_VAR_X c = 37 → WR_VAR_Y c = 255 →
      Follows R { m with last := none } ops vs m' →
      Follows R m (c :: ops) vs m'
  /-- other operators are no variables -/
  | operator (m m' : Mode) (c : Varcode) (ops : List Varcode) (vs : List VarCore) :
      WR_VAR_F c = 2 → WR_VAR_X c ∉ [3, 4, 5, 6, 22, 23, 37] →
      Follows R m ops vs m' → Follows R m (c :: ops) vs m'
  /-- a sequence stands for its definition -/
  | sequence (m m1 m' : Mode) (c : Varcode) (def_ ops : List Varcode) (vs ws : List VarCore) :
      WR_VAR_F c = 3 → R.query c = .ok def_ → Follows R m def_ vs m1 →
      Follows R m1 ops ws m' →
      Follows R m (c :: ops) (vs ++ ws) m'
  /-- replication as many times as the descriptor says -/
  | fixed (m m1 m' : Mode) (c : Varcode) (group ops : List Varcode) (vs ws : List VarCore) :
      WR_VAR_F c = 1 → WR_VAR_Y c ≠ 0 → group.length = WR_VAR_X c → m.announced = 0 →
      Repeats R (WR_VAR_Y c) m group vs m1 →
      Follows R m1 ops ws m' →
      Follows R m (c :: (group ++ ops)) (vs ++ ws) m'
  /-- replication as many times as a variable says; `f` is its descriptor -/
  | delayed (m m1 m' : Mode) (c f : Varcode) (tail group ops : List Varcode) (v : VarCore) (n : Nat)
      (vs ws : List VarCore) :
      WR_VAR_F c = 1 → WR_VAR_Y c = 0 → IsFactor f ∧ tail = f :: (group ++ ops) ∨
        (f = WR_VAR 0 31 12 ∧ tail = group ++ ops ∧ ∀ x ∈ tail.head?, ¬ IsFactor x) →
      group.length = WR_VAR_X c → m.announced = 0 → v.code = f → R.count v n →
      Repeats R n m group vs m1 → Follows R m1 ops ws m' →
      Follows R m (c :: tail) (v :: (vs ++ ws)) m'
  /-- the replication after an announced bitmap is one variable, the bitmap -/
  | bitmap (m m' : Mode) (c : Varcode) (tail ops : List Varcode) (v : VarCore) (n : Nat)
      (vs : List VarCore) :
      WR_VAR_F c = 1 → WR_VAR_X c = 1 → m.announced ≠ 0 →
      (tail = WR_VAR 0 31 31 :: ops ∧ WR_VAR_Y c ≠ 0 ∨
        WR_VAR_Y c = 0 ∧ ∃ f, IsFactor f ∧ tail = f :: WR_VAR 0 31 31 :: ops) →
      R.bitmapCode m.announced v.code → MarksOf v n →
      Follows R { m with
        announced := 0
        inUse := some (n, 0) } ops vs m' →
      Follows R m (c :: tail) (v :: vs) m'

/-- The same descriptors a number of times. -/
inductive Repeats (R : Reading) :
    Nat → Mode → List Varcode → List VarCore → Mode → Prop
  | zero (m : Mode) (group : List Varcode) : Repeats R 0 m group [] m
  | succ (n : Nat) (m m1 m' : Mode) (group : List Varcode) (vs ws : List VarCore) :
      Follows R m group vs m1 → Repeats R n m1 group ws m' →
      Repeats R (n + 1) m group (vs ++ ws) m'

end

end Wreport.Spec
