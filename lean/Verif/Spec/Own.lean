import Verif.Model.Heap

/-!
# What programs with variables mean

Variables are values here (`Verif.Model.Var`): there are no pointers and nothing is
shared. `Represents` says when the variables with pointers of `Verif.Model.Heap` stand for
such values, and which objects on the heap each of them owns.
-/

namespace Wreport.Own

/-- A pointer or number, the value it stands for, and the addresses it owns. -/
inductive CellRep (h : Heap) (info : Varinfo) : HCell → Cell → List Nat → Prop
  | word (ht : isText info = false) (i : Int) : CellRep h info (.word i) (.word i) []
  | null (ht : isText info = true) : CellRep h info (.word 0) (.word 0) []
  | buf (ht : isText info = true) {a : Nat} {m : Mem} (ha : h.at? a = some (.buf m)) :
    CellRep h info (.addr a) (.mem m) [a]

/-- A variable without its attributes. -/
structure CoreRep (h : Heap) (v : HVar) (c : VarCore) (fp : List Nat) : Prop where
  info : v.info = c.info
  isset : v.isset = c.isset
  cell : CellRep h v.info v.cell c.cell fp

/-- A chain of attributes. -/
inductive ChainRep (h : Heap) : Option Nat → List VarCore → List Nat → Prop
  | nil : ChainRep h none [] []
  | cons {a : Nat} {n : HVar} {c : VarCore} {l : List VarCore} {p q : List Nat}
    (ha : h.at? a = some (.node n)) (hc : CoreRep h n c p) (hl : ChainRep h n.attrs l q) :
    ChainRep h (some a) (c :: l) (a :: (p ++ q))

/-- A variable with its attributes. -/
structure VarRep (h : Heap) (v : HVar) (V : Var) (p q : List Nat) : Prop where
  core : CoreRep h v V.toVarCore p
  chain : ChainRep h v.attrs V.attrs q

/-- A variable that may not exist, and the objects it owns. -/
inductive SlotRep (h : Heap) : Option HVar → Option Var → List Nat → Prop
  | absent : SlotRep h none none []
  | present {v : HVar} {V : Var} {p q : List Nat} (hr : VarRep h v V p q) :
    SlotRep h (some v) (some V) (p ++ q)

/-- Setters of numbers do not look at attributes, and store a number or nothing. -/
structure NumSetter (f : Var → Var × Res Unit) : Prop where
  over : ∀ (V : Var) (l : List VarCore), f { V with attrs := l } = ({ (f V).1 with attrs := l }, (f V).2)
  info : ∀ V, (f V).1.info = V.info
  cell : ∀ V, (f V).1.cell = V.cell ∨ ∃ i, (f V).1.cell = .word i

/-- A hook for values out of range that only sets the variable to a number, or unsets it. -/
def PlainHook (O : Opts) : Prop :=
  ∀ k, O.hook = some k → (∀ x, NumSetter fun V => k.int V x) ∧ ∀ x, NumSetter fun V => k.double V x

/-- Every variable stands for its value, no object is owned twice, and every object that
exists is owned. -/
def Represents (w : World) (W : List (Option Var)) : Prop :=
  ∃ fps : List (List Nat), w.2.length = W.length ∧ fps.length = W.length ∧
    (∀ k : Nat, SlotRep w.1 w.2[k]?.join W[k]?.join (fps[k]?.getD [])) ∧
    fps.flatten.Nodup ∧ ∀ a, w.1.at? a ≠ none ↔ a ∈ fps.flatten

end Wreport.Own

namespace Wreport.Spec.Values

open Wreport Wreport.Own

/-- What a program means; `none` when that is not defined, or when a variable with a
number is assigned to one with a text or the other way round. -/
abbrev Outcome := Option (List (Option Var))

/-- A result that is defined. -/
def defined {α : Type} : Res α → Option α
  | .ok a => some a
  | _ => none

/-- The state after a setter, also when it threw an exception. -/
def set (W : List (Option Var)) (i : Nat) (r : Var × Res Unit) : Outcome :=
  if r.2 = .ub then none else some (W.set i (some r.1))

/-- Texts, or numbers. -/
def alike (v s : Var) : Bool := isText v.info == isText s.info

/-- One step. -/
def step (E : Env) (O : Opts) (W : List (Option Var)) : Op → Outcome
  | .make i info => if W[i]? = some none then some (W.set i (some (.new info))) else none
  | .copy i j => do
    if W[i]? ≠ some none then none else
    let s ← W[j]?.join
    let v ← defined s.copy
    return W.set i (some v)
  | .newFrom i info j => do
    if W[i]? ≠ some none then none else
    let s ← W[j]?.join
    match Var.newFrom E O info s with
    | .ok v => return W.set i (some v)
    | .err _ => return W
    | .ub => none
  | .move i j => do
    if W[i]? ≠ some none then none else
    let s ← W[j]?.join
    return (W.set i (some s.move.1)).set j (some s.move.2)
  | .assign i j => do
    let v ← W[i]?.join
    let s ← W[j]?.join
    if i = j then some W else
    if !alike v s then none else
    let v ← defined (v.assign s)
    return W.set i (some v)
  | .moveAssign i j => do
    let v ← W[i]?.join
    let s ← W[j]?.join
    if i = j then some W else
    if !alike v s then none else
    return (W.set i (some (v.moveAssign s).1)).set j (some (v.moveAssign s).2)
  | .seti i x => do
    let v ← W[i]?.join
    set W i (v.seti O x)
  | .setd i x => do
    let v ← W[i]?.join
    set W i (v.setd E O x)
  | .sets i x => do
    let v ← W[i]?.join
    set W i (v.sets O x)
  | .setc i x => do
    let v ← W[i]?.join
    set W i (v.setc O x)
  | .setcTruncate i x => do
    let v ← W[i]?.join
    set W i (v.setc_truncate x)
  | .setf i x => do
    let v ← W[i]?.join
    set W i (v.setf E O x)
  | .unset i => do
    let v ← W[i]?.join
    return W.set i (some v.unset)
  | .setval i j => do
    let v ← W[i]?.join
    let s ← W[j]?.join
    if i = j ∧ v.isset = true ∧ isText v.info = true then none else
    set W i (v.setval E O s.toVarCore)
  | .setattrs i j => do
    let v ← W[i]?.join
    let s ← W[j]?.join
    if i = j then some (W.set i (some v.clear_attrs)) else
    let v ← defined (v.setattrs s)
    return W.set i (some v)
  | .seta i j => do
    let v ← W[i]?.join
    let s ← W[j]?.join
    let v ← defined (v.seta s)
    return W.set i (some v)
  | .unseta i code => do
    let v ← W[i]?.join
    return W.set i (some (v.unseta code))
  | .clearAttrs i => do
    let v ← W[i]?.join
    return W.set i (some v.clear_attrs)
  | .destroy i => do
    let _ ← W[i]?.join
    return W.set i none

/-- A program. -/
def run (E : Env) (O : Opts) (W : List (Option Var)) : List Op → Outcome
  | [] => some W
  | op :: l => do
    let W ← step E O W op
    run E O W l

end Wreport.Spec.Values
