import Verif.Model.Targets

/-! # What processing descriptors promises -/

namespace Wreport.Spec

/-- Flat order on outcomes: the second is the first, unless the first ran out of
stack or was otherwise undefined. -/
def Refines {α : Type} (r r' : Res α) : Prop := r ≠ .ub → r' = r

/-- Operators that take the descriptor after them: C06, and C04 unless it cancels. -/
def TakesOperand (c : Varcode) : Prop :=
  WR_VAR_X c = 6 ∨ (WR_VAR_X c = 4 ∧ WR_VAR_Y c ≠ 0)

instance (c : Varcode) : Decidable (TakesOperand c) := inferInstanceAs (Decidable (_ ∨ _))

/-- Is the code a replication factor (class 31 element)? -/
def IsFactor (c : Varcode) : Prop := WR_VAR_F c = 0 ∧ WR_VAR_X c = 31

instance (c : Varcode) : Decidable (IsFactor c) := inferInstanceAs (Decidable (_ ∧ _))

/-- Descriptor lists in which every operator has its operand and every replication
has its factor and all the descriptors it replicates. -/
inductive Complete : List Varcode → Prop where
  | nil : Complete []
  | element (c : Varcode) (rest : List Varcode) : WR_VAR_F c = 0 → Complete rest →
      Complete (c :: rest)
  | sequence (c : Varcode) (rest : List Varcode) : WR_VAR_F c = 3 → Complete rest →
      Complete (c :: rest)
  | operator (c : Varcode) (rest : List Varcode) : WR_VAR_F c = 2 → ¬ TakesOperand c →
      Complete rest → Complete (c :: rest)
  | operand (c x : Varcode) (rest : List Varcode) : WR_VAR_F c = 2 → TakesOperand c →
      Complete rest → Complete (c :: x :: rest)
  | fixed (c : Varcode) (group rest : List Varcode) : WR_VAR_F c = 1 → WR_VAR_Y c ≠ 0 →
      group.length = WR_VAR_X c → Complete rest → Complete (c :: (group ++ rest))
  | delayed (c f : Varcode) (group rest : List Varcode) : WR_VAR_F c = 1 → WR_VAR_Y c = 0 →
      IsFactor f → group.length = WR_VAR_X c → Complete rest →
      Complete (c :: f :: (group ++ rest))
  | implicit (c x : Varcode) (group rest : List Varcode) : WR_VAR_F c = 1 → WR_VAR_Y c = 0 →
      ¬ IsFactor x → (x :: group).length = WR_VAR_X c → Complete rest →
      Complete (c :: ((x :: group) ++ rest))

/-- Replacing one sequence descriptor by its definition, possibly inside nested
replications, whose number of descriptors is adjusted. -/
inductive Unfolds (query : Varcode → Res (List Varcode)) : List Varcode → List Varcode → Prop where
  | here (c : Varcode) (ops rest : List Varcode) : WR_VAR_F c = 3 → query c = .ok ops →
      Complete ops → Unfolds query (c :: rest) (ops ++ rest)
  | after (pre a b : List Varcode) : Complete pre → Unfolds query a b →
      Unfolds query (pre ++ a) (pre ++ b)
  | fixed (c c' : Varcode) (g g' rest : List Varcode) : WR_VAR_F c = 1 → WR_VAR_F c' = 1 →
      WR_VAR_Y c ≠ 0 → WR_VAR_Y c' = WR_VAR_Y c → g.length = WR_VAR_X c →
      g'.length = WR_VAR_X c' → g' ≠ [WR_VAR 0 31 31] → Unfolds query g g' →
      Unfolds query (c :: (g ++ rest)) (c' :: (g' ++ rest))
  | delayed (c c' f : Varcode) (g g' rest : List Varcode) : WR_VAR_F c = 1 → WR_VAR_F c' = 1 →
      WR_VAR_Y c = 0 → WR_VAR_Y c' = 0 → IsFactor f → g.length = WR_VAR_X c →
      g'.length = WR_VAR_X c' → g' ≠ [WR_VAR 0 31 31] → Unfolds query g g' →
      Unfolds query (c :: f :: (g ++ rest)) (c' :: f :: (g' ++ rest))

/-- A list written `n` times in a row. -/
def copies {α : Type} (n : Nat) (l : List α) : List α := (List.replicate n l).flatten

end Wreport.Spec
