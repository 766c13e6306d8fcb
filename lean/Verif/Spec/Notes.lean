import Verif.Model.Basic

/-! # What notes about a comparison should be -/

namespace Wreport.Spec

/-- The notes of a comparison that counted `n` differences: none if nobody wants them, and
otherwise complete lines, and at least one exactly if there is a difference. -/
structure Told (on : Bool) (n : Nat) (t : List Byte) : Prop where
  quiet : on = false → t = []
  told : on = true → (t = [] ↔ n = 0)
  lines : t = [] ∨ t.getLast? = some 10

/-- A part of a program that writes notes, with what its comparisons count and tell. -/
inductive Course where
  | compare (n : Nat) (t : List Byte)
  | set_target (out : Nat)
  | skip
  | seq (p q : Course)
  | collect (out : Nat) (p : Course)

/-- Where notes go after it: to the stream chosen last, outside of blocks that collect
notes. -/
def Course.after : Course → Option Nat → Option Nat
  | .compare _ _, o => o
  | .set_target k, _ => some k
  | .skip, o => o
  | .seq p q, o => q.after (p.after o)
  | .collect _ _, o => o

/-- What streams get: inside a block that collects notes, its stream, and otherwise the one
chosen last. -/
def Course.said : Course → Option Nat → List (Nat × List Byte)
  | .compare _ t, some k => if t = [] then [] else [(k, t)]
  | .compare _ _, none => []
  | .set_target _, _ => []
  | .skip, _ => []
  | .seq p q, o => p.said o ++ q.said (p.after o)
  | .collect k p, _ => p.said (some k)

/-- The counts of all comparisons. -/
def Course.counts : Course → List Nat
  | .compare n _ => [n]
  | .set_target _ => []
  | .skip => []
  | .seq p q => p.counts ++ q.counts
  | .collect _ p => p.counts

/-- Blocks that collect notes are only where notes go somewhere already. -/
def Course.Inside : Course → Option Nat → Prop
  | .compare _ _, _ => True
  | .set_target _, _ => True
  | .skip, _ => True
  | .seq p q, o => p.Inside o ∧ q.Inside (p.after o)
  | .collect k p, o => o ≠ none ∧ p.Inside (some k)

end Wreport.Spec
