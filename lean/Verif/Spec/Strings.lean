import Verif.Spec.Bits

/-! # Text -/

namespace Wreport.Spec

/-- `r` is `s` without the leading characters that satisfy `p`. -/
def LStripped (p : Byte → Bool) (s r : List Byte) : Prop :=
  ∃ a, s = a ++ r ∧ (∀ c ∈ a, p c = true) ∧ ∀ c, r.head? = some c → p c = false

/-- `r` is `s` without the trailing characters that satisfy `p`. -/
def RStripped (p : Byte → Bool) (s r : List Byte) : Prop :=
  ∃ b, s = r ++ b ∧ (∀ c ∈ b, p c = true) ∧ ∀ c, r.getLast? = some c → p c = false

/-- `r` is `s` without the leading and trailing characters that satisfy `p`. -/
def Stripped (p : Byte → Bool) (s r : List Byte) : Prop :=
  ∃ m, LStripped p s m ∧ RStripped p m r

/-- Nothing but the end of `t ++ sep` is a separator: `t` ends where the first
separator begins. -/
def EndsAtFirst (sep t : List Byte) : Prop := ∀ a b, t ++ sep = a ++ sep ++ b → b = []

/-- `toks` are the pieces of `str` between the separators, found from left to right. -/
inductive IsSplit (sep : List Byte) : List Byte → List (List Byte) → Prop
  | last (t : List Byte) : (¬ sep <:+: t) → IsSplit sep t [t]
  | cons (t s : List Byte) (toks : List (List Byte)) :
    EndsAtFirst sep t → IsSplit sep s toks → IsSplit sep (t ++ sep ++ s) (t :: toks)

/-- The names that make up a path. -/
def components (p : List Byte) : List (List Byte) := (p.splitOn 47).filter (· ≠ [])

/-- The path starts at the root. -/
def absolute (p : List Byte) : Bool := p.head? = some 47

/-- One simplification of a list of names that does not change the place it leads to:
leaving out a dot, leaving out a name followed by two dots, leaving out two dots at the
root. -/
inductive Simplifies (root : Bool) : List (List Byte) → List (List Byte) → Prop
  | dot (a b : List (List Byte)) : Simplifies root (a ++ [[46]] ++ b) (a ++ b)
  | back (a b : List (List Byte)) (x : List Byte) : x ≠ [46] → x ≠ [46, 46] →
    Simplifies root (a ++ [x, [46, 46]] ++ b) (a ++ b)
  | top (b : List (List Byte)) : root = true → Simplifies root ([46, 46] :: b) b

/-- A relative path leaves the directory it starts from: after some of the names there
have been more steps up than down. -/
def climbs (p : List Byte) : Prop :=
  absolute p = false ∧ ∃ a b, components p = a ++ b ∧
    (a.filter (fun x => x ≠ [46] ∧ x ≠ [46, 46])).length < a.count [46, 46]

/-- The text of a path. -/
def pathText (root : Bool) (names : List (List Byte)) : List Byte :=
  (if root then [47] else if names = [] then [46] else []) ++ [47].intercalate names

/-- `t` is the base64 encoding of `s` with the given alphabet (RFC 4648): digits of six
bits whose bits are those of `s` with up to five more zeros, filled up with equal signs
to a multiple of four. -/
def IsBase64 (alphabet : List Byte) (s t : List Byte) : Prop :=
  ∃ (vals : List Nat) (zeros pad : Nat),
    (∀ v ∈ vals, v < 64) ∧ zeros < 6 ∧ pad < 4 ∧ t.length % 4 = 0 ∧
    t = vals.map (fun v => alphabet.getD v 0) ++ List.replicate pad 61 ∧
    vals.flatMap (bits 6) = bytesBits s ++ List.replicate zeros false

end Wreport.Spec
