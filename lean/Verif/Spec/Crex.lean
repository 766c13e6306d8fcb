import Verif.Model.Interp
import Verif.Spec.Data

/-!
# What a CREX message holds

The text of each value and the fields of a subset, written down without any output
buffer.
-/

namespace Wreport.Spec

/-- The last `n` decimal digits of a number. -/
def zeroPadded : (n : Nat) → Nat → List Byte
  | 0, _ => []
  | n + 1, k => zeroPadded n (k / 10) ++ [UInt8.ofNat (48 + k % 10)]

/-- A value in a field of `len` characters: a sign if negative and the digits, or the
text and blanks. -/
def crexValue (len : Nat) : Value → List Byte
  | .num k => (if k < 0 then [45] else []) ++ zeroPadded len k.natAbs
  | .text t => t ++ List.replicate (len - t.length) 32
  | .bits _ => []

/-- The field of a variable: a blank, the check digit if used, and the value; only
slashes if it is missing. -/
def crexField (digit : List Byte) (v : VarCore) : List Byte :=
  match v.view with
  | none => List.replicate v.info.len 47
  | some x => 32 :: (digit ++ crexValue v.info.len x)

/-- The number is in the range of its descriptor and has no more digits than the
field. -/
def crexNumFits (info : Varinfo) (k : Int) : Bool :=
  decide (0 < info.len ∧ info.len ≤ 253 ∧ k.natAbs < 10 ^ info.len ∧ info.imin ≤ k ∧ k ≤ info.imax)

/-- The text fits the field, is not empty, does not begin with a blank or a slash and
does not end with a blank. -/
def crexTextFits (info : Varinfo) (t : List Byte) : Bool :=
  decide (info.len ≤ 254 ∧ t.length ≤ info.len) &&
    (match t.head? with
      | none => false
      | some b => !isSpace b && b != 47) &&
    (match t.getLast? with
      | none => false
      | some b => !isSpace b)

/-- The value of a variable has a field of its own. -/
def crexFits (v : VarCore) : Bool :=
  match v.view with
  | none => decide (0 < v.info.len)
  | some (.num k) => crexNumFits v.info k
  | some (.text t) => crexTextFits v.info t
  | some (.bits _) => false

/-- A text that does not begin with a digit. -/
def NoDigit (s : List Byte) : Prop := ∀ b, s.head? = some b → isDigit b = false

/-- The fields of some values with the check digits `ds` before them. -/
def digitFields : List Byte → List VarCore → List Byte
  | d :: ds, v :: vs => crexField [d] v ++ digitFields ds vs
  | _, _ => []

/-- The check digits from `d` on: each is one more than the one before, and 0 follows
9. -/
def cycle (d : Nat) : Nat → List Byte
  | 0 => []
  | n + 1 => UInt8.ofNat (48 + d) :: cycle (if d = 9 then 0 else d + 1) n

/-- The text of a descriptor: a letter, two digits, and three more digits or NULs. A NUL
also passes as the second digit after a digit from 5 on. -/
def IsDescriptor (s : List Byte) : Prop :=
  ∃ c x1 x2 y1 y2 y3, s = [c, x1, x2, y1, y2, y3] ∧ (c = 66 ∨ c = 82 ∨ c = 67 ∨ c = 68) ∧
    isDigit x1 = true ∧ (isDigit x2 = true ∨ x2 = 0 ∧ 53 ≤ x1.toNat) ∧
    ∀ y ∈ [y1, y2, y3], isDigit y = true ∨ y = 0

/-- A list of descriptors and check digit marks, with blanks or not, that at some point
goes on with something that is none of them and no plus sign. -/
inductive Endless : List Byte → Prop
  | here {s : List Byte} (h : ∀ c t, s = c :: t →
      c ≠ 66 ∧ c ≠ 82 ∧ c ≠ 67 ∧ c ≠ 68 ∧ c ≠ 69 ∧ c ≠ 43) : Endless s
  | descriptor {d s : List Byte} : IsDescriptor d → Endless (s.dropWhile isSpace) → Endless (d ++ s)
  | mark {s : List Byte} : Endless (s.dropWhile isSpace) → Endless (69 :: s)

/-! ## Subsets -/

/-- A walk through a subset. `pending`: the last field was a replication factor whose
field is one character longer than the four digits that are written, so that a blank
has to follow. -/
structure CrexWalk where
  subset : List Var
  pos : Nat
  text : List Byte
  pending : Bool

namespace CrexWalk

/-- The next variable of the subset. -/
def next (st : Interp CrexWalk) : Option Var := st.tgt.subset[st.tgt.pos]?

/-- The walk after taking a variable whose field is `f`. -/
def took (st : Interp CrexWalk) (f : List Byte) (pending : Bool) : Interp CrexWalk :=
  { st with tgt := ⟨st.tgt.subset, st.tgt.pos + 1, st.tgt.text ++ f, pending⟩ }

/-- An element descriptor: the next variable has that descriptor and its value
fits. -/
def element (st : Interp CrexWalk) (info : Varinfo) : Res (Interp CrexWalk) :=
  match next st with
  | none => .err .consistency
  | some v =>
    if v.info = info ∧ crexFits v.toVarCore = true ∧
        (st.tgt.pending = true → v.toVarCore.view ≠ none) then
      .ok (took st (crexField [] v.toVarCore) false)
    else .err .consistency

/-- The descriptors of replication factors written with four digits. -/
def fourDigits (code : Varcode) : Prop :=
  code ∈ [WR_VAR 0 31 1, WR_VAR 0 31 2, WR_VAR 0 31 11, WR_VAR 0 31 12]

instance (code : Varcode) : Decidable (fourDigits code) := inferInstanceAs (Decidable (_ ∈ _))

/-- A replication factor: the next variable tells how many times. -/
def factor (st : Interp CrexWalk) (info : Varinfo) : Res (Nat × Interp CrexWalk) :=
  match next st with
  | none => .err .consistency
  | some v => match v.toVarCore.view with
    | some (.num k) =>
      if fourDigits info.code then
        if v.info = info ∧ 0 ≤ k ∧ k ≤ 9999 ∧ info.imin ≤ k ∧ k ≤ info.imax ∧
            (info.len = 4 ∨ info.len = 5) then
          .ok (toU32 k, took st (32 :: zeroPadded 4 k.natAbs) (decide (info.len = 5)))
        else .err .consistency
      else do
        let st' ← element st info
        return (toU32 k, st')
    | _ => .err .consistency

/-- Elements, replications, sequences and the operators that change descriptors. -/
def target : Target CrexWalk where
  define_bitmap := fun _ _ => .err .unimplemented
  define_variable := element
  define_variable_with_associated_field := fun _ _ => .err .unimplemented
  define_delayed_replication_factor := factor
  define_bitmap_delayed_replication_factor := fun _ _ => .err .unimplemented
  define_associated_field_significance := fun _ _ => .err .unimplemented
  define_substituted_value := fun _ _ => .err .unimplemented
  define_attribute := fun _ _ _ => .err .unimplemented
  define_raw_character_data := fun _ _ => .err .unimplemented
  define_c03_refval_override := fun _ _ => .err .unimplemented

end CrexWalk

/-- The subset matches the descriptors to its end, and its fields are `text`. -/
def CrexMatches (C : Ctx) (depth : Nat) (datadesc : List Varcode) (subset : List Var)
    (caches : TableCaches) (text : List Byte) : Prop :=
  ∃ st, Interp.run C CrexWalk.target depth datadesc (.new caches ⟨subset, 0, [], false⟩) = .ok st ∧
    st.tgt.pos = subset.length ∧ st.tgt.text = text ∧ st.tgt.pending = false

end Wreport.Spec
