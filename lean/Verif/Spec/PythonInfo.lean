import Verif.Model.PythonTables

/-! # Objects that can name units and numbers in Python -/

namespace Wreport.Spec

open Py

/-- A Python string that is a C string with the given bytes. -/
def NamesUnit (o : Obj) (b : List Byte) : Prop := ∃ s, o = .str s ∧ encode s = b ∧ (0 : Byte) ∉ b

/-- A Python object that stands for a double: a float is itself, an integer that is not too large
is the double nearest to it. -/
def Stands (fl : ℚ → ℚ) (o : Obj) (d : Dbl) : Prop :=
  o = .float d ∨ ∃ i : Int, o = .int i ∧ |i| < 2 ^ 1024 - 2 ^ 970 ∧ d = .fin (fl i)

/-- Objects that cannot be arguments: texts, and numbers. -/
def BadText (o : Obj) (e : Exc) : Prop :=
  (∃ s, o = .str s ∧ (0 : Byte) ∈ encode s ∧ e = .value) ∨
  (o = .surrogates ∧ e = .unicodeEncode) ∨
  ((∀ s, o ≠ .str s) ∧ o ≠ .surrogates ∧ e = .type)

/-- Integers too large for a double, and objects that are not numbers. -/
def BadNumber (o : Obj) (e : Exc) : Prop :=
  (∃ i : Int, o = .int i ∧ 2 ^ 1024 - 2 ^ 970 ≤ |i| ∧ e = .overflow) ∨
  ((∀ i, o ≠ .int i) ∧ (∀ d, o ≠ .float d) ∧ e = .type)

end Wreport.Spec
