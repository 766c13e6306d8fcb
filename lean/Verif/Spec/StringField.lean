import Verif.Spec.Field

/-! # Text held by a field -/

namespace Wreport.Spec

/-- A byte that pads text: NUL or white space. -/
def Blank (b : Byte) : Prop := b = 0 ∨ isSpace b = true

/-- The text held by the bytes of a field: the blanks at the end do not count, except
that one byte is always kept; of the others, those before the first NUL. -/
def HoldsText (w t : List Byte) : Prop :=
  ∃ kept pad, w = kept ++ pad ∧ (∀ b ∈ pad, Blank b) ∧
    (kept.length = 1 ∨ NoTrailingBlank kept) ∧ t = kept.takeWhile (· ≠ 0)

end Wreport.Spec
