import Verif.Model.Float
import Verif.Spec.Num

/-! # Rounding to some digits -/

namespace Wreport.Spec

/-- The number of units of the last digit in a number, as a double. -/
def digitUnits (fl : ℚ → ℚ) (scale : Int) (q : ℚ) : ℚ :=
  if scale = 0 then q else fl (q * (10 : ℚ) ^ scale)

/-- A number that lies, in doubles, halfway between two with so many digits. -/
def Halfway (fl : ℚ → ℚ) (scale : Int) (q : ℚ) : Prop :=
  ∃ n : ℤ, digitUnits fl scale q = n + 1 / 2

end Wreport.Spec
