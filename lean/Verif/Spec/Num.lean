import Mathlib.Data.Rat.Floor

/-! # What scaled numbers mean -/

namespace Wreport.Spec

/-- The number that the integer `i` stands for with decimal scale `scale`. -/
def decimalValue (scale i : Int) : ℚ := (i : ℚ) * (10 : ℚ) ^ (-scale)

end Wreport.Spec
