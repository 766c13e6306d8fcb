import Verif.Spec.Interp
import Verif.Spec.Tables

/-! # What operators promise

The formulas are those of the Manual on Codes, table C: 2 01 YYY adds YYY - 128 to
the width, 2 02 YYY adds YYY - 128 to the scale, 2 07 YYY adds YYY to the scale,
(10 × YYY + 2) ÷ 3 to the width and multiplies the reference by ten to the power
YYY, 2 08 YYY sets the length of character elements to YYY characters. YYY = 0
cancels.
-/

namespace Wreport.Spec

/-- Operators for width, scale, increase and character length. -/
def Modifies (c : Varcode) : Prop :=
  WR_VAR_F c = 2 ∧ (WR_VAR_X c = 1 ∨ WR_VAR_X c = 2 ∨ WR_VAR_X c = 7 ∨ WR_VAR_X c = 8)

instance (c : Varcode) : Decidable (Modifies c) := inferInstanceAs (Decidable (_ ∧ _))

/-- YYY of the last operator 2 XX YYY of a list, 0 if there is none. -/
def lastOperand (x : Nat) (ops : List Varcode) : Nat :=
  (((ops.filter fun c => WR_VAR_X c = x).getLast?).map fun c => WR_VAR_Y c).getD 0

/-- Addition asked for by YYY of 2 01 and 2 02. -/
def added (y : Nat) : Int := if y = 0 then 0 else (y : Int) - 128

/-- Scale in effect. -/
def effScale (ops : List Varcode) (scale : Int) : Int :=
  scale + added (lastOperand 2 ops) + lastOperand 7 ops

/-- Width in effect for a number. -/
def effWidth (ops : List Varcode) (width : Nat) : Int :=
  width + added (lastOperand 1 ops) + ((10 * lastOperand 7 ops + 2) / 3 : Nat)

/-- Reference in effect; `replaced` is the one given by 2 03, if any. -/
def effRef (ops : List Varcode) (ref : Int) (replaced : Option Int) : Int :=
  replaced.getD (ref * 10 ^ lastOperand 7 ops)

end Wreport.Spec
