import Verif.Model.Varcode

/-! # Associated field significance -/

namespace Wreport.Spec

/-- Element that holds the quality value for a significance: BUFR code table
031021, as read by `wreport/bulletin/associated_fields.cc`. -/
def qualityCode : Nat → Option Varcode
  | 1 => some (WR_VAR 0 33 2)
  | 2 => some (WR_VAR 0 33 3)
  | 6 => some (WR_VAR 0 33 50)
  | 7 => some (WR_VAR 0 33 40)
  | 8 => some (WR_VAR 0 33 2)
  | 21 => some (WR_VAR 0 33 41)
  | _ => none

end Wreport.Spec
