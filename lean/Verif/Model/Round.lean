import Verif.Model.Varinfo

/-! # Rounding to the digits of a description -/

namespace Wreport

/-- `_Varinfo::round_decimal`, `wreport/varinfo.cc` lines 270-277. `round` goes to the nearest
integer, halves away from zero, and its result is a double that an operation can use exactly;
NaN and infinities stay as they are. -/
def Varinfo.round_decimal (E : Env) (info : Varinfo) (val : Dbl) : Res Dbl :=
  if 0 < info.scale then do
    let s ← scales info.scale.toNat
    match val with
    | .fin q => return .fin (E.fl (lroundQ (E.fl (q * s)) / s))
    | x => return x
  else if info.scale < 0 then do
    let s ← scales (-info.scale).toNat
    match val with
    | .fin q => return .fin (E.fl (lroundQ (E.fl (q / s)) * s))
    | x => return x
  else match val with
    | .fin q => return .fin (lroundQ q)
    | x => return x

end Wreport
