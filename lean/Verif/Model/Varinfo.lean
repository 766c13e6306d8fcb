import Verif.Model.Float
import Verif.Model.Varcode

/-!
# Variable metadata

Modelled code: `wreport/varinfo.h` lines 138-273, `wreport/varinfo.cc` lines
40-57 and 101-296. The free text description is left out.
-/

namespace Wreport

/-- `_Varinfo`, `wreport/varinfo.h` lines 138-185. -/
structure Varinfo where
  code : Varcode
  type : Vartype
  unit : List Byte
  scale : Int
  len : Nat
  bit_ref : Int
  bit_len : Nat
  imin : Int
  imax : Int
  dmin : ℚ
  dmax : ℚ
deriving DecidableEq

/-- `scales[n]`, `wreport/varinfo.cc` lines 219-237: a table of 17 powers of ten,
all exact in double precision; other indices are out of bounds. -/
def scales (n : Nat) : Res ℚ := if n ≤ 16 then .ok ((10 : ℚ) ^ n) else .ub

/-- `intexp10`, `wreport/varinfo.cc` lines 40-57. -/
def intexp10 (x : Nat) : Res Int := if x ≤ 9 then .ok ((10 ^ x : Nat) : Int) else .err .domain

/-- `_Varinfo::decode_decimal`, `wreport/varinfo.cc` lines 239-247. -/
def Varinfo.decode_decimal (E : Env) (info : Varinfo) (val : Int) : Res ℚ :=
  if 0 < info.scale then do
    let s ← scales info.scale.toNat
    return E.fl (val / s)
  else if info.scale < 0 then do
    let s ← scales (-info.scale).toNat
    return E.fl (val * s)
  else .ok val

/-- `_Varinfo::decode_binary`, `wreport/varinfo.cc` lines 249-258. -/
def Varinfo.decode_binary (E : Env) (info : Varinfo) (ival : Nat) : Res ℚ :=
  if info.bit_len = 0 then .err .consistency
  else if 0 ≤ info.scale then do
    let s ← scales info.scale.toNat
    return E.fl (E.fl ((ival : ℚ) + info.bit_ref) / s)
  else do
    let s ← scales (-info.scale).toNat
    return E.fl (E.fl ((ival : ℚ) + info.bit_ref) * s)

/-- `_Varinfo::encode_decimal`, `wreport/varinfo.cc` lines 260-268. Converting a
NaN or an infinity to `int` is undefined. -/
def Varinfo.encode_decimal (E : Env) (info : Varinfo) (fval : Dbl) : Res Int :=
  match fval with
  | .fin q =>
    if 0 < info.scale then do
      let s ← scales info.scale.toNat
      dblToInt (rint (E.fl (q * s)))
    else if info.scale < 0 then do
      let s ← scales (-info.scale).toNat
      dblToInt (rint (E.fl (q / s)))
    else dblToInt (rint q)
  | _ => .ub

/-- The scaling part of `_Varinfo::encode_binary`, `wreport/varinfo.cc` lines
285-291: the value to store before the checks. -/
def Varinfo.encodeBinaryScaled (E : Env) (info : Varinfo) (q : ℚ) : Res Int :=
  if 0 < info.scale then do
    let s ← scales info.scale.toNat
    return rint (E.fl (E.fl (q * s) - info.bit_ref))
  else if info.scale < 0 then do
    let s ← scales (-info.scale).toNat
    return rint (E.fl (E.fl (q / s) - info.bit_ref))
  else
    return rint (E.fl (q - info.bit_ref))

/-- `_Varinfo::encode_binary`, `wreport/varinfo.cc` lines 280-296. Negative
infinity gives the exception, NaN and positive infinity are converted to
`unsigned`, which is undefined. -/
def Varinfo.encode_binary (E : Env) (info : Varinfo) (fval : Dbl) : Res Nat :=
  if info.bit_len = 0 then .err .consistency
  else match fval with
  | .fin q => do
    let res ← info.encodeBinaryScaled E q
    if res < 0 then .err .consistency else dblToUInt res
  | .ninf => .err .consistency
  | _ => .ub

/-- `bit_max` in `_Varinfo::compute_range`, `wreport/varinfo.cc` lines 192-203. -/
def Varinfo.bitMax (E : Env) (info : Varinfo) : Res Int := do
  let one ← shl1 info.bit_len
  let bit_max ← E.sint (one + info.bit_ref)
  if WR_VAR_X info.code ≠ 31 then E.sint (bit_max - 2) else .ok bit_max

/-- The integer limits chosen by `_Varinfo::compute_range`,
`wreport/varinfo.cc` lines 183-211. -/
def Varinfo.intRange (E : Env) (info : Varinfo) : Res (Int × Int) :=
  if 10 ≤ info.len then .ok (-2147483648, 2147483647)
  else if info.bit_len = 0 then do
    let p ← intexp10 info.len
    return (-(p - 1), p - 2)
  else do
    let bit_max ← info.bitMax E
    let p ← intexp10 info.len
    return (max info.bit_ref (-(p - 1)), min bit_max (p - 2))

/-- `_Varinfo::compute_range`, `wreport/varinfo.cc` lines 171-217. -/
def Varinfo.compute_range (E : Env) (info : Varinfo) : Res Varinfo :=
  match info.type with
  | .string | .binary => .ok { info with imin := 0, imax := 0, dmin := 0, dmax := 0 }
  | .integer | .decimal => do
    let r ← info.intRange E
    let dmin ← info.decode_decimal E r.1
    let dmax ← info.decode_decimal E r.2
    return { info with imin := r.1, imax := r.2, dmin := dmin, dmax := dmax }

/-- Fields of a fresh `_Varinfo` before `compute_range`. -/
def Varinfo.raw (code : Varcode) (type : Vartype) (unit : List Byte) (scale : Int) (len : Nat)
    (bit_ref : Int) (bit_len : Nat) : Varinfo :=
  { code, type, unit, scale, len, bit_ref, bit_len, imin := 0, imax := 0, dmin := 0, dmax := 0 }

/-- `_Varinfo::set_bufr`, `wreport/varinfo.cc` lines 101-121. The unit is cut to
23 bytes after the comparison with `CCITTIA5`. -/
def Varinfo.set_bufr (E : Env) (code : Varcode) (unit : List Byte) (scale : Int) (len : Nat)
    (bit_ref : Int) (bit_len : Nat) : Res Varinfo :=
  (Varinfo.raw code
    (if unit = ascii "CCITTIA5" then .string else if scale = 0 then .integer else .decimal)
    (unit.take 23) scale len bit_ref bit_len).compute_range E

/-- `_Varinfo::set_crex`, `wreport/varinfo.cc` lines 123-142. -/
def Varinfo.set_crex (E : Env) (code : Varcode) (unit : List Byte) (scale : Int) (len : Nat) :
    Res Varinfo :=
  (Varinfo.raw code
    (if unit = ascii "CHARACTER" then .string else if scale = 0 then .integer else .decimal)
    (unit.take 23) scale len 0 0).compute_range E

/-- `_Varinfo::set_string`, `wreport/varinfo.cc` lines 144-155. -/
def Varinfo.set_string (E : Env) (code : Varcode) (len : Nat) : Res Varinfo :=
  (Varinfo.raw code .string (ascii "CCITTIA5") 0 len 0 (len * 8)).compute_range E

/-- `_Varinfo::set_binary`, `wreport/varinfo.cc` lines 157-168. -/
def Varinfo.set_binary (E : Env) (code : Varcode) (bit_len : Nat) : Res Varinfo :=
  (Varinfo.raw code .binary (ascii "UNKNOWN") 0 ((bit_len + 7) / 8) 0 bit_len).compute_range E

end Wreport
