import Verif.Model.Basic
import Mathlib.Data.Rat.Floor
import Mathlib.Algebra.Order.Round
import Mathlib.Data.Int.Log

/-!
# Integer and floating point arithmetic of the C++ runtime

Doubles are rationals plus NaN and the infinities. Every arithmetic operation on
finite doubles is the exact rational operation followed by a rounding function
`fl`. Theorems quantify over all `fl` that satisfy `IsRounding`. Overflow to
infinity and subnormal results are not modelled: the largest magnitude the
modelled code computes with is about 2^33 * 10^16 and the smallest nonzero one
about 10^-16.
-/

namespace Wreport

/-- A C++ `double`. Signed zeros are identified. -/
inductive Dbl where
  | fin (q : ℚ)
  | nan
  | pinf
  | ninf
deriving DecidableEq

/-- What the code depends on in its compilation and run time environment. -/
structure Env where
  /-- rounding of the result of each floating point operation -/
  fl : ℚ → ℚ
  /-- signed overflow wraps (as with `-fwrapv`) instead of being undefined -/
  wrapv : Bool
  /-- what `lround` returns when the result does not fit a `long` (unspecified by
  the C standard) -/
  lroundOut : Int
  /-- `convert_units` of `wreport/conv.cc`; given concretely in `Verif.Model.Conv` -/
  conv : (src dst : List Byte) → Dbl → Res Dbl
  /-- `strtod` of the C library -/
  strtod : List Byte → Dbl

/-- IEEE 754 double arithmetic as far as the proofs need it: relative error at
most 2^-53, exact on integers up to 2^53, monotone. -/
structure IsRounding (fl : ℚ → ℚ) : Prop where
  err : ∀ x, |fl x - x| ≤ |x| / 2 ^ 53
  exact : ∀ n : ℤ, |n| ≤ 2 ^ 53 → fl n = n
  mono : ∀ x y, x ≤ y → fl x ≤ fl y

/-- `a < b` on a double and a finite double. -/
def Dbl.lt : Dbl → ℚ → Bool
  | .fin a, b => a < b
  | .ninf, _ => true
  | _, _ => false

/-- `a > b` on a double and a finite double. -/
def Dbl.gt : Dbl → ℚ → Bool
  | .fin a, b => b < a
  | .pinf, _ => true
  | _, _ => false

/-- Rounding to the nearest multiple of a power of two with 53 significant bits,
as IEEE double arithmetic does (ties go up here, to even there; no exponent
limits). Used to show that `IsRounding` is satisfiable. -/
def flNearest (x : ℚ) : ℚ :=
  if x = 0 then 0 else
    let u : ℚ := 2 ^ (Int.log 2 |x| - 52)
    (if 0 < x then (round (|x| / u) : ℤ) * u else -((round (|x| / u) : ℤ) * u))

/-- The C++ `int` range. -/
def inInt (i : Int) : Bool := -2147483648 ≤ i && i ≤ 2147483647

/-- Reduction to a 32-bit `int`. -/
def wrapInt (i : Int) : Int := (i + 2147483648) % 4294967296 - 2147483648

/-- Result of a signed `int` operation whose exact result is `i`. -/
def Env.sint (E : Env) (i : Int) : Res Int :=
  if inInt i then .ok i else if E.wrapv then .ok (wrapInt i) else .ub

/-- `1 << n` for an `int` one: `1 << 31` is `INT_MIN`, larger shifts are
undefined. -/
def shl1 (n : Nat) : Res Int :=
  if n < 31 then .ok (2 ^ n : Nat) else if n = 31 then .ok (-2147483648) else .ub

/-- `rint` in the default rounding mode: nearest integer, ties to even. -/
def rint (q : ℚ) : Int :=
  let f := ⌊q⌋
  if q - f < 1 / 2 then f
  else if 1 / 2 < q - f then f + 1
  else if f % 2 = 0 then f else f + 1

/-- `lround` without its range limit: nearest integer, ties away from zero. -/
def lroundQ (q : ℚ) : Int := if 0 ≤ q then ⌊q + 1 / 2⌋ else -⌊-q + 1 / 2⌋

/-- `lround`: 64-bit result, unspecified value outside that range. -/
def Env.lround (E : Env) : Dbl → Int
  | .fin q =>
    if -9223372036854775808 ≤ lroundQ q ∧ lroundQ q ≤ 9223372036854775807 then lroundQ q
    else E.lroundOut
  | _ => E.lroundOut

/-- `(int)x` for a double holding an integral value: undefined outside `int`. -/
def dblToInt (i : Int) : Res Int := if inInt i then .ok i else .ub

/-- `(unsigned)x` for a double holding an integral value: undefined outside
`unsigned`. -/
def dblToUInt (i : Int) : Res Nat := if 0 ≤ i ∧ i < 4294967296 then .ok i.toNat else .ub

end Wreport
