import Mathlib.Analysis.SpecialFunctions.Pow.Real

/-!
# Pressure at a height in the standard atmosphere

Modelled code: `convert_icao_to_press` of `wreport/conv.cc`. Simplified: numbers are real
numbers, and `pow` and `exp` are exact; how the results of the processor are rounded is not
modelled.
-/

namespace Wreport.Conv

/-- `convert_icao_to_press`, `wreport/conv.cc` lines 448-461. The power is defined: its base is
positive for heights up to 11000. -/
noncomputable def icao_to_press (h : ℝ) : ℝ :=
  if h ≤ 11000 then 1013.25 * (1 - h / 44330.769230769) ^ (5.252368255329 : ℝ)
  else 226.547172 * Real.exp (-0.000157583169442 * (h - 11000))

end Wreport.Conv
