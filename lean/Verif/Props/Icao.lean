import Verif.Model.Icao
import Mathlib.Tactic.NormNum
import Mathlib.Tactic.Linarith
import Mathlib.Tactic.Positivity

/-!
Property C122: pressure at a height.
-/

namespace Wreport

open Conv

namespace Conv

theorem base_pos {h : ℝ} (hh : h ≤ 11000) : 0 < 1 - h / 44330.769230769 := by
  have : h / 44330.769230769 ≤ 11000 / 44330.769230769 := by gcongr
  have : (11000 : ℝ) / 44330.769230769 < 1 := by norm_num
  linarith

/-- Below and at the limit. -/
theorem low_lt {a b : ℝ} (h : a < b) (hb : b ≤ 11000) : icao_to_press b < icao_to_press a := by
  unfold icao_to_press
  rw [if_pos hb, if_pos (h.le.trans hb)]
  have h1 : 1 - b / 44330.769230769 < 1 - a / 44330.769230769 := by
    have : a / 44330.769230769 < b / 44330.769230769 := by gcongr
    linarith
  have := Real.rpow_lt_rpow (base_pos hb).le h1 (show (0 : ℝ) < 5.252368255329 by norm_num)
  linarith

/-- Above it. -/
theorem high_lt {a b : ℝ} (h : a < b) (ha : 11000 < a) : icao_to_press b < icao_to_press a := by
  unfold icao_to_press
  rw [if_neg (by linarith), if_neg (by linarith)]
  have := Real.exp_lt_exp.mpr
    (show -0.000157583169442 * (b - 11000) < -0.000157583169442 * (a - 11000) by linarith)
  linarith

/-- Powers of fractions. -/
theorem rpow_lt_of_nat {x c e : ℝ} {a b m n p q : ℕ} (hb : 0 < b) (hn : 0 < n) (hq : 0 < q)
    (hx0 : 0 < x) (hx1 : x ≤ 1) (hx : x ≤ a / b) (hc : (m : ℝ) / n ≤ c) (he : (p : ℝ) / q ≤ e)
    (h : Nat.blt (a ^ p * n ^ q) (m ^ q * b ^ p) = true) : x ^ e < c := by
  have hb' : (0 : ℝ) < b := by exact_mod_cast hb
  have hn' : (0 : ℝ) < n := by exact_mod_cast hn
  have hq' : (0 : ℝ) < q := by exact_mod_cast hq
  have h : a ^ p * n ^ q < m ^ q * b ^ p := by simpa using h
  have h : ((a : ℝ) ^ p * n ^ q) < m ^ q * b ^ p := by exact_mod_cast h
  have h : ((a : ℝ) / b) ^ p < ((m : ℝ) / n) ^ q := by
    rw [div_pow, div_pow, div_lt_div_iff₀ (by positivity) (by positivity)]
    exact h
  have h : x ^ p < ((m : ℝ) / n) ^ q := (pow_le_pow_left₀ hx0.le hx p).trans_lt h
  refine lt_of_lt_of_le ?_ hc
  refine (Real.rpow_le_rpow_of_exponent_ge hx0 hx1 he).trans_lt ?_
  refine lt_of_pow_lt_pow_left₀ q (by positivity) ?_
  rw [← Real.rpow_natCast (x ^ _), ← Real.rpow_mul hx0.le, div_mul_cancel₀ _ hq'.ne', Real.rpow_natCast]
  exact h

theorem lt_rpow_of_nat {x c e : ℝ} {a b m n p q : ℕ} (hb : 0 < b) (hn : 0 < n) (hq : 0 < q)
    (hx0 : 0 < x) (hx1 : x ≤ 1) (hx : (a : ℝ) / b ≤ x) (hc : c ≤ (m : ℝ) / n) (he : e ≤ (p : ℝ) / q)
    (h : Nat.blt (m ^ q * b ^ p) (a ^ p * n ^ q) = true) : c < x ^ e := by
  have hb' : (0 : ℝ) < b := by exact_mod_cast hb
  have hn' : (0 : ℝ) < n := by exact_mod_cast hn
  have hq' : (0 : ℝ) < q := by exact_mod_cast hq
  have h : m ^ q * b ^ p < a ^ p * n ^ q := by simpa using h
  have h : (m : ℝ) ^ q * b ^ p < a ^ p * n ^ q := by exact_mod_cast h
  have h : ((m : ℝ) / n) ^ q < ((a : ℝ) / b) ^ p := by
    rw [div_pow, div_pow, div_lt_div_iff₀ (by positivity) (by positivity)]
    exact h
  have h : ((m : ℝ) / n) ^ q < x ^ p := h.trans_le (pow_le_pow_left₀ (by positivity) hx p)
  refine lt_of_le_of_lt hc ?_
  refine lt_of_lt_of_le ?_ (Real.rpow_le_rpow_of_exponent_ge hx0 hx1 he)
  refine lt_of_pow_lt_pow_left₀ q (by positivity) ?_
  rw [← Real.rpow_natCast (x ^ _), ← Real.rpow_mul hx0.le, div_mul_cancel₀ _ hq'.ne', Real.rpow_natCast]
  exact h

/-- The pressure that the first formula gives at the limit is below the one that the second
begins from, but not by much. -/
theorem at_limit : 226.5469 < icao_to_press 11000 ∧ icao_to_press 11000 < 226.547171999 := by
  have e : icao_to_press 11000 = 1013.25 * (1 - 11000 / 44330.769230769) ^ (5.252368255329 : ℝ) := by
    unfold icao_to_press
    rw [if_pos le_rfl]
  have h0 := base_pos (h := 11000) le_rfl
  have h1 : (1 : ℝ) - 11000 / 44330.769230769 ≤ 1 := by norm_num
  constructor
  · have := lt_rpow_of_nat (c := 226.5469 / 1013.25) (e := 5.252368255329) (a := 33330769230769)
      (b := 44330769230769) (m := 226546900) (n := 1013250000) (p := 6098) (q := 1161)
      (by decide) (by decide) (by decide) h0 h1 (by norm_num) (by norm_num) (by norm_num) (by decide +kernel)
    rw [e]
    clear e
    generalize (1 - 11000 / 44330.769230769 : ℝ) ^ (5.252368255329 : ℝ) = y at this ⊢
    rw [div_lt_iff₀ (by norm_num)] at this
    linarith
  · have := rpow_lt_of_nat (c := 226.547171999 / 1013.25) (e := 5.252368255329) (a := 4333) (b := 5763)
      (m := 226547171999) (n := 1013250000000) (p := 149703) (q := 28502)
      (by decide) (by decide) (by decide) h0 h1 (by norm_num) (by norm_num) (by norm_num) (by decide +kernel)
    rw [e]
    clear e
    generalize (1 - 11000 / 44330.769230769 : ℝ) ^ (5.252368255329 : ℝ) = y at this ⊢
    rw [lt_div_iff₀ (by norm_num)] at this
    linarith

end Conv

/-- C122: at height zero the pressure is that of the standard atmosphere, and at all heights it
is positive. -/
theorem C122_positive : icao_to_press 0 = 1013.25 ∧ ∀ h, 0 < icao_to_press h := by
  constructor
  · unfold icao_to_press
    rw [if_pos (by norm_num)]
    simp
  · intro h
    unfold icao_to_press
    split
    · next hh => exact mul_pos (by norm_num) (Real.rpow_pos_of_pos (base_pos hh) _)
    · exact mul_pos (by norm_num) (Real.exp_pos _)

/-- C122: the pressure falls with height, for heights on the same side of 11000 and from below
it to one centimetre above it or more. Missing: the centimetre above it, where this is false
(`C122_not_falling`). -/
theorem C122_falling_partial (a b : ℝ) (h : a < b) (hb : b ≤ 11000 ∨ 11000 < a ∨ 11000.01 ≤ b) :
    icao_to_press b < icao_to_press a := by
  rcases hb with hb | ha | hb
  · exact low_lt h hb
  · exact high_lt h ha
  · by_cases ha : 11000 < a
    · exact high_lt h ha
    have ha : a ≤ 11000 := not_lt.mp ha
    have h1 : icao_to_press 11000 ≤ icao_to_press a := by
      rcases ha.lt_or_eq with ha | rfl
      · exact (low_lt ha le_rfl).le
      · exact le_rfl
    have h2 : icao_to_press b ≤ 226.5469 := by
      unfold icao_to_press
      rw [if_neg (by linarith)]
      have h3 : Real.exp (-0.000157583169442 * (b - 11000)) ≤ (1 + 0.0000015758)⁻¹ := by
        rw [show (-0.000157583169442 : ℝ) * (b - 11000) = -(0.000157583169442 * (b - 11000)) by ring,
          Real.exp_neg]
        refine inv_anti₀ (by norm_num) ?_
        have := Real.add_one_le_exp (0.000157583169442 * (b - 11000))
        linarith
      have h4 : (226.547172 : ℝ) * (1 + 0.0000015758)⁻¹ ≤ 226.5469 := by norm_num
      linarith
    linarith [at_limit.1]

/-- C122 does not hold: a hair above 11000 metres the pressure is greater than at them. -/
theorem C122_not_falling : icao_to_press 11000 < icao_to_press 11000.00000001 := by
  refine at_limit.2.trans ?_
  unfold icao_to_press
  rw [if_neg (by norm_num)]
  have := Real.add_one_le_exp (-0.000157583169442 * ((11000.00000001 : ℝ) - 11000))
  norm_num at this ⊢
  linarith

/-- Heights in the order that C122 asks for, on both sides of the limit. -/
example : icao_to_press 20000 < icao_to_press 5000 :=
  C122_falling_partial 5000 20000 (by norm_num) (.inr (.inr (by norm_num)))

end Wreport
