import Verif.Model.Float
import Mathlib.Tactic.Linarith
import Mathlib.Tactic.Ring
import Mathlib.Tactic.NormNum
import Mathlib.Tactic.Positivity
import Mathlib.Tactic.FieldSimp
import Mathlib.Algebra.Order.Field.Power

namespace Wreport

/-! ## Rounding to integers -/

theorem rint_eq_of_near (q : ℚ) (n : Int) (h : |q - n| < 1 / 2) : rint q = n := by
  obtain ⟨h1, h2⟩ := abs_lt.mp h
  unfold rint
  by_cases hq : (n : ℚ) ≤ q
  · have hf : ⌊q⌋ = n := by
      rw [Int.floor_eq_iff]; constructor <;> linarith
    simp only [hf]
    rw [if_pos h2]
  · have hf : ⌊q⌋ = n - 1 := by
      rw [Int.floor_eq_iff]; push_cast; constructor <;> linarith
    simp only [hf]
    push_cast
    rw [if_neg (by linarith), if_pos (by linarith)]
    omega

theorem rint_intCast (n : Int) : rint (n : ℚ) = n := rint_eq_of_near _ _ (by simp)

theorem lroundQ_eq_of_near (q : ℚ) (n : Int) (h : |q - n| < 1 / 2) : lroundQ q = n := by
  obtain ⟨h1, h2⟩ := abs_lt.mp h
  unfold lroundQ
  split
  · rw [Int.floor_eq_iff]; constructor <;> linarith
  · have : ⌊-q + 1 / 2⌋ = -n := by
      rw [Int.floor_eq_iff]; push_cast; constructor <;> linarith
    omega

theorem lroundQ_intCast (n : Int) : lroundQ (n : ℚ) = n := lroundQ_eq_of_near _ _ (by simp)

/-- `rint` returns an integer at distance at most one half. -/
theorem rint_near (q : ℚ) : |q - rint q| ≤ 1 / 2 := by
  have h1 := Int.floor_le q
  have h2 := Int.lt_floor_add_one q
  unfold rint
  simp only
  split
  · rw [abs_le]; constructor <;> linarith
  · split
    · rw [abs_le]; push_cast; constructor <;> linarith
    · split
      · rw [abs_le]; constructor <;> linarith
      · rw [abs_le]; push_cast; constructor <;> linarith

theorem lroundQ_near (q : ℚ) : |q - lroundQ q| ≤ 1 / 2 := by
  unfold lroundQ
  split
  · have h1 := Int.floor_le (q + 1/2)
    have h2 := Int.lt_floor_add_one (q + 1/2)
    rw [abs_le]; constructor <;> linarith
  · have h1 := Int.floor_le (-q + 1/2)
    have h2 := Int.lt_floor_add_one (-q + 1/2)
    rw [abs_le]; push_cast; constructor <;> linarith

/-! ## Rounding of arithmetic -/

namespace IsRounding

variable {fl : ℚ → ℚ}

theorem zero (h : IsRounding fl) : fl 0 = 0 := by
  have := h.exact 0 (by norm_num)
  simpa using this

/-- Two roundings around a division and a multiplication by the same factor. -/
theorem err_div_mul (h : IsRounding fl) (x s : ℚ) (hs : 0 < s) :
    |fl (fl (x / s) * s) - x| ≤ |x| * (3 / 2 ^ 53) := by
  have e1 := h.err (x / s)
  have e2 := h.err (fl (x / s) * s)
  set v := fl (x / s) with hv
  have hvs : |v * s - x| ≤ |x| / 2 ^ 53 := by
    have : v * s - x = (v - x / s) * s := by field_simp
    rw [this, abs_mul, abs_of_pos hs]
    calc |v - x / s| * s ≤ (|x / s| / 2 ^ 53) * s := by gcongr
      _ = |x| / 2 ^ 53 := by rw [abs_div, abs_of_pos hs]; field_simp
  have hb : |v * s| ≤ |x| + |x| / 2 ^ 53 := by
    calc |v * s| = |x + (v * s - x)| := by ring_nf
      _ ≤ |x| + |v * s - x| := abs_add_le _ _
      _ ≤ _ := by gcongr
  have hx := abs_nonneg x
  calc |fl (v * s) - x| = |(fl (v * s) - v * s) + (v * s - x)| := by ring_nf
    _ ≤ |fl (v * s) - v * s| + |v * s - x| := abs_add_le _ _
    _ ≤ (|x| + |x| / 2 ^ 53) / 2 ^ 53 + |x| / 2 ^ 53 := by
        gcongr
        exact e2.trans (by gcongr)
    _ ≤ |x| * (3 / 2 ^ 53) := by norm_num; linarith

/-- Two roundings around a multiplication and a division by the same factor. -/
theorem err_mul_div (h : IsRounding fl) (x s : ℚ) (hs : 0 < s) :
    |fl (fl (x * s) / s) - x| ≤ |x| * (3 / 2 ^ 53) := by
  have := h.err_div_mul x s⁻¹ (inv_pos.mpr hs)
  simpa [div_eq_mul_inv] using this

/-- Subtracting a further integer keeps the error small. -/
theorem err_sub (h : IsRounding fl) (w : ℚ) (n r : Int) (hn : |(n : ℚ)| ≤ 2 ^ 34)
    (hr : |(r : ℚ)| ≤ 2 ^ 34) (hw : |w - n| ≤ |(n : ℚ)| * (3 / 2 ^ 53)) :
    |fl (w - r) - ((n - r : Int) : ℚ)| < 1 / 2 := by
  have e := h.err (w - r)
  have hw' : |w - n| ≤ 1 / 2 ^ 10 := hw.trans (by
    calc |(n : ℚ)| * (3 / 2 ^ 53) ≤ 2 ^ 34 * (3 / 2 ^ 53) := by gcongr
      _ ≤ 1 / 2 ^ 10 := by norm_num)
  have hb : |w - r| ≤ 2 ^ 36 := by
    calc |w - r| = |(w - n) + n + (-r)| := by ring_nf
      _ ≤ |w - n| + |(n : ℚ)| + |-(r : ℚ)| := abs_add_three _ _ _
      _ ≤ 1 / 2 ^ 10 + 2 ^ 34 + 2 ^ 34 := by rw [abs_neg]; gcongr
      _ ≤ 2 ^ 36 := by norm_num
  push_cast
  calc |fl (w - r) - (n - r)| = |(fl (w - r) - (w - r)) + (w - n)| := by ring_nf
    _ ≤ |fl (w - r) - (w - r)| + |w - n| := abs_add_le _ _
    _ ≤ 2 ^ 36 / 2 ^ 53 + 1 / 2 ^ 10 := by
        gcongr
        exact e.trans (by gcongr)
    _ < 1 / 2 := by norm_num

theorem near_of_err (w : ℚ) (n : Int) (hn : |(n : ℚ)| ≤ 2 ^ 34)
    (hw : |w - n| ≤ |(n : ℚ)| * (3 / 2 ^ 53)) : |w - n| < 1 / 2 :=
  lt_of_le_of_lt hw (by
    calc |(n : ℚ)| * (3 / 2 ^ 53) ≤ 2 ^ 34 * (3 / 2 ^ 53) := by gcongr
      _ < 1 / 2 := by norm_num)

end IsRounding

/-! ## A concrete rounding -/

private theorem abs_round_sub (a : ℚ) : |(round a : ℚ) - a| ≤ 1 / 2 := by
  rw [abs_sub_comm]; exact abs_sub_round a

private theorem round_mono {a b : ℚ} (h : a ≤ b) : round a ≤ round b := by
  rw [round_eq, round_eq]; exact Int.floor_le_floor (by linarith)

/-- Rounding of a positive number. -/
private def flPos (x : ℚ) : ℚ :=
  (round (x / 2 ^ (Int.log 2 x - 52)) : ℤ) * 2 ^ (Int.log 2 x - 52)

private theorem flNearest_pos {x : ℚ} (h : 0 < x) : flNearest x = flPos x := by
  unfold flNearest flPos
  simp [h.ne', h, abs_of_pos h]

private theorem flNearest_neg {x : ℚ} (h : x < 0) : flNearest x = -flPos (-x) := by
  unfold flNearest flPos
  simp [h.ne, not_lt.mpr h.le, abs_of_neg h]

private theorem log_bounds {x : ℚ} (h : 0 < x) :
    (2 : ℚ) ^ Int.log 2 x ≤ x ∧ x < (2 : ℚ) ^ (Int.log 2 x + 1) := by
  constructor
  · exact_mod_cast Int.zpow_log_le_self (b := 2) (by norm_num) h
  · exact_mod_cast Int.lt_zpow_succ_log_self (b := 2) (by norm_num) x

private theorem flPos_err {x : ℚ} (h : 0 < x) : |flPos x - x| ≤ x / 2 ^ 53 := by
  unfold flPos
  set u : ℚ := 2 ^ (Int.log 2 x - 52) with hu
  have hup : 0 < u := by positivity
  have hux : u * 2 ^ 52 ≤ x := by
    have := (log_bounds h).1
    have e : u * 2 ^ 52 = (2 : ℚ) ^ Int.log 2 x := by
      rw [hu, show (2 : ℚ) ^ (52 : ℕ) = 2 ^ (52 : ℤ) from by norm_cast, ← zpow_add₀ (by norm_num)]
      congr 1; ring
    linarith
  have : (round (x / u) : ℚ) * u - x = (round (x / u) - x / u) * u := by field_simp
  rw [this, abs_mul, abs_of_pos hup]
  calc |(round (x / u) : ℚ) - x / u| * u ≤ 1 / 2 * u := by
        gcongr; exact abs_round_sub _
    _ ≤ x / 2 ^ 53 := by
        rw [le_div_iff₀ (by norm_num)]
        calc 1 / 2 * u * 2 ^ 53 = u * 2 ^ 52 := by ring
          _ ≤ x := hux

private theorem flPos_lo {x : ℚ} (h : 0 < x) : (2 : ℚ) ^ Int.log 2 x ≤ flPos x := by
  unfold flPos
  set e := Int.log 2 x with he
  have hup : (0 : ℚ) < 2 ^ (e - 52) := by positivity
  have h1 : ((2 : ℤ) ^ 52 : ℤ) ≤ round (x / 2 ^ (e - 52)) := by
    have : (2 : ℚ) ^ 52 ≤ x / 2 ^ (e - 52) := by
      rw [le_div_iff₀ hup]
      have e1 : (2 : ℚ) ^ 52 * 2 ^ (e - 52) = 2 ^ e := by
        rw [show (2 : ℚ) ^ (52 : ℕ) = 2 ^ (52 : ℤ) from by norm_cast, ← zpow_add₀ (by norm_num)]
        congr 1; ring
      rw [e1]; exact (log_bounds h).1
    have h2 := round_mono this
    have h3 : round ((2 : ℚ) ^ 52) = (2 : ℤ) ^ 52 := by
      have := round_intCast (α := ℚ) ((2 : ℤ) ^ 52)
      push_cast at this; exact this
    omega
  have h1' : ((2 : ℚ) ^ 52) ≤ (round (x / 2 ^ (e - 52)) : ℤ) := by exact_mod_cast h1
  calc (2 : ℚ) ^ e = 2 ^ 52 * 2 ^ (e - 52) := by
        rw [show (2 : ℚ) ^ (52 : ℕ) = 2 ^ (52 : ℤ) from by norm_cast, ← zpow_add₀ (by norm_num)]
        congr 1; ring
    _ ≤ _ := by gcongr

private theorem flPos_hi {x : ℚ} (h : 0 < x) : flPos x ≤ (2 : ℚ) ^ (Int.log 2 x + 1) := by
  unfold flPos
  set e := Int.log 2 x with he
  have hup : (0 : ℚ) < 2 ^ (e - 52) := by positivity
  have e1 : (2 : ℚ) ^ 53 * 2 ^ (e - 52) = 2 ^ (e + 1) := by
    rw [show (2 : ℚ) ^ (53 : ℕ) = 2 ^ (53 : ℤ) from by norm_cast, ← zpow_add₀ (by norm_num)]
    congr 1; ring
  have h1 : round (x / 2 ^ (e - 52)) ≤ ((2 : ℤ) ^ 53 : ℤ) := by
    have : x / 2 ^ (e - 52) ≤ (2 : ℚ) ^ 53 := by
      rw [div_le_iff₀ hup, e1]
      exact (log_bounds h).2.le
    have h2 := round_mono this
    have h3 : round ((2 : ℚ) ^ 53) = (2 : ℤ) ^ 53 := by
      have := round_intCast (α := ℚ) ((2 : ℤ) ^ 53)
      push_cast at this; exact this
    omega
  have h1' : ((round (x / 2 ^ (e - 52)) : ℤ) : ℚ) ≤ (2 : ℚ) ^ 53 := by exact_mod_cast h1
  rw [← e1]
  gcongr

private theorem flPos_mono {x y : ℚ} (hx : 0 < x) (h : x ≤ y) : flPos x ≤ flPos y := by
  have hy : 0 < y := lt_of_lt_of_le hx h
  have hl : Int.log 2 x ≤ Int.log 2 y := Int.log_mono_right hx h
  rcases eq_or_lt_of_le hl with he | hlt
  · unfold flPos
    rw [he]
    have : (0 : ℚ) < 2 ^ (Int.log 2 y - 52) := by positivity
    gcongr
    exact round_mono (by gcongr)
  · calc flPos x ≤ (2 : ℚ) ^ (Int.log 2 x + 1) := flPos_hi hx
      _ ≤ (2 : ℚ) ^ Int.log 2 y := zpow_le_zpow_right₀ (by norm_num) (by omega)
      _ ≤ flPos y := flPos_lo hy

private theorem flPos_exact (n : ℕ) (h0 : 0 < n) (h : n ≤ 2 ^ 53) : flPos (n : ℚ) = n := by
  unfold flPos
  have hn : (0 : ℚ) < n := by exact_mod_cast h0
  set e := Int.log 2 (n : ℚ) with he
  have key : ∃ m : ℤ, (n : ℚ) / 2 ^ (e - 52) = m := by
    have hb := (log_bounds hn).1
    rw [← he] at hb
    have h0e : 0 ≤ e := by
      rw [he, Int.log_natCast]; exact Int.natCast_nonneg _
    have hle : e ≤ 53 := by
      by_contra hc
      have : (2 : ℚ) ^ (54 : ℤ) ≤ 2 ^ e := zpow_le_zpow_right₀ (by norm_num) (by omega)
      have h2 : (n : ℚ) ≤ 2 ^ 53 := by exact_mod_cast h
      have h3 : (2 : ℚ) ^ (54 : ℤ) = 2 ^ 54 := by norm_cast
      rw [h3] at this
      have : (2 : ℚ) ^ 54 ≤ 2 ^ 53 := by linarith
      norm_num at this
    rcases eq_or_lt_of_le hle with h53 | hlt
    · have h2 : (n : ℚ) ≤ 2 ^ 53 := by exact_mod_cast h
      have h3 : (n : ℚ) = 2 ^ 53 := by
        apply le_antisymm h2
        rw [h53] at hb
        exact_mod_cast hb
      refine ⟨2 ^ 52, ?_⟩
      rw [h3, h53]; norm_num
    · obtain ⟨k, hk⟩ : ∃ k : ℕ, (k : ℤ) = 52 - e := ⟨(52 - e).toNat, by omega⟩
      refine ⟨n * 2 ^ k, ?_⟩
      have : e - 52 = -(k : ℤ) := by omega
      rw [this, zpow_neg, zpow_natCast, div_inv_eq_mul]
      push_cast; ring
  obtain ⟨m, hm⟩ := key
  rw [hm, round_intCast, ← hm]
  have : (2 : ℚ) ^ (e - 52) ≠ 0 := by positivity
  field_simp

/-- Rounding to 53 significant bits has the assumed properties. -/
theorem isRounding_flNearest : IsRounding flNearest where
  err x := by
    rcases lt_trichotomy x 0 with h | h | h
    · rw [flNearest_neg h, abs_of_neg h]
      have := flPos_err (x := -x) (by linarith)
      rwa [show -flPos (-x) - x = -(flPos (-x) - -x) by ring, abs_neg]
    · simp [h, flNearest]
    · rw [flNearest_pos h, abs_of_pos h]; exact flPos_err h
  exact n hn := by
    rcases lt_trichotomy n 0 with h | h | h
    · obtain ⟨k, rfl⟩ : ∃ k : ℕ, n = -(k : ℤ) := ⟨n.natAbs, by omega⟩
      have hq : ((-(k : ℤ) : ℤ) : ℚ) < 0 := by exact_mod_cast h
      rw [flNearest_neg hq]
      have h2 : flPos (k : ℚ) = k := by
        apply flPos_exact k (by omega)
        rw [abs_of_neg h] at hn
        omega
      push_cast
      simp [h2]
    · simp [h, flNearest]
    · obtain ⟨k, rfl⟩ : ∃ k : ℕ, n = (k : ℤ) := ⟨n.natAbs, by omega⟩
      have hq : (0 : ℚ) < ((k : ℤ) : ℚ) := by exact_mod_cast h
      rw [flNearest_pos hq]
      push_cast
      apply flPos_exact k (by omega)
      rw [abs_of_pos h] at hn
      omega
  mono x y h := by
    have pos_of : ∀ z : ℚ, 0 < z → 0 ≤ flPos z := fun z hz =>
      le_trans (by positivity) (flPos_lo hz)
    rcases lt_trichotomy x 0 with hx | hx | hx
    · rw [flNearest_neg hx]
      have hx' := pos_of (-x) (by linarith)
      rcases lt_trichotomy y 0 with hy | hy | hy
      · rw [flNearest_neg hy]
        have := flPos_mono (x := -y) (y := -x) (by linarith) (by linarith)
        linarith
      · simp [hy, flNearest]; exact hx'
      · rw [flNearest_pos hy]
        have := pos_of y hy
        linarith
    · subst hx
      rcases eq_or_lt_of_le h with hy | hy
      · rw [← hy]
      · rw [flNearest_pos hy]; simp [flNearest]; exact pos_of y hy
    · have hy := lt_of_lt_of_le hx h
      rw [flNearest_pos hx, flNearest_pos hy]
      exact flPos_mono hx h

end Wreport
