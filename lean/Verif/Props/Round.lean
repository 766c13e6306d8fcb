import Verif.Model.Round
import Verif.Props.Varinfo
import Verif.Props.VarNum
import Verif.Spec.Round

/-! # Rounding to the digits of a description: theorems -/

namespace Wreport

open Spec

theorem digitUnits_eq {E : Env} {info : Varinfo} {q : ℚ} (hs : -16 ≤ info.scale ∧ info.scale ≤ 16) :
    info.round_decimal E (.fin q) =
      (info.decode_decimal E (lroundQ (digitUnits E.fl info.scale q)) >>= fun v => .ok (.fin v)) ∧
    info.encode_decimal E (.fin q) = dblToInt (rint (digitUnits E.fl info.scale q)) := by
  have hz : ∀ k : Int, 0 < k → (10 : ℚ) ^ k = 10 ^ k.toNat := by
    intro k hk
    rw [← zpow_natCast, Int.toNat_of_nonneg hk.le]
  have hn : ∀ k : Int, k < 0 → q * (10 : ℚ) ^ k = q / 10 ^ (-k).toNat := by
    intro k hk
    rw [← hz (-k) (by omega), zpow_neg, div_inv_eq_mul]
  unfold Varinfo.round_decimal Varinfo.encode_decimal Varinfo.decode_decimal digitUnits
  rcases lt_trichotomy info.scale 0 with h | h | h
  · simp only [if_neg (show ¬ 0 < info.scale by omega), if_pos h, if_neg (show info.scale ≠ 0 by omega),
      scales_ok (show (-info.scale).toNat ≤ 16 by omega), Res.ok_bind, hn _ h]
    exact ⟨rfl, trivial⟩
  · simp only [if_neg (show ¬ 0 < info.scale by omega), if_neg (show ¬ info.scale < 0 by omega), if_pos h]
    exact ⟨rfl, trivial⟩
  · simp only [if_pos h, if_neg (show info.scale ≠ 0 by omega),
      scales_ok (show info.scale.toNat ≤ 16 by omega), Res.ok_bind, hz _ h]
    exact ⟨rfl, trivial⟩

theorem digitUnits_near {E : Env} (hE : IsRounding E.fl) (scale : Int) (q : ℚ) :
    |digitUnits E.fl scale q - q * (10 : ℚ) ^ scale| ≤ |q * (10 : ℚ) ^ scale| / 2 ^ 53 := by
  unfold digitUnits
  split
  · next h => rw [h]; simp; positivity
  · exact hE.err _

/-- C110: the result of `round_decimal` is the double nearest to a decimal number with as many
digits as the description says, up to one rounding, and that number is the nearest to the
argument, up to one rounding. -/
theorem C110_nearest (E : Env) (hE : IsRounding E.fl) (info : Varinfo) (q : ℚ)
    (hs : -16 ≤ info.scale ∧ info.scale ≤ 16) :
    ∃ (n : ℤ) (v : ℚ), info.round_decimal E (.fin q) = .ok (.fin v) ∧
      |v - decimalValue info.scale n| ≤ |decimalValue info.scale n| / 2 ^ 53 ∧
      |q * (10 : ℚ) ^ info.scale - n| ≤ 1 / 2 + |q * (10 : ℚ) ^ info.scale| / 2 ^ 53 := by
  have h := decode_decimal_eq E info (lroundQ (digitUnits E.fl info.scale q)) hs
  refine ⟨lroundQ (digitUnits E.fl info.scale q), _, ?_, decode_decimal_err hE h, ?_⟩
  · rw [(digitUnits_eq hs).1, h]; rfl
  · have h1 := abs_le.mp (digitUnits_near hE info.scale q)
    have h2 := abs_le.mp (lroundQ_near (digitUnits E.fl info.scale q))
    rw [abs_le]
    constructor <;> linarith [h1.1, h1.2, h2.1, h2.2]

/-- C110: rounding what has been rounded changes nothing, for numbers with up to 2^50 units of
the last digit. -/
theorem C110_again (E : Env) (hE : IsRounding E.fl) (info : Varinfo) (q v : ℚ)
    (hq : |q * (10 : ℚ) ^ info.scale| ≤ 2 ^ 50)
    (hs : -16 ≤ info.scale ∧ info.scale ≤ 16)
    (h : info.round_decimal E (.fin q) = .ok (.fin v)) :
    info.round_decimal E (.fin v) = .ok (.fin v) := by
  have hu := digitUnits_near hE info.scale q
  rw [(digitUnits_eq hs).1] at h
  obtain ⟨w, h1, h2⟩ := Res.bind_eq_ok.mp h
  obtain rfl : w = v := by cases h2; rfl
  have hn := lroundQ_near (digitUnits E.fl info.scale q)
  generalize lroundQ (digitUnits E.fl info.scale q) = n at h1 hn
  have hN : |(n : ℚ)| ≤ 2 ^ 50 + 2 := by
    have e1 : |(n : ℚ)| ≤ |digitUnits E.fl info.scale q - n| + |digitUnits E.fl info.scale q| := by
      have := abs_sub_abs_le_abs_sub (n : ℚ) (digitUnits E.fl info.scale q)
      rw [abs_sub_comm] at this
      linarith
    have e2 : |digitUnits E.fl info.scale q| ≤
        |digitUnits E.fl info.scale q - q * (10 : ℚ) ^ info.scale| + |q * (10 : ℚ) ^ info.scale| := by
      have := abs_sub_abs_le_abs_sub (digitUnits E.fl info.scale q) (q * (10 : ℚ) ^ info.scale)
      linarith
    have e3 : |q * (10 : ℚ) ^ info.scale| / 2 ^ 53 ≤ 1 := by
      rw [div_le_one (by positivity)]
      exact hq.trans (by norm_num)
    linarith
  have key : ∀ x : ℚ, |x - n| ≤ |(n : ℚ)| * (3 / 2 ^ 53) → lroundQ x = n := by
    intro x hx
    refine lroundQ_eq_of_near _ _ (lt_of_le_of_lt hx ?_)
    calc |(n : ℚ)| * (3 / 2 ^ 53) ≤ (2 ^ 50 + 2) * (3 / 2 ^ 53) := by gcongr
      _ < 1 / 2 := by norm_num
  obtain ⟨b1, b2, b3⟩ := scale_back E hE info n w h1
  rw [(digitUnits_eq hs).1]
  have : lroundQ (digitUnits E.fl info.scale w) = n := by
    unfold digitUnits
    rcases lt_trichotomy info.scale 0 with h | h | h
    · rw [if_neg (by omega)]
      apply key
      have := b2 h
      have e : w * (10 : ℚ) ^ info.scale = w / 10 ^ (-info.scale).toNat := by
        rw [← zpow_natCast, Int.toNat_of_nonneg (by omega), zpow_neg, div_inv_eq_mul]
      rw [e]
      exact this
    · rw [if_pos h, b3 h, lroundQ_intCast]
    · rw [if_neg (by omega)]
      apply key
      have := b1 h
      have e : (10 : ℚ) ^ info.scale = 10 ^ info.scale.toNat := by
        rw [← zpow_natCast, Int.toNat_of_nonneg (by omega)]
      rw [e]
      exact this
  rw [this, h1]
  rfl

theorem lround_rint {x : ℚ} (h : ¬ ∃ n : ℤ, x = n + 1 / 2) : lroundQ x = rint x := by
  apply lroundQ_eq_of_near
  refine lt_of_le_of_ne (rint_near x) fun he => h ?_
  rcases abs_eq (by norm_num : (0 : ℚ) ≤ 1 / 2) |>.mp he with e | e
  · exact ⟨rint x, by linarith⟩
  · exact ⟨rint x - 1, by push_cast; linarith⟩

/-- C110: a variable set to a number within the limits is afterwards what `round_decimal` gives.
What is missing from the property: with a scale, numbers halfway between two that can be held,
for which it fails (`C110_not_stored`). -/
theorem C110_stored_partial (E : Env) (hE : IsRounding E.fl) (O : Opts) (v : Var) (q : ℚ)
    (hm : v.info.Made E) (hn : v.info.IsNum)
    (hd : v.info.type = .decimal → v.info.dmin ≤ q ∧ q ≤ v.info.dmax ∧ ¬Halfway E.fl v.info.scale q)
    (hi : v.info.type = .integer → v.info.imin ≤ lroundQ q ∧ lroundQ q ≤ v.info.imax) :
    ∃ d, (v.setd E O (.fin q)).2 = .ok () ∧ (v.setd E O (.fin q)).1.enqd E = .ok d ∧
      v.info.round_decimal E (.fin q) = .ok (.fin d) := by
  obtain ⟨d1, d2, -⟩ := hm.range hn
  obtain ⟨l1, l2⟩ := hm.limits hn
  have hs := decode_decimal_scale d1
  rcases hn with ht | ht
  · obtain ⟨h1, h2⟩ := hi ht
    have hI : inInt (lroundQ q) = true := by rw [inInt_iff] at *; omega
    rw [C07_setd_integer_partial E O v q ht hI]
    have : v.seti O (lroundQ q) = (v.putInt (lroundQ q), .ok ()) := by
      rw [seti_num (.inl ht)]
      unfold Var.assign_i_checked
      rw [if_neg (by omega)]
    rw [this]
    refine ⟨(lroundQ q : ℤ), rfl, ?_, ?_⟩
    · rw [enqd_num (v := (v.putInt (lroundQ q)).toVarCore) (.inl ht) rfl rfl]
      exact if_pos ht
    · have h0 : v.info.scale = 0 := hm.2.2.1 ht
      rw [(digitUnits_eq hs).1, decode_decimal_eq E _ _ hs, if_pos h0]
      unfold digitUnits
      rw [if_pos h0]
      rfl
  · obtain ⟨h1, h2, h3⟩ := hd ht
    obtain ⟨q', i, hq', he, hp, b1, b2⟩ := putDbl_in_range (v := v) hE hm (.inr ht) (val := .fin q) nofun
      (by simpa [Dbl.lt] using h1) (by simpa [Dbl.gt] using h2)
    have hset : v.setd E O (.fin q) = (v.putInt i, .ok ()) := by
      unfold Var.setd
      rw [ht]
      simp only
      unfold Var.assign_d_checked
      rw [if_neg nofun, if_neg (by simp [Dbl.lt, Dbl.gt, h1, h2]), hp]
    rw [hset]
    have hI : inInt i = true := by rw [inInt_iff] at *; omega
    rw [(digitUnits_eq hs).2] at he
    have hr : rint (digitUnits E.fl v.info.scale q) = i := by
      unfold dblToInt at he
      split at he
      · cases he; rfl
      · cases he
    have hdec := decode_decimal_eq E v.info i hs
    refine ⟨if v.info.scale = 0 then (i : ℚ) else E.fl (decimalValue v.info.scale i), rfl, ?_, ?_⟩
    · rw [enqd_num (v := (v.putInt i).toVarCore) (.inr ht) rfl rfl]
      exact (if_neg (by rw [show (v.putInt i).toVarCore.info = v.info from rfl, ht]; nofun)).trans hdec
    · rw [(digitUnits_eq hs).1, lround_rint h3, hr, hdec]
      rfl

theorem flNearest_dyadic {x : ℚ} {k : ℤ} {n : ℤ} (hk : Int.log 2 |x| = k) (h0 : 0 < x)
    (hn : |x| / 2 ^ (k - 52) = n) : flNearest x = x := by
  unfold flNearest
  rw [if_neg h0.ne', hk]
  simp only
  rw [if_pos h0, hn, round_intCast, ← hn, abs_of_pos h0]
  field_simp

theorem Env0_fl : Env0.fl (25 / 2) = 25 / 2 := by
  have h : Int.log 2 |(25 / 2 : ℚ)| = 3 := by
    rw [abs_of_pos (by norm_num), Int.log_of_one_le_right _ (by norm_num)]
    have : ⌊(25 / 2 : ℚ)⌋₊ = 12 := by
      rw [Nat.floor_eq_iff (by norm_num)]
      norm_num
    rw [this]
    decide
  exact flNearest_dyadic (n := 25 * 2 ^ 48) h (by norm_num) (by
    rw [abs_of_pos (by norm_num)]
    norm_num)

/-- C110 does not hold: of a number halfway, 0.125 with two decimals, `round_decimal` takes one
neighbour and a variable the other. -/
theorem C110_not_stored :
    sampleTemp.round_decimal Env0 (.fin (1 / 8)) = .ok (.fin (Env0.fl (13 / 100))) ∧
    ((Var.new sampleTemp).setd Env0 .default (.fin (1 / 8))).1.enqi = .ok 12 := by
  have hs : sampleTemp.scale = 2 := by decide +kernel
  have hu : digitUnits Env0.fl sampleTemp.scale (1 / 8) = 25 / 2 := by
    unfold digitUnits
    rw [hs]
    norm_num
    exact Env0_fl
  have hl : lroundQ (25 / 2) = 13 := by norm_num [lroundQ]
  have hr : rint (25 / 2) = 12 := by norm_num [rint]
  have hsc : -16 ≤ sampleTemp.scale ∧ sampleTemp.scale ≤ 16 := by rw [hs]; decide
  constructor
  · rw [(digitUnits_eq hsc).1, hu, hl, decode_decimal_eq _ _ _ hsc, hs]
    norm_num [decimalValue]
  · have hm := sampleTemp_made
    have ht : sampleTemp.type = .decimal := by decide +kernel
    have hi : sampleTemp.imin = 0 ∧ sampleTemp.imax = 65534 := by decide +kernel
    obtain ⟨d1, d2, -⟩ := hm.range (.inr ht)
    rw [hi.1, decode_decimal_eq _ _ _ hsc, hs] at d1
    rw [hi.2, decode_decimal_eq _ _ _ hsc, hs] at d2
    have e1 : sampleTemp.dmin = Env0.fl 0 := by
      have := (Res.ok.inj d1).symm
      rw [this]
      norm_num [decimalValue]
    have e2 : sampleTemp.dmax = Env0.fl (65534 / 100) := by
      have := (Res.ok.inj d2).symm
      rw [this]
      norm_num [decimalValue]
    have z : Env0.fl 0 = 0 := by
      have := Env0_rounding.exact 0 (by norm_num)
      simpa using this
    have big : (1 : ℚ) / 8 ≤ Env0.fl (65534 / 100) := by
      have h1 := Env0_rounding.mono ((1 : ℤ) : ℚ) (65534 / 100) (by norm_num)
      rw [Env0_rounding.exact 1 (by norm_num)] at h1
      refine le_trans ?_ h1
      norm_num
    obtain ⟨-, i, h1, h2, -⟩ := C07_setd_in_range Env0 Env0_rounding .default (Var.new sampleTemp) (.fin (1 / 8))
      hm ht nofun (by
        simp only [Dbl.lt, decide_eq_false_iff_not, not_lt]
        change sampleTemp.dmin ≤ _
        rw [e1, z]; norm_num) (by
        simp only [Dbl.gt, decide_eq_false_iff_not, not_lt]
        change _ ≤ sampleTemp.dmax
        rw [e2]; exact big)
    rw [h2]
    have h1 : sampleTemp.encode_decimal Env0 (.fin (1 / 8)) = .ok i := h1
    rw [(digitUnits_eq hsc).2, hu, hr] at h1
    have : dblToInt 12 = .ok 12 := by decide
    rw [this] at h1
    exact h1.symm

/-- The hypotheses of C110 are met by a number that is not halfway. -/
example : sampleTemp.Made Env0 ∧ sampleTemp.IsNum ∧ sampleTemp.type = .decimal ∧
    sampleTemp.dmin ≤ 3 ∧ (3 : ℚ) ≤ sampleTemp.dmax ∧ ¬Halfway Env0.fl sampleTemp.scale 3 ∧
    |(3 : ℚ) * 10 ^ sampleTemp.scale| ≤ 2 ^ 50 := by
  have hs : sampleTemp.scale = 2 := by decide +kernel
  have hsc : -16 ≤ sampleTemp.scale ∧ sampleTemp.scale ≤ 16 := by rw [hs]; decide
  have ht : sampleTemp.type = .decimal := by decide +kernel
  have hi : sampleTemp.imin = 0 ∧ sampleTemp.imax = 65534 := by decide +kernel
  obtain ⟨d1, d2, -⟩ := sampleTemp_made.range (.inr ht)
  rw [hi.1, decode_decimal_eq _ _ _ hsc, hs] at d1
  rw [hi.2, decode_decimal_eq _ _ _ hsc, hs] at d2
  refine ⟨sampleTemp_made, .inr ht, ht, ?_, ?_, ?_, ?_⟩
  · have h1 := Env0_rounding.mono (decimalValue 2 0) ((3 : ℤ) : ℚ) (by norm_num [decimalValue])
    rw [Env0_rounding.exact 3 (by norm_num)] at h1
    rw [← Res.ok.inj d1]
    simpa using h1
  · have h1 := Env0_rounding.mono ((3 : ℤ) : ℚ) (decimalValue 2 65534) (by norm_num [decimalValue])
    rw [Env0_rounding.exact 3 (by norm_num)] at h1
    rw [← Res.ok.inj d2]
    simpa using h1
  · rintro ⟨n, hn⟩
    unfold digitUnits at hn
    rw [hs, if_neg (by decide)] at hn
    have h1 := Env0_rounding.exact 300 (by norm_num)
    have e : (3 : ℚ) * 10 ^ (2 : ℤ) = ((300 : ℤ) : ℚ) := by norm_num
    rw [e, h1] at hn
    have : (600 : ℤ) = 2 * n + 1 := by
      have : (600 : ℚ) = 2 * n + 1 := by push_cast at hn; linarith
      exact_mod_cast this
    omega
  · rw [hs]; norm_num

end Wreport
