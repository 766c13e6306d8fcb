import Verif.Model.Varinfo
import Verif.Spec.Num
import Verif.Lemmas.Float

namespace Wreport

open Spec

theorem scales_ok {n : Nat} (h : n ≤ 16) : scales n = .ok ((10 : ℚ) ^ n) := by
  simp [scales, h]

theorem scales_eq_ok {n : Nat} {s : ℚ} (h : scales n = .ok s) : n ≤ 16 ∧ s = 10 ^ n := by
  unfold scales at h
  split at h
  · next hn => exact ⟨hn, by simpa using h.symm⟩
  · cases h

theorem inInt_iff {i : Int} : inInt i = true ↔ -2147483648 ≤ i ∧ i ≤ 2147483647 := by
  simp [inInt]

theorem abs_int_le {i : Int} (h : inInt i = true) : |(i : ℚ)| ≤ 2 ^ 34 := by
  rw [inInt_iff] at h
  rw [abs_le]
  constructor
  · have : ((-2147483648 : Int) : ℚ) ≤ i := by exact_mod_cast h.1
    push_cast at this; linarith
  · have : (i : ℚ) ≤ ((2147483647 : Int) : ℚ) := by exact_mod_cast h.2
    push_cast at this; linarith

/-- The value decode_decimal computes, with one rounding. -/
theorem decode_decimal_eq (E : Env) (info : Varinfo) (i : Int)
    (hs : -16 ≤ info.scale ∧ info.scale ≤ 16) :
    info.decode_decimal E i =
      .ok (if info.scale = 0 then (i : ℚ) else E.fl (decimalValue info.scale i)) := by
  unfold Varinfo.decode_decimal decimalValue
  split
  · next h =>
    rw [scales_ok (by omega), if_neg (by omega)]
    simp only [Res.ok_bind, Res.pure_def]
    rw [zpow_neg, div_eq_mul_inv]
    conv => rhs; rw [← Int.toNat_of_nonneg h.le]
    rfl
  · split
    · next h =>
      rw [scales_ok (by omega), if_neg (by omega)]
      simp only [Res.ok_bind, Res.pure_def]
      conv => rhs; rw [← Int.toNat_of_nonneg (show 0 ≤ -info.scale by omega)]
      rfl
    · rw [if_pos (by omega)]

theorem decode_decimal_scale {E : Env} {info : Varinfo} {i : Int} {v : ℚ}
    (h : info.decode_decimal E i = .ok v) : -16 ≤ info.scale ∧ info.scale ≤ 16 := by
  unfold Varinfo.decode_decimal at h
  split at h
  · obtain ⟨s, h1, -⟩ := Res.bind_eq_ok.mp h
    have := (scales_eq_ok h1).1
    omega
  · split at h
    · obtain ⟨s, h1, -⟩ := Res.bind_eq_ok.mp h
      have := (scales_eq_ok h1).1
      omega
    · omega

theorem decimalValue_zero (i : Int) : decimalValue 0 i = i := by simp [decimalValue]

theorem decode_decimal_err {E : Env} (hE : IsRounding E.fl) {info : Varinfo} {i : Int} {v : ℚ}
    (h : info.decode_decimal E i = .ok v) :
    |v - decimalValue info.scale i| ≤ |decimalValue info.scale i| / 2 ^ 53 := by
  rw [decode_decimal_eq E info i (decode_decimal_scale h)] at h
  simp only [Res.ok.injEq] at h
  subst h
  split
  · next h0 => rw [h0, decimalValue_zero]; simp; positivity
  · exact hE.err _

theorem pow10_pos (n : Nat) : (0 : ℚ) < 10 ^ n := by positivity

/-- Scaling back a decoded decimal value: the result before `rint` is close to
the original integer. -/
theorem scale_back (E : Env) (hE : IsRounding E.fl) (info : Varinfo) (i : Int) (v : ℚ)
    (h : info.decode_decimal E i = .ok v) :
    (0 < info.scale → |E.fl (v * 10 ^ info.scale.toNat) - i| ≤ |(i : ℚ)| * (3 / 2 ^ 53)) ∧
    (info.scale < 0 → |E.fl (v / 10 ^ (-info.scale).toNat) - i| ≤ |(i : ℚ)| * (3 / 2 ^ 53)) ∧
    (info.scale = 0 → v = i) := by
  unfold Varinfo.decode_decimal at h
  refine ⟨fun hp => ?_, fun hn => ?_, fun h0 => ?_⟩
  · rw [if_pos hp] at h
    obtain ⟨s, h1, h2⟩ := Res.bind_eq_ok.mp h
    obtain ⟨-, rfl⟩ := scales_eq_ok h1
    simp only [Res.pure_def, Res.ok.injEq] at h2
    subst h2
    exact hE.err_div_mul _ _ (pow10_pos _)
  · rw [if_neg (by omega), if_pos hn] at h
    obtain ⟨s, h1, h2⟩ := Res.bind_eq_ok.mp h
    obtain ⟨-, rfl⟩ := scales_eq_ok h1
    simp only [Res.pure_def, Res.ok.injEq] at h2
    subst h2
    exact hE.err_mul_div _ _ (pow10_pos _)
  · rw [if_neg (by omega), if_neg (by omega)] at h
    simpa using h.symm

theorem encode_decimal_decode (E : Env) (hE : IsRounding E.fl) (info : Varinfo) (i : Int)
    (v : ℚ) (hi : inInt i = true) (h : info.decode_decimal E i = .ok v) :
    info.encode_decimal E (.fin v) = .ok i := by
  have hsc := decode_decimal_scale h
  obtain ⟨hp, hn, h0⟩ := scale_back E hE info i v h
  have hI := abs_int_le hi
  unfold Varinfo.encode_decimal
  simp only
  split
  · next hs =>
    rw [scales_ok (by omega)]
    simp only [Res.ok_bind]
    rw [rint_eq_of_near _ i (IsRounding.near_of_err _ _ hI (hp hs))]
    simp [dblToInt, hi]
  · split
    · next hs =>
      rw [scales_ok (by omega)]
      simp only [Res.ok_bind]
      rw [rint_eq_of_near _ i (IsRounding.near_of_err _ _ hI (hn hs))]
      simp [dblToInt, hi]
    · rw [h0 (by omega), rint_intCast]
      simp [dblToInt, hi]

/-- encode_binary on the value of a decimal integer: subtracts the reference. -/
theorem encodeBinaryScaled_decode (E : Env) (hE : IsRounding E.fl) (info : Varinfo) (i : Int)
    (v : ℚ) (hi : |(i : ℚ)| ≤ 2 ^ 34) (hr : inInt info.bit_ref = true)
    (h : info.decode_decimal E i = .ok v) :
    info.encodeBinaryScaled E v = .ok (i - info.bit_ref) := by
  have hsc := decode_decimal_scale h
  obtain ⟨hp, hn, h0⟩ := scale_back E hE info i v h
  have hR := abs_int_le hr
  unfold Varinfo.encodeBinaryScaled
  split
  · next hs =>
    rw [scales_ok (by omega)]
    simp only [Res.ok_bind, Res.pure_def]
    rw [rint_eq_of_near _ _ (hE.err_sub _ i info.bit_ref hi hR (hp hs))]
  · split
    · next hs =>
      rw [scales_ok (by omega)]
      simp only [Res.ok_bind, Res.pure_def]
      rw [rint_eq_of_near _ _ (hE.err_sub _ i info.bit_ref hi hR (hn hs))]
    · rw [h0 (by omega)]
      simp only [Res.pure_def]
      rw [rint_eq_of_near _ _ (hE.err_sub _ i info.bit_ref hi hR (by simp))]

/-- decode_binary is decode_decimal of the sum with the reference value. -/
theorem decode_binary_eq (E : Env) (hE : IsRounding E.fl) (info : Varinfo) (n : Nat)
    (hn : n < 2 ^ 32) (hr : inInt info.bit_ref = true) (hb : info.bit_len ≠ 0)
    (hs : -16 ≤ info.scale ∧ info.scale ≤ 16) :
    ∃ v, info.decode_binary E n = .ok v ∧ info.decode_decimal E (n + info.bit_ref) = .ok v := by
  have hr' := inInt_iff.mp hr
  have hex : E.fl ((n : ℚ) + info.bit_ref) = ((n + info.bit_ref : Int) : ℚ) := by
    have := hE.exact (n + info.bit_ref) (by rw [abs_le]; constructor <;> omega)
    push_cast at this ⊢
    exact this
  have hex1 : E.fl ((n + info.bit_ref : Int) : ℚ) = ((n + info.bit_ref : Int) : ℚ) :=
    hE.exact (n + info.bit_ref) (by rw [abs_le]; constructor <;> omega)
  unfold Varinfo.decode_binary Varinfo.decode_decimal
  rw [if_neg hb, hex]
  rcases lt_trichotomy info.scale 0 with h | h | h
  · rw [if_neg (by omega), if_neg (by omega), if_pos h, scales_ok (by omega)]
    exact ⟨_, rfl, rfl⟩
  · rw [if_pos (by omega), if_neg (by omega), if_neg (by omega), scales_ok (by omega)]
    refine ⟨_, rfl, ?_⟩
    rw [h]
    simp only [Int.toNat_zero, pow_zero, div_one]
    rw [hex1]
  · rw [if_pos (by omega), if_pos (by omega), scales_ok (by omega)]
    exact ⟨_, rfl, rfl⟩

theorem abs_uint_add_ref {n : Nat} {r : Int} (hn : n < 2 ^ 32) (hr : inInt r = true) :
    |((n + r : Int) : ℚ)| ≤ 2 ^ 34 := by
  have hr' := inInt_iff.mp hr
  rw [abs_le]
  constructor
  · have : (-(2 : Int) ^ 34) ≤ n + r := by omega
    exact_mod_cast this
  · have : n + r ≤ (2 : Int) ^ 34 := by omega
    exact_mod_cast this

theorem encode_binary_of_scaled {E : Env} {info : Varinfo} {v : ℚ} {k : Int}
    (hb : info.bit_len ≠ 0) (h : info.encodeBinaryScaled E v = .ok k) (h0 : 0 ≤ k)
    (h1 : k < 2 ^ 32) : info.encode_binary E (.fin v) = .ok k.toNat := by
  unfold Varinfo.encode_binary
  rw [if_neg hb]
  simp only [h, Res.ok_bind]
  rw [if_neg (by omega)]
  unfold dblToUInt
  rw [if_pos (by omega)]

/-! ## compute_range -/

theorem intexp10_eq {len : Nat} {p : Int} (h : intexp10 len = .ok p) :
    1 ≤ p ∧ p ≤ 1000000000 ∧ p = (10 : Int) ^ len := by
  unfold intexp10 at h
  split at h
  · next hl =>
    simp only [Res.ok.injEq] at h
    subst h
    have : (10 : Nat) ^ len ≤ 10 ^ 9 := Nat.pow_le_pow_right (by norm_num) hl
    have h1 : 1 ≤ (10 : Nat) ^ len := Nat.one_le_pow _ _ (by norm_num)
    refine ⟨by exact_mod_cast h1, by exact_mod_cast this, by push_cast; rfl⟩
  · cases h

/-- What compute_range leaves in a numeric descriptor. -/
theorem compute_range_num {E : Env} {info r : Varinfo}
    (hn : info.type = .integer ∨ info.type = .decimal) (h : info.compute_range E = .ok r) :
    info.intRange E = .ok (r.imin, r.imax) ∧
      info.decode_decimal E r.imin = .ok r.dmin ∧ info.decode_decimal E r.imax = .ok r.dmax ∧
      r = { info with imin := r.imin, imax := r.imax, dmin := r.dmin, dmax := r.dmax } := by
  have : info.compute_range E = (do
    let r ← info.intRange E
    let dmin ← info.decode_decimal E r.1
    let dmax ← info.decode_decimal E r.2
    return { info with imin := r.1, imax := r.2, dmin := dmin, dmax := dmax }) := by
    unfold Varinfo.compute_range
    rcases hn with hn | hn <;> rw [hn]
  rw [this] at h
  obtain ⟨a, h1, h⟩ := Res.bind_eq_ok.mp h
  obtain ⟨b, h2, h⟩ := Res.bind_eq_ok.mp h
  obtain ⟨c, h3, h⟩ := Res.bind_eq_ok.mp h
  simp only [Res.pure_def, Res.ok.injEq] at h
  subst h
  exact ⟨h1, h2, h3, rfl⟩

theorem sint_eq_ok {E : Env} {a b : Int} (h : E.sint a = .ok b) :
    b = a ∨ (b = wrapInt a ∧ ¬ (-2147483648 ≤ a ∧ a ≤ 2147483647)) := by
  unfold Env.sint at h
  split at h
  · left; simpa using h.symm
  · next hb =>
    rw [inInt_iff] at hb
    split at h
    · right; exact ⟨by simpa using h.symm, hb⟩
    · cases h

theorem sint_in {E : Env} {a b : Int} (h : E.sint a = .ok b) (ha : inInt a = true) : b = a := by
  unfold Env.sint at h
  rw [if_pos ha] at h
  simpa using h.symm

/-- Every integer in the range chosen for a narrow descriptor can be stored in
its bits, leaving out the all-ones pattern. -/
theorem intRange_fits {E : Env} {info : Varinfo} {lo hi i : Int}
    (h : info.intRange E = .ok (lo, hi)) (hlen : info.len < 10) (hb : info.bit_len ≠ 0)
    (hX : WR_VAR_X info.code ≠ 31) (hr : inInt info.bit_ref = true) (h1 : lo ≤ i) (h2 : i ≤ hi) :
    0 ≤ i - info.bit_ref ∧ i - info.bit_ref < 2 ^ info.bit_len - 1 ∧
      info.bit_len ≤ 31 ∧ -1000000000 < i ∧ i < 1000000000 := by
  unfold Varinfo.intRange at h
  rw [if_neg (by omega), if_neg hb] at h
  obtain ⟨bm2, hb2, h⟩ := Res.bind_eq_ok.mp h
  unfold Varinfo.bitMax at hb2
  obtain ⟨one, ho, hb2⟩ := Res.bind_eq_ok.mp hb2
  obtain ⟨bm, hbm, hbm2⟩ := Res.bind_eq_ok.mp hb2
  rw [if_pos hX] at hbm2
  obtain ⟨p, hp, h⟩ := Res.bind_eq_ok.mp h
  obtain ⟨hp1, hp2, -⟩ := intexp10_eq hp
  simp only [Res.pure_def, Res.ok.injEq, Prod.mk.injEq] at h
  obtain ⟨rfl, rfl⟩ := h
  rw [max_le_iff] at h1
  rw [le_min_iff] at h2
  have hr' := inInt_iff.mp hr
  unfold shl1 at ho
  split at ho
  · next hlt =>
    simp only [Res.ok.injEq] at ho
    have hpw : (2 : Nat) ^ info.bit_len ≤ 2 ^ 30 := Nat.pow_le_pow_right (by norm_num) (by omega)
    have hpw1 : 2 ^ 1 ≤ (2 : Nat) ^ info.bit_len := Nat.pow_le_pow_right (by norm_num) (by omega)
    have hc : (2 : Int) ^ info.bit_len = ((2 ^ info.bit_len : Nat) : Int) := by push_cast; rfl
    rw [hc]
    generalize (2 : Nat) ^ info.bit_len = w at *
    subst ho
    have e1 : bm = w + info.bit_ref := sint_in hbm (by rw [inInt_iff]; omega)
    rcases sint_eq_ok hbm2 with e2 | e2
    · omega
    · unfold wrapInt at e2; omega
  · split at ho
    · next h31 =>
      simp only [Res.ok.injEq] at ho
      subst ho
      rw [h31]
      rcases sint_eq_ok hbm with e1 | e1 <;> rcases sint_eq_ok hbm2 with e2 | e2 <;>
        (unfold wrapInt at *; norm_num; omega)
    · cases ho

end Wreport
