import Verif.Props.Samples

/-!
# C03, C04, C05: descriptors and number conversion
-/

namespace Wreport

open Spec

/-! ## C04 -/

/-- C04: the number read for a stored integer is the exact decimal value within
one double rounding. -/
theorem C04_value (E : Env) (hE : IsRounding E.fl) (info : Varinfo) (i : Int)
    (hs : -16 ≤ info.scale ∧ info.scale ≤ 16) :
    ∃ v, info.decode_decimal E i = .ok v ∧
      |v - decimalValue info.scale i| ≤ |decimalValue info.scale i| / 2 ^ 53 := by
  have h := decode_decimal_eq E info i hs
  exact ⟨_, h, decode_decimal_err hE h⟩

/-- C04: converting a stored integer to a number and back is lossless. -/
theorem C04_roundtrip (E : Env) (hE : IsRounding E.fl) (info : Varinfo) (i : Int)
    (hs : -16 ≤ info.scale ∧ info.scale ≤ 16) (hi : inInt i = true) :
    ∃ v, info.decode_decimal E i = .ok v ∧ info.encode_decimal E (.fin v) = .ok i := by
  have h := decode_decimal_eq E info i hs
  exact ⟨_, h, encode_decimal_decode E hE info i _ hi h⟩

/-- C04: the integer stored for a number is the nearest one to the scaled number,
up to the rounding of one operation. -/
theorem C04_nearest (E : Env) (hE : IsRounding E.fl) (info : Varinfo) (q : ℚ) (i : Int)
    (h : info.encode_decimal E (.fin q) = .ok i) :
    |q * (10 : ℚ) ^ info.scale - i| ≤ 1 / 2 + |q * (10 : ℚ) ^ info.scale| / 2 ^ 53 :=
  encode_decimal_near hE h

/-- C04 through the variable: reading a variable as a number and setting it from
that number gives the same stored integer. -/
theorem C04_var_roundtrip (E : Env) (hE : IsRounding E.fl) (O : Opts) (v : Var) (i : Int)
    (hm : v.info.Made E) (hn : v.info.IsNum) (hset : v.isset = true) (hc : v.cell = .word i)
    (hr : v.info.imin ≤ i ∧ i ≤ v.info.imax) :
    ∃ d, v.enqd E = .ok d ∧ (v.setd E O (.fin d)).2 = .ok () ∧
      (v.setd E O (.fin d)).1.enqi = .ok i := by
  obtain ⟨h1, h2, h3⟩ := hm.range hn
  obtain ⟨l1, l2⟩ := hm.limits hn
  have hi : inInt i = true := by rw [inInt_iff] at *; omega
  have hd := enqd_num (E := E) (v := v.toVarCore) hn hc hset
  rcases hn with ht | ht
  · rw [if_pos ht] at hd
    refine ⟨_, hd, ?_⟩
    have hl : E.lround (.fin (i : ℚ)) = i := by
      rw [inInt_iff] at hi
      unfold Env.lround
      simp only [lroundQ_intCast]
      rw [if_pos (by omega)]
    have : v.setd E O (.fin (i : ℚ)) = (v.putInt i, .ok ()) := by
      unfold Var.setd
      rw [ht]
      simp only
      rw [hl, wrapInt_eq hi]
      unfold Var.assign_i_checked
      rw [if_neg (by omega)]
    rw [this]
    exact ⟨rfl, enqi_putInt (Or.inl ht) i⟩
  · rw [if_neg (by rw [ht]; decide)] at hd
    have hsc := decode_decimal_scale h1
    have he := decode_decimal_eq E v.info i hsc
    rw [he] at hd
    refine ⟨_, hd, ?_⟩
    set d := (if v.info.scale = 0 then (i : ℚ) else E.fl (decimalValue v.info.scale i)) with hdd
    have henc := encode_decimal_decode E hE v.info i d hi he
    -- the number is between the limits
    have mono : ∀ a b : Int, ∀ da db : ℚ, v.info.decode_decimal E a = .ok da →
        v.info.decode_decimal E b = .ok db → a ≤ b → da ≤ db := by
      intro a b da db ha hb hab
      rw [decode_decimal_eq E v.info a hsc] at ha
      rw [decode_decimal_eq E v.info b hsc] at hb
      simp only [Res.ok.injEq] at ha hb
      subst ha hb
      have hq : (a : ℚ) ≤ b := by exact_mod_cast hab
      split
      · exact hq
      · apply hE.mono
        unfold decimalValue
        gcongr
    have b1 := mono _ _ _ _ h1 he hr.1
    have b2 := mono _ _ _ _ he h2 hr.2
    have : v.setd E O (.fin d) = (v.putInt i, .ok ()) := by
      unfold Var.setd
      rw [ht]
      simp only
      unfold Var.assign_d_checked
      rw [if_neg (by simp), if_neg (by simp [Dbl.lt, Dbl.gt]; exact ⟨b1, b2⟩)]
      unfold Var.putDbl
      rw [henc]
      rfl
    rw [this]
    exact ⟨rfl, enqi_putInt (Or.inr ht) i⟩

example : sampleTemp.Made Env0 ∧ sampleTemp.IsNum ∧
    sampleTemp.imin ≤ 27315 ∧ 27315 ≤ sampleTemp.imax := by
  refine ⟨sampleTemp_made, Or.inr rfl, ?_, ?_⟩ <;> decide

example : (-16 : Int) ≤ sampleTemp.scale ∧ sampleTemp.scale ≤ 16 ∧ inInt 27315 = true := by
  decide

/-- Outside scales -16..16 the conversion reads outside its table of powers. -/
theorem C04_not_any_scale : ∃ info : Varinfo, info.decode_decimal Env0 1 = .ub :=
  ⟨Varinfo.raw 0 .decimal [] 17 5 0 16, rfl⟩

/-! ## C05 -/

/-- C05: the number decoded from a bit pattern is the exact scaled value of
pattern plus reference, within one double rounding. -/
theorem C05_value (E : Env) (hE : IsRounding E.fl) (info : Varinfo) (n : Nat)
    (hs : -16 ≤ info.scale ∧ info.scale ≤ 16) (hn : n < 2 ^ 32)
    (hr : inInt info.bit_ref = true) (hb : info.bit_len ≠ 0) :
    ∃ v, info.decode_binary E n = .ok v ∧
      |v - decimalValue info.scale (n + info.bit_ref)| ≤
        |decimalValue info.scale (n + info.bit_ref)| / 2 ^ 53 := by
  obtain ⟨v, h1, h2⟩ := decode_binary_eq E hE info n hn hr hb hs
  exact ⟨v, h1, decode_decimal_err hE h2⟩

/-- C05: decoding a bit pattern and encoding the number gives the same pattern. -/
theorem C05_roundtrip (E : Env) (hE : IsRounding E.fl) (info : Varinfo) (n : Nat)
    (hs : -16 ≤ info.scale ∧ info.scale ≤ 16) (hn : n < 2 ^ 32)
    (hr : inInt info.bit_ref = true) (hb : info.bit_len ≠ 0) :
    ∃ v, info.decode_binary E n = .ok v ∧ info.encode_binary E (.fin v) = .ok n := by
  obtain ⟨v, h1, h2⟩ := decode_binary_eq E hE info n hn hr hb hs
  refine ⟨v, h1, ?_⟩
  have := encodeBinaryScaled_decode E hE info _ v (abs_uint_add_ref hn hr) hr h2
  have h3 := encode_binary_of_scaled hb this (by omega) (by omega)
  rw [h3]
  congr 1
  omega

example : (-16 : Int) ≤ sampleLat.scale ∧ sampleLat.scale ≤ 16 ∧ 32767 < 2 ^ 32 ∧
    inInt sampleLat.bit_ref = true ∧ sampleLat.bit_len ≠ 0 := by decide

/-! ## C03 -/

/-- C03 (part): every integer in the accepted range of a numeric descriptor is
stored in its bit field as itself minus the reference value, which fits the width
and is not the all-ones pattern. Missing from the full property: descriptors of
10 or more decimal digits and those of class 31, for which it fails (see below). -/
theorem C03_range_fits_partial (E : Env) (hE : IsRounding E.fl) (v : Var) (i : Int)
    (hm : v.info.Made E) (hn : v.info.IsNum) (hlen : v.info.len < 10) (hb : v.info.bit_len ≠ 0)
    (hX : WR_VAR_X v.info.code ≠ 31) (hset : v.isset = true) (hc : v.cell = .word i)
    (hr : v.info.imin ≤ i ∧ i ≤ v.info.imax) :
    ∃ d n, v.enqd E = .ok d ∧ v.info.encode_binary E (.fin d) = .ok n ∧
      (n : Int) = i - v.info.bit_ref ∧ n < 2 ^ v.info.bit_len - 1 := by
  obtain ⟨h1, h2, h3⟩ := hm.range hn
  have hd := enqd_num (E := E) (v := v.toVarCore) hn hc hset
  have hd' : ∃ d, v.enqd E = .ok d ∧ v.info.decode_decimal E i = .ok d := by
    have he := decode_decimal_eq E v.info i (decode_decimal_scale h1)
    by_cases ht : v.info.type = .integer
    · rw [if_pos ht] at hd
      rw [if_pos (hm.2.2.1 ht)] at he
      exact ⟨_, hd, he⟩
    · rw [if_neg ht] at hd
      exact ⟨_, hd.trans he, he⟩
  obtain ⟨d, hd1, hd2⟩ := hd'
  obtain ⟨f1, f2, f3, f4, f5⟩ := intRange_fits h3 hlen hb hX hm.2.1 hr.1 hr.2
  have hI : |(i : ℚ)| ≤ 2 ^ 34 := abs_int_le (by rw [inInt_iff]; omega)
  have hs := encodeBinaryScaled_decode E hE v.info i d hI hm.2.1 hd2
  have hpw : (2 : Int) ^ v.info.bit_len ≤ 2 ^ 31 := by
    exact_mod_cast Nat.pow_le_pow_right (n := 2) (by norm_num) f3
  have := encode_binary_of_scaled hb hs f1 (by omega)
  refine ⟨d, _, hd1, this, by omega, ?_⟩
  have hc : ((2 ^ v.info.bit_len : Nat) : Int) = 2 ^ v.info.bit_len := by push_cast; rfl
  omega

example : sampleLat.Made Env0 ∧ sampleLat.IsNum ∧ sampleLat.len < 10 ∧ sampleLat.bit_len ≠ 0 ∧
    WR_VAR_X sampleLat.code ≠ 31 ∧ sampleLat.imin ≤ -4500 ∧ -4500 ≤ sampleLat.imax :=
  ⟨sampleLat_made, Or.inr rfl, by decide, by decide, by decide, by decide, by decide⟩

/-- A replication factor descriptor: B31001, 8 bits. -/
def sampleRepl : Varinfo := made (Varinfo.raw (WR_VAR 0 31 1) .integer (ascii "NUMERIC") 0 3 0 8)

/-- C03 fails for class 31: the 8-bit replication factor accepts 256, which does
not fit. -/
theorem C03_not_class31 :
    ((Var.new sampleRepl).seti .default 256).2 = .ok () ∧
      ((Var.new sampleRepl).seti .default 256).1.enqi = .ok 256 ∧ ¬ (256 < 2 ^ sampleRepl.bit_len) := by
  decide

/-- A descriptor of 10 digits in 24 bits. -/
def sampleWide : Varinfo := made (Varinfo.raw (WR_VAR 0 1 2) .integer (ascii "NUMERIC") 0 10 0 24)

/-- C03 fails for 10 digits or more: the range ignores the bit width. -/
theorem C03_not_wide :
    ((Var.new sampleWide).seti .default (2 ^ 24)).2 = .ok () ∧
      ((Var.new sampleWide).seti .default (2 ^ 24)).1.enqi = .ok (2 ^ 24) ∧
      ¬ ((2 ^ 24 : Int) < 2 ^ sampleWide.bit_len) := by
  decide

/-- C03 fails for 10 digits or more: negative values are accepted that the
unsigned field cannot hold. -/
theorem C03_not_wide_negative :
    ((Var.new sampleWide).seti .default (-1)).2 = .ok () ∧
      ((Var.new sampleWide).seti .default (-1)).1.enqi = .ok (-1) ∧
      (-1 : Int) < sampleWide.bit_ref := by
  decide

/-- C03: for widths above 31 bits and less than 10 digits the range computation
itself is undefined behaviour. -/
theorem C03_not_width32 (E : Env) (info : Varinfo) (hn : info.IsNum) (hl : info.len < 10)
    (hb : 32 ≤ info.bit_len) : info.compute_range E = .ub := by
  have : info.intRange E = .ub := by
    unfold Varinfo.intRange Varinfo.bitMax shl1
    rw [if_neg (by omega), if_neg (by omega), if_neg (by omega), if_neg (by omega)]
    rfl
  unfold Varinfo.compute_range
  rcases hn with h | h <;> rw [h] <;> simp [this]

end Wreport
