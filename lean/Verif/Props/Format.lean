import Verif.Model.Format
import Verif.Spec.Format
import Verif.Lemmas.Crex
import Verif.Lemmas.Codec
import Verif.Props.Samples

/-!
# Values as text: theorems
-/

namespace Wreport

open Spec

/-! ## C70 -/

theorem decDigits_decimal (n : Nat) : IsDecimalNat (Crex.decDigits n) n := by
  induction n using Nat.strong_induction_on with
  | _ n ih =>
    rw [Crex.decDigits]
    split
    · next h =>
      have hd := digit_toNat h
      refine ⟨by simp, ?_, ?_, by simp⟩
      · intro b hb
        simp only [List.mem_singleton, digitChar, Nat.mod_eq_of_lt h] at hb
        subst hb
        omega
      · simp only [digitsValue, digitChar, Nat.mod_eq_of_lt h, List.foldl_cons, List.foldl_nil, hd]
        omega
    · next h =>
      obtain ⟨h1, h2, h3, h4⟩ := ih (n / 10) (by omega)
      have hm : n % 10 < 10 := Nat.mod_lt _ (by omega)
      have hd := digit_toNat hm
      refine ⟨by simp, ?_, ?_, ?_⟩
      · intro b hb
        simp only [List.mem_append, List.mem_singleton, digitChar] at hb
        rcases hb with hb | rfl
        · exact h2 b hb
        · omega
      · rw [digitsValue_append, h3]
        simp only [digitsValue, digitChar, List.foldl_cons, List.foldl_nil, hd,
          List.length_singleton]
        omega
      · intro h0
        rw [List.head?_append_of_ne_nil _ h1] at h0
        have h5 := h4 h0
        obtain ⟨c, hc⟩ := List.length_eq_one_iff.mp h5
        rw [hc] at h0 h3
        simp only [List.head?_cons, Option.some.injEq] at h0
        subst h0
        simp [digitsValue] at h3
        omega

theorem fmtF_fixed {p : Nat} {q : ℚ} {k : Int} (h : |q * 10 ^ p - k| < 1 / 2) (hs : q < 0 ↔ k < 0) :
    FixedText (fmtF p q) p k := by
  unfold fmtF
  rw [rint_eq_of_near _ _ h]
  refine ⟨_, zeroPadded p (k.natAbs % 10 ^ p), ?_, decDigits_decimal _, Crex.zeroPadded_length .., Crex.zeroPadded_digits _ _,
    Crex.zeroPadded_value _ _ (Nat.mod_lt _ (by positivity))⟩
  simp only [hs]
  by_cases hp : p = 0
  · simp only [hp, if_true]
  · simp only [hp, if_false]
    rw [Crex.fmtU_eq p _ (Nat.mod_lt _ (by positivity)) (by omega)]

theorem decimal_length_le {a : List Byte} {n w : Nat} (h : IsDecimalNat a n) (hn : n < 10 ^ w) (hw : 0 < w) :
    a.length ≤ w := by
  obtain ⟨h1, h2, h3, h4⟩ := h
  rcases a with _ | ⟨x, t⟩
  · simp
  by_cases h0 : x = 48
  · have := h4 (by rw [h0]; rfl)
    omega
  have hx := h2 x (by simp)
  have : x.toNat ≠ 48 := fun h => h0 (UInt8.toNat_inj.mp (by rw [h]; rfl))
  have hv : digitsValue (x :: t) = (x.toNat - 48) * 10 ^ t.length + digitsValue t := by
    rw [show x :: t = [x] ++ t from rfl, digitsValue_append]
    simp [digitsValue]
  by_contra hl
  have hp : 10 ^ w ≤ 10 ^ t.length := Nat.pow_le_pow_right (by omega) (by simp at hl; omega)
  have : 1 * 10 ^ t.length ≤ (x.toNat - 48) * 10 ^ t.length := Nat.mul_le_mul_right _ (by omega)
  omega

theorem fixed_length_le {t : List Byte} {p w : Nat} {k : Int} (h : FixedText t p k)
    (hk : k.natAbs < 10 ^ (p + w)) (hw : 0 < w) : t.length ≤ w + p + 2 := by
  obtain ⟨a, b, rfl, h1, h2, -⟩ := h
  have := decimal_length_le h1 (w := w) (Nat.div_lt_of_lt_mul (by rwa [← pow_add])) hw
  simp only [List.length_append]
  have e1 : (if k < 0 then ([45] : List Byte) else []).length ≤ 1 := by split <;> simp
  have e2 : (if p = 0 then ([] : List Byte) else 46 :: b).length ≤ p + 1 := by
    split
    · simp
    · simp; omega
  omega

theorem decimalValue_wholeUnits (scale i : Int) :
    decimalValue scale i * 10 ^ decimals scale = wholeUnits scale i := by
  unfold decimalValue decimals wholeUnits
  rcases le_or_gt 0 scale with h | h
  · obtain ⟨n, rfl⟩ := Int.eq_ofNat_of_zero_le h
    rw [show (-(n : Int)).toNat = 0 by omega, Int.toNat_natCast, zpow_neg, zpow_natCast, mul_assoc,
      inv_mul_cancel₀ (by positivity)]
    simp
  · rw [show scale.toNat = 0 by omega]
    conv => lhs; rw [← Int.toNat_of_nonneg (show 0 ≤ -scale by omega)]
    rw [zpow_natCast]
    push_cast
    simp

/-- The number as written, before anything is cut. -/
theorem formatNumber_ok {E : Env} (hE : IsRounding E.fl) {v : VarCore} {i : Int}
    (hm : v.info.Made E) (hn : v.info.IsNum) (hset : v.isset = true) (hc : v.cell = .word i)
    (hb : |wholeUnits v.info.scale i| < 2 ^ 52) :
    ∃ t, v.formatNumber E = .ok t ∧ FixedText t (decimals v.info.scale) (wholeUnits v.info.scale i) := by
  obtain ⟨d, h1, h2⟩ := enqd_decode hm hn hset hc
  have he := decode_decimal_err hE h2
  have hp : (if 0 < v.info.scale then v.info.scale.toNat else 0) = decimals v.info.scale := by
    unfold decimals; split <;> omega
  unfold VarCore.formatNumber
  rw [h1, Res.ok_bind, hp]
  refine ⟨_, rfl, ?_⟩
  have hu := decimalValue_wholeUnits v.info.scale i
  set x := decimalValue v.info.scale i
  set p := decimals v.info.scale
  set k := wholeUnits v.info.scale i
  have hp0 : (0 : ℚ) < 10 ^ p := by positivity
  have hkq : |(k : ℚ)| < 2 ^ 52 := by exact_mod_cast hb
  refine fmtF_fixed ?_ ?_
  · rw [← hu, ← sub_mul, abs_mul, abs_of_pos hp0]
    calc |d - x| * 10 ^ p ≤ |x| / 2 ^ 53 * 10 ^ p := by gcongr
      _ = |(k : ℚ)| / 2 ^ 53 := by rw [← hu, abs_mul, abs_of_pos hp0]; ring
      _ < 1 / 2 := by rw [div_lt_iff₀ (by positivity)]; norm_num; norm_num at hkq; linarith
  · have hk : k < 0 ↔ x < 0 := by
      rw [← Int.cast_lt (R := ℚ), Int.cast_zero, ← hu]
      constructor
      · intro h; by_contra h'; have := mul_nonneg (not_lt.mp h') hp0.le; linarith
      · intro h; exact mul_neg_of_neg_of_pos h hp0
    rw [hk]
    have := abs_le.mp he
    rcases lt_trichotomy x 0 with hx | hx | hx
    · rw [abs_of_neg hx] at this
      constructor
      · intro _; exact hx
      · intro _; norm_num at this; linarith
    · rw [hx] at this ⊢
      simp at this
      constructor <;> intro <;> linarith
    · rw [abs_of_pos hx] at this
      constructor
      · intro h; norm_num at this; linarith
      · intro h; linarith

/-- C70 (part): the text of a number has as many decimals as the scale says, and stands
for exactly the stored value. The same for text written to a file. Missing: values of
2^52 or more, which only negative scales give. -/
theorem C70_number_partial (E : Env) (hE : IsRounding E.fl) (v : VarCore) (i : Int) (u : List Byte)
    (hm : v.info.Made E) (hn : v.info.IsNum) (hset : v.isset = true) (hc : v.cell = .word i)
    (hi : inInt i = true) (hb : |wholeUnits v.info.scale i| < 2 ^ 52) :
    ∃ t, v.format E u = .ok t ∧ v.formatFile E u = .ok t ∧
      FixedText t (decimals v.info.scale) (wholeUnits v.info.scale i) := by
  obtain ⟨t, h1, h2⟩ := formatNumber_ok hE hm hn hset hc hb
  obtain ⟨d, -, h3⟩ := enqd_decode hm hn hset hc
  have hs := decode_decimal_scale h3
  have hl : t.length ≤ 19 := by
    rw [inInt_iff] at hi
    by_cases h0 : v.info.scale ≤ 0
    · have hp : decimals v.info.scale = 0 := by unfold decimals; omega
      rw [hp] at h2
      have : (wholeUnits v.info.scale i).natAbs < 10 ^ (0 + 16) := by
        have : |wholeUnits v.info.scale i| = (wholeUnits v.info.scale i).natAbs := Int.abs_eq_natAbs _
        omega
      have := fixed_length_le h2 this (by omega)
      omega
    · have hk : wholeUnits v.info.scale i = i := by
        unfold wholeUnits; rw [show (-v.info.scale).toNat = 0 by omega]; simp
      rw [hk] at h2
      by_cases h9 : v.info.scale ≤ 9
      · have hp : decimals v.info.scale + (10 - decimals v.info.scale) = 10 := by unfold decimals; omega
        have hp' : decimals v.info.scale ≤ 9 := by unfold decimals; omega
        have := fixed_length_le h2 (w := 10 - decimals v.info.scale) (by rw [hp]; omega) (by omega)
        omega
      · have hp : 10 ≤ decimals v.info.scale ∧ decimals v.info.scale ≤ 16 := by unfold decimals; omega
        have hle : (10 : Nat) ^ 10 ≤ 10 ^ (decimals v.info.scale + 1) :=
          Nat.pow_le_pow_right (by omega) (by omega)
        have := fixed_length_le h2 (w := 1) (by omega) (by omega)
        omega
  refine ⟨t, ?_, ?_, h2⟩
  · unfold VarCore.format
    rcases hn with h | h <;> simp [hset, h, h1, List.take_of_length_le hl]
  · unfold VarCore.formatFile
    rcases hn with h | h <;> simp [hset, h, h1]

/-- `strtod` reads numbers in fixed notation, rounded as all operations. -/
def ReadsFixed (E : Env) : Prop :=
  ∀ t p k, FixedText t p k → E.strtod t = .fin (E.fl ((k : ℚ) / 10 ^ p))

/-- C70 (part): setting a numeric variable from its own text leaves the value as it was.
Missing: as for `C70_number_partial`. -/
theorem C70_round_trip_partial (E : Env) (hE : IsRounding E.fl) (hS : ReadsFixed E) (O : Opts)
    (v w : Var) (i : Int) (u : List Byte) (hw : w.info = v.info)
    (hm : v.info.Made E) (hn : v.info.IsNum) (hset : v.isset = true) (hc : v.cell = .word i)
    (hr : v.info.imin ≤ i ∧ i ≤ v.info.imax) (hb : |wholeUnits v.info.scale i| < 2 ^ 52) :
    ∃ t, v.format E u = .ok t ∧ (w.setf E O (some t)).2 = .ok () ∧
      (w.setf E O (some t)).1.toVarCore.view = v.toVarCore.view := by
  obtain ⟨l1, l2⟩ := hm.limits hn
  have hi : inInt i = true := by rw [inInt_iff] at *; omega
  obtain ⟨t, h1, -, h2⟩ := C70_number_partial E hE v.toVarCore i u hm hn hset hc hi hb
  obtain ⟨d, -, h3⟩ := enqd_decode hm hn hset hc
  have hd : E.strtod t = .fin d := by
    rw [hS t _ _ h2, ← decimalValue_wholeUnits, mul_div_cancel_right₀ _ (by positivity)]
    rw [decode_decimal_eq E v.info i (decode_decimal_scale h3)] at h3
    simp only [Res.ok.injEq] at h3
    rw [← h3]
    split
    · next h0 =>
      rw [h0, decimalValue_zero, hE.exact i ?_]
      rw [inInt_iff] at hi
      rw [abs_le]; omega
    · rfl
  have ht : t ≠ [] := by
    obtain ⟨a, b, rfl, h, -⟩ := h2
    have := h.1
    simp [this]
  have hf : w.setf E O (some t) = (w.putInt i, .ok ()) := by
    have := setd_decoded hE O (v := w) (by rwa [hw]) (by rwa [hw]) (by rw [hw]; exact h3) (by rwa [hw])
    unfold Var.setf
    rcases t with _ | ⟨x, t⟩
    · exact absurd rfl ht
    · rw [hw]
      rcases hn with h | h <;> simp only [h, hd, this]
  refine ⟨t, h1, by rw [hf], ?_⟩
  rw [hf, view_num hn hc hset]
  exact view_num (v := (w.putInt i).toVarCore) (show w.info.IsNum by rwa [hw]) rfl rfl

/-- C70: the text of a text is itself; unless it is empty it can be set back. -/
theorem C70_text (E : Env) (O : Opts) (v w : Var) (s u : List Byte) (hw : w.info = v.info)
    (hv : v.toVarCore.WF) (hww : w.toVarCore.WF)
    (ht : v.info.type = .string) (hs : v.toVarCore.view = some (.text s)) :
    v.format E u = .ok s ∧ v.formatFile E u = .ok s ∧ (s ≠ [] → (w.setf E O (some s)).2 = .ok () ∧
      (w.setf E O (some s)).1.toVarCore.view = some (.text s)) := by
  have hset : v.isset = true := by
    cases h : v.isset with
    | true => rfl
    | false => rw [view_unset h] at hs; cases hs
  unfold VarCore.WF at hv
  rw [ht] at hv
  rcases hv with ⟨h, -⟩ | ⟨m, h1, h2, h3⟩
  · rw [hset] at h; cases h
  obtain ⟨s', h4⟩ := h3 hset
  have : s' = s := by
    unfold VarCore.view at hs
    simpa [hset, ht, h1, h4] using hs
  subst this
  refine ⟨?_, ?_, ?_⟩
  · simp [VarCore.format, hset, ht, VarCore.ptr, h1, h4]
  · simp [VarCore.formatFile, hset, ht, VarCore.ptr, h1, h4]
  · intro hne
    obtain ⟨m', g1, g2, g3⟩ := assign_c_ok (v := w) hww (by rw [hw]; exact ht) s' [] (cstr_eq_ok h4).1 w.info.len
    have hl := cstr_length h4
    have hf : w.setf E O (some s') = (w.putMem m', .ok ()) := by
      unfold Var.setf
      rcases s' with _ | ⟨x, t⟩
      · exact absurd rfl hne
      · rw [List.append_nil] at g1
        rw [← g1, hw]
        simp only [ht]
    rw [Nat.min_self, hw, List.take_of_length_le (by omega)] at g3
    rw [hf]
    exact ⟨rfl, Var.view_putMem_string (by rw [hw]; exact ht) g3⟩

theorem hexValue_hexDigit {n : Nat} (h : n < 16) : hexValue (hexDigit n) = some n := by
  revert n; decide

theorem hexBytes_ok (n : Nat) (m : Mem) (h : none ∉ m.take n) (hl : n ≤ m.length) :
    ∃ t, hexBytes n m = .ok t ∧ hexRead t = some ((m.take n).map (·.getD 0)) := by
  induction n generalizing m with
  | zero => exact ⟨[], rfl, rfl⟩
  | succ n ih =>
    match m with
    | [] => simp at hl
    | none :: m => simp at h
    | some b :: m =>
      obtain ⟨t, h1, h2⟩ := ih m (by simp at h; exact h) (by simp at hl; omega)
      refine ⟨hexByte b ++ t, by simp [hexBytes, h1], ?_⟩
      have hb := b.toNat_lt
      simp only [hexByte, List.cons_append, List.nil_append, hexRead,
        hexValue_hexDigit (show b.toNat / 16 < 16 by omega), hexValue_hexDigit (show b.toNat % 16 < 16 by omega), h2]
      simp only [Option.bind_eq_bind, Option.bind_some, Option.pure_def, List.take_succ_cons, List.map_cons,
        Option.getD_some, Option.some.injEq, List.cons.injEq, and_true]
      rw [Nat.div_add_mod]
      simp

/-- C70: the text of binary data gives each byte as two hexadecimal digits. -/
theorem C70_binary (E : Env) (v : VarCore) (b u : List Byte) (hv : v.WF) (ht : v.info.type = .binary)
    (hs : v.view = some (.bits b)) :
    ∃ t, v.format E u = .ok t ∧ v.formatFile E u = .ok t ∧ hexRead t = some b := by
  have hset : v.isset = true := by
    cases h : v.isset with
    | true => rfl
    | false => rw [view_unset h] at hs; cases hs
  unfold VarCore.WF at hv
  rw [ht] at hv
  rcases hv with ⟨h, -⟩ | ⟨m, h1, h2, h3⟩
  · rw [hset] at h; cases h
  obtain ⟨t, g1, g2⟩ := hexBytes_ok v.info.len m (h3 hset) (by omega)
  have : (m.take v.info.len).map (·.getD 0) = b := by
    unfold VarCore.view at hs
    simpa [hset, ht, h1] using hs
  rw [this] at g2
  refine ⟨t, ?_, ?_, g2⟩
  · simp [VarCore.format, hset, ht, VarCore.ptr, h1, g1]
  · simp [VarCore.formatFile, hset, ht, VarCore.ptr, h1, g1]

/-- C70: without a value the text is the one given for that. -/
theorem C70_undefined (E : Env) (v : VarCore) (u : List Byte) (h : v.isset = false) :
    v.format E u = .ok u ∧ v.formatFile E u = .ok u := by
  simp [VarCore.format, VarCore.formatFile, h]

/-! ### Cases -/

/-- A reader of numbers in fixed notation. -/
def readFixed (t : List Byte) : ℚ :=
  let s := if t.head? = some 45 then t.tail else t
  let a := s.takeWhile (· ≠ 46)
  let b := (s.dropWhile (· ≠ 46)).drop 1
  (if t.head? = some 45 then -1 else 1) * (digitsValue (a ++ b) : ℚ) / 10 ^ b.length

/-- The sample environment with a `strtod`. -/
def EnvF : Env := { Env0 with strtod := fun t => .fin (flNearest (readFixed t)) }

theorem readFixed_ok {t : List Byte} {p : Nat} {k : Int} (h : FixedText t p k) :
    readFixed t = (k : ℚ) / 10 ^ p := by
  obtain ⟨a, b, rfl, ⟨h1, h2, h3, -⟩, h5, h6, h7⟩ := h
  have hneg : ((if k < 0 then ([45] : List Byte) else []) ++ a ++ (if p = 0 then [] else 46 :: b)).head? =
      some 45 ↔ k < 0 := by
    rcases a with _ | ⟨x, a⟩
    · exact absurd rfl h1
    · have := digit_ne_minus (h2 x (by simp))
      by_cases hk : k < 0 <;> simp [hk, this]
  have hs : (if ((if k < 0 then ([45] : List Byte) else []) ++ a ++ (if p = 0 then [] else 46 :: b)).head? = some 45
      then ((if k < 0 then ([45] : List Byte) else []) ++ a ++ (if p = 0 then [] else 46 :: b)).tail else
      ((if k < 0 then ([45] : List Byte) else []) ++ a ++ (if p = 0 then [] else 46 :: b))) =
      a ++ (if p = 0 then [] else 46 :: b) := by
    simp only [hneg]
    by_cases hk : k < 0 <;> simp [hk]
  have ha : ∀ x ∈ a, (decide (x ≠ 46)) = true := by
    intro x hx
    have := h2 x hx
    simp only [ne_eq, decide_eq_true_eq]
    rintro rfl
    simp at this
  have htake : (a ++ (if p = 0 then [] else 46 :: b)).takeWhile (· ≠ 46) = a := by
    rw [List.takeWhile_append_of_pos ha]
    by_cases hp : p = 0 <;> simp [hp]
  have hdrop : ((a ++ (if p = 0 then [] else 46 :: b)).dropWhile (· ≠ 46)).drop 1 = b := by
    rw [List.dropWhile_append_of_pos ha]
    by_cases hp : p = 0
    · rw [if_pos hp]
      have : b = [] := List.eq_nil_of_length_eq_zero (by omega)
      simp [this]
    · simp [hp]
  unfold readFixed
  simp only [hs, htake, hdrop, digitsValue_append, h3, h5, h7]
  rw [show k.natAbs / 10 ^ p * 10 ^ p + k.natAbs % 10 ^ p = k.natAbs from Nat.div_add_mod' ..]
  simp only [hneg]
  congr 1
  have : ((k.natAbs : Int) : ℚ) = (k.natAbs : ℚ) := by simp
  rw [← this]
  split
  · next hk => rw [Int.natCast_natAbs, abs_of_neg hk]; simp
  · next hk => rw [Int.natCast_natAbs, abs_of_nonneg (by omega)]; simp

theorem EnvF_reads : ReadsFixed EnvF := by
  intro t p k h
  show Dbl.fin (flNearest (readFixed t)) = _
  rw [readFixed_ok h]
  rfl

/-- A number with a value. -/
def numVar (info : Varinfo) (i : Int) : Var := (Var.new info).putInt i

/-- Hypotheses of C70 met: 273.15 K. -/
example : IsRounding EnvF.fl ∧ ReadsFixed EnvF ∧ sampleTemp.Made EnvF ∧ sampleTemp.IsNum ∧
    sampleTemp.imin ≤ 27315 ∧ 27315 ≤ sampleTemp.imax ∧ |wholeUnits sampleTemp.scale 27315| < 2 ^ 52 ∧
    (numVar sampleTemp 27315).format EnvF [] = .ok (ascii "273.15") ∧
    (numVar sampleLat (-5)).format EnvF [] = .ok (ascii "-0.05") :=
  ⟨isRounding_flNearest, EnvF_reads, sampleTemp_made, .inr rfl, by decide +kernel, by decide +kernel,
    by decide +kernel, by decide +kernel, by decide +kernel⟩

/-- A number with zeros at the end. -/
def sampleBig : Varinfo := made (Varinfo.raw (WR_VAR 0 12 101) .decimal (ascii "K") (-16) 9 0 30)

/-- C70 is false in the code for numbers of 20 characters or more: the last ones are cut,
and setting the text back gives another number. Writing to a file does not
cut them. -/
theorem C70_not_long : sampleBig.Made EnvF ∧
    (numVar sampleBig 2000).formatFile EnvF [] = .ok (ascii "20000000000000000000") ∧
    (numVar sampleBig 2000).format EnvF [] = .ok (ascii "2000000000000000000") ∧
    ((numVar sampleBig 2000).setf EnvF .default (some (ascii "2000000000000000000"))).1.toVarCore.view =
      some (.num 200) := by
  refine ⟨?_, by decide +kernel, by decide +kernel, by decide +kernel⟩
  exact ⟨⟨Varinfo.raw (WR_VAR 0 12 101) .decimal (ascii "K") (-16) 9 0 30, by decide +kernel⟩, rfl, nofun, nofun⟩

/-- C70 is false in the code for numbers above 2^53: the text has digits that are not
those of the value. -/
theorem C70_not_large : (numVar sampleBig 123457).formatFile EnvF [] ≠
    .ok (ascii "1234570000000000000000") := by decide +kernel

/-- C70 is false in the code for empty texts, which are set back as no value. -/
theorem C70_not_empty (E : Env) (O : Opts) (v : Var) : (v.setf E O (some [])).1.toVarCore.view = none :=
  view_unset rfl

/-- C70 is false in the code for binary data, which cannot be set back. -/
theorem C70_not_binary (E : Env) (O : Opts) (v : Var) (t : List Byte) (h : v.info.type = .binary)
    (ht : t ≠ []) : (v.setf E O (some t)).2 = .err .unimplemented := by
  rcases t with _ | ⟨x, t⟩
  · exact absurd rfl ht
  · simp [Var.setf, h]

/-- Hypotheses of the rest of C70 met. -/
example :
    let s := ((Var.new sampleStr).setc .default (c_str (ascii "Bologna"))).1
    let b := ((Var.new sampleBin).setc .default (toMem [0xab, 0x05, 0])).1
    s.toVarCore.view = some (.text (ascii "Bologna")) ∧ s.format EnvF [] = .ok (ascii "Bologna") ∧
    b.toVarCore.view = some (.bits [0xab, 0x05]) ∧ b.format EnvF [] = .ok (ascii "AB05") := by
  decide +kernel

end Wreport
