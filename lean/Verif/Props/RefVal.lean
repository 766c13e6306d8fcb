import Verif.Lemmas.Codec
import Verif.Props.Interp
import Verif.Spec.Data

/-!
# C38: changed reference values
-/

namespace Wreport

open Spec

theorem shl1_u32 {k : Nat} (h : k ≤ 31) : ∃ s, shl1 k = .ok s ∧ toU32 s = 2 ^ k := by
  interval_cases k <;> exact ⟨_, rfl, by decide⟩

theorem pow_add_or {n k : Nat} (h : n < 2 ^ k) : 2 ^ k + n = 2 ^ k ||| n := by
  have := Nat.two_pow_add_eq_or_of_lt h 1
  rwa [Nat.mul_one] at this

theorem clzBits_ok {n : Nat} (h : n ≠ 0) : Enc.clzBits n = .ok (Nat.log2 n + 1) := if_neg h

theorem Enc.c03_pattern_ok (E : Env) {bits : Nat} {ref : Int} (hb : bits ≤ 32) (h0 : ref ≠ 0)
    (hr : ref.natAbs < 2 ^ (bits - 1)) :
    Enc.c03_pattern E bits ref = .ok (signMagnitude bits ref, Nat.log2 ref.natAbs + 1) := by
  have hp : 2 ^ (bits - 1) ≤ 2 ^ 31 := Nat.pow_le_pow_right (by omega) (by omega)
  unfold Enc.c03_pattern signMagnitude
  by_cases hn : ref < 0
  · rw [if_pos hn, if_pos hn]
    have hi : inInt (-ref) = true := by rw [inInt_iff]; omega
    have hs : E.sint (-ref) = .ok (-ref) := by
      unfold Env.sint
      rw [if_pos hi]
    have hu : toU32 (-ref) = ref.natAbs := by unfold toU32; omega
    obtain ⟨s, s1, s2⟩ := shl1_u32 (k := bits - 1) (by omega)
    rw [hs, Res.ok_bind, hu, clzBits_ok (by omega), Res.ok_bind, s1, Res.ok_bind, s2, Nat.or_comm,
      ← pow_add_or hr]
    rfl
  · rw [if_neg hn, if_neg hn]
    have hu : toU32 ref = ref.natAbs := by unfold toU32; omega
    rw [hu, clzBits_ok (by omega)]
    rfl

theorem and_clear {n k : Nat} (hk : k ≤ 31) (h : n < 2 ^ k) :
    (2 ^ k + n) &&& (2 ^ 32 - 1 - 2 ^ k) = n := by
  have hlt : 2 ^ k < 2 ^ 32 := Nat.pow_lt_pow_right (by omega) (by omega)
  apply Nat.eq_of_testBit_eq
  intro j
  rw [Nat.testBit_and, show 2 ^ 32 - 1 - 2 ^ k = 2 ^ 32 - (2 ^ k + 1) by omega,
    Nat.testBit_two_pow_sub_succ hlt, Nat.testBit_two_pow, pow_add_or h,
    Nat.testBit_or, Nat.testBit_two_pow]
  by_cases hj : k ≤ j
  · rw [Nat.testBit_lt_two_pow (lt_of_lt_of_le h (Nat.pow_le_pow_right (by omega) hj))]
    by_cases he : k = j <;> simp [he]
  · have : j < 32 := by omega
    have : k ≠ j := by omega
    simp [*]

theorem Decoder.c03_ok {i : Input} (hi : i.WF) {bits : Nat} {ref : Int} {rest : List Bool}
    (hb1 : 1 ≤ bits) (hb : bits ≤ 32) (hr : ref.natAbs < 2 ^ (bits - 1))
    (h0 : ref ≠ 0) (hrem : i.rem = Spec.bits bits (signMagnitude bits ref) ++ rest)
    (hrest : 8 ≤ rest.length) :
    ∃ i', Decoder.decode_c03_refval_override i bits = .ok (ref, i') ∧ i'.WF ∧ i'.rem = rest := by
  have hp : 2 ^ (bits - 1) ≤ 2 ^ 31 := Nat.pow_le_pow_right (by omega) (by omega)
  have h2 : 2 ^ bits = 2 * 2 ^ (bits - 1) := by
    conv_lhs => rw [show bits = (bits - 1) + 1 by omega, pow_succ]
    omega
  have hlt : signMagnitude bits ref < 2 ^ bits := by unfold signMagnitude; split <;> omega
  obtain ⟨i', g1, g2, g3, -⟩ := Input.get_bits_ok hi hb hlt hrem hrest
  obtain ⟨s, s1, s2⟩ := shl1_u32 (k := bits - 1) (by omega)
  refine ⟨i', ?_, g2, g3⟩
  unfold Decoder.decode_c03_refval_override
  rw [g1, Res.ok_bind, s1, Res.ok_bind]
  simp only [s2]
  have ht := BitOut.decide_and_two_pow (signMagnitude bits ref) (bits - 1)
  have hneg : ∀ m : Nat, m < 2 ^ 31 → ofU32 (toU32 (-(m : Int))) = -(m : Int) := by
    intro m hm
    unfold ofU32 toU32 wrapInt
    omega
  have hpos : ∀ m : Nat, m < 2 ^ 31 → ofU32 m = (m : Int) := by
    intro m hm
    unfold ofU32 wrapInt
    omega
  by_cases hn : ref < 0
  · have hs : signMagnitude bits ref = 2 ^ (bits - 1) + ref.natAbs := if_pos hn
    rw [hs, pow_add_or hr, Nat.testBit_or, Nat.testBit_two_pow_self,
      Bool.true_or, ← pow_add_or hr, decide_eq_true_eq] at ht
    rw [hs, if_pos ht, and_clear (by omega) hr, hneg _ (by omega)]
    rw [show -(ref.natAbs : Int) = ref by omega]
    rfl
  · have hs : signMagnitude bits ref = ref.natAbs := if_neg hn
    rw [hs, Nat.testBit_lt_two_pow hr, decide_eq_false_iff_not] at ht
    rw [hs, if_neg ht, hpos _ (by omega), show (ref.natAbs : Int) = ref by omega]
    rfl

/-! ## C38 -/

/-- C38 (part): a reference value other than 0 that fits sign and magnitude in the
operator's width, up to 32 bits, is written in exactly that many bits; reading them
gives the decoder the same override. Missing from the full property: reference
value 0 (`C38_not_zero`) and wider operators (`C38_not_wide`). -/
theorem C38_round_trip_partial (C : Ctx) (st : Enc.St BitOut) (code : Varcode) (ref : Int)
    (ho : st.tgt.ob.WF) (href : Enc.c03_ref C st.tgt.subset code = .ok ref) (h0 : ref ≠ 0)
    (hb1 : 1 ≤ st.c03_refval_override_bits) (hb : st.c03_refval_override_bits ≤ 32)
    (hr : ref.natAbs < 2 ^ (st.c03_refval_override_bits - 1)) :
    ∃ st' field, DDSEncoder.define_c03_refval_override C st code = .ok st' ∧ st'.tgt.ob.WF ∧
      st'.tgt.ob.bits = st.tgt.ob.bits ++ field ∧
      field.length = st.c03_refval_override_bits ∧
      st'.c03_refval_overrides = (code, toU32 ref) :: st.c03_refval_overrides ∧
      ofU32 (toU32 ref) = ref ∧
      ∀ (dt : Decoder.St) (rest : List Bool),
        dt.c03_refval_override_bits = st.c03_refval_override_bits → dt.tgt.input.WF →
        dt.tgt.input.rem = field ++ rest → 8 ≤ rest.length →
        ∃ dt', Decoder.define_c03_refval_override C dt code = .ok dt' ∧ dt'.tgt.input.WF ∧
          dt'.tgt.input.rem = rest ∧
          dt'.c03_refval_overrides = (code, toU32 ref) :: dt.c03_refval_overrides := by
  have hp : 2 ^ (st.c03_refval_override_bits - 1) ≤ 2 ^ 31 :=
    Nat.pow_le_pow_right (by omega) (by omega)
  have hlog : Nat.log2 ref.natAbs < st.c03_refval_override_bits - 1 :=
    (Nat.log2_lt (by omega)).mpr hr
  obtain ⟨o', a1, a2, a3⟩ := BitOut.add_bits_ok ho
    (signMagnitude st.c03_refval_override_bits ref) hb1 hb
  refine ⟨(Enc.put st o').setOverride code ref, _, ?_, a2, a3, ?_, rfl, ?_, ?_⟩
  · unfold DDSEncoder.define_c03_refval_override Enc.c03_checked
    rw [href, Res.ok_bind, Enc.c03_pattern_ok C.E hb h0 hr, Res.ok_bind,
      if_neg (by simp only; omega)]
    simp only [Res.pure_def, Res.ok_bind, a1]
  · simp
  · unfold ofU32 toU32 wrapInt
    omega
  · intro dt rest he hi hrem hrest
    obtain ⟨i', g1, g2, g3⟩ := Decoder.c03_ok hi hb1 hb hr h0 hrem hrest
    refine ⟨(Decoder.setInput dt i').setOverride code ref, ?_, g2, g3, rfl⟩
    unfold Decoder.define_c03_refval_override
    simp only [he, g1, Res.ok_bind]
    rfl

/-- C38: a reference value that does not fit is refused, so nothing is lost. -/
theorem C38_refused (C : Ctx) (st : Enc.St BitOut) (code : Varcode) (ref : Int)
    (href : Enc.c03_ref C st.tgt.subset code = .ok ref) (hi : inInt ref = true)
    (hmin : ref ≠ -2147483648) (hb1 : 1 ≤ st.c03_refval_override_bits)
    (hb : st.c03_refval_override_bits ≤ 32)
    (hr : 2 ^ (st.c03_refval_override_bits - 1) ≤ ref.natAbs) :
    DDSEncoder.define_c03_refval_override C st code = .err .consistency := by
  have h1 : 1 ≤ 2 ^ (st.c03_refval_override_bits - 1) := Nat.one_le_two_pow
  have hlog : st.c03_refval_override_bits - 1 ≤ Nat.log2 ref.natAbs :=
    (Nat.le_log2 (by omega)).mpr hr
  rw [inInt_iff] at hi
  have hpat : ∃ p, Enc.c03_pattern C.E st.c03_refval_override_bits ref =
      .ok (p, Nat.log2 ref.natAbs + 1) := by
    unfold Enc.c03_pattern
    by_cases hn : ref < 0
    · rw [if_pos hn]
      have hs : C.E.sint (-ref) = .ok (-ref) := by
        unfold Env.sint
        rw [if_pos (by rw [inInt_iff]; omega)]
      have hu : toU32 (-ref) = ref.natAbs := by unfold toU32; omega
      obtain ⟨s, s1, s2⟩ := shl1_u32 (k := st.c03_refval_override_bits - 1) (by omega)
      rw [hs, Res.ok_bind, hu, clzBits_ok (by omega), Res.ok_bind, s1, Res.ok_bind]
      exact ⟨_, rfl⟩
    · rw [if_neg hn]
      have hu : toU32 ref = ref.natAbs := by unfold toU32; omega
      rw [hu, clzBits_ok (by omega)]
      exact ⟨_, rfl⟩
  obtain ⟨p, hp⟩ := hpat
  unfold DDSEncoder.define_c03_refval_override Enc.c03_checked
  rw [href, Res.ok_bind, hp, Res.ok_bind, if_pos (by simp only; omega)]
  rfl

/-- An encoder after the operator C03 with the given width, on latitudes. -/
def refStart (bits : Nat) : Enc.St BitOut :=
  { encStart [(Var.new sampleLat).putInt 4500] with c03_refval_override_bits := bits }

/-- Hypotheses of C38 met: the latitude has reference -9000, which needs 15
bits. -/
example : (refStart 15).tgt.ob.WF ∧
    Enc.c03_ref sampleCtx (refStart 15).tgt.subset (WR_VAR 0 5 2) = .ok (-9000) ∧
    (-9000 : Int).natAbs < 2 ^ (15 - 1) ∧ 2 ^ (14 - 1) ≤ (-9000 : Int).natAbs :=
  ⟨BitOut.WF_new [], by decide +kernel, by decide, by decide⟩

/-- C38 fails for reference value 0: its bits are counted with `__builtin_clz(0)`,
whose result is undefined. -/
theorem C38_not_zero (C : Ctx) (st : Enc.St BitOut) (code : Varcode)
    (href : Enc.c03_ref C st.tgt.subset code = .ok 0) :
    DDSEncoder.define_c03_refval_override C st code = .ub := by
  unfold DDSEncoder.define_c03_refval_override Enc.c03_checked
  rw [href]
  rfl

example : Enc.c03_ref sampleCtx (encStart [tempVar 27315]).tgt.subset (WR_VAR 0 12 101) =
    .ok 0 := by decide +kernel

/-- C38 fails for operators wider than 32 bits, which can hold any reference. -/
theorem C38_not_wide : DDSEncoder.define_c03_refval_override sampleCtx (refStart 33)
    (WR_VAR 0 5 2) = .ub := by rfl

end Wreport
