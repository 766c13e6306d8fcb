import Verif.Lemmas.Codec
import Verif.Props.Interp

/-!
# C39: validation
-/

namespace Wreport

open Spec

theorem check_fits_number {E : Env} {info : Varinfo} {var : VarCore} (hn : info.IsNum)
    (hset : var.isset = true) (h : Validator.check_fits E false info var = .ok ()) :
    var.code = info.code ∧ ∃ d n, var.enqd E = .ok d ∧ info.encode_binary E (.fin d) = .ok n ∧
      info.bit_len < 32 ∧ n < 2 ^ info.bit_len := by
  unfold Validator.check_fits at h
  by_cases hc : var.code = info.code
  · refine ⟨hc, ?_⟩
    rw [if_neg (by simpa using hc), if_neg (by simp [hset])] at h
    have h' : Validator.check_number E false info var = .ok () := by
      rcases hn with t | t <;> simpa only [t] using h
    unfold Validator.check_number at h'
    obtain ⟨d, hd, h1⟩ := Res.bind_eq_ok.mp h'
    simp only [Bool.false_eq_true, if_false] at h1
    obtain ⟨n, hn', h2⟩ := Res.bind_eq_ok.mp h1
    by_cases hb : 32 ≤ info.bit_len
    · rw [if_pos hb] at h2
      cases h2
    · rw [if_neg hb] at h2
      by_cases hl : 2 ^ info.bit_len ≤ n
      · rw [if_pos hl] at h2
        cases h2
      · exact ⟨d, n, hd, hn', by omega, by omega⟩
  · rw [if_pos (by simpa using hc)] at h
    cases h

/-! ## C39 -/

/-- C39 (part): when a set numeric value is accepted, the encoder writes it in the
field's width without losing bits: the field read as a number is the encoded value.
Missing from the full property: fields of 32 bits (`C39_not_32`), and values that
are not numbers set (`C39_not_missing`). -/
theorem C39_fits_partial (E : Env) (info : Varinfo) (var : VarCore) (o : BitOut) (ho : o.WF)
    (hn : info.IsNum) (hset : var.isset = true)
    (h : Validator.check_fits E false info var = .ok ()) :
    ∃ d n o', var.enqd E = .ok d ∧ info.encode_binary E (.fin d) = .ok n ∧
      o.append_var E info var = .ok o' ∧ o'.WF ∧
      o'.bits = o.bits ++ bits info.bit_len n ∧ ofBits (bits info.bit_len n) = n := by
  obtain ⟨-, d, n, hd, he, hb, hl⟩ := check_fits_number hn hset h
  have hb0 : 0 < info.bit_len := by
    by_contra hx
    unfold Varinfo.encode_binary at he
    rw [if_pos (by omega)] at he
    cases he
  obtain ⟨o', a1, a2, a3⟩ := BitOut.add_bits_ok ho n hb0 (by omega)
  refine ⟨d, n, o', hd, he, ?_, a2, a3, ?_⟩
  · unfold BitOut.append_var
    rw [if_neg (by simp [hset])]
    rcases hn with t | t <;> simp only [t, hd, Res.ok_bind, he, a1]
  · rw [ofBits_bits, Nat.mod_eq_of_lt hl]

/-- C39 (part): when the attribute that a descriptor stands for is accepted, the encoder
writes it, if it is a number, without losing bits. -/
theorem C39_attribute_partial (E : Env) (st st' : Enc.St Unit) (info : Varinfo) (pos : Nat)
    (v : Var) (a : VarCore) (o : BitOut) (ho : o.WF) (hv : st.tgt.subset[pos]? = some v)
    (hs : v.attrs.Pairwise (fun a b => a.code < b.code)) (ha : a ∈ v.attrs)
    (hc : a.code = info.code) (hn : info.IsNum) (hset : a.isset = true)
    (h : Validator.check_attr E false st info pos = .ok st') :
    st' = st ∧ ∃ d n o', a.enqd E = .ok d ∧ info.encode_binary E (.fin d) = .ok n ∧
      o.append_var E info a = .ok o' ∧ o'.WF ∧
      o'.bits = o.bits ++ bits info.bit_len n ∧ ofBits (bits info.bit_len n) = n := by
  unfold Validator.check_attr Enc.get_var_at at h
  simp only [hv, Res.ok_bind] at h
  have he : v.enqa info.code = some a := by
    unfold Var.enqa
    rw [enqaList_eq hs]
    have hp : (v.attrs.find? fun a => a.code = info.code).isSome = true :=
      List.find?_isSome.mpr ⟨a, ha, by simpa using hc⟩
    obtain ⟨b, hb⟩ := Option.isSome_iff_exists.mp hp
    rw [hb]
    have hb1 : b.code = info.code := by simpa using List.find?_some hb
    have hb2 := List.mem_of_find?_eq_some hb
    congr 1
    by_contra hne
    have H := List.pairwise_iff_getElem.mp hs
    obtain ⟨i, hi, rfl⟩ := List.getElem_of_mem ha
    obtain ⟨j, hj, rfl⟩ := List.getElem_of_mem hb2
    rcases Nat.lt_trichotomy i j with hlt | heq | hlt
    · have := H i j hi hj hlt
      omega
    · subst heq
      exact hne rfl
    · have := H j i hj hi hlt
      omega
  rw [he] at h
  obtain ⟨_, h1, h⟩ := Res.bind_eq_ok.mp h
  cases h
  exact ⟨rfl, C39_fits_partial E info a o ho hn hset h1⟩

/-- C39 (part): a value is accepted for its own descriptor, of up to 31 bits,
exactly when its difference from the reference value fits in the field. -/
theorem C39_exact_partial (E : Env) (hE : IsRounding E.fl) (var : VarCore) (k : Int)
    (hv : var.WF) (hm : var.info.Made E) (hn : var.info.IsNum) (hview : var.view = some (.num k))
    (hb0 : 0 < var.info.bit_len) (hb1 : var.info.bit_len ≤ 31) :
    Validator.check_fits E false var.info var = .ok () ↔
      0 ≤ k - var.info.bit_ref ∧ k - var.info.bit_ref < 2 ^ var.info.bit_len := by
  have hset : var.isset = true := by
    by_contra hc
    rw [view_unset (by simpa using hc)] at hview
    cases hview
  obtain ⟨c, hc, hci⟩ := (WF_num hn).mp hv
  have hk : c = k := by
    rw [view_num hn hc hset] at hview
    simpa using hview
  subst hk
  obtain ⟨d, hd, hdec⟩ := enqd_decode hm hn hset hc
  have hci' := inInt_iff.mp hci
  have hri := inInt_iff.mp hm.2.1
  have hsc := encodeBinaryScaled_decode E hE var.info c d
    (by rw [abs_le]; constructor <;> norm_cast <;> omega) hm.2.1 hdec
  have hpc : ((2 ^ var.info.bit_len : Nat) : Int) = 2 ^ var.info.bit_len := by push_cast; rfl
  constructor
  · intro h
    obtain ⟨-, d', n, hd', he, -, hl⟩ := check_fits_number hn hset h
    rw [hd] at hd'
    cases hd'
    by_cases hneg : c - var.info.bit_ref < 0
    · unfold Varinfo.encode_binary at he
      rw [if_neg (by omega)] at he
      simp only [hsc, Res.ok_bind] at he
      rw [if_pos hneg] at he
      cases he
    · rw [encode_binary_of_scaled (by omega) hsc (by omega) (by omega)] at he
      simp only [Res.ok.injEq] at he
      omega
  · rintro ⟨h0, h1⟩
    have he := encode_binary_of_scaled (by omega : var.info.bit_len ≠ 0) hsc h0 (by omega)
    unfold Validator.check_fits
    rw [if_neg (by simp [VarCore.code]), if_neg (by simp [hset])]
    have : Validator.check_number E false var.info var = .ok () := by
      unfold Validator.check_number
      rw [hd, Res.ok_bind]
      simp only [Bool.false_eq_true, if_false, he, Res.ok_bind]
      rw [if_neg (by omega), if_neg (by omega)]
      rfl
    rcases hn with t | t <;> simpa only [t] using this

/-- Hypotheses of C39 met, with a value that fits and one that does not. -/
example : Validator.check_fits Env0 false sampleTemp (tempVar 27315).toVarCore = .ok () ∧
    Validator.check_fits Env0 false sampleTemp (tempVar 65536).toVarCore = .err .consistency ∧
    sampleTemp.bit_len = 16 := by decide +kernel

example : (tempVar 27315).toVarCore.WF ∧ (tempVar 27315).info.Made Env0 ∧
    (tempVar 27315).info.IsNum ∧ (tempVar 27315).toVarCore.view = some (.num 27315) :=
  ⟨(WF_num (v := (tempVar 27315).toVarCore) (.inr rfl)).mpr ⟨27315, rfl, rfl⟩, sampleTemp_made,
    .inr rfl, rfl⟩

/-- Hypotheses of `C39_attribute_partial` met, with a confidence that fits and one that
does not. -/
example : (Validator.check_attr Env0 false
      (.new noCaches ⟨[(tempVar 27315).setaMove ((Var.new sampleConf).putInt 80)], 0, ()⟩) sampleConf 0).isOk
      = true ∧
    (Validator.check_attr Env0 false
      (.new noCaches ⟨[(tempVar 27315).setaMove ((Var.new sampleConf).putInt 200)], 0, ()⟩) sampleConf 0).isOk
      = false := by decide +kernel

/-- A 32-bit number. -/
def sample32 : Varinfo :=
  made (Varinfo.raw (WR_VAR 0 1 12) .integer (ascii "NUMERIC") 0 10 0 32)

/-- C39 fails at 32 bits, the widest field that can be written: the limit is
computed with an undefined shift. -/
theorem C39_not_32 : sample32.bit_len = 32 ∧
    Validator.check_fits Env0 false sample32 ((Var.new sample32).putInt 5).toVarCore = .ub := by
  decide +kernel

/-- C39 fails for missing values: a missing string is accepted and cannot be
written. -/
theorem C39_not_missing :
    Validator.check_fits Env0 false sampleStr (Var.new sampleStr).toVarCore = .ok () ∧
    (BitOut.new []).append_var Env0 sampleStr (Var.new sampleStr).toVarCore = .ub := by
  decide +kernel

end Wreport
