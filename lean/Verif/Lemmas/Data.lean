import Verif.Lemmas.Sim
import Verif.Lemmas.VarCopy
import Verif.Props.Field
import Verif.Props.RefVal

/-!
# Fields of single values, written and read back
-/

namespace Wreport

open Spec

/-! ## Single fields -/

theorem noTrailingBlank_of_fits {info : Varinfo} {t : List Byte} (h : textFits info t = true) :
    t.length ≤ info.bit_len / 8 ∧ (t.length = 1 ∨ NoTrailingBlank t) ∧
      ((∃ b ∈ t, b ≠ 0xff) ∨ t.length < info.bit_len / 8) := by
  unfold textFits at h
  simp only [Bool.and_eq_true, Bool.or_eq_true, decide_eq_true_eq, List.any_eq_true,
    bne_iff_ne] at h
  obtain ⟨⟨h1, h2⟩, h3⟩ := h
  refine ⟨h1, ?_, h3⟩
  cases hg : t.getLast? with
  | none => rw [hg] at h2; cases h2
  | some b =>
    rw [hg] at h2
    simp only [Bool.or_eq_true, decide_eq_true_eq, Bool.and_eq_true, Bool.not_eq_true',
      bne_iff_ne] at h2
    rcases h2 with h2 | h2
    · exact Or.inl h2
    · obtain ⟨s, rfl⟩ := List.getLast?_eq_some_iff.mp hg
      exact Or.inr ⟨s, b, rfl, h2.1, h2.2⟩

theorem num_of_fits {info : Varinfo} {k : Int}
    (h : (numFits info k || factorFits info k) = true) :
    0 < info.bit_len ∧ info.bit_len ≤ 31 ∧ info.imin ≤ k ∧ k ≤ info.imax ∧ 0 ≤ k - info.bit_ref ∧
      (k - info.bit_ref < 2 ^ info.bit_len - 1 ∨
        k - info.bit_ref = 2 ^ info.bit_len - 1 ∧ info.code ∈ factorCodes) := by
  simp only [numFits, factorFits, Bool.or_eq_true, decide_eq_true_eq] at h
  rcases h with ⟨f1, f2, f3, f4, f5, f6⟩ | ⟨f1, f2, f3, f4, f5, f6⟩
  · exact ⟨f1, f2, f3, f4, f5, .inl f6⟩
  · have : (1 : Int) ≤ 2 ^ info.bit_len := one_le_pow₀ (by norm_num)
    exact ⟨f1, f2, f3, f4, by omega, .inr ⟨f5, f6⟩⟩

theorem bits_of_fits {info : Varinfo} {w : List Byte} (h : bitsFits info w = true) :
    (∀ k j, j < 8 → (w.getD k 0).toNat.testBit j = true → DeclaredBit info.bit_len k j) ∧
    ∃ k j, j < 8 ∧ DeclaredBit info.bit_len k j ∧ (w.getD k 0).toNat.testBit j = false := by
  unfold bitsFits at h
  simp only [Bool.and_eq_true, List.all_eq_true, List.any_eq_true, List.mem_range, Bool.or_eq_true,
    Bool.not_eq_true', decide_eq_true_eq] at h
  obtain ⟨h1, k, -, j, hj, h2, h3⟩ := h
  refine ⟨fun k j hj hb => ?_, k, j, hj, h3, h2⟩
  by_cases hk : k < w.length
  · rcases h1 k hk j hj with h | h
    · unfold bitAt at h; rw [hb] at h; cases h
    · exact h
  · rw [List.getD, List.getElem?_eq_none (by omega)] at hb
    simp at hb

theorem getD_getElem {w : List Byte} {k : Nat} (h : k < w.length) : w.getD k 0 = w[k] := by
  rw [List.getD, List.getElem?_eq_getElem h]
  rfl

theorem view_type {v : VarCore} {x : Value} (h : v.view = some x) :
    v.isset = true ∧
    match x with
    | .num _ => v.info.IsNum
    | .text _ => v.info.type = .string
    | .bits _ => v.info.type = .binary := by
  unfold VarCore.view at h
  cases hs : v.isset with
  | false => simp [hs] at h
  | true =>
    refine ⟨rfl, ?_⟩
    simp only [hs, Bool.not_true, Bool.false_eq_true, if_false] at h
    cases ht : v.info.type <;> cases hc : v.cell <;> simp only [ht, hc] at h <;>
      (try cases h)
    · exact Or.inl ht
    · exact Or.inr ht
    · split at h
      · cases h; rfl
      · cases h
    · rfl

theorem unset_of_view {v : VarCore} (hv : v.WF) (h : v.view = none) : v.isset = false := by
  by_contra hc
  have hs : v.isset = true := by simpa using hc
  obtain ⟨tn, i, -, -, hh⟩ | ⟨-, m, s, ci, hl, hcs, hh⟩ | ⟨-, m, ci, hl, hnone, hh⟩ := WF_set hv hs <;>
    (rw [h] at hh; cases hh)

theorem missing_of_view {v : VarCore} (hv : v.WF) (h : v.view = none) (hf : fits v = true) :
    v.isset = false ∧ missingFits v.info = true := by
  unfold fits at hf
  rw [h] at hf
  exact ⟨unset_of_view hv h, hf⟩

/-- A value that fits is written as its field. -/
theorem field_written (E : Env) (hE : IsRounding E.fl) {o : BitOut} {v : VarCore} (ho : o.WF)
    (hv : v.WF) (hm : v.info.Made E) (hf : fits v = true) :
    ∃ o', o.append_var E v.info v = .ok o' ∧ o'.WF ∧ o'.bits = o.bits ++ fieldOf v := by
  cases hx : v.view with
  | none =>
    obtain ⟨hset, hmf⟩ := missing_of_view hv hx hf
    have hb : 0 < v.info.bit_len ∧ v.info.bit_len ≤ 32 := by
      unfold missingFits at hmf
      split at hmf <;> simp only [decide_eq_true_eq] at hmf <;> omega
    obtain ⟨o', a1, a2, a3⟩ := BitOut.append_missing_ok ho hb.1 hb.2
    refine ⟨o', ?_, a2, ?_⟩
    · unfold BitOut.append_var
      rw [if_pos (by simp [hset])]
      exact a1
    · unfold fieldOf; rw [hx]; exact a3
  | some x =>
    obtain ⟨-, ht⟩ := view_type hx
    unfold fits at hf
    unfold fieldOf
    rw [hx] at hf
    simp only [hx]
    cases x with
    | num k =>
      obtain ⟨f1, f2, f3, f4, f5, f6⟩ := num_of_fits hf
      obtain ⟨p, p1, p2, -⟩ := C22_round_trip_partial E hE .default o v k ho hv hm ht hx ⟨f3, f4⟩ f1
        (Or.inl f2) ⟨f5, f6⟩
      simp only [show (k - v.info.bit_ref).toNat = p by omega]
      exact p2
    | text t =>
      obtain ⟨f1, -⟩ := noTrailingBlank_of_fits hf
      exact (C19_round_trip E .default o v t ho hv ht hx f1).1
    | bits w => exact (C21_round_trip E .default o v w ho hv hm ht hx).1

/-- A missing field is read back as no value. -/
theorem missing_read (C : Ctx) {i : Input} {info : Varinfo} {rest : List Bool} (hi : i.WF)
    (hmf : missingFits info = true) (hrem : i.rem = missingField info.bit_len ++ rest)
    (hrest : 8 ≤ rest.length) :
    ∃ v' i', Decoder.decode_uniform_b_value C i info = .ok (v', i') ∧ i'.WF ∧ i'.rem = rest ∧
      v'.info = info ∧ v'.WF ∧ v'.toVarCore.view = none ∧ v'.attrs = [] := by
  have ho : (BitOut.new []).WF := ⟨by decide, by decide⟩
  have hset : (Var.new info).toVarCore.isset = false := rfl
  unfold missingFits at hmf
  unfold Decoder.decode_uniform_b_value
  have hnew : ∀ {v' : Var}, v' = Var.new info → v'.info = info ∧ v'.WF ∧
      v'.toVarCore.view = none ∧ v'.attrs = [] := by
    rintro v' rfl
    exact ⟨rfl, ⟨WF_new _, by simp [Var.new], by simp [Var.new]⟩, view_unset rfl, rfl⟩
  cases ht : info.type <;> simp only [ht, decide_eq_true_eq] at hmf ⊢
  · obtain ⟨f1, f2, f3, f4⟩ := hmf
    obtain ⟨v', i', g1, g2, g3, -, g5⟩ := (C20_number_partial C.E C.O _ _ ho hset f1 (Or.inl f2) f4 f3).2
      i rest (Var.new info) hi rfl hrem hrest
    exact ⟨v', i', g1, g2, g3, hnew g5⟩
  · obtain ⟨f1, f2, f3, f4⟩ := hmf
    obtain ⟨v', i', g1, g2, g3, -, g5⟩ := (C20_number_partial C.E C.O _ _ ho hset f1 (Or.inl f2) f4 f3).2
      i rest (Var.new info) hi rfl hrem hrest
    exact ⟨v', i', g1, g2, g3, hnew g5⟩
  · obtain ⟨f1, f2, f3⟩ := hmf
    obtain ⟨v', i', g1, g2, g3, -, g5⟩ := ((C20_text_partial C.E C.O _ _ ho hset f1 f2 f3).2
      i rest hi hrem hrest).1
    exact ⟨v', i', g1, g2, g3, hnew g5⟩
  · obtain ⟨f1, f2, f3⟩ := hmf
    obtain ⟨v', i', g1, g2, g3, -, g5⟩ := ((C20_text_partial C.E C.O _ _ ho hset f1 f2 f3).2
      i rest hi hrem hrest).2
    exact ⟨v', i', g1, g2, g3, hnew g5⟩

/-- The field of a value that fits is read back as that value. -/
theorem field_read (C : Ctx) (hE : IsRounding C.E.fl) {i : Input} {v : VarCore} {rest : List Bool}
    (hi : i.WF) (hv : v.WF) (hm : v.info.Made C.E) (hf : fits v = true)
    (hrem : i.rem = fieldOf v ++ rest) (hrest : 8 ≤ rest.length) :
    ∃ v' i', Decoder.decode_uniform_b_value C i v.info = .ok (v', i') ∧ i'.WF ∧ i'.rem = rest ∧
      v'.info = v.info ∧ v'.WF ∧ v'.toVarCore.view = v.view ∧ v'.attrs = [] := by
  have hwf : ∀ {v' : Var}, v'.toVarCore.WF → v'.attrs = [] → v'.WF := fun h1 h2 =>
    ⟨h1, by rw [h2]; simp, by rw [h2]; simp⟩
  have ho : (BitOut.new []).WF := ⟨by decide, by decide⟩
  unfold fieldOf at hrem
  cases hx : v.view with
  | none =>
    rw [hx] at hrem
    exact missing_read C hi (missing_of_view hv hx hf).2 hrem hrest
  | some x =>
    unfold Decoder.decode_uniform_b_value
    obtain ⟨-, ht⟩ := view_type hx
    unfold fits at hf
    rw [hx] at hf hrem
    cases x with
    | num k =>
      obtain ⟨f1, f2, f3, f4, f5, f6⟩ := num_of_fits hf
      obtain ⟨p, p1, -, p3⟩ := C22_round_trip_partial C.E hE C.O _ v k ho hv hm ht hx ⟨f3, f4⟩ f1
        (Or.inl f2) ⟨f5, f6⟩
      simp only [show (k - v.info.bit_ref).toNat = p by omega] at hrem
      obtain ⟨v', i', g1, g2, g3, g4, g5, g6, g7⟩ := p3 i rest hi hrem hrest
      refine ⟨v', i', ?_, g2, g3, g4, hwf g5 g7, g6, g7⟩
      rcases ht with ht | ht <;> (rw [ht]; exact g1)
    | text t =>
      obtain ⟨f1, f2, f3⟩ := noTrailingBlank_of_fits hf
      obtain ⟨v', i', g1, g2, g3, g4, g5, g6, g7⟩ :=
        (C19_round_trip C.E C.O _ v t ho hv ht hx f1).2 i rest hi hrem hrest f2 f3
      simp only at ht
      rw [ht]
      exact ⟨v', i', g1, g2, g3, g4, hwf g5 g7, g6, g7⟩
    | bits w =>
      obtain ⟨f1, f2⟩ := bits_of_fits hf
      obtain ⟨v', i', w', g1, g2, g3, g4, g5, g6, g7, g8, g9⟩ :=
        (C21_round_trip C.E C.O _ v w ho hv hm ht hx).2 i rest hi hrem hrest f2
      have hw : w' = w := by
        apply List.ext_getElem g8
        intro k h1 h2
        apply UInt8.toNat_inj.mp
        apply Nat.eq_of_testBit_eq
        intro j
        by_cases hj : j < 8
        · have := g9 k j hj
          rw [getD_getElem h1, getD_getElem h2] at this
          rw [Bool.eq_iff_iff, this]
          constructor
          · exact fun h => h.2
          · exact fun h => ⟨f1 k j hj (by rw [getD_getElem h2]; exact h), h⟩
        · have hb : ∀ b : Byte, b.toNat.testBit j = false := fun b =>
            Nat.testBit_lt_two_pow (lt_of_lt_of_le b.toNat_lt (Nat.pow_le_pow_right (by omega) (by omega)))
          rw [hb, hb]
      simp only at ht
      rw [ht]
      subst hw
      exact ⟨v', i', g1, g2, g3, g4, hwf g5 g7, g6, g7⟩

theorem enqi_of_view {v : VarCore} {k : Int} (hv : v.WF) (h : v.view = some (.num k)) :
    v.enqi = .ok k := by
  obtain ⟨hs, hn⟩ := view_type h
  obtain ⟨c, hc, -⟩ := (WF_num hn).mp hv
  rw [view_num hn hc hs] at h
  simp only [Option.some.injEq, Value.num.injEq] at h
  subst h
  exact enqi_num hn hc hs

theorem enqc_of_view {E : Env} {v : VarCore} {t : List Byte} (hv : v.WF)
    (h : v.view = some (.text t)) :
    v.isset = true ∧ NulFree t ∧ t.length ≤ v.info.len ∧ ∃ r, v.enqc E = .ok (c_str t ++ r) := by
  obtain ⟨hs, ht⟩ := view_type h
  simp only at ht
  obtain ⟨tn, -⟩ | ⟨-, m, s, ci, hl, hcs, hh⟩ | ⟨tn, -⟩ := WF_set hv hs
  · rcases tn with tn | tn <;> rw [ht] at tn <;> cases tn
  · rw [h] at hh
    simp only [Option.some.injEq, Value.text.injEq] at hh
    subst hh
    have hlen := cstr_length hcs
    obtain ⟨hnul, r, rfl⟩ := cstr_eq_ok hcs
    refine ⟨hs, hnul, by omega, r, ?_⟩
    simp [VarCore.enqc, hs, ht, VarCore.ptr, ci]
  · rw [ht] at tn; cases tn

/-! ## Characters, copies and fresh variables -/

theorem Enc.get_var_ok {β : Type} {t : Enc.St β} {v : Var}
    (h : t.tgt.subset[t.tgt.current_var]? = some v) :
    Enc.get_var t =
      .ok (v, { t with tgt := { t.tgt with current_var := t.tgt.current_var + 1 } }) := by
  unfold Enc.get_var Enc.get_var_at
  rw [h]
  rfl

theorem Spec.Copies.snoc {out vars : List Var} (h : Copies out vars) {a v : Var} (ha : a.WF)
    (hn : a.attrs = []) (hi : a.info = v.info) (hv : a.toVarCore.view = v.toVarCore.view) :
    Copies (out ++ [a]) (vars ++ [v]) := by
  refine ⟨by rw [List.map_append, List.map_append, h.1]; simp [hi, hv], fun x hx => ?_⟩
  rcases List.mem_append.mp hx with hx | hx
  · exact h.2 x hx
  · rw [List.mem_singleton.mp hx]; exact ⟨ha, hn⟩

theorem copy_plain {v : Var} (hv : v.WF) (ha : v.attrs = []) :
    ∃ w, v.copy = .ok w ∧ w.WF ∧ w.info = v.info ∧ w.toVarCore.view = v.toVarCore.view ∧
      w.attrs = [] := by
  obtain ⟨w, w1, w2, w3, -, w5, w6⟩ := copy_ok hv
  refine ⟨w, w1, w2, w3, w5, ?_⟩
  rw [ha] at w6
  simpa using w6

theorem getChars_ok {i : Input} (hi : i.WF) {t : List Byte} {rest : List Bool}
    (hrem : i.rem = bytesBits t ++ rest) (hrest : 8 ≤ rest.length) :
    ∃ i', Decoder.getChars t.length i = .ok (t, i') ∧ i'.WF ∧ i'.rem = rest := by
  induction t generalizing i with
  | nil => exact ⟨i, rfl, hi, by simpa [bytesBits] using hrem⟩
  | cons b t ih =>
    have hr : i.rem = Spec.bits 8 b.toNat ++ (bytesBits t ++ rest) := by
      rw [hrem]; simp [bytesBits]
    obtain ⟨i1, g1, g2, g3, -⟩ := Input.get_bits_ok hi (by omega) (UInt8.toNat_lt b) hr
      (by rw [List.length_append]; omega)
    obtain ⟨i2, k1, k2, k3⟩ := ih g2 g3
    refine ⟨i2, ?_, k2, k3⟩
    show Decoder.getChars (t.length + 1) i = _
    unfold Decoder.getChars
    simp only [g1, Res.ok_bind, k1, UInt8.ofNat_toNat]
    rfl

theorem chardata_fields {E : Env} {code : Varcode} {n : Nat} {info : Varinfo}
    (h : Varinfo.set_string E code n = .ok info) :
    info.code = code ∧ info.len = n ∧ info.type = .string := by
  unfold Varinfo.set_string Varinfo.compute_range at h
  simp only [Varinfo.raw] at h
  cases h
  exact ⟨rfl, rfl, rfl⟩

theorem get_chardata_ok {E : Env} {c : TableCaches} (hc : CharData E c) {code : Varcode}
    {info : Varinfo} (h : Varinfo.set_string E code (WR_VAR_Y code) = .ok info) :
    (c.get_chardata E code (WR_VAR_Y code)).2 = .ok info ∧
    CharData E (c.get_chardata E code (WR_VAR_Y code)).1 ∧
    (c.get_chardata E code (WR_VAR_Y code)).1.unknown_table = c.unknown_table := by
  have hcode := (chardata_fields h).1
  unfold TableCaches.get_chardata TableCaches.lookupOrAdd
  cases hl : c.chardata_table.lookup code with
  | some i =>
    have := hc code i hl
    rw [h] at this
    cases this
    simp only [hcode, ne_eq, not_true_eq_false, if_false]
    exact ⟨trivial, hc, trivial⟩
  | none =>
    simp only [h]
    refine ⟨trivial, fun code' info' hl' => ?_, trivial⟩
    simp only [List.lookup_cons] at hl'
    by_cases he : code' = code
    · subst he
      simp only [beq_self_eq_true] at hl'
      cases hl'
      exact h
    · rw [show (code' == code) = false by simpa using he] at hl'
      exact hc code' info' hl'

theorem newStr_ok (O : Opts) {info : Varinfo} (ht : info.type = .string) {t : List Byte}
    (hnul : NulFree t) (hl : t.length = info.len) :
    ∃ v, Var.newStr O info t = .ok v ∧ v.WF ∧ v.info = info ∧ v.toVarCore.view = some (.text t) ∧
      v.attrs = [] := by
  obtain ⟨m, h1, h2, h3⟩ := assign_c_ok (v := Var.new info) (WF_new _) ht t [] hnul t.length
  rw [show (Var.new info).info.len = info.len from rfl, ← hl, Nat.min_self, List.take_length] at h3
  refine ⟨(Var.new info).putMem m, ?_, ⟨Var.WF_putMem_string ht h2 h3, ?_, ?_⟩, rfl,
    Var.view_putMem_string ht h3, rfl⟩
  · unfold Var.newStr Var.sets
    rw [show (Var.new info).info.type = .string from ht]
    simp only [List.append_nil] at h1
    simp only [h1]
    rfl
  · intro a ha; cases ha
  · exact List.Pairwise.nil

end Wreport
