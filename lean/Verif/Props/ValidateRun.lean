import Verif.Spec.Validate
import Verif.Lemmas.DataSim
import Verif.Props.Data
import Verif.Props.Validate

/-!
# C39 for whole subsets
-/

namespace Wreport

open Spec Enc Rel

/-- An accepted, writable value is written. -/
theorem writable_written {E : Env} {info : Varinfo} {v : VarCore} {o : BitOut} (ho : o.WF)
    (hv : v.WF) (hw : writable info v = true) (h : Validator.check_fits E false info v = .ok ()) :
    ∃ o', o.append_var E info v = .ok o' ∧ o'.WF := by
  unfold writable at hw
  by_cases hs : v.isset = true
  · rw [if_pos hs, decide_eq_true_eq] at hw
    obtain ⟨ht, hb⟩ := hw
    rcases WF_set hv hs with ⟨hn, -⟩ | ⟨h1, m, s, h2, h3, h4, -⟩ | ⟨h1, m, h2, h3, h4, -⟩
    · obtain ⟨_, _, o', -, -, a, b, -⟩ := C39_fits_partial E info v o ho (by
        unfold Varinfo.IsNum at *; rwa [← ht]) hs h
      exact ⟨o', a, b⟩
    · obtain ⟨e1, r, hr⟩ := cstr_eq_ok h4
      obtain ⟨o', a, b, -⟩ := BitOut.append_string_ok ho e1 r info.bit_len
      refine ⟨o', ?_, b⟩
      unfold BitOut.append_var
      rw [if_neg (by simp [hs]), ← ht, h1]
      unfold VarCore.enqc VarCore.ptr
      simp only [hs, h1, h2, Bool.not_true, Bool.false_eq_true, if_false, Res.ok_bind, hr]
      exact a
    · have hb' := hb (ht ▸ h1)
      have hm : m = toMem ((m.take v.info.len).map (·.getD 0)) ++ m.drop v.info.len := by
        have e : toMem ((m.take v.info.len).map (·.getD 0)) = m.take v.info.len := by
          unfold toMem
          rw [List.map_map]
          conv_rhs => rw [← List.map_id (m.take v.info.len)]
          refine List.map_congr_left fun a ha => ?_
          cases a with
          | none => exact absurd ha h4
          | some b => rfl
        rw [e, List.take_append_drop]
      obtain ⟨o', a, b, -⟩ := BitOut.append_binary_ok ho
        (w := (m.take v.info.len).map (·.getD 0)) (m.drop v.info.len) (left := info.bit_len)
        (by simp only [List.length_map, List.length_take]; omega)
      refine ⟨o', ?_, b⟩
      unfold BitOut.append_var
      rw [if_neg (by simp [hs]), ← ht, h1]
      unfold VarCore.enqc VarCore.ptr
      simp only [hs, h1, h2, Bool.not_true, Bool.false_eq_true, if_false, Res.ok_bind]
      rw [hm]
      exact a
  · rw [if_neg hs, decide_eq_true_eq] at hw
    obtain ⟨o', a, b, -⟩ := BitOut.add_bits_ok ho 0xffffffff (n := info.bit_len) (by omega) hw.2
    refine ⟨o', ?_, b⟩
    unfold BitOut.append_var BitOut.append_missing
    rw [if_pos (by simpa using hs)]
    exact a

/-- The states of the validator and of the encoder. -/
def validRel : Rel (Enc Unit) (Enc BitOut) where
  le _ _ := True
  refl _ := trivial
  trans _ _ _ _ _ := trivial
  Q _ a b _ _ _ _ := b.subset = a.subset ∧ b.current_var = a.current_var ∧ b.ob.WF ∧
    ∀ v ∈ a.subset, v.WF
  stable _ _ _ _ _ _ _ _ _ h := h

theorem ifAt_ok {α : Type} {st : St Unit} {pos : Nat} {p : Var → Bool} {r : Res α} {a : α}
    (h : ifAt st pos p r = .ok a) : ∃ v, st.tgt.subset[pos]? = some v ∧ p v = true ∧ r = .ok a := by
  unfold ifAt at h
  split at h
  · rename_i v hv
    by_cases hp : p v = true
    · rw [if_pos hp] at h
      exact ⟨v, hv, hp, h⟩
    · rw [if_neg hp] at h
      cases h
  · cases h

theorem get_var_some {β : Type} {st : St β} {v : Var} (h : st.tgt.subset[st.tgt.current_var]? = some v) :
    get_var st = .ok (v, { st with tgt := { st.tgt with current_var := st.tgt.current_var + 1 } }) := by
  unfold get_var get_var_at
  rw [h]
  rfl

/-- The state after a variable was taken. -/
def taken {β : Type} (st : St β) : St β :=
  { st with tgt := { st.tgt with current_var := st.tgt.current_var + 1 } }

theorem get_var_taken {β : Type} {st : St β} {v : Var}
    (h : st.tgt.subset[st.tgt.current_var]? = some v) : get_var st = .ok (v, taken st) :=
  get_var_some h

variable {F : Enc Unit} {s : St Unit} {t : St BitOut}

theorem valid_next (h : validRel.R F s t) : t.tgt.subset[t.tgt.current_var]? =
    s.tgt.subset[s.tgt.current_var]? := by
  rw [h.tgt.1, h.tgt.2.1]

theorem valid_taken (h : validRel.R F s t) : validRel.R F (taken s) (taken t) :=
  ⟨{ h.same with }, h.tgt.1, by show _ + 1 = _ + 1; rw [h.tgt.2.1], h.tgt.2.2⟩

theorem valid_put (h : validRel.R F s t) {o : BitOut} (ho : o.WF) : validRel.R F s (put t o) :=
  ⟨{ h.same with }, h.tgt.1, h.tgt.2.1, ho, h.tgt.2.2.2⟩

theorem valid_put' (h : validRel.R F s t) {o : BitOut} (ho : o.WF) :
    validRel.R F (put s ()) (put t o) :=
  ⟨{ h.same with }, h.tgt.1, h.tgt.2.1, ho, h.tgt.2.2.2⟩

theorem valid_wf (h : validRel.R F s t) {i : Nat} {v : Var} (hv : s.tgt.subset[i]? = some v) : v.WF :=
  h.tgt.2.2.2 v (List.mem_of_getElem? hv)

/-- Checking a value and writing it. -/
theorem valid_encode {E : Env} {info : Varinfo} {v : VarCore} {s' : St Unit}
    (h : validRel.R F s t) (hv : v.WF) (hw : writable info v = true)
    (he : encode (Validator.encode_var E false) s info v = .ok s') :
    ∃ t', encode (BitOut.append_var E) t info v = .ok t' ∧ validRel.R F s' t' := by
  unfold encode at he
  obtain ⟨u, h1, h2⟩ := Res.bind_eq_ok.mp he
  cases u
  cases h2
  obtain ⟨o', a, b⟩ := writable_written h.tgt.2.2.1 hv hw h1
  exact ⟨put t o', by unfold encode; simp only [a, Res.ok_bind, Res.pure_def], valid_put' h b⟩

theorem enqa_wf {v : Var} (hv : v.WF) {c : Varcode} {a : VarCore} (h : v.enqa c = some a) : a.WF := by
  unfold Var.enqa at h
  rw [enqaList_eq hv.sorted] at h
  exact hv.attrs a (List.mem_of_find?_eq_some h)

/-- An attribute checked and written. -/
theorem valid_attr {E : Env} {info : Varinfo} {pos : Nat} {v : Var} {s' : St Unit}
    (h : validRel.R F s t) (hv : s.tgt.subset[pos]? = some v) (hw : writableAttr info v = true)
    (hc : Validator.check_attr E false s info pos = .ok s') :
    ∃ t', DDSEncoder.encode_attr E t info pos info.code = .ok t' ∧ validRel.R F s' t' := by
  unfold Validator.check_attr get_var_at at hc
  unfold DDSEncoder.encode_attr get_var_at
  rw [h.tgt.1]
  simp only [hv, Res.ok_bind] at hc ⊢
  unfold writableAttr at hw
  cases ha : v.enqa info.code with
  | none =>
    simp only [ha] at hc hw ⊢
    cases hc
    rw [decide_eq_true_eq] at hw
    obtain ⟨o', a, b, -⟩ := BitOut.add_bits_ok h.tgt.2.2.1 0xffffffff (n := info.bit_len)
      (by omega) hw.2
    refine ⟨put t o', ?_, valid_put h b⟩
    unfold BitOut.append_missing
    simp only [a, Res.ok_bind, Res.pure_def]
  | some x =>
    simp only [ha] at hc hw ⊢
    obtain ⟨u, h1, h2⟩ := Res.bind_eq_ok.mp hc
    cases h2
    obtain ⟨o', a, b⟩ := writable_written h.tgt.2.2.1 (enqa_wf (valid_wf h hv) ha) hw h1
    exact ⟨put t o', by simp only [a, Res.ok_bind, Res.pure_def], valid_put h b⟩

/-- The associated field written. -/
theorem valid_field {v : Var} (h : validRel.R F s t) (hv : v.WF)
    (hw : writableField s.associated_field v = true) :
    ∃ t', DDSEncoder.encode_associated_field t v = .ok t' ∧ validRel.R F s t' := by
  unfold writableField at hw
  have hg : t.associated_field.get_attribute v = s.associated_field.get_attribute v := by
    unfold AssociatedField.get_attribute
    rw [h.same.meaning]
  rw [Bool.and_eq_true, decide_eq_true_eq] at hw
  obtain ⟨⟨w1, w2⟩, w3⟩ := hw
  unfold DDSEncoder.encode_associated_field
  rw [hg, h.same.field]
  have missing : ∃ t', (do
      let ob ← t.tgt.ob.append_missing s.associated_field.bit_count
      pure (put t ob) : Res (St BitOut)) = .ok t' ∧ validRel.R F s t' := by
    obtain ⟨o', a, b, -⟩ := BitOut.add_bits_ok h.tgt.2.2.1 0xffffffff
      (n := s.associated_field.bit_count) (by omega) w2
    refine ⟨put t o', ?_, valid_put h b⟩
    unfold BitOut.append_missing
    simp only [a, Res.ok_bind, Res.pure_def]
  cases hr : s.associated_field.get_attribute v with
  | err e => rw [hr] at w3; cases w3
  | ub => rw [hr] at w3; cases w3
  | ok att =>
    rw [hr] at w3
    simp only [Res.ok_bind]
    cases att with
    | none => exact missing
    | some x =>
      have hx : x.WF := by
        unfold AssociatedField.get_attribute at hr
        repeat' split at hr
        all_goals first
          | exact enqa_wf hv (Res.ok.inj hr)
          | cases hr
      by_cases hs : x.isset = true
      · simp only [hs, Bool.not_true, Bool.false_or, decide_eq_true_eq] at w3
        simp only [Option.filter_some, hs, if_true]
        obtain ⟨i, c1, -⟩ := (WF_num (v := x) w3).mp hx
        have hi : x.enqi = .ok i := by
          unfold VarCore.enqi
          rcases w3 with w | w <;> simp [hs, w, c1]
        obtain ⟨o', a, b, -⟩ := BitOut.add_bits_ok h.tgt.2.2.1 (toU32 i)
          (n := s.associated_field.bit_count) (by omega) w2
        refine ⟨put t o', ?_, valid_put h b⟩
        simp only [hi, a, Res.ok_bind, Res.pure_def]
      · simp only [Option.filter_some, hs, Bool.false_eq_true, if_false]
        exact missing

/-- A bitmap that could be read can be written. -/
theorem build_marked {codes : List Varcode} {m : Res Mem} (b s : Nat) (refs refs' : List Nat)
    (h : Bitmap.build codes m b s refs = .ok refs') :
    ∃ m', m = .ok m' ∧ ∀ i < b, (Bitmap.marked m' i).isOk = true := by
  induction b generalizing s refs with
  | zero => cases h
  | succ b ih =>
    unfold Bitmap.build at h
    obtain ⟨s1, -, h⟩ := Res.bind_eq_ok.mp h
    obtain ⟨m1, hm, h⟩ := Res.bind_eq_ok.mp h
    obtain ⟨p, hp, h⟩ := Res.bind_eq_ok.mp h
    refine ⟨m1, hm, fun i hi => ?_⟩
    have hb : (Bitmap.marked m1 b).isOk = true := by rw [hp]; rfl
    by_cases h0 : b = 0
    · have : i = b := by omega
      rw [this]
      exact hb
    · rw [if_neg h0] at h
      by_cases h1 : s1 = 0
      · rw [if_pos h1] at h
        cases h
      · rw [if_neg h1] at h
        obtain ⟨m2, e1, e2⟩ := ih _ _ h
        rw [hm] at e1
        cases e1
        rcases Nat.lt_succ_iff_lt_or_eq.mp hi with hi | rfl
        · exact e2 i hi
        · exact hb

theorem marks_written {m : Mem} (n i : Nat) (o : BitOut) (ho : o.WF)
    (h : ∀ j < i + n, (Bitmap.marked m j).isOk = true) :
    ∃ o', DDSEncoder.bitmapBits (.ok m) n i o = .ok o' ∧ o'.WF := by
  induction n generalizing i o with
  | zero => exact ⟨o, rfl, ho⟩
  | succ n ih =>
    have hi := h i (by omega)
    cases hp : Bitmap.marked m i with
    | err e => rw [hp] at hi; cases hi
    | ub => rw [hp] at hi; cases hi
    | ok p =>
      obtain ⟨o1, a, b, -⟩ := BitOut.add_bits_ok ho (if p then 0 else 1) (n := 1) (by omega) (by omega)
      obtain ⟨o2, c, d⟩ := ih (i + 1) o1 b (fun j hj => h j (by omega))
      refine ⟨o2, ?_, d⟩
      unfold DDSEncoder.bitmapBits
      simp only [Res.ok_bind, hp, a, c]

/-- The encoder follows the strict validation. -/
theorem validSims (C : Ctx) : validRel.Sims (strict C) (DDSEncoder.target C) where
  bitmap := by
    intro s n s' hs
    refine ⟨trivial, fun F t _ hr => ?_⟩
    obtain ⟨v, hv, hp, h⟩ := ifAt_ok hs
    simp only [decide_eq_true_eq] at hp
    change Enc.define_bitmap C.E s n = _ at h
    unfold Enc.define_bitmap at h
    rw [get_var_taken hv, Res.ok_bind] at h
    by_cases hc : WR_VAR_F v.code ≠ 2
    · rw [if_pos hc] at h
      cases h
    rw [if_neg hc] at h
    obtain ⟨b, hb, h⟩ := Res.bind_eq_ok.mp h
    cases h
    have hb' := hb
    unfold Bitmaps.define at hb'
    cases hn : Bitmap.new C.E v.toVarCore (codes (taken s)) (taken s).tgt.current_var with
    | err e => rw [hn] at hb'; simp only at hb'; split at hb' <;> cases hb'
    | ub => rw [hn] at hb'; cases hb'
    | ok c =>
      unfold Bitmap.new at hn
      split at hn
      · cases hn
      split at hn
      · cases hn
      obtain ⟨refs, hn, -⟩ := Res.bind_eq_ok.mp hn
      obtain ⟨m, e1, e2⟩ := build_marked _ _ _ _ hn
      obtain ⟨o', a, w⟩ := marks_written (m := m) n 0 t.tgt.ob hr.tgt.2.2.1 (fun j hj => e2 j (by omega))
      have ht := valid_taken hr
      refine ⟨{ put (taken t) o' with bitmaps := b }, ?_, ?_⟩
      · change DDSEncoder.define_bitmap C.E t n = _
        unfold DDSEncoder.define_bitmap
        rw [get_var_taken ((valid_next hr).trans hv), Res.ok_bind]
        simp only
        rw [if_neg hc, if_neg (by simpa using hp), e1]
        have : (taken t).tgt.ob = t.tgt.ob := rfl
        rw [this, a, Res.ok_bind]
        have e3 : codes (taken t) = codes (taken s) := by unfold codes; rw [ht.tgt.1]
        rw [e3, ht.tgt.2.1, ht.same.bitmaps, hb]
        rfl
      · exact ⟨{ ht.same with bitmaps := rfl }, ht.tgt.1, ht.tgt.2.1, w, ht.tgt.2.2.2⟩
  element := by
    intro s info s' hs
    refine ⟨trivial, fun F t _ hr => ?_⟩
    obtain ⟨v, hv, hp, h⟩ := ifAt_ok hs
    change Enc.define_variable _ s info = _ at h
    unfold Enc.define_variable at h
    rw [get_var_taken hv, Res.ok_bind] at h
    obtain ⟨t', a, b⟩ := valid_encode (valid_taken hr) (valid_wf hr hv).core hp h
    refine ⟨t', ?_, b⟩
    change Enc.define_variable _ t info = _
    unfold Enc.define_variable
    rw [get_var_taken ((valid_next hr).trans hv), Res.ok_bind]
    exact a
  associated := by
    intro s info s' hs
    refine ⟨trivial, fun F t _ hr => ?_⟩
    obtain ⟨v, hv, hp, h⟩ := ifAt_ok hs
    rw [Bool.and_eq_true] at hp
    change Enc.define_variable_with_associated_field (Validator.encode_var C.E false)
      (fun st _ => .ok st) s info = _ at h
    unfold Enc.define_variable_with_associated_field at h
    rw [get_var_taken hv, Res.ok_bind, Res.ok_bind] at h
    obtain ⟨t1, a1, b1⟩ := valid_field (valid_taken hr) (valid_wf hr hv) hp.2
    obtain ⟨t', a, b⟩ := valid_encode b1 (valid_wf hr hv).core hp.1 h
    refine ⟨t', ?_, b⟩
    change Enc.define_variable_with_associated_field _ _ t info = _
    unfold Enc.define_variable_with_associated_field
    rw [get_var_taken ((valid_next hr).trans hv), Res.ok_bind, a1, Res.ok_bind]
    exact a
  factor := by
    intro s info n s' hs
    refine ⟨trivial, fun F t _ hr => ?_⟩
    obtain ⟨v, hv, hp, h⟩ := ifAt_ok hs
    change Enc.define_delayed_replication_factor _ s info = _ at h
    unfold Enc.define_delayed_replication_factor at h
    rw [get_var_taken hv, Res.ok_bind] at h
    obtain ⟨s1, h1, h⟩ := Res.bind_eq_ok.mp h
    obtain ⟨k, h2, h⟩ := Res.bind_eq_ok.mp h
    cases h
    obtain ⟨t', a, b⟩ := valid_encode (valid_taken hr) (valid_wf hr hv).core hp h1
    refine ⟨t', ?_, b⟩
    change Enc.define_delayed_replication_factor _ t info = _
    unfold Enc.define_delayed_replication_factor
    rw [get_var_taken ((valid_next hr).trans hv), Res.ok_bind, a, Res.ok_bind, h2]
    rfl
  bitmapFactor := by
    intro s info n s' hs
    refine ⟨trivial, fun F t _ hr => ?_⟩
    change (if _ then _ else _) = _ at hs
    by_cases hi : (info.type = .integer ∨ info.type = .decimal) ∧ 1 ≤ info.bit_len ∧ info.bit_len ≤ 32
    · rw [if_pos hi] at hs
      change Enc.define_bitmap_delayed_replication_factor _ _ s info = _ at hs
      unfold Enc.define_bitmap_delayed_replication_factor at hs
      obtain ⟨v, h1, h⟩ := Res.bind_eq_ok.mp hs
      obtain ⟨rep, h2, h⟩ := Res.bind_eq_ok.mp h
      obtain ⟨s1, h3, h⟩ := Res.bind_eq_ok.mp h
      cases h
      have key : ∃ t', encode (BitOut.append_var C.E) t info rep.toVarCore = .ok t' ∧
          validRel.R F s' t' := by
        unfold encode at h3
        obtain ⟨u, h4, h5⟩ := Res.bind_eq_ok.mp h3
        cases u
        cases h5
        by_cases hset : rep.toVarCore.isset = true
        · obtain ⟨_, _, o', -, -, a, b, -⟩ := C39_fits_partial C.E info rep.toVarCore t.tgt.ob
            hr.tgt.2.2.1 hi.1 hset h4
          exact ⟨put t o', by unfold encode; simp only [a, Res.ok_bind, Res.pure_def], valid_put' hr b⟩
        · obtain ⟨o', a, b, -⟩ := BitOut.add_bits_ok hr.tgt.2.2.1 0xffffffff (n := info.bit_len)
            (by omega) hi.2.2
          refine ⟨put t o', ?_, valid_put' hr b⟩
          unfold encode BitOut.append_var BitOut.append_missing
          rw [if_pos (by simpa using hset)]
          simp only [a, Res.ok_bind, Res.pure_def]
      obtain ⟨t', a, b⟩ := key
      refine ⟨t', ?_, b⟩
      change Enc.define_bitmap_delayed_replication_factor _ _ t info = _
      unfold Enc.define_bitmap_delayed_replication_factor
      have e : get_var_at t t.tgt.current_var = get_var_at s s.tgt.current_var := by
        unfold get_var_at
        rw [valid_next hr]
      rw [e, h1, Res.ok_bind, h2, Res.ok_bind, a]
      rfl
    · rw [if_neg hi] at hs
      cases hs
  significance := by
    intro s info n s' hs
    refine ⟨trivial, fun F t _ hr => ?_⟩
    obtain ⟨v, hv, hp, h⟩ := ifAt_ok hs
    change Enc.define_associated_field_significance _ s info = _ at h
    unfold Enc.define_associated_field_significance at h
    rw [get_var_taken hv, Res.ok_bind] at h
    obtain ⟨s1, h1, h⟩ := Res.bind_eq_ok.mp h
    obtain ⟨k, h2, h⟩ := Res.bind_eq_ok.mp h
    cases h
    obtain ⟨t', a, b⟩ := valid_encode (valid_taken hr) (valid_wf hr hv).core hp h1
    refine ⟨t', ?_, b⟩
    change Enc.define_associated_field_significance _ t info = _
    unfold Enc.define_associated_field_significance
    rw [get_var_taken ((valid_next hr).trans hv), Res.ok_bind, a, Res.ok_bind, h2]
    rfl
  substituted := by
    intro s pos s' hs
    refine ⟨trivial, fun F t _ hr => ?_⟩
    obtain ⟨v, hv, hp, h⟩ := ifAt_ok hs
    change Validator.define_substituted_value _ _ s pos = _ at h
    unfold Validator.define_substituted_value at h
    simp only [hv] at h
    obtain ⟨t', a, b⟩ := valid_attr hr hv hp h
    refine ⟨t', ?_, b⟩
    change DDSEncoder.define_substituted_value _ t pos = _
    unfold DDSEncoder.define_substituted_value
    rw [hr.tgt.1]
    simp only [hv]
    exact a
  attr := by
    intro s info pos s' hs
    refine ⟨trivial, fun F t _ hr => ?_⟩
    obtain ⟨v, hv, hp, h⟩ := ifAt_ok hs
    exact valid_attr hr hv hp h
  raw := by
    intro s code s' hs
    refine ⟨trivial, fun F t _ hr => ?_⟩
    obtain ⟨v, hv, hp, h⟩ := ifAt_ok hs
    simp only [decide_eq_true_eq] at hp
    change Validator.define_raw_character_data s code = _ at h
    unfold Validator.define_raw_character_data at h
    rw [get_var_taken hv, Res.ok_bind] at h
    simp only at h
    split at h
    · cases h
    cases h
    have key : ∃ x r, DDSEncoder.enqEmpty C.E v.toVarCore = .ok (c_str x ++ r) ∧ NulFree x := by
      unfold DDSEncoder.enqEmpty
      by_cases hset : v.toVarCore.isset = true
      · rw [if_pos hset]
        rcases WF_set (valid_wf hr hv).core hset with ⟨hn, -⟩ | ⟨h1, m, x, h2, h3, h4, -⟩ | ⟨h1, -⟩
        · rcases hn with hn | hn <;> rw [hp] at hn <;> cases hn
        · obtain ⟨e1, r, hr'⟩ := cstr_eq_ok h4
          refine ⟨x, r, ?_, e1⟩
          unfold VarCore.enqc VarCore.ptr
          simp only [hset, h1, h2, Bool.not_true, Bool.false_eq_true, if_false, hr']
        · rw [hp] at h1
          cases h1
      · rw [if_neg hset]
        exact ⟨[], [], by simp, by intro b hb; cases hb⟩
    obtain ⟨x, r, k1, k2⟩ := key
    have ht := valid_taken hr
    obtain ⟨o', a, b, -⟩ := BitOut.append_string_ok ht.tgt.2.2.1 k2 r (WR_VAR_Y code * 8)
    refine ⟨put (taken t) o', ?_, valid_put ht b⟩
    change DDSEncoder.define_raw_character_data C.E t code = _
    unfold DDSEncoder.define_raw_character_data
    rw [get_var_taken ((valid_next hr).trans hv), Res.ok_bind]
    simp only [k1, Res.ok_bind, a, Res.pure_def]
  refval := by
    intro s code s' hs
    refine ⟨trivial, fun F t _ hr => ?_⟩
    change (if _ then _ else _) = _ at hs
    by_cases hb : s.c03_refval_override_bits ≤ 32
    · rw [if_pos hb] at hs
      change Validator.define_c03_refval_override C s code = _ at hs
      unfold Validator.define_c03_refval_override at hs
      obtain ⟨x, h1, h⟩ := Res.bind_eq_ok.mp hs
      cases h
      have e : c03_checked C t code = c03_checked C s code := by
        unfold c03_checked
        rw [hr.tgt.1, hr.same.refBits]
      have hpos : 0 < s.c03_refval_override_bits := by
        unfold c03_checked at h1
        obtain ⟨y, -, h1⟩ := Res.bind_eq_ok.mp h1
        obtain ⟨z, -, h1⟩ := Res.bind_eq_ok.mp h1
        split at h1
        · cases h1
        · omega
      obtain ⟨o', a, b, -⟩ := BitOut.add_bits_ok hr.tgt.2.2.1 x.2 hpos hb
      refine ⟨(put t o').setOverride code x.1, ?_, ?_⟩
      · change DDSEncoder.define_c03_refval_override C t code = _
        unfold DDSEncoder.define_c03_refval_override
        rw [e, h1, Res.ok_bind, hr.same.refBits]
        simp only [a, Res.ok_bind, Res.pure_def]
      · have h' := valid_put hr b
        refine ⟨{ h'.same with refs := ?_ }, h'.tgt⟩
        unfold Interp.setOverride
        simp only [h'.same.refs]
    · rw [if_neg hb] at hs
      cases hs

/-! ## C39 -/

/-- C39 (part), for whole subsets: a subset of well-formed variables that passes
validation, and at each step of it meets what validation leaves out (`Spec.strict`),
is written by the encoder. What is left out is needed: `C39_not_32`,
`C39_not_missing`, `C39_not_field`, `C39_not_bitmap`. -/
theorem C39_run_partial (C : Ctx) (depth : Nat) (datadesc : List Varcode) (S : List Var)
    (caches : TableCaches) (o : BitOut) (ho : o.WF) (hS : ∀ v ∈ S, v.WF)
    (h : (Interp.run C (strict C) depth datadesc (.new caches ⟨S, 0, ()⟩)).isOk = true) :
    ∃ caches' o', DDSEncoder.encodeSubset C depth datadesc S caches o = .ok (caches', o') ∧ o'.WF := by
  cases hr : Interp.run C (strict C) depth datadesc (.new caches ⟨S, 0, ()⟩) with
  | err e => rw [hr] at h; cases h
  | ub => rw [hr] at h; cases h
  | ok s' =>
    have := Interp.sim_run C (validSims C) depth datadesc (.new caches ⟨S, 0, ()⟩) s' hr
    obtain ⟨t', a, b⟩ := this.2 s'.tgt (.new caches ⟨S, 0, o⟩) trivial
      ⟨⟨rfl, rfl, rfl, rfl, rfl, rfl, rfl, rfl, rfl, rfl⟩, rfl, rfl, ho, hS⟩
    refine ⟨t'.caches, t'.tgt.ob, ?_, b.tgt.2.2.1⟩
    unfold DDSEncoder.encodeSubset
    rw [a]
    rfl

/-- What validating a subset says: the number of variables looked at. -/
def validated (datadesc : List Varcode) (S : List Var) : Res Nat := do
  let st ← Interp.run sampleCtx (Validator.target sampleCtx false) 1 datadesc
    (.new noCaches ⟨S, 0, ()⟩)
  return st.tgt.current_var

/-- The same for the strict validation. -/
def strictly (datadesc : List Varcode) (S : List Var) : Res Nat := do
  let st ← Interp.run sampleCtx (strict sampleCtx) 1 datadesc (.new noCaches ⟨S, 0, ()⟩)
  return st.tgt.current_var

/-- The bits written for a subset. -/
def bitsWritten (datadesc : List Varcode) (S : List Var) : Res (List Bool) := do
  let r ← DDSEncoder.encodeSubset sampleCtx 1 datadesc S noCaches (BitOut.new [])
  return r.2.bits

/-- A temperature with an associated field of one bit. -/
def fieldDesc : List Varcode := [WR_VAR 2 4 1, WR_VAR 0 31 21, WR_VAR 0 12 101, WR_VAR 2 4 0]

/-- With the field's value. -/
def fieldSubset (k : Int) : List Var :=
  [(Var.new sampleSig).putInt 1, (tempVar 27315).setaMove ((Var.new sampleQuality).putInt k)]

/-- A bitmap of one mark over two variables. -/
def bitmapDesc : List Varcode :=
  [WR_VAR 0 12 101, WR_VAR 0 2 1, WR_VAR 2 22 0, WR_VAR 1 1 1, WR_VAR 0 31 31]

/-- With a bitmap. -/
def bitmapSubset (marks : String) : List Var :=
  [tempVar 27315, codeVar 1, marksVar (WR_VAR 2 22 0) marks]

/-- Hypotheses of `C39_run_partial` met by subsets with an associated field, with a
bitmap, and with attributes. -/
example : strictly fieldDesc (fieldSubset 1) = .ok 2 ∧ strictly bitmapDesc (bitmapSubset "+") = .ok 3 ∧
    strictly attrDesc attrSubset = .ok 5 := by decide +kernel

/-- C39 fails for associated fields, which validation does not look at: 2 in a field
of one bit is accepted and written as 0. -/
theorem C39_not_field : validated fieldDesc (fieldSubset 2) = .ok 2 ∧
    bitsWritten fieldDesc (fieldSubset 2) = bitsWritten fieldDesc (fieldSubset 0) ∧
    (bitsWritten fieldDesc (fieldSubset 2)).isOk = true := by decide +kernel

/-- C39 fails for bitmaps, whose length validation does not look at: two marks where
the descriptors say one are accepted and cannot be written. -/
theorem C39_not_bitmap : validated bitmapDesc (bitmapSubset "-+") = .ok 3 ∧
    bitsWritten bitmapDesc (bitmapSubset "-+") = .err .consistency := by decide +kernel

end Wreport
