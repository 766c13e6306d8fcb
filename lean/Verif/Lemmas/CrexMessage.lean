import Verif.Props.Crex
import Verif.Props.Varcode

/-!
# CREX: encoder and decoder in step with the walk through a subset
-/

namespace Wreport.Crex

open Wreport.Spec

theorem CrexWalk.element_ok {s s' : Interp CrexWalk} {info : Varinfo}
    (h : CrexWalk.element s info = .ok s') :
    ∃ v, CrexWalk.next s = some v ∧ v.info = info ∧ crexFits v.toVarCore = true ∧
      (s.tgt.pending = true → v.toVarCore.view ≠ none) ∧
      s' = CrexWalk.took s (crexField [] v.toVarCore) false := by
  unfold CrexWalk.element at h
  cases hn : CrexWalk.next s with
  | none => rw [hn] at h; cases h
  | some v =>
    rw [hn] at h
    simp only at h
    split at h
    · next hc =>
      cases h
      exact ⟨v, rfl, hc.1, hc.2.1, hc.2.2, rfl⟩
    · cases h

theorem CrexWalk.factor_ok {s s' : Interp CrexWalk} {info : Varinfo} {n : Nat}
    (h : CrexWalk.factor s info = .ok (n, s')) :
    ∃ v k, CrexWalk.next s = some v ∧ v.toVarCore.view = some (.num k) ∧ n = toU32 k ∧ v.info = info ∧
      ((CrexWalk.fourDigits info.code ∧ 0 ≤ k ∧ k ≤ 9999 ∧ info.imin ≤ k ∧ k ≤ info.imax ∧
          (info.len = 4 ∨ info.len = 5) ∧
          s' = CrexWalk.took s (32 :: zeroPadded 4 k.natAbs) (decide (info.len = 5))) ∨
        (¬ CrexWalk.fourDigits info.code ∧ crexFits v.toVarCore = true ∧
          s' = CrexWalk.took s (crexField [] v.toVarCore) false)) := by
  unfold CrexWalk.factor at h
  cases hn : CrexWalk.next s with
  | none => rw [hn] at h; cases h
  | some v =>
    rw [hn] at h
    simp only at h
    split at h
    · next k hk =>
      split at h
      · next h4 =>
        split at h
        · next hc =>
          simp only [Res.ok.injEq, Prod.mk.injEq] at h
          obtain ⟨rfl, rfl⟩ := h
          obtain ⟨c1, c2, c3, c4, c5, c6⟩ := hc
          exact ⟨v, k, rfl, hk, rfl, c1, .inl ⟨h4, c2, c3, c4, c5, c6, rfl⟩⟩
        · cases h
      · next h4 =>
        obtain ⟨s1, h1, h2⟩ := Res.bind_eq_ok.mp h
        simp only [Res.pure_def, Res.ok.injEq, Prod.mk.injEq] at h2
        obtain ⟨rfl, rfl⟩ := h2
        obtain ⟨v', w1, w2, w3, -, w4⟩ := CrexWalk.element_ok h1
        rw [hn] at w1
        cases w1
        exact ⟨v, k, rfl, hk, rfl, w2, .inr ⟨h4, w3, w4⟩⟩
    · cases h

theorem crexNext_mem {st : Interp CrexWalk} {v : Var} (h : CrexWalk.next st = some v) :
    v ∈ st.tgt.subset := List.mem_of_getElem? h

theorem crexTook_same {τ : Type} {s : Interp CrexWalk} {t : Interp τ} (h : Same s t) (f : List Byte)
    (p : Bool) (b : τ) : Same (CrexWalk.took s f p) { t with tgt := b } :=
  ⟨h.bitmaps, h.field, h.meaning, h.scale, h.width, h.increase, h.string, h.refs, h.refBits, h.unknown⟩

/-! ## The encoder -/

/-- The encoder is at the same variable and has written the same text after `pre`,
without check digits. -/
def encRel (S : List Var) (pre : List Byte) : Rel CrexWalk (Enc Out) where
  le _ _ := True
  refl _ := trivial
  trans _ _ _ _ _ := trivial
  Q _ a b _ _ _ _ := a.subset = S ∧ b.subset = S ∧ b.current_var = a.pos ∧ b.ob.has_check_digit = false ∧
    b.ob.buf = pre ++ a.text
  stable _ _ _ _ _ _ _ _ _ h := h

theorem encRel_step {S : List Var} {pre : List Byte} {F : CrexWalk} {s : Interp CrexWalk}
    {t : Enc.St Out} (h : (encRel S pre).R F s t) (f : List Byte) (p : Bool) {o' : Out}
    (ho : o'.has_check_digit = false) (hb : o'.buf = t.tgt.ob.buf ++ f) :
    (encRel S pre).R F (CrexWalk.took s f p)
      { t with tgt := ⟨t.tgt.subset, t.tgt.current_var + 1, o'⟩ } := by
  obtain ⟨h1, q1, q2, q3, q4, q5⟩ := h
  refine ⟨crexTook_same h1 f p _, q1, q2, ?_, ho, ?_⟩
  · show t.tgt.current_var + 1 = s.tgt.pos + 1
    omega
  · show o'.buf = pre ++ (s.tgt.text ++ f)
    rw [hb, q5, List.append_assoc]

theorem toU32_small {k : Int} (h0 : 0 ≤ k) (h : k ≤ 9999) : toU32 k = k.natAbs := by
  unfold toU32
  omega

theorem encSims (C : Ctx) (S : List Var) (hS : Sound C.E S) (pre : List Byte) :
    (encRel S pre).Sims CrexWalk.target (Encoder.target C) where
  bitmap _ _ := Rel.Sim.err rfl
  associated _ _ := Rel.Sim.err rfl
  bitmapFactor _ _ := Rel.SimV.err rfl
  significance _ _ := Rel.SimV.err rfl
  substituted _ _ := Rel.Sim.err rfl
  attr _ _ _ := Rel.Sim.err rfl
  raw _ _ := Rel.Sim.err rfl
  refval _ _ := Rel.Sim.err rfl
  element s info := by
    intro s' hs
    obtain ⟨v, hn, rfl, hf, -, rfl⟩ := CrexWalk.element_ok hs
    refine ⟨trivial, fun F t _ hr => ?_⟩
    obtain ⟨q1, q2, q3, q4, q5⟩ := hr.tgt
    have hv := hS v (q1 ▸ crexNext_mem hn)
    obtain ⟨o', a1, a2, a3, -⟩ := crex_written C.E (o := t.tgt.ob) hv.1 hf
    rw [q4] at a2 a3
    refine ⟨_, ?_, encRel_step hr _ false a3 a2⟩
    have hg : Enc.get_var t = _ := Enc.get_var_ok (v := v) (by rw [q2, q3, ← q1]; exact hn)
    show Enc.define_variable _ t v.info = _
    unfold Enc.define_variable
    rw [hg, Res.ok_bind]
    unfold Enc.encode
    simp only [a1, Res.ok_bind]
    rfl
  factor s info := by
    intro n s' hs
    obtain ⟨v, k, hn, hk, rfl, rfl, hc⟩ := CrexWalk.factor_ok hs
    refine ⟨trivial, fun F t _ hr => ?_⟩
    obtain ⟨q1, q2, q3, q4, q5⟩ := hr.tgt
    have hv := hS v (q1 ▸ crexNext_mem hn)
    have hg : Enc.get_var t = _ := Enc.get_var_ok (v := v) (by rw [q2, q3, ← q1]; exact hn)
    have hset := (view_type hk).1
    rcases hc with ⟨h4, c1, c2, c3, c4, c5, rfl⟩ | ⟨h4, hf, rfl⟩
    all_goals unfold CrexWalk.fourDigits at h4
    · have hfmt : fmtU 4 (toU32 k) = zeroPadded 4 k.natAbs := by
        rw [toU32_small c1 c2, fmtU_eq 4 _ (by omega) (by omega)]
      refine ⟨_, ?_, encRel_step hr _ _ (o' := (t.tgt.ob.raw_append [32]).raw_append
        (zeroPadded 4 k.natAbs)) q4 (by simp [Out.raw_append])⟩
      show Encoder.define_delayed_replication_factor C.E t v.info = _
      unfold Encoder.define_delayed_replication_factor
      rw [hg, Res.ok_bind, if_pos h4]
      simp only [enqi_of_view hv.1 hk, Res.ok_bind, hfmt]
      have hed : (t.tgt.ob.raw_append [32]).encode_check_digit = t.tgt.ob.raw_append [32] := by
        unfold Out.encode_check_digit
        rw [if_pos (by simp [Out.raw_append, q4])]
      rw [hed]
      unfold Out.raw_appendf
      rw [if_pos (by rw [zeroPadded_length]; omega)]
      rfl
    · obtain ⟨o', a1, a2, a3, -⟩ := crex_written C.E (o := t.tgt.ob) hv.1 hf
      rw [q4] at a2 a3
      refine ⟨_, ?_, encRel_step hr _ false a3 a2⟩
      show Encoder.define_delayed_replication_factor C.E t v.info = _
      unfold Encoder.define_delayed_replication_factor
      rw [hg, Res.ok_bind, if_neg h4]
      simp only [a1, Res.ok_bind, hset, if_true, enqi_of_view hv.1 hk]
      rfl

/-! ## The decoder -/

/-- A field of four digits is read back, also when the descriptor says it has five
characters, if a blank follows. -/
theorem factor_read (C : Ctx) {st : Decoder.St} {v : VarCore} {k : Int} {rest : List Byte}
    (hk : v.view = some (.num k)) (h0 : 0 ≤ k) (h9 : k ≤ 9999) (hmin : v.info.imin ≤ k)
    (hmax : k ≤ v.info.imax) (hl : v.info.len = 4 ∨ v.info.len = 5)
    (hd : st.tgt.input.has_check_digit = false)
    (h : st.tgt.input.rem = zeroPadded 4 k.natAbs ++ rest) (hr : 3 ≤ rest.length) (hnd : NoDigit rest)
    (h5 : v.info.len = 5 → rest.head? = some 32) :
    ∃ w i', Decoder.read_variable C st v.info = .ok (toU32 k, { st with tgt := ⟨i', st.tgt.out ++ [w]⟩ }) ∧
      w.WF ∧ w.info = v.info ∧ w.toVarCore.view = some (.num k) ∧ w.attrs = [] ∧
      i'.rem = rest.dropWhile isSpace ∧ i'.has_check_digit = false ∧
      i'.expected_check_digit = st.tgt.input.expected_check_digit := by
  obtain ⟨hs, ht⟩ := view_type hk
  simp only at ht
  have hin : inInt k = true := by rw [inInt_iff]; omega
  have hzl := zeroPadded_length 4 k.natAbs
  have hz := zeroPadded_digits 4 k.natAbs
  have hty : v.info.type ≠ .string := by rcases ht with ht | ht <;> rw [ht] <;> decide
  obtain ⟨a, t, hat⟩ : ∃ a t, zeroPadded 4 k.natAbs = a :: t := by
    cases hc : zeroPadded 4 k.natAbs with
    | nil => rw [hc] at hzl; cases hzl
    | cons a t => exact ⟨a, t, rfl⟩
  obtain ⟨b1, b2, b3, b4⟩ := digit_not (hz a (by rw [hat]; exact List.mem_cons_self))
  have hrem : st.tgt.input.rem = a :: (t ++ rest) := by rw [h, hat]; rfl
  have hstr : strtol (zeroPadded 4 k.natAbs ++ rest) = k := by
    have := strtol_ok (n := 4) (k := k) (rest := rest) (by omega) (by omega) hin hnd
    simp only [crexValue, if_neg (show ¬ k < 0 by omega), List.nil_append] at this
    exact this
  have hput : (Var.new v.info).seti C.O k = ((Var.new v.info).putInt k, .ok ()) := by
    rw [seti_num ht]
    unfold Var.assign_i_checked
    rw [if_neg (by show ¬ (k < v.info.imin ∨ v.info.imax < k); omega)]
  have hwp : ((Var.new v.info).putInt k).toVarCore.WF :=
    (WF_num (v := ((Var.new v.info).putInt k).toVarCore) ht).mpr ⟨k, rfl, hin⟩
  have hvp : ((Var.new v.info).putInt k).toVarCore.view = some (.num k) :=
    view_num (v := ((Var.new v.info).putInt k).toVarCore) ht rfl rfl
  obtain ⟨w, w1, w2, w3, w4, w5⟩ := copy_plain (v := (Var.new v.info).putInt k)
    ⟨hwp, by simp [Var.putInt, Var.new], by simp [Var.putInt, Var.new]⟩ rfl
  refine ⟨w, (st.tgt.input.adv v.info.len).skip_spaces, ?_, w2, w3, w4.trans hvp, w5, ?_, hd, rfl⟩
  · unfold Decoder.read_variable In.parse_value
    rw [In.avail_ok (by rw [h, List.length_append, hzl]; omega) (by omega), Res.ok_bind]
    have hcd : st.tgt.input.checkDigit = .ok st.tgt.input := by
      unfold In.checkDigit; rw [if_neg (by rw [hd]; decide)]
    rw [hcd, Res.ok_bind, In.peek_ok (c := a) (by rw [hrem]; rfl), Res.ok_bind]
    simp only [b2, decide_false, Bool.and_false, Bool.false_eq_true, if_false, Res.pure_def, Res.ok_bind,
      hrem, List.headD_cons, b4]
    rw [← List.cons_append, ← hat]
    unfold Decoder.setValue
    rw [if_neg hty]
    simp only [hstr, show wrapInt k = k from wrapInt_eq hin, hput, Res.ok_bind, w1]
  · rw [In.rem_skip, In.rem_adv, h]
    rcases hl with hl | hl
    · rw [hl, List.drop_left' hzl]
    · have := h5 hl
      cases rest with
      | nil => cases this
      | cons c rest =>
        simp only [List.head?_cons, Option.some.injEq] at this
        subst this
        rw [hl, show zeroPadded 4 k.natAbs ++ 32 :: rest = (zeroPadded 4 k.natAbs ++ [32]) ++ rest by simp,
          List.drop_left' (by simp [hzl]), List.dropWhile_cons_of_pos rfl]

/-- The text of the walk does not go on with a digit, and goes on with a blank if one
has to follow. -/
def TextLe (a F : CrexWalk) : Prop :=
  ∃ x, F.text = a.text ++ x ∧ NoDigit x ∧
    (a.pending = true → (x = [] ∧ F.pending = true) ∨ x.head? = some 32)

theorem TextLe.refl (a : CrexWalk) : TextLe a a :=
  ⟨[], by simp, fun b h => (by cases h), fun h => .inl ⟨rfl, h⟩⟩

theorem NoDigit.append {x y : List Byte} (hx : NoDigit x) (hy : NoDigit y) : NoDigit (x ++ y) := by
  cases x with
  | nil => exact hy
  | cons d x => exact hx

theorem TextLe.trans {a b c : CrexWalk} (h : TextLe a b) (h' : TextLe b c) : TextLe a c := by
  obtain ⟨x, h1, n1, h2⟩ := h
  obtain ⟨y, h3, n2, h4⟩ := h'
  refine ⟨x ++ y, by rw [h3, h1, List.append_assoc], NoDigit.append n1 n2, fun hp => ?_⟩
  rcases h2 hp with ⟨rfl, h⟩ | h
  · exact h4 h
  · right
    cases x with
    | nil => cases h
    | cons d x => exact h

/-- What the text goes on with after a field. -/
theorem TextLe.next {F : CrexWalk} {s : Interp CrexWalk} {f w : List Byte} {p : Bool}
    (h : TextLe (CrexWalk.took s f p).tgt F) (hw : F.text = s.tgt.text ++ w) (hp : F.pending = false) :
    ∃ w', w = f ++ w' ∧ F.text = s.tgt.text ++ f ++ w' ∧ NoDigit w' ∧
      (p = true → w'.head? = some 32) := by
  obtain ⟨x, h1, h2, h3⟩ := h
  have h1 : F.text = s.tgt.text ++ f ++ x := h1
  refine ⟨x, ?_, h1, h2, fun hp' => ?_⟩
  · rw [hw, List.append_assoc] at h1
    exact List.append_cancel_left h1
  · rcases h3 hp' with ⟨-, h⟩ | h
    · rw [hp] at h; cases h
    · exact h

/-- The decoder has the rest of the text before it, without leading blanks, and has
stored copies of the variables taken so far. -/
def decRel (S : List Var) (rest : List Byte) : Rel CrexWalk Decoder.Dec where
  le := TextLe
  refl := TextLe.refl
  trans _ _ _ := TextLe.trans
  Q F a b _ _ _ _ := a.subset = S ∧ F.pending = false ∧ b.input.has_check_digit = false ∧
    b.input.expected_check_digit < 10 ∧
    (∃ w, F.text = a.text ++ w ∧ b.input.rem = (w ++ rest).dropWhile isSpace) ∧
    Copies b.out (S.take a.pos)
  stable _ _ _ _ _ _ _ _ _ h := h

theorem crexField_noDigit {v : VarCore} (hf : crexFits v = true) :
    NoDigit (crexField [] v) ∧ (v.view ≠ none → (crexField [] v).head? = some 32) := by
  unfold crexField
  cases hx : v.view with
  | none =>
    unfold crexFits at hf
    rw [hx] at hf
    simp only [decide_eq_true_eq] at hf
    obtain ⟨n, hn⟩ : ∃ n, v.info.len = n + 1 := ⟨v.info.len - 1, by omega⟩
    refine ⟨fun b hb => ?_, fun h => absurd rfl h⟩
    simp only [hn, List.replicate_succ, List.head?_cons, Option.some.injEq] at hb
    subst hb
    rfl
  | some x => exact ⟨fun b hb => (by cases hb; rfl), fun _ => rfl⟩

theorem decRel_step {S : List Var} {rest : List Byte} {F : CrexWalk} {s : Interp CrexWalk}
    {t : Decoder.St} (h : (decRel S rest).R F s t) (f : List Byte) (p : Bool) {v a : Var} {i' : In}
    (hn : CrexWalk.next s = some v) (hc : i'.has_check_digit = false) (hd : i'.expected_check_digit < 10)
    (hw : ∃ w, F.text = s.tgt.text ++ f ++ w ∧ i'.rem = (w ++ rest).dropWhile isSpace) (ha : a.WF)
    (hna : a.attrs = []) (hinfo : a.info = v.info) (hv : a.toVarCore.view = v.toVarCore.view) :
    (decRel S rest).R F (CrexWalk.took s f p) { t with tgt := ⟨i', t.tgt.out ++ [a]⟩ } := by
  obtain ⟨h1, q1, q2, q3, q4, q5, q6⟩ := h
  refine ⟨crexTook_same h1 f p _, q1, q2, hc, hd, hw, ?_⟩
  show Copies (t.tgt.out ++ [a]) (S.take (s.tgt.pos + 1))
  have hg : S[s.tgt.pos]? = some v := by rw [← q1]; exact hn
  rw [List.take_add_one, hg]
  exact q6.snoc ha hna hinfo hv

theorem decSims (C : Ctx) (S : List Var) (hS : Sound C.E S) (rest : List Byte) (hr3 : 3 ≤ rest.length)
    (hrd : NoDigit rest) : (decRel S rest).Sims CrexWalk.target (Decoder.target C) where
  bitmap _ _ := Rel.Sim.err rfl
  associated _ _ := Rel.Sim.err rfl
  bitmapFactor _ _ := Rel.SimV.err rfl
  significance _ _ := Rel.SimV.err rfl
  substituted _ _ := Rel.Sim.err rfl
  attr _ _ _ := Rel.Sim.err rfl
  raw _ _ := Rel.Sim.err rfl
  refval _ _ := Rel.Sim.err rfl
  element s info := by
    intro s' hs
    obtain ⟨v, hn, rfl, hf, hpend, rfl⟩ := CrexWalk.element_ok hs
    obtain ⟨n1, n2⟩ := crexField_noDigit hf
    refine ⟨⟨_, rfl, n1, fun h => .inr (n2 (hpend h))⟩, fun F t hle hr => ?_⟩
    · obtain ⟨q1, q2, q3, q4, ⟨w, q5, q6⟩, q7⟩ := hr.tgt
      have hv := hS v (q1 ▸ crexNext_mem hn)
      obtain ⟨w', rfl, e2, e3, -⟩ := TextLe.next hle q5 q2
      obtain ⟨n, a, i', r1, r2, r3, r4, r5, r6, r7, r8, r9⟩ := readField C (st := t)
        (rest := w' ++ rest) hv.1 hf (by rw [List.length_append]; omega) (NoDigit.append e3 hrd) q4
        (.inr q3) (by rw [q6, q3, List.append_assoc]; rfl)
      refine ⟨_, ?_, decRel_step hr _ false hn (r8.trans q3) (by rw [r9, q3]; exact q4)
        ⟨w', e2, r7⟩ r2 r5 r3 r4⟩
      show (Decoder.read_variable C t v.info >>= fun r => Res.ok r.2) = _
      rw [r1]
      rfl
  factor s info := by
    intro n s' hs
    obtain ⟨v, k, hn, hk, rfl, rfl, hc⟩ := CrexWalk.factor_ok hs
    rcases hc with ⟨h4, c1, c2, c3, c4, c5, rfl⟩ | ⟨h4, hf, rfl⟩
    · refine ⟨⟨_, rfl, fun b hb => (by cases hb; rfl), fun h => .inr rfl⟩, fun F t hle hr => ?_⟩
      obtain ⟨q1, q2, q3, q4, ⟨w, q5, q6⟩, q7⟩ := hr.tgt
      have hv := hS v (q1 ▸ crexNext_mem hn)
      obtain ⟨w', rfl, e2, e3, e4⟩ := TextLe.next hle q5 q2
      have hz := zeroPadded_digits 4 k.natAbs
      obtain ⟨a, i', r1, r2, r3, r4, r5, r7, r8, r9⟩ := factor_read C (st := t) (rest := w' ++ rest) hk
        c1 c2 c3 c4 c5 q3 (by
          rw [q6, List.cons_append, List.cons_append, List.dropWhile_cons_of_pos rfl]
          cases hc : zeroPadded 4 k.natAbs with
          | nil => have := zeroPadded_length 4 k.natAbs; rw [hc] at this; cases this
          | cons a t =>
            rw [List.cons_append, List.cons_append, List.dropWhile_cons_of_neg, List.append_assoc]
            · rfl
            · rw [(digit_not (hz a (by rw [hc]; exact List.mem_cons_self))).1]; decide)
        (by rw [List.length_append]; omega) (NoDigit.append e3 hrd) (fun h5 => by
          have := e4 (by simpa using h5)
          cases w' with
          | nil => cases this
          | cons d w' => exact this)
      exact ⟨_, r1, decRel_step hr _ _ hn r8 (by rw [r9]; exact q4) ⟨w', e2, r7⟩ r2 r5 r3
        (r4.trans hk.symm)⟩
    · obtain ⟨n1, n2⟩ := crexField_noDigit hf
      refine ⟨⟨_, rfl, n1, fun h => .inr (n2 (by rw [hk]; simp))⟩, fun F t hle hr => ?_⟩
      obtain ⟨q1, q2, q3, q4, ⟨w, q5, q6⟩, q7⟩ := hr.tgt
      have hv := hS v (q1 ▸ crexNext_mem hn)
      obtain ⟨w', rfl, e2, e3, -⟩ := TextLe.next hle q5 q2
      obtain ⟨n, a, i', r1, r2, r3, r4, r5, r6, r7, r8, r9⟩ := readField C (st := t)
        (rest := w' ++ rest) hv.1 hf (by rw [List.length_append]; omega) (NoDigit.append e3 hrd) q4
        (.inr q3) (by rw [q6, q3, List.append_assoc]; rfl)
      rw [r6 k hk] at r1
      exact ⟨_, r1, decRel_step hr _ false hn (r8.trans q3) (by rw [r9, q3]; exact q4)
        ⟨w', e2, r7⟩ r2 r5 r3 r4⟩

end Wreport.Crex
