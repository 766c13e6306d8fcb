import Verif.Lemmas.Data
import Verif.Props.Assoc
import Verif.Props.Bitmap

/-!
# Encoder and decoder in step with the walk through a subset
-/

namespace Wreport

open Spec

/-! ## The encoder -/

/-- The encoder is at the same variable and has written the same bits after
`pre`. -/
def encRel (S : List Var) (pre : List Bool) : Rel Walk (Enc BitOut) where
  le _ _ := True
  refl _ := trivial
  trans _ _ _ _ _ := trivial
  Q _ a b _ _ _ _ := a.subset = S ∧ b.subset = S ∧ b.current_var = a.pos ∧ b.ob.WF ∧
    b.ob.bits = pre ++ a.bits
  stable _ _ _ _ _ _ _ _ _ h := h

theorem next_mem {st : Interp Walk} {v : Var} (h : Walk.next st = some v) : v ∈ st.tgt.subset :=
  List.mem_of_getElem? h

theorem Same.took {τ : Type} {s : Interp Walk} {t : Interp τ} (h : Same s t) (f : List Bool)
    (b : τ) : Same (Walk.took s f) { t with tgt := b } :=
  ⟨h.bitmaps, h.field, h.meaning, h.scale, h.width, h.increase, h.string, h.refs, h.refBits, h.unknown⟩

theorem Walk.element_ok {s s' : Interp Walk} {info : Varinfo} (h : Walk.element s info = .ok s') :
    ∃ v, Walk.next s = some v ∧ v.info = info ∧ fits v.toVarCore = true ∧
      s' = Walk.took s (fieldOf v.toVarCore) := by
  unfold Walk.element at h
  cases hn : Walk.next s with
  | none => rw [hn] at h; cases h
  | some v =>
    rw [hn] at h
    simp only at h
    split at h
    · next hc =>
      cases h
      exact ⟨v, rfl, hc.1, hc.2, rfl⟩
    · cases h

theorem Walk.factor_ok {s s' : Interp Walk} {info : Varinfo} {n : Nat}
    (h : Walk.factor s info = .ok (n, s')) :
    ∃ v k, Walk.next s = some v ∧ v.toVarCore.view = some (.num k) ∧ n = toU32 k ∧ v.info = info ∧
      fits v.toVarCore = true ∧ s' = Walk.took s (fieldOf v.toVarCore) := by
  unfold Walk.factor at h
  cases hn : Walk.next s with
  | none => rw [hn] at h; cases h
  | some v =>
    rw [hn] at h
    simp only at h
    split at h
    · next k hk =>
      obtain ⟨s1, h1, h2⟩ := Res.bind_eq_ok.mp h
      simp only [Res.pure_def, Res.ok.injEq, Prod.mk.injEq] at h2
      obtain ⟨rfl, rfl⟩ := h2
      obtain ⟨v', w1, w2, w3, w4⟩ := Walk.element_ok h1
      rw [hn] at w1
      cases w1
      exact ⟨v, k, rfl, hk, rfl, w2, w3, w4⟩
    · cases h

theorem Walk.significance_ok {s s' : Interp Walk} {info : Varinfo} {n : Nat}
    (h : Walk.significance s info = .ok (n, s')) :
    ∃ v k, Walk.next s = some v ∧
      (v.toVarCore.view = none ∧ k = 63 ∨ v.toVarCore.view = some (.num k)) ∧ n = toU32 k ∧
      v.info = info ∧ fits v.toVarCore = true ∧ s' = Walk.took s (fieldOf v.toVarCore) := by
  unfold Walk.significance at h
  cases hn : Walk.next s with
  | none => rw [hn] at h; cases h
  | some v =>
    rw [hn] at h
    simp only at h
    have key : ∀ k n', (Walk.element s info >>= fun st' => Res.ok (n', st')) = .ok (n, s') →
        (v.toVarCore.view = none ∧ k = 63 ∨ v.toVarCore.view = some (.num k)) → n' = toU32 k →
        ∃ v k, some v = some v ∧
          (v.toVarCore.view = none ∧ k = 63 ∨ v.toVarCore.view = some (.num k)) ∧ n = toU32 k ∧
          v.info = info ∧ fits v.toVarCore = true ∧ s' = Walk.took s (fieldOf v.toVarCore) ∧
          Walk.next s = some v := by
      intro k n' h hk hn'
      obtain ⟨s1, h1, h2⟩ := Res.bind_eq_ok.mp h
      simp only [Res.ok.injEq, Prod.mk.injEq] at h2
      obtain ⟨rfl, rfl⟩ := h2
      obtain ⟨v', w1, w2, w3, w4⟩ := Walk.element_ok h1
      rw [hn] at w1
      cases w1
      exact ⟨v, k, rfl, hk, hn', w2, w3, w4, hn⟩
    split at h
    · next hv =>
      obtain ⟨w, k, -, a1, a2, a3, a4, a5, a6⟩ := key 63 63 h (.inl ⟨hv, rfl⟩) (by decide)
      exact ⟨w, k, hn ▸ a6, a1, a2, a3, a4, a5⟩
    · next k hk =>
      obtain ⟨w, k, -, a1, a2, a3, a4, a5, a6⟩ := key k _ h (.inr hk) rfl
      exact ⟨w, k, hn ▸ a6, a1, a2, a3, a4, a5⟩
    · cases h

theorem enq63_of_view {v : VarCore} {k : Int} (hv : v.WF)
    (h : v.view = none ∧ k = 63 ∨ v.view = some (.num k)) : Enc.enq63 v = .ok k := by
  unfold Enc.enq63
  rcases h with ⟨h, rfl⟩ | h
  · rw [unset_of_view hv h]; rfl
  · rw [(view_type h).1]
    exact enqi_of_view hv h

/-- The ways an associated field can be written. -/
theorem Walk.assocField_ok {C : Ctx} {n m : Nat} {v : Var} {f : List Bool} {c : Option Varcode}
    (h : Walk.assocField C n m v = .ok (f, c)) :
    0 < n ∧ n ≤ 31 ∧
    ((qualityCode m = none ∧ 1 ≤ m ∧ m ≤ 63 ∧ f = missingField n ∧ c = none) ∨
    ∃ q info, qualityCode m = some q ∧ C.btable.query q = .ok info ∧ info.code = q ∧ c = some q ∧
      ((attrShown v q = none ∧ m ≠ 21 ∧ f = missingField n) ∨
      ∃ k : Int, attrShown v q = some (info, some (.num k)) ∧ Walk.assocFits n m info k = true ∧
        f = bits n k.toNat)) := by
  unfold Walk.assocField at h
  split at h
  · next hq =>
    split at h
    · next hc =>
      cases h
      exact ⟨hc.1, hc.2.1, .inl ⟨hq, hc.2.2.1, hc.2.2.2, rfl, rfl⟩⟩
    · cases h
  · next q hq =>
    obtain ⟨info, h1, h2⟩ := Res.bind_eq_ok.mp h
    split at h2
    · next ha =>
      split at h2
      · next hc =>
        cases h2
        exact ⟨hc.1, hc.2.1, .inr ⟨q, info, hq, h1, hc.2.2.1, rfl, .inl ⟨ha, hc.2.2.2, rfl⟩⟩⟩
      · cases h2
    · next i k ha =>
      split at h2
      · next hc =>
        cases h2
        obtain ⟨c1, c2, c3, rfl, c5⟩ := hc
        exact ⟨c1, c2, .inr ⟨q, i, hq, h1, c3, rfl, .inr ⟨k, ha, c5, rfl⟩⟩⟩
      · cases h2
    · cases h2

/-- The walk after an element with an associated field. -/
def Walk.tookWith (s : Interp Walk) (f g : List Bool) (c : Option Varcode) : Interp Walk :=
  { s with tgt := { s.tgt with
      pos := s.tgt.pos + 1
      bits := s.tgt.bits ++ (f ++ g)
      carried := s.tgt.carried ++ (c.map fun q => (s.tgt.pos, q)).toList } }

theorem Walk.withField_ok {C : Ctx} {s s' : Interp Walk} {info : Varinfo}
    (h : Walk.withField C s info = .ok s') :
    ∃ v f c, Walk.next s = some v ∧ v.info = info ∧ fits v.toVarCore = true ∧
      Walk.assocField C s.associated_field.bit_count s.associated_field.significance v = .ok (f, c) ∧
      s' = Walk.tookWith s f (fieldOf v.toVarCore) c := by
  unfold Walk.withField at h
  cases hn : Walk.next s with
  | none => rw [hn] at h; cases h
  | some v =>
    rw [hn] at h
    simp only at h
    split at h
    · next hc =>
      obtain ⟨⟨f, c⟩, h1, h2⟩ := Res.bind_eq_ok.mp h
      cases h2
      exact ⟨v, f, c, rfl, hc.1, hc.2, h1, rfl⟩
    · cases h

/-- The codes of the variables up to the bitmap, with it. -/
def Walk.codes (s : Interp Walk) : List Varcode :=
  (s.tgt.subset.take (s.tgt.pos + 1)).map (·.code)

/-- The walk after a bitmap. -/
def Walk.marked (s : Interp Walk) (t : List Byte) (info : Varinfo) : Interp Walk :=
  { Walk.took s (t.map fun c => decide (c ≠ 43)) with
    bitmaps := { s.bitmaps with
      current := some ⟨(selected (Walk.codes s) (s.tgt.pos + 1) t).reverse, 0⟩ }
    tgt := { (Walk.took s (t.map fun c => decide (c ≠ 43))).tgt with
      seen := if (s.tgt.seen.lookup t).isSome then s.tgt.seen else (t, info) :: s.tgt.seen } }

theorem Walk.bitmap_ok {C : Ctx} {s s' : Interp Walk} {size : Nat}
    (h : Walk.bitmap C s size = .ok s') :
    ∃ v t, Walk.next s = some v ∧ v.toVarCore.view = some (.text t) ∧ WR_VAR_F v.code = 2 ∧
      v.info.len = size ∧ t.length = size ∧ 1 ≤ size ∧ (∀ c ∈ t, c = 43 ∨ c = 45) ∧
      size ≤ (elementsBefore (Walk.codes s) (s.tgt.pos + 1)).length ∧
      Walk.bitmapKnown C s.tgt.seen s.bitmaps.pending_definitions t v.info = true ∧
      s' = Walk.marked s t v.info := by
  unfold Walk.bitmap at h
  cases hn : Walk.next s with
  | none => rw [hn] at h; cases h
  | some v =>
    rw [hn] at h
    simp only at h
    split at h
    · next t ht =>
      split at h
      · next hc =>
        obtain ⟨c1, c2, c3, c4, c5, c6, c7⟩ := hc
        cases h
        refine ⟨v, t, rfl, ht, c1, c2, c3, c4, ?_, c6, c7, rfl⟩
        simpa using c5
      · cases h
    · cases h

/-- The walk after some bits. -/
def Walk.wrote (s : Interp Walk) (f : List Bool) (c : List (Nat × Varcode)) : Interp Walk :=
  { s with tgt := { s.tgt with
      bits := s.tgt.bits ++ f
      carried := s.tgt.carried ++ c } }

theorem Walk.bitmapFactor_ok {C : Ctx} {s s' : Interp Walk} {info : Varinfo} {n : Nat}
    (h : Walk.bitmapFactor C s info = .ok (n, s')) :
    ∃ v, Walk.next s = some v ∧ n = v.info.len ∧ info.IsNum ∧ info.Made C.E ∧
      (numFits info n || factorFits info n) = true ∧ n < 2 ^ 31 ∧
      s' = Walk.wrote s (bits info.bit_len ((n : Int) - info.bit_ref).toNat) [] := by
  unfold Walk.bitmapFactor at h
  cases hn : Walk.next s with
  | none => rw [hn] at h; cases h
  | some v =>
    rw [hn] at h
    simp only at h
    split at h
    · next hc =>
      obtain ⟨c1, c2, c3, c4⟩ := hc
      cases h
      simp only [Walk.asMade, decide_eq_true_eq] at c2
      refine ⟨v, rfl, rfl, c1, ⟨⟨info, c2.1⟩, c2.2⟩, c3, c4, ?_⟩
      simp [Walk.wrote]
    · cases h

theorem Walk.quality_ok {s s' : Interp Walk} {info : Varinfo} {pos : Nat}
    (h : Walk.quality s info pos = .ok s') :
    ∃ v, s.tgt.subset[pos]? = some v ∧ pos < s.tgt.pos ∧
      ((attrOf v info.code = none ∧ missingFits info = true ∧
          s' = Walk.wrote s (missingField info.bit_len) [(pos, info.code)]) ∨
        ∃ a, attrOf v info.code = some a ∧ a.info = info ∧ fits a = true ∧
          s' = Walk.wrote s (fieldOf a) [(pos, info.code)]) := by
  unfold Walk.quality at h
  split at h
  · cases h
  · next v hv =>
    split at h
    · next hp =>
      split at h
      · next ha =>
        split at h
        · next hm => cases h; exact ⟨v, hv, hp, .inl ⟨ha, hm, rfl⟩⟩
        · cases h
      · next a ha =>
        split at h
        · next hm => cases h; exact ⟨v, hv, hp, .inr ⟨a, ha, hm.1, hm.2, rfl⟩⟩
        · cases h
    · cases h

theorem Walk.substituted_ok {s s' : Interp Walk} {pos : Nat} (h : Walk.substituted s pos = .ok s') :
    ∃ v, s.tgt.subset[pos]? = some v ∧ Walk.quality s v.info pos = .ok s' := by
  unfold Walk.substituted at h
  split at h
  · cases h
  · next v hv => exact ⟨v, hv, h⟩

/-- The attribute with a value is the one the library finds, if it is set. -/
theorem attrOf_eq {v : Var} (hv : v.WF) (code : Varcode) :
    attrOf v code = (v.enqa code).filter (·.isset) := by
  obtain ⟨-, h2, h3⟩ := hv
  unfold attrOf Var.enqa
  rw [enqaList_eq h3]
  generalize v.attrs = l at h2 h3
  induction l with
  | nil => rfl
  | cons a l ih =>
    have hs := List.pairwise_cons.mp h3
    rw [List.find?_cons, List.find?_cons, ih (fun x hx => h2 x (by simp [hx])) hs.2]
    by_cases hc : a.code = code
    · cases hx : a.view with
      | none =>
        have hu := unset_of_view (h2 a (by simp)) hx
        have : l.find? (fun b => decide (b.code = code)) = none := by
          rw [List.find?_eq_none]
          intro x hx
          have := hs.1 x hx
          simp; omega
        simp [hc, this, Option.filter, hu]
      | some y =>
        simp [hc, Option.filter, (view_type hx).1]
    · simp [hc]

theorem attrOf_some {v : Var} {code : Varcode} {a : VarCore} (h : attrOf v code = some a) :
    a ∈ v.attrs ∧ a.code = code := by
  unfold attrOf at h
  have := List.find?_some h
  simp only [decide_eq_true_eq] at this
  exact ⟨List.mem_of_find?_eq_some h, this.1⟩

theorem Walk.characters_ok {E : Env} {s s' : Interp Walk} {code : Varcode}
    (h : Walk.characters E s code = .ok s') :
    ∃ v t, Walk.next s = some v ∧ v.toVarCore.view = some (.text t) ∧
      Varinfo.set_string E code (WR_VAR_Y code) = .ok v.info ∧ t.length = WR_VAR_Y code ∧
      s' = Walk.took s (bytesBits t) := by
  unfold Walk.characters at h
  cases hn : Walk.next s with
  | none => rw [hn] at h; cases h
  | some v =>
    rw [hn] at h
    simp only at h
    split at h
    · next t ht =>
      split at h
      · next hc =>
        cases h
        exact ⟨v, t, rfl, ht, hc.1, hc.2, rfl⟩
      · cases h
    · cases h

theorem Walk.override_ok {C : Ctx} {s s' : Interp Walk} {code : Varcode}
    (h : Walk.override C s code = .ok s') :
    ∃ ref, Walk.reference C s.tgt.subset code = .ok ref ∧ ref ≠ 0 ∧
      1 ≤ s.c03_refval_override_bits ∧ s.c03_refval_override_bits ≤ 32 ∧
      ref.natAbs < 2 ^ (s.c03_refval_override_bits - 1) ∧
      s' = { s with
        c03_refval_overrides := (code, toU32 ref) :: s.c03_refval_overrides
        tgt := { s.tgt with
          bits := s.tgt.bits ++ Spec.bits s.c03_refval_override_bits
            (signMagnitude s.c03_refval_override_bits ref) } } := by
  unfold Walk.override at h
  obtain ⟨ref, h1, h2⟩ := Res.bind_eq_ok.mp h
  split at h2
  · next hc =>
    cases h2
    exact ⟨ref, h1, hc.1, hc.2.1, hc.2.2.1, hc.2.2.2, rfl⟩
  · cases h2

/-- Taking and writing a variable keeps the encoder in step. -/
theorem encRel_step {S : List Var} {pre : List Bool} {F : Walk} {s : Interp Walk}
    {t : Enc.St BitOut} (h : (encRel S pre).R F s t) (f : List Bool) {o' : BitOut} (ho : o'.WF)
    (hb : o'.bits = t.tgt.ob.bits ++ f) :
    (encRel S pre).R F (Walk.took s f)
      { t with tgt := ⟨t.tgt.subset, t.tgt.current_var + 1, o'⟩ } := by
  obtain ⟨h1, q1, q2, q3, q4, q5⟩ := h
  refine ⟨h1.took f _, q1, q2, ?_, ho, ?_⟩
  · show t.tgt.current_var + 1 = s.tgt.pos + 1
    omega
  · show o'.bits = pre ++ (s.tgt.bits ++ f)
    rw [hb, q5, List.append_assoc]

/-- Writing some bits without taking a variable keeps the encoder in step. -/
theorem encRel_wrote {S : List Var} {pre : List Bool} {F : Walk} {s : Interp Walk}
    {t : Enc.St BitOut} (h : (encRel S pre).R F s t) (f : List Bool) (c : List (Nat × Varcode))
    {o' : BitOut} (ho : o'.WF) (hb : o'.bits = t.tgt.ob.bits ++ f) :
    (encRel S pre).R F (Walk.wrote s f c) (Enc.put t o') := by
  obtain ⟨h1, q1, q2, q3, q4, q5⟩ := h
  refine ⟨⟨h1.bitmaps, h1.field, h1.meaning, h1.scale, h1.width, h1.increase, h1.string, h1.refs,
    h1.refBits, h1.unknown⟩, q1, q2, q3, ho, ?_⟩
  show o'.bits = pre ++ (s.tgt.bits ++ f)
  rw [hb, q5, List.append_assoc]

theorem qualityCode_none {m : Nat} (h : qualityCode m = none) :
    m ≠ 1 ∧ m ≠ 2 ∧ m ≠ 6 ∧ m ≠ 7 ∧ m ≠ 8 ∧ m ≠ 21 := by
  refine ⟨?_, ?_, ?_, ?_, ?_, ?_⟩ <;> rintro rfl <;> cases h

theorem toU32_toNat {k : Int} (h0 : 0 ≤ k) (h1 : k < 2 ^ 31) : toU32 k = k.toNat := by
  unfold toU32
  omega

/-- An associated field is written as the walk says. -/
theorem assoc_written {C : Ctx} {n m : Nat} {v : Var} {f : List Bool} {c : Option Varcode}
    (h : Walk.assocField C n m v = .ok (f, c)) (hv : v.WF) {t : Enc.St BitOut} (ho : t.tgt.ob.WF)
    (hn : t.associated_field.bit_count = n) (hm : t.associated_field.significance = m) :
    ∃ o', DDSEncoder.encode_associated_field t v = .ok (Enc.put t o') ∧ o'.WF ∧
      o'.bits = t.tgt.ob.bits ++ f := by
  obtain ⟨n0, n1, hc⟩ := Walk.assocField_ok h
  obtain ⟨o1, b1, b2, b3⟩ := BitOut.append_missing_ok ho n0 (by omega : n ≤ 32)
  unfold DDSEncoder.encode_associated_field
  rcases hc with ⟨hq, m1, m2, rfl, -⟩ | ⟨q, info, hq, -, -, -, hc⟩
  · have hg : t.associated_field.get_attribute v = .ok none := by
      obtain ⟨k1, k2, k3, k4, k5, k6⟩ := qualityCode_none hq
      unfold AssociatedField.get_attribute
      rw [hm]
      simp [k1, k2, k3, k4, k5, k6, m1, m2]
    refine ⟨o1, ?_, b2, b3⟩
    rw [hg, Res.ok_bind]
    simp only [Option.filter, hn, b1, Res.ok_bind]
    rfl
  · rw [AssociatedField.get_attribute_eq v (by rw [hm]; exact hq), Res.ok_bind, ← attrOf_eq hv]
    rcases hc with ⟨ha, -, rfl⟩ | ⟨k, ha, hf, rfl⟩
    · have ha' : attrOf v q = none := by simpa [attrShown] using ha
      refine ⟨o1, ?_, b2, b3⟩
      rw [ha']
      simp only [hn, b1, Res.ok_bind]
      rfl
    · unfold attrShown at ha
      obtain ⟨a, a1, a2⟩ := Option.map_eq_some_iff.mp ha
      simp only [Prod.mk.injEq] at a2
      simp only [Walk.assocFits, decide_eq_true_eq] at hf
      have hw := hv.attrs a (attrOf_some a1).1
      have hp : (2 : Int) ^ n ≤ 2 ^ 31 := pow_le_pow_right₀ (by norm_num) n1
      obtain ⟨o2, e1, e2, e3⟩ := BitOut.add_bits_ok ho k.toNat n0 (by omega : n ≤ 32)
      refine ⟨o2, ?_, e2, e3⟩
      rw [a1]
      simp only [enqi_of_view hw a2.2, Res.ok_bind, hn, toU32_toNat hf.1 (by omega), e1]
      rfl

/-- An attribute is written as the walk says. -/
theorem quality_written {E : Env} (hE : IsRounding E.fl) {S : List Var} (hS : SoundAttrs E S)
    {pre : List Bool} {F : Walk} {s s' : Interp Walk} {t : Enc.St BitOut} {info : Varinfo} {pos : Nat}
    (h : Walk.quality s info pos = .ok s') (hr : (encRel S pre).R F s t) :
    ∃ t', DDSEncoder.encode_attr E t info pos info.code = .ok t' ∧ (encRel S pre).R F s' t' := by
  obtain ⟨q1, q2, q3, q4, q5⟩ := hr.tgt
  obtain ⟨v, hv, hp, hc⟩ := Walk.quality_ok h
  have hg : Enc.get_var_at t pos = .ok v := by
    unfold Enc.get_var_at
    rw [q2, ← q1, hv]
  have hw := hS v (q1 ▸ List.mem_of_getElem? hv)
  unfold DDSEncoder.encode_attr
  rw [hg, Res.ok_bind]
  have heq := attrOf_eq hw.1 info.code
  rcases hc with ⟨ha, hm, rfl⟩ | ⟨a, ha, rfl, hf, rfl⟩
  · have hb : 0 < info.bit_len ∧ info.bit_len ≤ 32 := by
      unfold missingFits at hm
      split at hm <;> simp only [decide_eq_true_eq] at hm <;> omega
    obtain ⟨o1, b1, b2, b3⟩ := BitOut.append_missing_ok q4 hb.1 hb.2
    refine ⟨Enc.put t o1, ?_, encRel_wrote hr _ _ b2 b3⟩
    rw [ha] at heq
    cases he : v.enqa info.code with
    | none =>
      simp only [b1, Res.ok_bind]
      rfl
    | some a =>
      rw [he] at heq
      have hu : a.isset = false := by
        by_contra hx
        simp [Option.filter, hx] at heq
      have : t.tgt.ob.append_var E info a = .ok o1 := by
        unfold BitOut.append_var
        rw [if_pos (by simp [hu])]
        exact b1
      simp only [this, Res.ok_bind]
      rfl
  · have he : v.enqa a.info.code = some a := by
      rw [ha] at heq
      cases he : v.enqa a.info.code with
      | none => rw [he] at heq; cases heq
      | some b =>
        rw [he] at heq
        simp only [Option.filter] at heq
        split at heq
        · exact heq.symm
        · cases heq
    obtain ⟨hma, -⟩ := attrOf_some ha
    obtain ⟨o', a1, a2, a3⟩ := field_written E hE q4 (hw.1.attrs a hma) (hw.2 a hma) hf
    refine ⟨Enc.put t o', ?_, encRel_wrote hr _ _ a2 a3⟩
    rw [he]
    simp only [a1, Res.ok_bind]
    rfl

theorem newInt_ok (O : Opts) {info : Varinfo} (hn : info.IsNum) {k : Int}
    (hr : info.imin ≤ k ∧ k ≤ info.imax) :
    Var.newInt O info k = .ok ((Var.new info).putInt k) := by
  have hs : (Var.new info).seti O k = ((Var.new info).putInt k, .ok ()) := by
    unfold Var.seti
    have ha : (Var.new info).assign_i_checked O k = ((Var.new info).putInt k, .ok ()) := by
      unfold Var.assign_i_checked
      exact if_neg (by show ¬ (k < info.imin ∨ info.imax < k); omega)
    rcases hn with h | h <;> simp only [show (Var.new info).info.type = info.type from rfl, h, ha]
  unfold Var.newInt
  rw [hs]
  rfl

theorem view_newInt {info : Varinfo} (hn : info.IsNum) (k : Int) :
    ((Var.new info).putInt k).toVarCore.view = some (.num k) :=
  view_num (v := ((Var.new info).putInt k).toVarCore) hn rfl rfl

theorem fits_newInt {info : Varinfo} (hn : info.IsNum) {k : Int}
    (h : (numFits info k || factorFits info k) = true) :
    fits ((Var.new info).putInt k).toVarCore = true ∧
      fieldOf ((Var.new info).putInt k).toVarCore = bits info.bit_len (k - info.bit_ref).toNat := by
  unfold fits fieldOf
  rw [view_newInt hn]
  exact ⟨h, rfl⟩

theorem WF_newInt {info : Varinfo} (hn : info.IsNum) {k : Int} (hk : inInt k = true) :
    ((Var.new info).putInt k).toVarCore.WF :=
  (WF_num (v := ((Var.new info).putInt k).toVarCore) hn).mpr ⟨k, rfl, hk⟩

/-- The marks of a bitmap are written as the walk says. -/
theorem bitmapBits_ok {m : Mem} {t : List Byte} (n i : Nat) (hi : i + n = t.length)
    (hm : ∀ (j : Nat) (c : Byte), t[j]? = some c → m[j]? = some (some c)) {o : BitOut} (ho : o.WF) :
    ∃ o', DDSEncoder.bitmapBits (.ok m) n i o = .ok o' ∧ o'.WF ∧
      o'.bits = o.bits ++ (t.drop i).map fun c => decide (c ≠ 43) := by
  induction n generalizing i o with
  | zero =>
    refine ⟨o, rfl, ho, ?_⟩
    rw [List.drop_of_length_le (by omega)]
    simp
  | succ n ih =>
    have hlt : i < t.length := by omega
    have hget : t[i]? = some t[i] := List.getElem?_eq_getElem hlt
    obtain ⟨o1, a1, a2, a3⟩ := BitOut.add_bits_ok ho (if t[i] = 43 then 0 else 1) (n := 1) (by omega)
      (by omega)
    obtain ⟨o2, b1, b2, b3⟩ := ih (i + 1) (by omega) a2
    refine ⟨o2, ?_, b2, ?_⟩
    · unfold DDSEncoder.bitmapBits
      have hp : Bitmap.marked m i = .ok (decide (t[i] = 43)) := Bitmap.marked_ok (hm i _ hget)
      simp only [Res.ok_bind, hp, decide_eq_true_eq, a1]
      exact b1
    · rw [b3, a3, List.append_assoc, List.drop_eq_getElem_cons hlt, List.map_cons]
      congr 1
      by_cases h43 : t[i] = 43 <;> simp [h43, Spec.bits]

theorem elementsBefore_take (codes : List Varcode) (n : Nat) :
    elementsBefore (codes.take n) n = elementsBefore codes n := by
  unfold elementsBefore
  apply List.filter_congr
  intro p hp
  rw [List.mem_range] at hp
  rw [List.getElem?_take_of_lt hp]

theorem selected_take (codes : List Varcode) (n : Nat) (t : List Byte) :
    selected (codes.take n) n t = selected codes n t := by
  unfold selected
  rw [elementsBefore_take]

theorem cstr_index {t : List Byte} {r : Mem} (j : Nat) (c : Byte) (h : t[j]? = some c) :
    (c_str t ++ r)[j]? = some (some c) := by
  have hj : j < t.length := by
    by_contra hx
    rw [List.getElem?_eq_none (by omega)] at h
    cases h
  unfold c_str
  rw [List.getElem?_append_left (by simp [toMem]; omega)]
  unfold toMem
  rw [List.getElem?_map, List.getElem?_append_left hj, h]
  rfl

/-- A bitmap that fits becomes the one in use. -/
theorem define_ok {E : Env} {bs : Bitmaps} {v : VarCore} {codes : List Varcode} {anchor : Nat}
    {t : List Byte} (hv : v.WF) (hx : v.view = some (.text t)) (hl : t.length = v.info.len)
    (h1 : 1 ≤ t.length) (ha : anchor ≤ codes.length)
    (he : t.length ≤ (elementsBefore codes anchor).length) :
    bs.define E v codes anchor =
      .ok { bs with current := some ⟨(selected codes anchor t).reverse, 0⟩ } := by
  obtain ⟨-, -, -, r, hc⟩ := enqc_of_view (E := E) hv hx
  have h := C36_selection E v codes anchor _ t hc (fun j c h => cstr_index j c h) hl h1 ha
  rw [if_pos he] at h
  obtain ⟨⟨refs, i⟩, hb, hi, hr⟩ := h
  simp only at hi hr
  unfold Bitmaps.define
  rw [hb]
  simp only [← hr, List.reverse_reverse, hi]

theorem encSims (C : Ctx) (hE : IsRounding C.E.fl) (S : List Var) (hS : Sound C.E S)
    (hA : SoundAttrs C.E S) (pre : List Bool) :
    (encRel S pre).Sims (Walk.target C) (DDSEncoder.target C) where
  bitmap s size := by
    intro s' hs
    obtain ⟨v, x, hn, hx, hF, hl, hlx, h1, h43, he, -, rfl⟩ := Walk.bitmap_ok hs
    refine ⟨trivial, fun F t _ hr => ?_⟩
    obtain ⟨q1, q2, q3, q4, q5⟩ := hr.tgt
    have hv := hS v (q1 ▸ next_mem hn)
    obtain ⟨-, -, -, r, hc⟩ := enqc_of_view (E := C.E) hv.1 hx
    obtain ⟨o', a1, a2, a3⟩ := bitmapBits_ok (m := c_str x ++ r) size 0 (by omega)
      (fun j c h => cstr_index j c h) q4
    have hlt : s.tgt.pos < s.tgt.subset.length := by
      by_contra hx
      unfold Walk.next at hn
      rw [List.getElem?_eq_none (by omega)] at hn
      cases hn
    have hcodes : Walk.codes s = (S.map (·.code)).take (s.tgt.pos + 1) := by
      unfold Walk.codes
      rw [q1, List.map_take]
    rw [hcodes, elementsBefore_take] at he
    have hd := define_ok (E := C.E) (bs := s.bitmaps) (codes := S.map (·.code))
      (anchor := s.tgt.pos + 1) hv.1 hx (by omega) (by omega)
      (by rw [List.length_map, ← q1]; omega) (by omega)
    have hg : Enc.get_var t = _ := Enc.get_var_ok (v := v) (by rw [q2, q3, ← q1]; exact hn)
    refine ⟨{ t with
        bitmaps := (Walk.marked s x v.info).bitmaps
        tgt := ⟨t.tgt.subset, t.tgt.current_var + 1, o'⟩ }, ?_, ?_⟩
    · show DDSEncoder.define_bitmap C.E t size = _
      unfold DDSEncoder.define_bitmap
      rw [hg, Res.ok_bind, if_neg (by simpa using hF), if_neg (by simpa using hl)]
      simp only [hc, a1, Res.ok_bind, Enc.codes, q2, q3, hr.same.bitmaps, hd, Res.pure_def, Walk.marked,
        hcodes, selected_take]
      rfl
    · have := encRel_step hr (x.map fun c => decide (c ≠ 43)) a2 (by simpa using a3)
      exact ⟨{ this.same with bitmaps := rfl }, this.tgt⟩
  associated s info := by
    intro s' hs
    obtain ⟨v, f, c, hn, rfl, hf, ha, rfl⟩ := Walk.withField_ok hs
    refine ⟨trivial, fun F t _ hr => ?_⟩
    obtain ⟨q1, q2, q3, q4, q5⟩ := hr.tgt
    have hv := hS v (q1 ▸ next_mem hn)
    have hw := hA v (q1 ▸ next_mem hn)
    have hg : Enc.get_var t = _ := Enc.get_var_ok (v := v) (by rw [q2, q3, ← q1]; exact hn)
    obtain ⟨o1, b1, b2, b3⟩ := assoc_written ha hw.1
      (t := { t with tgt := { t.tgt with current_var := t.tgt.current_var + 1 } }) q4
      hr.same.field hr.same.meaning
    obtain ⟨o', a1, a2, a3⟩ := field_written C.E hE b2 hv.1 hv.2 hf
    refine ⟨{ t with tgt := ⟨t.tgt.subset, t.tgt.current_var + 1, o'⟩ }, ?_, ?_⟩
    · show Enc.define_variable_with_associated_field _ _ t v.info = _
      unfold Enc.define_variable_with_associated_field
      rw [hg, Res.ok_bind]
      simp only [b1, Res.ok_bind]
      unfold Enc.encode
      simp only [Enc.put, a1, Res.ok_bind]
      rfl
    · have := encRel_step hr (f ++ fieldOf v.toVarCore) a2 (by rw [a3, b3, List.append_assoc])
      exact ⟨⟨this.same.bitmaps, this.same.field, this.same.meaning, this.same.scale, this.same.width,
        this.same.increase, this.same.string, this.same.refs, this.same.refBits, this.same.unknown⟩,
        this.tgt⟩
  bitmapFactor s info := by
    intro n s' hs
    obtain ⟨v, hn, rfl, hnum, hmade, hfit, h31, rfl⟩ := Walk.bitmapFactor_ok hs
    refine ⟨trivial, fun F t _ hr => ?_⟩
    obtain ⟨q1, q2, q3, q4, q5⟩ := hr.tgt
    have hi : inInt (v.info.len : Int) = true := by rw [inInt_iff]; omega
    have hfit' := num_of_fits hfit
    obtain ⟨f1, f2⟩ := fits_newInt hnum hfit
    obtain ⟨o', a1, a2, a3⟩ := field_written C.E hE q4 (WF_newInt hnum hi) hmade f1
    rw [f2] at a3
    have hg : Enc.get_var_at t t.tgt.current_var = .ok v := by
      unfold Enc.get_var_at
      rw [q2, q3, ← q1]
      unfold Walk.next at hn
      rw [hn]
    refine ⟨Enc.put t o', ?_, encRel_wrote hr _ _ a2 a3⟩
    show Enc.define_bitmap_delayed_replication_factor C.O _ t info = _
    unfold Enc.define_bitmap_delayed_replication_factor
    rw [hg, Res.ok_bind, wrapInt_eq hi, newInt_ok C.O hnum ⟨hfit'.2.2.1, hfit'.2.2.2.1⟩, Res.ok_bind]
    unfold Enc.encode
    have a1' : t.tgt.ob.append_var C.E info ((Var.new info).putInt v.info.len).toVarCore = .ok o' := a1
    simp only [a1', Res.ok_bind]
    rfl
  significance s info := by
    intro n s' hs
    obtain ⟨v, k, hn, hk, rfl, rfl, hf, rfl⟩ := Walk.significance_ok hs
    refine ⟨trivial, fun F t _ hr => ?_⟩
    obtain ⟨q1, q2, q3, q4, q5⟩ := hr.tgt
    have hv := hS v (q1 ▸ next_mem hn)
    obtain ⟨o', a1, a2, a3⟩ := field_written C.E hE q4 hv.1 hv.2 hf
    refine ⟨_, ?_, encRel_step hr _ a2 a3⟩
    have hg : Enc.get_var t = _ := Enc.get_var_ok (v := v) (by rw [q2, q3, ← q1]; exact hn)
    show Enc.define_associated_field_significance _ t v.info = _
    unfold Enc.define_associated_field_significance
    rw [hg, Res.ok_bind]
    unfold Enc.encode
    simp only [a1, Res.ok_bind, Res.pure_def, enq63_of_view hv.1 hk]
    rfl
  substituted s pos := by
    intro s' hs
    obtain ⟨v, hv, hq⟩ := Walk.substituted_ok hs
    refine ⟨trivial, fun F t _ hr => ?_⟩
    obtain ⟨t', h1, h2⟩ := quality_written hE hA hq hr
    refine ⟨t', ?_, h2⟩
    obtain ⟨q1, q2, -⟩ := hr.tgt
    show DDSEncoder.define_substituted_value C.E t pos = _
    unfold DDSEncoder.define_substituted_value
    rw [q2, ← q1, hv]
    exact h1
  attr s info pos := by
    intro s' hs
    refine ⟨trivial, fun F t _ hr => ?_⟩
    exact quality_written hE hA hs hr
  element s info := by
    intro s' hs
    obtain ⟨v, hn, rfl, hf, rfl⟩ := Walk.element_ok hs
    refine ⟨trivial, fun F t _ hr => ?_⟩
    obtain ⟨q1, q2, q3, q4, q5⟩ := hr.tgt
    have hv := hS v (q1 ▸ next_mem hn)
    obtain ⟨o', a1, a2, a3⟩ := field_written C.E hE q4 hv.1 hv.2 hf
    refine ⟨_, ?_, encRel_step hr _ a2 a3⟩
    have hg : Enc.get_var t = _ := Enc.get_var_ok (v := v) (by rw [q2, q3, ← q1]; exact hn)
    show Enc.define_variable _ t v.info = _
    unfold Enc.define_variable
    rw [hg, Res.ok_bind]
    unfold Enc.encode
    simp only [a1, Res.ok_bind]
    rfl
  factor s info := by
    intro n s' hs
    obtain ⟨v, k, hn, hk, rfl, rfl, hf, rfl⟩ := Walk.factor_ok hs
    refine ⟨trivial, fun F t _ hr => ?_⟩
    obtain ⟨q1, q2, q3, q4, q5⟩ := hr.tgt
    have hv := hS v (q1 ▸ next_mem hn)
    obtain ⟨o', a1, a2, a3⟩ := field_written C.E hE q4 hv.1 hv.2 hf
    refine ⟨_, ?_, encRel_step hr _ a2 a3⟩
    have hg : Enc.get_var t = _ := Enc.get_var_ok (v := v) (by rw [q2, q3, ← q1]; exact hn)
    show Enc.define_delayed_replication_factor _ t v.info = _
    unfold Enc.define_delayed_replication_factor
    rw [hg, Res.ok_bind]
    unfold Enc.encode
    simp only [a1, Res.ok_bind, Res.pure_def, enqi_of_view hv.1 hk]
    rfl
  raw s code := by
    intro s' hs
    obtain ⟨v, x, hn, hx, hi, hl, rfl⟩ := Walk.characters_ok hs
    refine ⟨trivial, fun F t _ hr => ?_⟩
    obtain ⟨q1, q2, q3, q4, q5⟩ := hr.tgt
    have hv := hS v (q1 ▸ next_mem hn)
    obtain ⟨hset, hnul, -, r, hc⟩ := enqc_of_view (E := C.E) hv.1 hx
    obtain ⟨o', a1, a2, a3⟩ := BitOut.append_string_ok q4 hnul r (WR_VAR_Y code * 8)
    have htf : textField (WR_VAR_Y code * 8) (x.take (WR_VAR_Y code * 8 / 8)) = bytesBits x := by
      rw [Nat.mul_div_cancel _ (by omega), List.take_of_length_le (by omega)]
      unfold textField padText
      rw [Nat.mul_div_cancel _ (by omega), Nat.mul_mod_left, hl, Nat.sub_self]
      simp
    rw [htf] at a3
    refine ⟨_, ?_, encRel_step hr _ a2 a3⟩
    have hg : Enc.get_var t = _ := Enc.get_var_ok (v := v) (by rw [q2, q3, ← q1]; exact hn)
    show DDSEncoder.define_raw_character_data C.E t code = _
    unfold DDSEncoder.define_raw_character_data DDSEncoder.enqEmpty
    rw [hg, Res.ok_bind]
    simp only [hset, if_true, hc, Res.ok_bind, a1]
    rfl
  refval s code := by
    intro s' hs
    obtain ⟨ref, e1, e2, e3, e4, e5, rfl⟩ := Walk.override_ok hs
    refine ⟨trivial, fun F t _ hr => ?_⟩
    obtain ⟨hsame, q1, q2, q3, q4, q5⟩ := hr
    obtain ⟨o', a1, a2, a3⟩ := BitOut.add_bits_ok q4
      (signMagnitude s.c03_refval_override_bits ref) e3 e4
    have hlog : Nat.log2 ref.natAbs < s.c03_refval_override_bits - 1 :=
      (Nat.log2_lt (by omega)).mpr e5
    refine ⟨(Enc.put t o').setOverride code ref, ?_, ?_⟩
    · show DDSEncoder.define_c03_refval_override C t code = _
      unfold DDSEncoder.define_c03_refval_override Enc.c03_checked
      have href : Enc.c03_ref C t.tgt.subset code = .ok ref := by rw [q2, ← q1]; exact e1
      rw [href, Res.ok_bind, hsame.refBits, Enc.c03_pattern_ok C.E e4 e2 e5, Res.ok_bind,
        if_neg (by simp only; omega)]
      simp only [Res.pure_def, Res.ok_bind, a1]
    · refine ⟨⟨hsame.bitmaps, hsame.field, hsame.meaning, hsame.scale, hsame.width, hsame.increase, hsame.string,
        ?_, hsame.refBits, hsame.unknown⟩, q1, q2, q3, a2, ?_⟩
      · show _ :: t.c03_refval_overrides = _ :: s.c03_refval_overrides
        rw [hsame.refs]
      · show o'.bits = pre ++ (s.tgt.bits ++ _)
        rw [a3, q5, List.append_assoc]

/-! ## The decoder -/

theorem attrShown_eq {v : Var} (hv : v.WF) (code : Varcode) :
    attrShown v code = ((v.enqa code).filter (·.isset)).map fun a => (a.info, a.view) := by
  unfold attrShown
  rw [attrOf_eq hv]

/-- What shows of an attribute once it is set. -/
def shownOf (a : VarCore) : Option (Varinfo × Option Value) :=
  if a.isset then some (a.info, a.view) else none

theorem WF_setaMove {x a : Var} (hx : x.WF) (ha : a.toVarCore.WF) : (x.setaMove a).WF := by
  refine ⟨hx.core, ?_, setaList_sorted hx.sorted⟩
  intro b hb
  rcases setaList_mem hb with rfl | hb
  · exact ha
  · exact hx.attrs b hb

theorem attrShown_setaMove {x a : Var} (hx : x.WF) (ha : a.toVarCore.WF) (code : Varcode) :
    attrShown (x.setaMove a) code =
      if a.code = code then shownOf a.toVarCore else attrShown x code := by
  rw [attrShown_eq (WF_setaMove hx ha), attrShown_eq hx]
  unfold Var.enqa Var.setaMove
  simp only
  rw [enqaList_eq (setaList_sorted hx.sorted), enqaList_eq hx.sorted, find_setaList hx.sorted]
  by_cases h : a.code = code
  · rw [if_pos h, if_pos h]
    unfold shownOf
    cases hs : a.isset <;> simp [Option.filter, hs]
  · rw [if_neg h, if_neg h]

/-- A variable read back as `x` from `v` at position `p`: the attributes carried so far
show the same, and there are no others. -/
structure Shows (carried : List (Nat × Varcode)) (p : Nat) (x v : Var) : Prop where
  wf : x.WF
  info : x.info = v.info
  view : x.toVarCore.view = v.toVarCore.view
  attrs : ∀ code, attrShown x code = if (p, code) ∈ carried then attrShown v code else none

theorem Shows.plain {carried : List (Nat × Varcode)} {p : Nat} {x v : Var} (hx : x.WF)
    (hi : x.info = v.info) (hv : x.toVarCore.view = v.toVarCore.view) (ha : x.attrs = [])
    (hc : ∀ e ∈ carried, e.1 < p) : Shows carried p x v := by
  refine ⟨hx, hi, hv, fun code => ?_⟩
  rw [if_neg (fun h => by have := hc _ h; simp at this)]
  unfold attrShown attrOf
  rw [ha]
  rfl

theorem Shows.other {c c' : List (Nat × Varcode)} {p : Nat} {x v : Var} (h : Shows c p x v)
    (hc : ∀ e ∈ c', e.1 ≠ p) : Shows (c ++ c') p x v := by
  refine ⟨h.wf, h.info, h.view, fun code => ?_⟩
  rw [h.attrs]
  have : (p, code) ∈ c ++ c' ↔ (p, code) ∈ c := by
    rw [List.mem_append]
    exact ⟨fun h => h.resolve_right fun h => hc _ h rfl, .inl⟩
  simp only [this]

theorem Shows.attr {c : List (Nat × Varcode)} {p : Nat} {x v a : Var} (h : Shows c p x v)
    (ha : a.toVarCore.WF) (hs : shownOf a.toVarCore = attrShown v a.code) :
    Shows (c ++ [(p, a.code)]) p (x.setaMove a) v := by
  refine ⟨WF_setaMove h.wf ha, h.info, h.view, fun code => ?_⟩
  rw [attrShown_setaMove h.wf ha, h.attrs]
  by_cases hc : a.code = code
  · subst hc
    simp [hs]
  · rw [if_neg hc]
    have : (p, code) ∈ c ++ [(p, a.code)] ↔ (p, code) ∈ c := by
      simp [Ne.symm hc]
    simp only [this]

theorem Shows.missing {c : List (Nat × Varcode)} {p : Nat} {x v : Var} (h : Shows c p x v)
    {q : Varcode} (hq : attrShown v q = none) : Shows (c ++ [(p, q)]) p x v := by
  refine ⟨h.wf, h.info, h.view, fun code => ?_⟩
  rw [h.attrs]
  by_cases hc : code = q
  · subst hc
    simp [hq]
  · have : (p, code) ∈ c ++ [(p, q)] ↔ (p, code) ∈ c := by
      simp [hc]
    simp only [this]

/-- Variables read back, with the attributes carried so far. -/
def Partly (carried : List (Nat × Varcode)) (out vars : List Var) : Prop :=
  out.length = vars.length ∧
    ∀ p x v, out[p]? = some x → vars[p]? = some v → Shows carried p x v

theorem Partly.snoc {c c' : List (Nat × Varcode)} {out vars : List Var} {x v : Var}
    (h : Partly c out vars) (hc' : ∀ e ∈ c', e.1 = vars.length)
    (hx : Shows (c ++ c') vars.length x v) : Partly (c ++ c') (out ++ [x]) (vars ++ [v]) := by
  refine ⟨by simp [h.1], fun p y w hy hw => ?_⟩
  have hp : p < (out ++ [x]).length := by
    by_contra hp
    rw [List.getElem?_eq_none (by omega)] at hy
    cases hy
  rw [List.length_append, List.length_singleton, h.1] at hp
  by_cases hp' : p < vars.length
  · rw [List.getElem?_append_left (by rw [h.1]; exact hp')] at hy
    rw [List.getElem?_append_left hp'] at hw
    exact (h.2 p y w hy hw).other fun e he => by rw [hc' e he]; omega
  · have hpe : p = vars.length := by omega
    subst hpe
    rw [List.getElem?_append_right (by rw [h.1]), h.1] at hy
    rw [List.getElem?_append_right (by omega)] at hw
    simp only [Nat.sub_self, List.getElem?_cons_zero, Option.some.injEq] at hy hw
    subst hy hw
    exact hx

theorem Partly.set {c : List (Nat × Varcode)} {out vars : List Var} {p : Nat} {q : Varcode}
    {x : Var} (h : Partly c out vars)
    (hx : ∀ v, vars[p]? = some v → Shows (c ++ [(p, q)]) p x v) :
    Partly (c ++ [(p, q)]) (out.set p x) vars := by
  refine ⟨by simp [h.1], fun p' y w hy hw => ?_⟩
  by_cases hp : p' = p
  · subst hp
    have : y = x := by
      rw [List.getElem?_set_self'] at hy
      cases ho : out[p']? with
      | none => rw [ho] at hy; cases hy
      | some z => rw [ho] at hy; cases hy; rfl
    subst this
    exact hx w hw
  · rw [List.getElem?_set_ne (Ne.symm hp)] at hy
    exact (h.2 p' y w hy hw).other fun e he => by
      simp only [List.mem_singleton] at he
      subst he
      exact Ne.symm hp

theorem Partly.codes {c : List (Nat × Varcode)} {out vars : List Var} (h : Partly c out vars) :
    out.map (·.code) = vars.map (·.code) := by
  apply List.ext_getElem?
  intro p
  rw [List.getElem?_map, List.getElem?_map]
  by_cases hp : p < vars.length
  · have hp' : p < out.length := by rw [h.1]; exact hp
    rw [List.getElem?_eq_getElem hp, List.getElem?_eq_getElem hp']
    have := (h.2 p _ _ (List.getElem?_eq_getElem hp') (List.getElem?_eq_getElem hp)).info
    simp only [Option.map_some, VarCore.code, this]
  · have := h.1
    rw [List.getElem?_eq_none (by omega), List.getElem?_eq_none (by omega)]

theorem Partly.get {c : List (Nat × Varcode)} {out vars : List Var} (h : Partly c out vars) {p : Nat}
    {v : Var} (hv : vars[p]? = some v) : ∃ x, out[p]? = some x ∧ Shows c p x v := by
  have hp : p < vars.length := by
    by_contra hp
    rw [List.getElem?_eq_none (by omega)] at hv
    cases hv
  have hp' : p < out.length := by rw [h.1]; exact hp
  exact ⟨_, List.getElem?_eq_getElem hp', h.2 p _ _ (List.getElem?_eq_getElem hp') hv⟩

/-- The decoder has the rest of the bits before it and has stored the variables taken
so far, with the attributes written so far. -/
def decRel (E : Env) (S : List Var) (rest : List Bool) : Rel Walk Dec where
  le a F := a.bits <+: F.bits
  refl _ := List.prefix_refl _
  trans _ _ _ h h' := h.trans h'
  Q F a b _ c _ _ := a.subset = S ∧ b.input.WF ∧
    (∃ w, F.bits = a.bits ++ w ∧ b.input.rem = w ++ rest) ∧ Partly a.carried b.out (S.take a.pos) ∧
    (∀ e ∈ a.carried, e.1 < a.pos) ∧ CharData E c ∧ c.bitmap_table = a.seen
  stable _ _ _ _ _ _ _ _ _ h := h

theorem decRel_next {F : Walk} {a f w : List Bool} (h : F.bits = a ++ w) (h' : a ++ f <+: F.bits) :
    ∃ w', w = f ++ w' ∧ F.bits = a ++ f ++ w' := by
  obtain ⟨w', h'⟩ := h'
  refine ⟨w', ?_, h'.symm⟩
  rw [h, List.append_assoc] at h'
  exact (List.append_cancel_left h').symm

theorem pos_lt {s : Interp Walk} {v : Var} (h : Walk.next s = some v) :
    s.tgt.pos < s.tgt.subset.length := by
  by_contra hx
  unfold Walk.next at h
  rw [List.getElem?_eq_none (by omega)] at h
  cases h

/-- Storing the variable just taken keeps what was read in step. -/
theorem Partly.took {c c' : List (Nat × Varcode)} {out : List Var} {S : List Var} {s : Interp Walk}
    {v x : Var} (h : Partly c out (S.take s.tgt.pos)) (hS : s.tgt.subset = S)
    (hn : Walk.next s = some v) (hc' : ∀ e ∈ c', e.1 = s.tgt.pos)
    (hx : Shows (c ++ c') s.tgt.pos x v) :
    Partly (c ++ c') (out ++ [x]) (S.take (s.tgt.pos + 1)) := by
  have hlt := pos_lt hn
  have hl : (S.take s.tgt.pos).length = s.tgt.pos := by
    rw [List.length_take]; rw [hS] at hlt; omega
  have hg : S[s.tgt.pos]? = some v := by rw [← hS]; exact hn
  rw [List.take_add_one, hg]
  exact h.snoc (by rw [hl]; exact hc') (by rw [hl]; exact hx)

/-- Storing a copy of the variable just taken keeps the decoder in step. -/
theorem decRel_step {E : Env} {S : List Var} {rest : List Bool} {F : Walk} {s : Interp Walk}
    {t : Decoder.St} (h : (decRel E S rest).R F s t) (f : List Bool) {v a : Var} {i' : Input}
    {c : TableCaches} (hc : CharData E c) (hu : c.unknown_table = t.caches.unknown_table)
    (hb : c.bitmap_table = t.caches.bitmap_table)
    (hn : Walk.next s = some v) (hi : i'.WF)
    (hw : ∃ w, F.bits = s.tgt.bits ++ f ++ w ∧ i'.rem = w ++ rest) (ha : a.WF)
    (hna : a.attrs = []) (hinfo : a.info = v.info) (hv : a.toVarCore.view = v.toVarCore.view) :
    (decRel E S rest).R F (Walk.took s f)
      { t with caches := c, tgt := ⟨i', t.tgt.out ++ [a]⟩ } := by
  obtain ⟨h1, q1, q2, q3, q4, q5, q6, q7⟩ := h
  refine ⟨⟨h1.bitmaps, h1.field, h1.meaning, h1.scale, h1.width, h1.increase, h1.string, h1.refs,
    h1.refBits, hu.trans h1.unknown⟩, q1, hi, hw, ?_, ?_, hc, hb.trans q7⟩
  · have := q4.took (c' := []) q1 hn (by simp)
      (by simpa using Shows.plain ha hinfo hv hna q5)
    rw [List.append_nil] at this
    exact this
  · intro e he
    have := q5 e he
    show e.1 < s.tgt.pos + 1
    omega

/-- Reading bits that belong to no variable of their own. -/
theorem decRel_wrote {E : Env} {S : List Var} {rest : List Bool} {F : Walk} {s : Interp Walk}
    {t : Decoder.St} (h : (decRel E S rest).R F s t) (f : List Bool) {c : List (Nat × Varcode)}
    {i' : Input} {out : List Var} (hi : i'.WF)
    (hw : ∃ w, F.bits = s.tgt.bits ++ f ++ w ∧ i'.rem = w ++ rest)
    (hp : Partly (s.tgt.carried ++ c) out (S.take s.tgt.pos)) (hc : ∀ e ∈ c, e.1 < s.tgt.pos) :
    (decRel E S rest).R F (Walk.wrote s f c) { t with tgt := ⟨i', out⟩ } := by
  obtain ⟨h1, q1, q2, q3, q4, q5, q6, q7⟩ := h
  refine ⟨⟨h1.bitmaps, h1.field, h1.meaning, h1.scale, h1.width, h1.increase, h1.string, h1.refs,
    h1.refBits, h1.unknown⟩, q1, hi, hw, hp, ?_, q6, q7⟩
  intro e he
  rcases List.mem_append.mp he with he | he
  · exact q5 e he
  · exact hc e he

theorem shownOf_view {a : VarCore} {x : Value} (h : a.view = some x) : shownOf a = some (a.info, some x) := by
  unfold shownOf
  rw [if_pos (view_type h).1, h]

/-- An associated field is read as the attribute that was written. -/
theorem assoc_read {C : Ctx} {n m : Nat} {v : Var} {f : List Bool} {c : Option Varcode}
    (h : Walk.assocField C n m v = .ok (f, c)) (hv : v.WF) {i : Input} (hi : i.WF)
    {rest : List Bool} (hrem : i.rem = f ++ rest) (hrest : 8 ≤ rest.length) {af : AssociatedField}
    (hn : af.bit_count = n) (hm : af.significance = m) :
    ∃ value i' a, i.get_bits n = .ok (value, i') ∧ i'.WF ∧ i'.rem = rest ∧
      af.make_attribute C.E C.O C.btable value = .ok a ∧
      ∀ carried p x, Shows carried p x v →
        Shows (carried ++ (c.map fun q => (p, q)).toList) p (withAttr x a) v := by
  obtain ⟨n0, n1, hc⟩ := Walk.assocField_ok h
  have hpos : 0 < 2 ^ n := Nat.two_pow_pos n
  have hones : missingField n = bits n (2 ^ n - 1) := (bits_ones n).symm
  rcases hc with ⟨hq, m1, m2, rfl, rfl⟩ | ⟨q, info, hq, hb, rfl, rfl, hc⟩
  · rw [hones] at hrem
    obtain ⟨i', g1, g2, g3, -⟩ := Input.get_bits_ok hi (by omega) (by omega) hrem hrest
    refine ⟨_, i', none, g1, g2, g3, ?_, fun carried p x hx => by simpa [withAttr] using hx⟩
    obtain ⟨k1, k2, k3, k4, k5, k6⟩ := qualityCode_none hq
    unfold AssociatedField.make_attribute
    rw [hn, Input.all_ones_ok n0 (.inl n1), Res.ok_bind, hm]
    simp [k1, k2, k3, k4, k5, k6, m1, m2]
  · rcases hc with ⟨ha, h21, rfl⟩ | ⟨k, ha, hf, rfl⟩
    · rw [hones] at hrem
      obtain ⟨i', g1, g2, g3, -⟩ := Input.get_bits_ok hi (by omega) (by omega) hrem hrest
      have hmk := AssociatedField.make_attribute_missing (E := C.E) (O := C.O) (f := af)
        (by rw [hm]; exact hq) (by rw [hm]; exact h21) hb (by omega) (by omega)
      rw [hn] at hmk
      rcases hmk with hmk | hmk
      · exact ⟨_, i', none, g1, g2, g3, hmk, fun carried p x hx => hx.missing ha⟩
      · refine ⟨_, i', _, g1, g2, g3, hmk, fun carried p x hx => ?_⟩
        exact hx.attr (a := Var.new info) (WF_new _) ha.symm
    · have hf' := hf
      simp only [Walk.assocFits, decide_eq_true_eq] at hf'
      obtain ⟨f1, f2, f3, f4, f5⟩ := hf'
      have ha' := ha
      unfold attrShown at ha'
      obtain ⟨a, a1, a2⟩ := Option.map_eq_some_iff.mp ha'
      simp only [Prod.mk.injEq] at a2
      have hnum : info.IsNum := a2.1 ▸ (view_type a2.2).2
      obtain ⟨k, rfl⟩ := Int.eq_ofNat_of_zero_le f1
      have hkn : k < 2 ^ n - 1 := by
        have : ((2 ^ n - 1 : Nat) : Int) = 2 ^ n - 1 := by
          rw [Nat.cast_sub (by omega)]; simp
        omega
      have hp31 : 2 ^ n ≤ 2 ^ 31 := Nat.pow_le_pow_right (by omega) n1
      obtain ⟨i', g1, g2, g3, -⟩ := Input.get_bits_ok hi (by omega) (by
        show k < 2 ^ n
        omega) hrem hrest
      have hk : inInt (k : Int) = true := by rw [inInt_iff]; omega
      have hshow : ∀ carried p x, Shows carried p x v →
          Shows (carried ++ [(p, info.code)]) p (x.setaMove ((Var.new info).putInt k)) v :=
        fun carried p x hx => hx.attr (a := (Var.new info).putInt k) (WF_newInt hnum hk)
          (by rw [shownOf_view (view_newInt hnum k)]; exact ha.symm)
      refine ⟨k, i', some ((Var.new info).putInt k), g1, g2, g3, ?_, hshow⟩
      by_cases h21 : m = 21
      · have hk0 := f5 h21
        have : k = 0 := by omega
        subst this
        have hfa := AssociatedField.fieldAttr_ok (O := C.O) hb hnum (by omega : 0 < 2 ^ 31)
          ⟨f3, f4⟩
        have hq41 : info.code = WR_VAR 0 33 41 := by
          rw [h21] at hq
          exact (Option.some.inj (hq : some (WR_VAR 0 33 41) = some info.code)).symm
        rw [hq41] at hfa
        unfold AssociatedField.make_attribute
        rw [hn, Input.all_ones_ok n0 (.inl n1), Res.ok_bind, hm, h21]
        have hmiss : decide (0 = 2 ^ n - 1) = false := decide_eq_false (by omega)
        simp only [hmiss]
        simp
        exact hfa
      · exact AssociatedField.make_attribute_value (by rw [hm]; exact hq) (by rw [hm]; exact h21) hb hnum
          (by omega) (by omega) (by rw [hn]; exact hkn) ⟨f3, f4⟩

/-- The marks of a bitmap are read back. -/
theorem bitmap_read {t : List Byte} (ht : ∀ c ∈ t, c = 43 ∨ c = 45) {i : Input} (hi : i.WF)
    {rest : List Bool} (hrem : i.rem = (t.map fun c => decide (c ≠ 43)) ++ rest)
    (hrest : 8 ≤ rest.length) :
    ∃ i', i.decode_uncompressed_bitmap t.length = .ok (t, i') ∧ i'.WF ∧ i'.rem = rest := by
  induction t generalizing i with
  | nil => exact ⟨i, rfl, hi, by simpa using hrem⟩
  | cons b t ih =>
    have hr : i.rem = Spec.bits 1 (if b = 43 then 0 else 1) ++
        ((t.map fun c => decide (c ≠ 43)) ++ rest) := by
      rw [hrem]
      by_cases h43 : b = 43 <;> simp [h43, Spec.bits]
    obtain ⟨i1, g1, g2, g3, -⟩ := Input.get_bits_ok hi (by omega) (by split <;> omega) hr
      (by rw [List.length_append]; omega)
    obtain ⟨i2, e1, e2, e3⟩ := ih (fun c hc => ht c (by simp [hc])) g2 g3
    refine ⟨i2, ?_, e2, e3⟩
    show Input.decode_uncompressed_bitmap (t.length + 1) i = _
    unfold Input.decode_uncompressed_bitmap
    rw [g1, Res.ok_bind]
    simp only [e1, Res.ok_bind, Res.pure_def]
    have hb := ht b (by simp)
    by_cases h43 : b = 43
    · simp [h43]
    · simp [hb.resolve_left h43]

theorem get_bitmap_ok {C : Ctx} {c : TableCaches} {code : Varcode} {t : List Byte} {info : Varinfo}
    (h : Walk.bitmapKnown C c.bitmap_table code t info = true) :
    c.get_bitmap C.E code t = ({ c with bitmap_table :=
      if (c.bitmap_table.lookup t).isSome then c.bitmap_table else (t, info) :: c.bitmap_table },
      .ok info) := by
  unfold Walk.bitmapKnown at h
  unfold TableCaches.get_bitmap TableCaches.lookupOrAdd
  rw [show (instBEqOfDecidableEq : BEq (List Byte)) = List.instBEq from
    lawful_beq_subsingleton _ _]
  split at h
  · next i hi =>
    simp only [decide_eq_true_eq] at h
    obtain ⟨rfl, h2⟩ := h
    simp [hi, h2]
  · next hi =>
    simp only [decide_eq_true_eq] at h
    simp [hi, h]

/-- An attribute is read as the walk says. -/
theorem quality_read (C : Ctx) (hE : IsRounding C.E.fl) {S : List Var} (hA : SoundAttrs C.E S)
    {rest : List Bool} (hrest : 8 ≤ rest.length) {s s' : Interp Walk} {info : Varinfo} {pos : Nat}
    (hs : Walk.quality s info pos = .ok s') :
    (decRel C.E S rest).le s.tgt s'.tgt ∧ ∀ F t, (decRel C.E S rest).le s'.tgt F →
      (decRel C.E S rest).R F s t →
      ∃ t', Decoder.decode_and_set_attribute C t info pos = .ok t' ∧ (decRel C.E S rest).R F s' t' := by
  obtain ⟨v, hv, hp, hc⟩ := Walk.quality_ok hs
  rcases hc with ⟨ha, hm, rfl⟩ | ⟨a, ha, rfl, hf, rfl⟩
  · refine ⟨⟨_, rfl⟩, fun F t hF hr => ?_⟩
    obtain ⟨q1, q2, ⟨w, w1, w2⟩, q4, q5, q6, q7⟩ := hr.tgt
    obtain ⟨w', rfl, w3⟩ := decRel_next w1 hF
    rw [List.append_assoc] at w2
    obtain ⟨v', i', g1, g2, g3, g4, g5, g6, g7⟩ := missing_read C q2 hm w2
      (by rw [List.length_append]; omega)
    have hx : attrShown v info.code = none := by unfold attrShown; rw [ha]; rfl
    have hu := unset_of_view g5.core g6
    have hvp : (S.take s.tgt.pos)[pos]? = some v := by
      rw [List.getElem?_take_of_lt hp, ← q1]; exact hv
    obtain ⟨x, x1, x2⟩ := q4.get hvp
    have hset : t.tgt.out.set pos x = t.tgt.out := by
      apply List.ext_getElem?
      intro p
      by_cases hpp : pos = p
      · subst hpp
        rw [List.getElem?_set_self', x1]
        rfl
      · rw [List.getElem?_set_ne hpp]
    refine ⟨_, ?_, decRel_wrote hr _ (out := t.tgt.out) g2 ⟨w', w3, g3⟩ ?_ (by simpa using hp)⟩
    · unfold Decoder.decode_and_set_attribute
      simp only [g1, Res.ok_bind, hu]
      rfl
    · rw [← hset]
      exact q4.set fun v' hv' => by
        rw [hvp] at hv'
        cases hv'
        exact x2.missing hx
  · refine ⟨⟨_, rfl⟩, fun F t hF hr => ?_⟩
    obtain ⟨q1, q2, ⟨w, w1, w2⟩, q4, q5, q6, q7⟩ := hr.tgt
    obtain ⟨w', rfl, w3⟩ := decRel_next w1 hF
    rw [List.append_assoc] at w2
    have hw := hA v (q1 ▸ List.mem_of_getElem? hv)
    obtain ⟨hma, -⟩ := attrOf_some ha
    obtain ⟨v', i', g1, g2, g3, g4, g5, g6, g7⟩ := field_read C hE q2 (hw.1.attrs a hma) (hw.2 a hma) hf w2
      (by rw [List.length_append]; omega)
    have hax : a.view ≠ none := by
      unfold attrOf at ha
      have := List.find?_some ha
      simp only [decide_eq_true_eq] at this
      exact this.2
    obtain ⟨y, hy⟩ := Option.ne_none_iff_exists'.mp hax
    have hvp : (S.take s.tgt.pos)[pos]? = some v := by
      rw [List.getElem?_take_of_lt hp, ← q1]; exact hv
    obtain ⟨x, x1, x2⟩ := q4.get hvp
    obtain ⟨b, b1, b2, b3, b4, b5⟩ := copy_plain g5 g7
    have hbv : b.toVarCore.view = some y := b4.trans (g6.trans hy)
    have hbc : b.code = a.info.code := by
      show b.info.code = _
      rw [b3, g4]
    have hsh := x2.attr b2.core (by
      rw [shownOf_view hbv, hbc]
      unfold attrShown
      rw [ha, Option.map_some, hy, b3, g4])
    rw [hbc] at hsh
    refine ⟨_, ?_, decRel_wrote hr _ (out := t.tgt.out.set pos (x.setaMove b)) g2 ⟨w', w3, g3⟩ ?_
      (by simpa using hp)⟩
    · unfold Decoder.decode_and_set_attribute
      have hset : v'.isset = true := (view_type (g6.trans hy)).1
      simp only [g1, Res.ok_bind, hset, x1, Var.seta, b1]
      rfl
    · exact q4.set fun v' hv' => by
        rw [hvp] at hv'
        cases hv'
        exact hsh

theorem decSims (C : Ctx) (hE : IsRounding C.E.fl) (S : List Var) (hS : Sound C.E S)
    (hA : SoundAttrs C.E S) (rest : List Bool) (hrest : 8 ≤ rest.length) :
    (decRel C.E S rest).Sims (Walk.target C) (Decoder.target C) where
  bitmap s size := by
    intro s' hs
    obtain ⟨v, x, hn, hx, hF, hl, hlx, h1, h43, he, hk, rfl⟩ := Walk.bitmap_ok hs
    refine ⟨⟨_, rfl⟩, fun F t hF hr => ?_⟩
    obtain ⟨hsame, q1, q2, ⟨w, w1, w2⟩, q4, q5, q6, q7⟩ := hr
    obtain ⟨w', rfl, w3⟩ := decRel_next w1 hF
    have hv := hS v (q1 ▸ next_mem hn)
    rw [List.append_assoc] at w2
    obtain ⟨-, hnul, -, -⟩ := enqc_of_view (E := C.E) hv.1 hx
    obtain ⟨i', g1, g2, g3⟩ := bitmap_read h43 q2 w2 (by rw [List.length_append]; omega)
    rw [hlx] at g1
    rw [← q7] at hk
    have hgb := get_bitmap_ok hk
    obtain ⟨u, u1, u2, u3, u4, u5⟩ := newStr_ok C.O (view_type hx).2 hnul (by omega)
    have hp := q4.took (c' := []) (x := u) q1 hn (by simp)
      (by simpa using Shows.plain u2 u3 (u4.trans hx.symm) u5 q5)
    rw [List.append_nil] at hp
    have hcodes : (t.tgt.out ++ [u]).map (·.code) = Walk.codes s := by
      rw [hp.codes]
      unfold Walk.codes
      rw [q1]
    have hlt := pos_lt hn
    have hlen : (t.tgt.out ++ [u]).length = s.tgt.pos + 1 := by
      rw [hp.1, List.length_take]
      rw [q1] at hlt
      omega
    have hd := define_ok (E := C.E) (bs := s.bitmaps) (codes := Walk.codes s)
      (anchor := s.tgt.pos + 1) u2.core u4 (by rw [u3]; omega) (by omega)
      (by rw [← hcodes, List.length_map, hlen]) (by omega)
    refine ⟨{ t with
      bitmaps := (Walk.marked s x v.info).bitmaps
      caches := { t.caches with bitmap_table := (Walk.marked s x v.info).tgt.seen }
      tgt := ⟨i', t.tgt.out ++ [u]⟩ }, ?_, ?_⟩
    · show Decoder.define_bitmap C t size = _
      unfold Decoder.define_bitmap
      rw [g1, Res.ok_bind]
      simp only [hsame.bitmaps, hgb, Res.ok_bind, u1, Decoder.store, Decoder.setInput, hcodes, hlen, hd]
      rw [q7]
      rfl
    · refine ⟨⟨rfl, hsame.field, hsame.meaning, hsame.scale, hsame.width, hsame.increase,
        hsame.string, hsame.refs, hsame.refBits, hsame.unknown⟩, q1, g2, ⟨w', w3, g3⟩, hp, ?_, q6, rfl⟩
      intro e he
      have := q5 e he
      show e.1 < s.tgt.pos + 1
      omega
  associated s info := by
    intro s' hs
    obtain ⟨v, f, c, hn, rfl, hf, ha, rfl⟩ := Walk.withField_ok hs
    refine ⟨⟨_, rfl⟩, fun F t hF hr => ?_⟩
    obtain ⟨hsame, q1, q2, ⟨w, w1, w2⟩, q4, q5, q6, q7⟩ := hr
    obtain ⟨w', rfl, w3⟩ := decRel_next w1 hF
    have hv := hS v (q1 ▸ next_mem hn)
    have hw := hA v (q1 ▸ next_mem hn)
    rw [List.append_assoc, List.append_assoc] at w2
    obtain ⟨value, i1, a, e1, e2, e3, e4, e5⟩ := assoc_read ha hw.1 q2 w2
      (by simp only [List.length_append]; omega) hsame.field hsame.meaning
    obtain ⟨v', i', g1, g2, g3, g4, g5, g6, g7⟩ := field_read C hE e2 hv.1 hv.2 hf e3
      (by rw [List.length_append]; omega)
    obtain ⟨b, c1, c2, c3, c4, c5⟩ := copy_plain g5 g7
    have hsh := e5 _ _ _ (Shows.plain c2 (c3.trans g4) (c4.trans g6) c5 q5)
    have hp := q4.took (c' := (c.map fun q => (s.tgt.pos, q)).toList) q1 hn
      (by cases c <;> simp) hsh
    refine ⟨{ t with tgt := ⟨i', t.tgt.out ++ [withAttr b a]⟩ }, ?_, ?_⟩
    · show Decoder.define_variable_with_associated_field C t v.info = _
      unfold Decoder.define_variable_with_associated_field Decoder.storeCopy
      rw [hsame.field, e1, Res.ok_bind]
      simp only [e4, Res.ok_bind, g1, c1, Res.pure_def, Decoder.store, Decoder.setInput]
      cases a with
      | none => rfl
      | some a =>
        unfold Decoder.setLast
        simp [Decoder.setAt, withAttr]
    · refine ⟨⟨hsame.bitmaps, hsame.field, hsame.meaning, hsame.scale, hsame.width, hsame.increase,
        hsame.string, hsame.refs, hsame.refBits, hsame.unknown⟩, q1, g2, ⟨w', w3, g3⟩, hp, ?_, q6, q7⟩
      intro e he
      show e.1 < s.tgt.pos + 1
      rcases List.mem_append.mp he with he | he
      · have := q5 e he
        omega
      · cases c with
        | none => simp at he
        | some q =>
          simp only [Option.map_some, Option.toList_some, List.mem_singleton] at he
          subst he
          exact Nat.lt_succ_self _
  bitmapFactor s info := by
    intro n s' hs
    obtain ⟨v, hn, rfl, hnum, hmade, hfit, h31, rfl⟩ := Walk.bitmapFactor_ok hs
    refine ⟨⟨_, rfl⟩, fun F t hF hr => ?_⟩
    obtain ⟨q1, q2, ⟨w, w1, w2⟩, q4, q5, q6, q7⟩ := hr.tgt
    obtain ⟨w', rfl, w3⟩ := decRel_next w1 hF
    rw [List.append_assoc] at w2
    have hi : inInt (v.info.len : Int) = true := by rw [inInt_iff]; omega
    obtain ⟨f1, f2⟩ := fits_newInt hnum hfit
    rw [← f2] at w2
    obtain ⟨v', i', g1, g2, g3, g4, g5, g6, g7⟩ := field_read C hE q2 (WF_newInt hnum hi) hmade f1 w2
      (by rw [List.length_append]; omega)
    refine ⟨_, ?_, decRel_wrote hr _ (out := t.tgt.out) g2 ⟨w', w3, g3⟩ (by simpa using q4) (by simp)⟩
    show Decoder.define_bitmap_delayed_replication_factor C t info = _
    unfold Decoder.define_bitmap_delayed_replication_factor
    have g1' : Decoder.decode_uniform_b_value C t.tgt.input info = .ok (v', i') := g1
    have hu : toU32 (v.info.len : Int) = v.info.len := by
      rw [toU32_toNat (by omega) (by omega)]
      rfl
    simp only [g1', Res.ok_bind, enqi_of_view g5.core (g6.trans (view_newInt hnum _)), hu]
    rfl
  significance s info := by
    intro n s' hs
    obtain ⟨v, k, hn, hk, rfl, rfl, hf, rfl⟩ := Walk.significance_ok hs
    refine ⟨⟨_, rfl⟩, fun F t hF hr => ?_⟩
    obtain ⟨q1, q2, ⟨w, w1, w2⟩, q4, q5, q6, q7⟩ := hr.tgt
    obtain ⟨w', rfl, w3⟩ := decRel_next w1 hF
    have hv := hS v (q1 ▸ next_mem hn)
    rw [List.append_assoc] at w2
    obtain ⟨v', i', g1, g2, g3, g4, g5, g6, g7⟩ := field_read C hE q2 hv.1 hv.2 hf w2
      (by rw [List.length_append]; omega)
    refine ⟨_, ?_, decRel_step hr _ q6 rfl rfl hn g2 ⟨w', w3, g3⟩ g5 g7 g4 g6⟩
    show Decoder.define_associated_field_significance C t v.info = _
    unfold Decoder.define_associated_field_significance Decoder.decode_and_add_to_all
    simp only [g1, Res.ok_bind, Res.pure_def, enq63_of_view g5.core (g6 ▸ hk)]
    rfl
  substituted s pos := by
    intro s' hs
    obtain ⟨v, hv, hq⟩ := Walk.substituted_ok hs
    obtain ⟨h1, h2⟩ := quality_read C hE hA hrest hq
    refine ⟨h1, fun F t hF hr => ?_⟩
    obtain ⟨t', e1, e2⟩ := h2 F t hF hr
    refine ⟨t', ?_, e2⟩
    obtain ⟨q1, -, -, q4, -⟩ := hr.tgt
    obtain ⟨-, -, hp, -⟩ := Walk.quality_ok hq
    have hvp : (S.take s.tgt.pos)[pos]? = some v := by
      rw [List.getElem?_take_of_lt hp, ← q1]; exact hv
    obtain ⟨x, x1, x2⟩ := q4.get hvp
    show Decoder.define_substituted_value C t pos = _
    unfold Decoder.define_substituted_value
    rw [x1]
    simp only [x2.info]
    exact e1
  attr s info pos := by
    intro s' hs
    exact quality_read C hE hA hrest hs
  element s info := by
    intro s' hs
    obtain ⟨v, hn, rfl, hf, rfl⟩ := Walk.element_ok hs
    refine ⟨⟨_, rfl⟩, fun F t hF hr => ?_⟩
    obtain ⟨q1, q2, ⟨w, w1, w2⟩, q4, q5, q6, q7⟩ := hr.tgt
    obtain ⟨w', rfl, w3⟩ := decRel_next w1 hF
    have hv := hS v (q1 ▸ next_mem hn)
    rw [List.append_assoc] at w2
    obtain ⟨v', i', g1, g2, g3, g4, g5, g6, g7⟩ := field_read C hE q2 hv.1 hv.2 hf w2
      (by rw [List.length_append]; omega)
    obtain ⟨a, c1, c2, c3, c4, c5⟩ := copy_plain g5 g7
    refine ⟨_, ?_, decRel_step hr _ q6 rfl rfl hn g2 ⟨w', w3, g3⟩ c2 c5 (c3.trans g4) (c4.trans g6)⟩
    show Decoder.define_variable C t v.info = _
    unfold Decoder.define_variable Decoder.storeCopy
    simp only [g1, Res.ok_bind, c1]
    rfl
  factor s info := by
    intro n s' hs
    obtain ⟨v, k, hn, hk, rfl, rfl, hf, rfl⟩ := Walk.factor_ok hs
    refine ⟨⟨_, rfl⟩, fun F t hF hr => ?_⟩
    obtain ⟨q1, q2, ⟨w, w1, w2⟩, q4, q5, q6, q7⟩ := hr.tgt
    obtain ⟨w', rfl, w3⟩ := decRel_next w1 hF
    have hv := hS v (q1 ▸ next_mem hn)
    rw [List.append_assoc] at w2
    obtain ⟨v', i', g1, g2, g3, g4, g5, g6, g7⟩ := field_read C hE q2 hv.1 hv.2 hf w2
      (by rw [List.length_append]; omega)
    refine ⟨_, ?_, decRel_step hr _ q6 rfl rfl hn g2 ⟨w', w3, g3⟩ g5 g7 g4 g6⟩
    show Decoder.define_delayed_replication_factor C t v.info = _
    unfold Decoder.define_delayed_replication_factor Decoder.decode_and_add_to_all
    simp only [g1, Res.ok_bind, Res.pure_def, enqi_of_view g5.core (g6.trans hk)]
    rfl
  raw s code := by
    intro s' hs
    obtain ⟨v, x, hn, hx, hi, hl, rfl⟩ := Walk.characters_ok hs
    refine ⟨⟨_, rfl⟩, fun F t hF hr => ?_⟩
    obtain ⟨q1, q2, ⟨w, w1, w2⟩, q4, q5, q6, q7⟩ := hr.tgt
    obtain ⟨w', rfl, w3⟩ := decRel_next w1 hF
    have hv := hS v (q1 ▸ next_mem hn)
    rw [List.append_assoc] at w2
    obtain ⟨-, hnul, -, -⟩ := enqc_of_view (E := C.E) hv.1 hx
    obtain ⟨f1, f2, f3⟩ := chardata_fields hi
    obtain ⟨k1, k2, k3⟩ := get_chardata_ok q6 hi
    obtain ⟨i', g1, g2, g3⟩ := getChars_ok q2 w2 (by rw [List.length_append]; omega)
    obtain ⟨u, u1, u2, u3, u4, u5⟩ := newStr_ok C.O f3 hnul (by omega)
    obtain ⟨a, c1, c2, c3, c4, c5⟩ := copy_plain u2 u5
    refine ⟨_, ?_, decRel_step hr _ k2 k3 rfl hn g2 ⟨w', w3, g3⟩ c2 c5 (c3.trans u3)
      (c4.trans (u4.trans hx.symm))⟩
    show Decoder.define_raw_character_data C t code = _
    unfold Decoder.define_raw_character_data Decoder.storeCopy
    rw [hl] at g1
    simp only [k1, Res.ok_bind, f2, g1, u1, c1]
    rfl
  refval s code := by
    intro s' hs
    obtain ⟨ref, e1, e2, e3, e4, e5, rfl⟩ := Walk.override_ok hs
    refine ⟨⟨_, rfl⟩, fun F t hF hr => ?_⟩
    obtain ⟨hsame, q1, q2, ⟨w, w1, w2⟩, q4, q5, q6, q7⟩ := hr
    obtain ⟨w', rfl, w3⟩ := decRel_next w1 hF
    rw [List.append_assoc] at w2
    obtain ⟨i', g1, g2, g3⟩ := Decoder.c03_ok q2 e3 e4 e5 e2 w2 (by rw [List.length_append]; omega)
    refine ⟨(Decoder.setInput t i').setOverride code ref, ?_, ?_⟩
    · show Decoder.define_c03_refval_override C t code = _
      unfold Decoder.define_c03_refval_override
      simp only [hsame.refBits, g1, Res.ok_bind]
      rfl
    · refine ⟨⟨hsame.bitmaps, hsame.field, hsame.meaning, hsame.scale, hsame.width, hsame.increase, hsame.string,
        ?_, hsame.refBits, hsame.unknown⟩, q1, g2, ⟨w', w3, g3⟩, q4, q5, q6, q7⟩
      show _ :: t.c03_refval_overrides = _ :: s.c03_refval_overrides
      rw [hsame.refs]

end Wreport
