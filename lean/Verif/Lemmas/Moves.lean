import Verif.Lemmas.Interp

/-! # What the callbacks of a target do, a turn of the interpreter does -/

namespace Wreport

variable {σ : Type}

/-- Every callback takes the state of the target from one that is in a relation to
another. -/
structure Moves (T : Target σ) (M : σ → σ → Prop) : Prop where
  refl : ∀ a, M a a
  trans : ∀ a b c, M a b → M b c → M a c
  bitmap : ∀ s n s', T.define_bitmap s n = .ok s' → M s.tgt s'.tgt
  variable_ : ∀ s i s', T.define_variable s i = .ok s' → M s.tgt s'.tgt
  associated : ∀ s i s', T.define_variable_with_associated_field s i = .ok s' → M s.tgt s'.tgt
  factor : ∀ s i n s', T.define_delayed_replication_factor s i = .ok (n, s') → M s.tgt s'.tgt
  bitmapFactor : ∀ s i n s', T.define_bitmap_delayed_replication_factor s i = .ok (n, s') →
    M s.tgt s'.tgt
  significance : ∀ s i n s', T.define_associated_field_significance s i = .ok (n, s') →
    M s.tgt s'.tgt
  substituted : ∀ s p s', T.define_substituted_value s p = .ok s' → M s.tgt s'.tgt
  attr : ∀ s i p s', T.define_attribute s i p = .ok s' → M s.tgt s'.tgt
  raw : ∀ s c s', T.define_raw_character_data s c = .ok s' → M s.tgt s'.tgt
  refval : ∀ s c s', T.define_c03_refval_override s c = .ok s' → M s.tgt s'.tgt

namespace Moves

variable {C : Ctx} {T : Target σ} {M : σ → σ → Prop}

theorem b_variable (h : Moves T M) {s s' : Interp σ} {c : Varcode}
    (hr : Interp.b_variable C T s c = .ok s') : M s.tgt s'.tgt := by
  unfold Interp.b_variable at hr
  split at hr
  · exact h.refval _ _ _ hr
  · obtain ⟨i, _, hr⟩ := Res.bind_eq_ok.mp hr
    unfold Interp.elementOrAttribute at hr
    split at hr
    · obtain ⟨r, _, hr⟩ := Res.bind_eq_ok.mp hr
      exact h.attr { s with bitmaps := r.2 } _ _ _ hr
    · split at hr
      · exact h.associated _ _ _ hr
      · exact h.variable_ _ _ _ hr

theorem c_simple (h : Moves T M) {s s' : Interp σ} {c : Varcode}
    (hr : Interp.c_simple T s c = .ok s') : M s.tgt s'.tgt := by
  unfold Interp.c_simple at hr
  simp only at hr
  split at hr
  · cases hr; exact h.refl _
  · cases hr; exact h.refl _
  · cases hr; exact h.refl _
  · exact h.raw _ _ _ hr
  · cases hr; exact h.refl _
  · cases hr; exact h.refl _
  · split at hr
    · cases hr
    · cases hr; exact h.refl _
  · unfold Interp.c23 at hr
    split at hr
    · cases hr; exact h.refl _
    · split at hr
      · split at hr
        · cases hr
        · obtain ⟨r, _, hr⟩ := Res.bind_eq_ok.mp hr
          exact h.substituted { s with bitmaps := r.2 } _ _ hr
      · cases hr
  · unfold Interp.c37 at hr
    split at hr
    · cases hr; exact h.refl _
    · split at hr
      · cases hr; exact h.refl _
      · cases hr
  · cases hr; exact h.refl _

theorem c_modifier (h : Moves T M) {s s' : Interp σ} {c : Varcode} {next rest : List Varcode}
    (hr : Interp.c_modifier C T s c next = .ok (rest, s')) : M s.tgt s'.tgt := by
  unfold Interp.c_modifier at hr
  split at hr
  · unfold Interp.c04 at hr
    split at hr
    · cases hr
    · split at hr
      · cases hr
      · split at hr
        · cases hr; exact h.refl _
        · obtain ⟨p, _, hr⟩ := Res.bind_eq_ok.mp hr
          obtain ⟨s1, h1, hr⟩ := Res.bind_eq_ok.mp hr
          cases hr
          unfold Interp.c04_significance at h1
          split at h1
          · cases h1
          · obtain ⟨i, _, h1⟩ := Res.bind_eq_ok.mp h1
            obtain ⟨r, h2, h1⟩ := Res.bind_eq_ok.mp h1
            cases h1
            exact h.significance _ _ r.1 r.2 h2
  · split at hr
    · unfold Interp.c06 at hr
      obtain ⟨p, _, hr⟩ := Res.bind_eq_ok.mp hr
      split at hr
      · cases hr; exact h.refl _
      · obtain ⟨i, _, hr⟩ := Res.bind_eq_ok.mp hr
        obtain ⟨s1, h1, hr⟩ := Res.bind_eq_ok.mp hr
        cases hr
        unfold Interp.c06_define at h1
        split at h1
        · exact h.variable_ _ _ _ h1
        · obtain ⟨i, _, h1⟩ := Res.bind_eq_ok.mp h1
          have := h.variable_ _ _ _ h1
          exact this
    · obtain ⟨s1, h1, hr⟩ := Res.bind_eq_ok.mp hr
      cases hr
      exact h.c_simple h1

theorem r_bitmap (h : Moves T M) {s s' : Interp σ} {c d : Varcode} {g : List Varcode}
    (hr : Interp.r_bitmap C T s c d g = .ok s') : M s.tgt s'.tgt := by
  unfold Interp.r_bitmap at hr
  split at hr
  · cases hr
  · split at hr
    · cases hr
    · obtain ⟨r, h1, hr⟩ := Res.bind_eq_ok.mp hr
      obtain ⟨s2, h2, hr⟩ := Res.bind_eq_ok.mp hr
      cases hr
      refine h.trans _ _ _ ?_ (h.bitmap r.2 _ s2 h2)
      unfold Interp.bitmapSize at h1
      split at h1
      · cases h1; exact h.refl _
      · obtain ⟨i, _, h1⟩ := Res.bind_eq_ok.mp h1
        exact h.bitmapFactor _ _ r.1 r.2 h1

end Moves

/-- What each time does, all times do. -/
theorem Interp.times_moves {α : Type} {f : α → Res α} {M : α → α → Prop} (hr : ∀ a, M a a)
    (ht : ∀ a b c, M a b → M b c → M a c) (hf : ∀ a b, f a = .ok b → M a b) (n : Nat) (a b : α)
    (h : Interp.times f n a = .ok b) : M a b := by
  induction n generalizing a with
  | zero => cases h; exact hr _
  | succ n ih =>
    obtain ⟨c, h1, h2⟩ := Res.bind_eq_ok.mp h
    exact ht _ _ _ (hf _ _ h1) (ih c h2)

end Wreport
