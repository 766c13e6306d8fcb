import Verif.Lemmas.Interp

/-!
# Two targets processing the same descriptors in step
-/

namespace Wreport

/-- Two interpreter states that agree on everything but the target, the treatment of
missing associated fields, and the stored metadata of bitmaps and character data. -/
structure Same {σ τ : Type} (s : Interp σ) (t : Interp τ) : Prop where
  bitmaps : t.bitmaps = s.bitmaps
  field : t.associated_field.bit_count = s.associated_field.bit_count
  meaning : t.associated_field.significance = s.associated_field.significance
  scale : t.c_scale_change = s.c_scale_change
  width : t.c_width_change = s.c_width_change
  increase : t.c_scale_ref_width_increase = s.c_scale_ref_width_increase
  string : t.c_string_len_override = s.c_string_len_override
  refs : t.c03_refval_overrides = s.c03_refval_overrides
  refBits : t.c03_refval_override_bits = s.c03_refval_override_bits
  unknown : t.caches.unknown_table = s.caches.unknown_table

/-- A relation between the states of two targets, given the final state of the
first, which its states only grow to; it may depend on the stored metadata and
on how the two treat missing associated fields. -/
structure Rel (σ τ : Type) where
  le : σ → σ → Prop
  refl : ∀ a, le a a
  trans : ∀ a b c, le a b → le b c → le a c
  Q : σ → σ → τ → TableCaches → TableCaches → Bool → Bool → Prop
  stable : ∀ F a b c c' x y u u', Q F a b c c' x y →
    Q F a b { c with unknown_table := u } { c' with unknown_table := u' } x y

namespace Rel

variable {σ τ : Type}

/-- The relation on interpreter states. -/
structure R (X : Rel σ τ) (F : σ) (s : Interp σ) (t : Interp τ) : Prop where
  same : Same s t
  tgt : X.Q F s.tgt t.tgt s.caches t.caches s.associated_field.skip_missing
    t.associated_field.skip_missing

/-- If the first target goes from `s` to some result, the second goes from any
related state to a related result. -/
def Sim (X : Rel σ τ) (s : Interp σ) (r : Res (Interp σ)) (g : Interp τ → Res (Interp τ)) : Prop :=
  ∀ s', r = .ok s' → X.le s.tgt s'.tgt ∧
    ∀ F t, X.le s'.tgt F → X.R F s t → ∃ t', g t = .ok t' ∧ X.R F s' t'

/-- The same for steps that also give a value. -/
def SimV (X : Rel σ τ) {α : Type} (s : Interp σ) (r : Res (α × Interp σ))
    (g : Interp τ → Res (α × Interp τ)) : Prop :=
  ∀ a s', r = .ok (a, s') → X.le s.tgt s'.tgt ∧
    ∀ F t, X.le s'.tgt F → X.R F s t → ∃ t', g t = .ok (a, t') ∧ X.R F s' t'

variable {X : Rel σ τ}

theorem Sim.err {s : Interp σ} {r : Res (Interp σ)} {g : Interp τ → Res (Interp τ)}
    (h : r.isOk = false) : X.Sim s r g := by
  intro s' hs
  subst hs
  cases h

theorem SimV.err {α : Type} {s : Interp σ} {r : Res (α × Interp σ)}
    {g : Interp τ → Res (α × Interp τ)} (h : r.isOk = false) : X.SimV s r g := by
  intro a s' hs
  subst hs
  cases h

/-- A step that only changes what is shared. -/
theorem Sim.pure {s s' : Interp σ} {g : Interp τ → Interp τ} (h : s'.tgt = s.tgt)
    (hg : ∀ F t, X.R F s t → X.R F s' (g t)) : X.Sim s (.ok s') (fun t => .ok (g t)) := by
  intro s'' hs
  cases hs
  exact ⟨by rw [h]; exact X.refl _, fun F t _ hr => ⟨_, rfl, hg F t hr⟩⟩

theorem Sim.bind {s : Interp σ} {r : Res (Interp σ)} {g : Interp τ → Res (Interp τ)}
    {k : Interp σ → Res (Interp σ)} {k' : Interp τ → Res (Interp τ)} (h : X.Sim s r g)
    (hk : ∀ s', X.Sim s' (k s') k') : X.Sim s (r >>= k) (fun t => g t >>= k') := by
  intro s'' hs
  obtain ⟨s', h1, h2⟩ := Res.bind_eq_ok.mp hs
  obtain ⟨a1, a2⟩ := h s' h1
  obtain ⟨b1, b2⟩ := hk s' s'' h2
  refine ⟨X.trans _ _ _ a1 b1, fun F t hF hr => ?_⟩
  obtain ⟨t', c1, c2⟩ := a2 F t (X.trans _ _ _ b1 hF) hr
  obtain ⟨t'', d1, d2⟩ := b2 F t' hF c2
  exact ⟨t'', by simp only [c1, Res.ok_bind]; exact d1, d2⟩

theorem SimV.bind {α : Type} {s : Interp σ} {r : Res (α × Interp σ)}
    {g : Interp τ → Res (α × Interp τ)}
    {k : α × Interp σ → Res (Interp σ)} {k' : α × Interp τ → Res (Interp τ)} (h : X.SimV s r g)
    (hk : ∀ a s', X.Sim s' (k (a, s')) (fun t => k' (a, t))) :
    X.Sim s (r >>= k) (fun t => g t >>= k') := by
  intro s'' hs
  obtain ⟨⟨a, s'⟩, h1, h2⟩ := Res.bind_eq_ok.mp hs
  obtain ⟨a1, a2⟩ := h a s' h1
  obtain ⟨b1, b2⟩ := hk a s' s'' h2
  refine ⟨X.trans _ _ _ a1 b1, fun F t hF hr => ?_⟩
  obtain ⟨t', c1, c2⟩ := a2 F t (X.trans _ _ _ b1 hF) hr
  obtain ⟨t'', d1, d2⟩ := b2 F t' hF c2
  exact ⟨t'', by simp only [c1, Res.ok_bind]; exact d1, d2⟩

/-- Returning a value that does not depend on the states. -/
theorem Sim.value {α : Type} (a : α) {s : Interp σ} {r : Res (Interp σ)}
    {g : Interp τ → Res (Interp τ)} (h : X.Sim s r g) :
    X.SimV s (r >>= fun s' => .ok (a, s')) (fun t => g t >>= fun t' => .ok (a, t')) := by
  intro b s'' hs
  obtain ⟨s', h1, h2⟩ := Res.bind_eq_ok.mp hs
  simp only [Res.ok.injEq, Prod.mk.injEq] at h2
  obtain ⟨rfl, rfl⟩ := h2
  obtain ⟨a1, a2⟩ := h s' h1
  refine ⟨a1, fun F t hF hr => ?_⟩
  obtain ⟨t', c1, c2⟩ := a2 F t hF hr
  exact ⟨t', by simp only [c1, Res.ok_bind], c2⟩

/-- A computation on what is shared comes first. -/
theorem Sim.read {β : Type} {s : Interp σ} {q : Res β} {q' : Interp τ → Res β}
    {k : β → Res (Interp σ)} {k' : β → Interp τ → Res (Interp τ)}
    (hq : ∀ F t, X.R F s t → q' t = q) (hk : ∀ b, q = .ok b → X.Sim s (k b) (k' b)) :
    X.Sim s (q >>= k) (fun t => q' t >>= fun b => k' b t) := by
  intro s' hs
  obtain ⟨b, h1, h2⟩ := Res.bind_eq_ok.mp hs
  obtain ⟨a1, a2⟩ := hk b h1 s' h2
  refine ⟨a1, fun F t hF hr => ?_⟩
  obtain ⟨t', c1, c2⟩ := a2 F t hF hr
  exact ⟨t', by simp only [hq F t hr, h1, Res.ok_bind]; exact c1, c2⟩

theorem SimV.read {α β : Type} {s : Interp σ} {q : Res β} {q' : Interp τ → Res β}
    {k : β → Res (α × Interp σ)} {k' : β → Interp τ → Res (α × Interp τ)}
    (hq : ∀ F t, X.R F s t → q' t = q) (hk : ∀ b, q = .ok b → X.SimV s (k b) (k' b)) :
    X.SimV s (q >>= k) (fun t => q' t >>= fun b => k' b t) := by
  intro a s' hs
  obtain ⟨b, h1, h2⟩ := Res.bind_eq_ok.mp hs
  obtain ⟨a1, a2⟩ := hk b h1 a s' h2
  refine ⟨a1, fun F t hF hr => ?_⟩
  obtain ⟨t', c1, c2⟩ := a2 F t hF hr
  exact ⟨t', by simp only [hq F t hr, h1, Res.ok_bind]; exact c1, c2⟩

/-- The second step may be given in another form on related states. -/
theorem Sim.congr {s : Interp σ} {r : Res (Interp σ)} {g g' : Interp τ → Res (Interp τ)}
    (h : X.Sim s r g) (he : ∀ F t, X.R F s t → g' t = g t) : X.Sim s r g' := by
  intro s' hs
  obtain ⟨a1, a2⟩ := h s' hs
  refine ⟨a1, fun F t hF hr => ?_⟩
  rw [he F t hr]
  exact a2 F t hF hr

theorem SimV.congr {α : Type} {s : Interp σ} {r : Res (α × Interp σ)}
    {g g' : Interp τ → Res (α × Interp τ)}
    (h : X.SimV s r g) (he : ∀ F t, X.R F s t → g' t = g t) : X.SimV s r g' := by
  intro a s' hs
  obtain ⟨a1, a2⟩ := h a s' hs
  refine ⟨a1, fun F t hF hr => ?_⟩
  rw [he F t hr]
  exact a2 F t hF hr

/-- The two targets answer each callback in step. -/
structure Sims (X : Rel σ τ) (T : Target σ) (T' : Target τ) : Prop where
  bitmap : ∀ s n, X.Sim s (T.define_bitmap s n) (fun t => T'.define_bitmap t n)
  element : ∀ s i, X.Sim s (T.define_variable s i) (fun t => T'.define_variable t i)
  associated : ∀ s i, X.Sim s (T.define_variable_with_associated_field s i)
    (fun t => T'.define_variable_with_associated_field t i)
  factor : ∀ s i, X.SimV s (T.define_delayed_replication_factor s i)
    (fun t => T'.define_delayed_replication_factor t i)
  bitmapFactor : ∀ s i, X.SimV s (T.define_bitmap_delayed_replication_factor s i)
    (fun t => T'.define_bitmap_delayed_replication_factor t i)
  significance : ∀ s i, X.SimV s (T.define_associated_field_significance s i)
    (fun t => T'.define_associated_field_significance t i)
  substituted : ∀ s p, X.Sim s (T.define_substituted_value s p)
    (fun t => T'.define_substituted_value t p)
  attr : ∀ s i p, X.Sim s (T.define_attribute s i p) (fun t => T'.define_attribute t i p)
  raw : ∀ s c, X.Sim s (T.define_raw_character_data s c)
    (fun t => T'.define_raw_character_data t c)
  refval : ∀ s c, X.Sim s (T.define_c03_refval_override s c)
    (fun t => T'.define_c03_refval_override t c)

end Rel

namespace Interp

open Rel

variable {σ τ : Type} {X : Rel σ τ} {T : Target σ} {T' : Target τ}

theorem get_varinfo_same (C : Ctx) {s : Interp σ} {t : Interp τ} (h : Same s t) (code : Varcode) :
    get_varinfo C t code = get_varinfo C s code := by
  obtain ⟨h1, h2, -, h3, h4, h5, h6, h7, h8, h9⟩ := h
  unfold get_varinfo unmodified changedWidth increasedRef overriddenRef
  rw [h3, h4, h5, h6, h7]

theorem sim_elementOrAttribute (hT : Sims X T T') (s : Interp σ) (code : Varcode) (info : Varinfo) :
    X.Sim s (elementOrAttribute T s code info) (fun t => elementOrAttribute T' t code info) := by
  by_cases h1 : WR_VAR_F code = 0 ∧ WR_VAR_X code = 33 ∧ s.bitmaps.active = true
  · have e1 : elementOrAttribute T s code info = (s.bitmaps.next >>= fun r =>
        T.define_attribute { s with bitmaps := r.2 } info r.1) := if_pos h1
    rw [e1]
    refine Sim.congr (g := fun t => t.bitmaps.next >>= fun r =>
      T'.define_attribute { t with bitmaps := r.2 } info r.1) ?_ ?_
    · refine Sim.read (fun F t h => by rw [h.same.bitmaps]) (fun b _ => ?_)
      have := hT.attr { s with bitmaps := b.2 } info b.1
      intro s' hs
      obtain ⟨a1, a2⟩ := this s' hs
      exact ⟨a1, fun F t hF hr => a2 F { t with bitmaps := b.2 } hF
        ⟨{ hr.same with bitmaps := rfl }, hr.tgt⟩⟩
    · intro F t hr
      exact if_pos (by rw [hr.same.bitmaps]; exact h1)
  · have e1 : elementOrAttribute T s code info =
        if s.associated_field.bit_count ≠ 0 then T.define_variable_with_associated_field s info
        else T.define_variable s info := if_neg h1
    have e2 : ∀ F t, X.R F s t → elementOrAttribute T' t code info =
        if s.associated_field.bit_count ≠ 0 then T'.define_variable_with_associated_field t info
        else T'.define_variable t info := by
      intro F t hr
      rw [← hr.same.field]
      exact if_neg (by rw [hr.same.bitmaps]; exact h1)
    rw [e1]
    refine Sim.congr ?_ e2
    split
    · exact hT.associated s info
    · exact hT.element s info

theorem sim_b_variable (C : Ctx) (hT : Sims X T T') (s : Interp σ) (code : Varcode) :
    X.Sim s (b_variable C T s code) (fun t => b_variable C T' t code) := by
  have e2 : ∀ F t, X.R F s t → b_variable C T' t code =
      if s.c03_refval_override_bits ≠ 0 then T'.define_c03_refval_override t code
      else (get_varinfo C t code >>= fun info => elementOrAttribute T' t code info) := by
    intro F t hr
    rw [← hr.same.refBits]
    rfl
  refine Sim.congr ?_ e2
  unfold b_variable
  split
  · exact hT.refval s code
  · exact Sim.read (fun F t hr => get_varinfo_same C hr.same code)
      (fun info _ => sim_elementOrAttribute hT s code info)

theorem sim_c04_significance (C : Ctx) (hT : Sims X T T') (s : Interp σ) (code : Varcode) :
    X.Sim s (c04_significance C T s code) (fun t => c04_significance C T' t code) := by
  unfold c04_significance
  split
  · exact Sim.err rfl
  · refine Sim.read (fun _ _ _ => rfl) (fun info _ => ?_)
    refine SimV.bind (hT.significance s info) (fun a s' => ?_)
    exact Sim.pure rfl (fun F t hr => ⟨{ hr.same with
      field := hr.same.field
      meaning := rfl }, hr.tgt⟩)

theorem sim_c04 (C : Ctx) (hT : Sims X T T') (s : Interp σ) (nbits : Nat) (next : List Varcode) :
    X.SimV s (c04 C T s nbits next) (fun t => c04 C T' t nbits next) := by
  have e2 : ∀ F t, X.R F s t → c04 C T' t nbits next =
      if nbits ≠ 0 ∧ s.associated_field.bit_count ≠ 0 then .err .unimplemented
      else if 32 < nbits then .err .unimplemented
      else if nbits = 0 then
        .ok (next, { t with associated_field := { t.associated_field with bit_count := 0 } })
      else pop next >>= fun p => c04_significance C T' t p.1 >>= fun st =>
        .ok (p.2, { st with associated_field := { st.associated_field with bit_count := nbits } }) := by
    intro F t hr
    rw [← hr.same.field]
    rfl
  refine SimV.congr ?_ e2
  unfold c04
  split
  · exact SimV.err rfl
  split
  · exact SimV.err rfl
  split
  · intro a s' hs
    cases hs
    exact ⟨X.refl _, fun F t _ hr => ⟨_, rfl, { hr.same with field := rfl }, hr.tgt⟩⟩
  · refine SimV.read (fun _ _ _ => rfl) (fun p _ => ?_)
    intro a s' hs
    obtain ⟨s1, h1, h2⟩ := Res.bind_eq_ok.mp hs
    cases h2
    obtain ⟨a1, a2⟩ := sim_c04_significance C hT s p.1 s1 h1
    refine ⟨a1, fun F t hF hr => ?_⟩
    obtain ⟨t', c1, c2⟩ := a2 F t hF hr
    exact ⟨{ t' with associated_field := { t'.associated_field with bit_count := nbits } },
      by simp only [c1, Res.ok_bind], { c2.same with field := rfl }, c2.tgt⟩

theorem sim_c06_define (C : Ctx) (hT : Sims X T T') (s : Interp σ) (code : Varcode) (nbits : Nat)
    (info : Option Varinfo) :
    X.Sim s (c06_define C T s code nbits info) (fun t => c06_define C T' t code nbits info) := by
  cases info with
  | some info => exact hT.element s info
  | none =>
    intro s' hs
    obtain ⟨info, h1, h2⟩ := Res.bind_eq_ok.mp (show ((s.caches.get_unknown C.E code nbits).2 >>=
      fun info => T.define_variable { s with caches := (s.caches.get_unknown C.E code nbits).1 } info)
        = .ok s' from hs)
    obtain ⟨a1, a2⟩ := hT.element _ info s' h2
    refine ⟨a1, fun F t hF hr => ?_⟩
    have hu : (t.caches.get_unknown C.E code nbits).2 = (s.caches.get_unknown C.E code nbits).2 := by
      unfold TableCaches.get_unknown
      rw [hr.same.unknown]
    have hu1 : (t.caches.get_unknown C.E code nbits).1.unknown_table =
        (s.caches.get_unknown C.E code nbits).1.unknown_table := by
      unfold TableCaches.get_unknown
      rw [hr.same.unknown]
    obtain ⟨t', c1, c2⟩ := a2 F { t with caches := (t.caches.get_unknown C.E code nbits).1 } hF
      ⟨{ hr.same with unknown := hu1 }, X.stable _ _ _ _ _ _ _ _ _ hr.tgt⟩
    refine ⟨t', ?_, c2⟩
    show ((t.caches.get_unknown C.E code nbits).2 >>= fun info =>
      T'.define_variable { t with caches := (t.caches.get_unknown C.E code nbits).1 } info) = .ok t'
    rw [hu, h1, Res.ok_bind]
    exact c1

theorem sim_c06 (C : Ctx) (hT : Sims X T T') (s : Interp σ) (nbits : Nat) (next : List Varcode) :
    X.SimV s (c06 C T s nbits next) (fun t => c06 C T' t nbits next) := by
  unfold c06
  refine SimV.read (fun _ _ _ => rfl) (fun p _ => ?_)
  split
  · intro a s' hs
    cases hs
    exact ⟨X.refl _, fun F t _ hr => ⟨_, rfl, hr⟩⟩
  · refine SimV.read (fun F t hr => ?_) (fun info _ => ?_)
    · unfold c06_info
      rw [get_varinfo_same C hr.same]
    · exact Sim.value p.2 (sim_c06_define C hT s p.1 nbits info)

theorem sim_c23 (hT : Sims X T T') (s : Interp σ) (code : Varcode) :
    X.Sim s (c23 T s code) (fun t => c23 T' t code) := by
  have e2 : ∀ F t, X.R F s t → c23 T' t code =
      if WR_VAR_Y code = 0 then
        .ok { t with bitmaps := { s.bitmaps with pending_definitions := code } }
      else if WR_VAR_Y code = 255 then
        if s.bitmaps.active = false then .err .consistency
        else s.bitmaps.next >>= fun r => T'.define_substituted_value { t with bitmaps := r.2 } r.1
      else .err .consistency := by
    intro F t hr
    rw [← hr.same.bitmaps]
    rfl
  refine Sim.congr ?_ e2
  unfold c23
  split
  · exact Sim.pure rfl (fun F t hr => ⟨{ hr.same with bitmaps := rfl }, hr.tgt⟩)
  split
  · split
    · exact Sim.err rfl
    · refine Sim.read (fun _ _ _ => rfl) (fun b _ => ?_)
      intro s' hs
      obtain ⟨a1, a2⟩ := hT.substituted { s with bitmaps := b.2 } b.1 s' hs
      exact ⟨a1, fun F t hF hr => a2 F { t with bitmaps := b.2 } hF
        ⟨{ hr.same with bitmaps := rfl }, hr.tgt⟩⟩
  · exact Sim.err rfl

theorem sim_c37 (s : Interp σ) (y : Nat) :
    X.Sim s (c37 s y) (fun t => c37 t y) := by
  unfold c37
  split
  · exact Sim.pure rfl (fun F t hr =>
      ⟨{ hr.same with bitmaps := by simp only [hr.same.bitmaps] }, hr.tgt⟩)
  split
  · exact Sim.pure rfl (fun F t hr =>
      ⟨{ hr.same with bitmaps := by simp only [hr.same.bitmaps] }, hr.tgt⟩)
  · exact Sim.err rfl

theorem sim_c_simple (hT : Sims X T T') (s : Interp σ) (code : Varcode) :
    X.Sim s (c_simple T s code) (fun t => c_simple T' t code) := by
  unfold c_simple
  simp only
  split
  · exact Sim.pure rfl (fun F t hr => ⟨{ hr.same with width := rfl }, hr.tgt⟩)
  · exact Sim.pure rfl (fun F t hr => ⟨{ hr.same with scale := rfl }, hr.tgt⟩)
  · exact Sim.pure rfl (fun F t hr => ⟨{ hr.same with refBits := rfl }, hr.tgt⟩)
  · exact hT.raw s code
  · exact Sim.pure rfl (fun F t hr => ⟨{ hr.same with increase := rfl }, hr.tgt⟩)
  · exact Sim.pure rfl (fun F t hr => ⟨{ hr.same with string := rfl }, hr.tgt⟩)
  · split
    · exact Sim.err rfl
    · exact Sim.pure rfl (fun F t hr =>
        ⟨{ hr.same with bitmaps := by simp only [hr.same.bitmaps] }, hr.tgt⟩)
  · exact sim_c23 hT s code
  · exact sim_c37 s _
  · exact Sim.pure rfl (fun F t hr => hr)

theorem sim_c_modifier (C : Ctx) (hT : Sims X T T') (s : Interp σ) (code : Varcode)
    (next : List Varcode) :
    X.SimV s (c_modifier C T s code next) (fun t => c_modifier C T' t code next) := by
  unfold c_modifier
  split
  · exact sim_c04 C hT s _ next
  split
  · exact sim_c06 C hT s _ next
  · exact Sim.value next (sim_c_simple hT s code)

theorem sim_times {body : Interp σ → Res (Interp σ)} {body' : Interp τ → Res (Interp τ)}
    (h : ∀ s, X.Sim s (body s) body') (n : Nat) (s : Interp σ) :
    X.Sim s (times body n s) (times body' n) := by
  induction n generalizing s with
  | zero => exact Sim.pure rfl (fun F t hr => hr)
  | succ n ih => exact Sim.bind (h s) (fun s' => ih s')

theorem sim_r_replication (C : Ctx) (hT : Sims X T T') {body : Interp σ → Res (Interp σ)}
    {body' : Interp τ → Res (Interp τ)} (h : ∀ s, X.Sim s (body s) body') (s : Interp σ)
    (code delayed_code : Varcode) :
    X.Sim s (r_replication C T body s code delayed_code)
      (fun t => r_replication C T' body' t code delayed_code) := by
  unfold r_replication
  split
  · exact sim_times h _ s
  · refine Sim.read (fun _ _ _ => rfl) (fun info _ => ?_)
    exact SimV.bind (hT.factor s info) (fun a s' => sim_times h a s')

theorem sim_bitmapSize (C : Ctx) (hT : Sims X T T') (s : Interp σ) (code delayed_code : Varcode) :
    X.SimV s (bitmapSize C T s code delayed_code) (fun t => bitmapSize C T' t code delayed_code) := by
  unfold bitmapSize
  split
  · intro a s' hs
    cases hs
    exact ⟨X.refl _, fun F t _ hr => ⟨_, rfl, hr⟩⟩
  · exact SimV.read (fun _ _ _ => rfl) (fun info _ => hT.bitmapFactor s info)

theorem sim_r_bitmap (C : Ctx) (hT : Sims X T T') (s : Interp σ) (code delayed_code : Varcode)
    (ops : List Varcode) :
    X.Sim s (r_bitmap C T s code delayed_code ops)
      (fun t => r_bitmap C T' t code delayed_code ops) := by
  unfold r_bitmap
  split
  · exact Sim.err rfl
  split
  · exact Sim.err rfl
  · refine SimV.bind (sim_bitmapSize C hT s code delayed_code) (fun a s' => ?_)
    refine Sim.bind (hT.bitmap s' a) (fun s'' => ?_)
    exact Sim.pure rfl (fun F t hr =>
      ⟨{ hr.same with bitmaps := by simp only [hr.same.bitmaps] }, hr.tgt⟩)

theorem sim_replication (C : Ctx) (hT : Sims X T T')
    {exec : List Varcode → Interp σ → Res (Interp σ)}
    {exec' : List Varcode → Interp τ → Res (Interp τ)}
    (h : ∀ ops s, X.Sim s (exec ops s) (exec' ops)) (s : Interp σ) (cur : Varcode)
    (rest : List Varcode) :
    X.SimV s (replication C T exec s cur rest) (fun t => replication C T' exec' t cur rest) := by
  unfold replication
  refine SimV.read (fun _ _ _ => rfl) (fun p _ => ?_)
  refine Sim.value p.2 ?_
  have e2 : ∀ F t, X.R F s t → bitmapOrRepeat C T' exec' t cur (delayedCode cur rest).1 p.1 =
      if s.bitmaps.pending_definitions ≠ 0 then r_bitmap C T' t cur (delayedCode cur rest).1 p.1
      else r_replication C T' (exec' p.1) t cur (delayedCode cur rest).1 := by
    intro F t hr
    rw [← hr.same.bitmaps]
    rfl
  refine Sim.congr ?_ e2
  unfold bitmapOrRepeat
  split
  · exact sim_r_bitmap C hT s cur _ p.1
  · exact sim_r_replication C hT (h p.1) s cur _

theorem sim_step (C : Ctx) (hT : Sims X T T')
    {expand exec : List Varcode → Interp σ → Res (Interp σ)}
    {expand' exec' : List Varcode → Interp τ → Res (Interp τ)}
    (hx : ∀ ops s, X.Sim s (expand ops s) (expand' ops))
    (h : ∀ ops s, X.Sim s (exec ops s) (exec' ops)) (s : Interp σ) (cur : Varcode)
    (rest : List Varcode) :
    X.SimV s (step C T expand exec s cur rest) (fun t => step C T' expand' exec' t cur rest) := by
  unfold step
  split
  · exact Sim.value rest (sim_b_variable C hT s cur)
  · exact sim_replication C hT h s cur rest
  · exact sim_c_modifier C hT s cur rest
  · refine SimV.read (fun _ _ _ => rfl) (fun ops _ => ?_)
    exact Sim.value rest (hx ops s)
  · exact SimV.err rfl

theorem sim_loop (C : Ctx) (hT : Sims X T T')
    {expand : List Varcode → Interp σ → Res (Interp σ)}
    {expand' : List Varcode → Interp τ → Res (Interp τ)}
    (hx : ∀ ops s, X.Sim s (expand ops s) (expand' ops)) (n : Nat) (ops : List Varcode)
    (s : Interp σ) : X.Sim s (loop C T expand n ops s) (loop C T' expand' n ops) := by
  induction n generalizing ops s with
  | zero =>
    cases ops with
    | nil => exact Sim.pure rfl (fun F t hr => hr)
    | cons c l => exact Sim.err rfl
  | succ n ih =>
    cases ops with
    | nil => exact Sim.pure rfl (fun F t hr => hr)
    | cons c l =>
      exact SimV.bind (sim_step C hT hx (fun ops s => ih ops s) s c l) (fun a s' => ih a s')

/-- Two targets that answer each callback in step process any descriptors in
step. -/
theorem sim_run (C : Ctx) (hT : Sims X T T') (d : Nat) (ops : List Varcode) (s : Interp σ) :
    X.Sim s (run C T d ops s) (run C T' d ops) := by
  induction d generalizing ops s with
  | zero => exact sim_loop C hT (fun _ _ => Sim.err rfl) _ ops s
  | succ d ih => exact sim_loop C hT (fun ops s => ih ops s) _ ops s

end Interp

end Wreport
