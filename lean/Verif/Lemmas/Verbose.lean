import Verif.Model.Verbose
import Verif.Lemmas.Interp
import Verif.Lemmas.Listing
import Verif.Lemmas.CDecoderCare

/-! # A decoder that prints decodes the same -/

namespace Wreport

namespace Verbose

variable {σ : Type}

theorem down_put (s : St σ) (x : List Byte) : down (put s x) = down s := rfl

theorem down_up (s : Interp σ) (l : Listing) : down (up s l) = s := rfl

theorem down_indented (s : St σ) (n : Nat) : down (indented s n) = down s := rfl

/-- The printing decoder gives what the other gives, and that has a property. -/
def Follow (I : Interp σ → Prop) : Res (St σ) → Res (Interp σ) → Prop
  | .ok s', .ok s => down s' = s ∧ I s
  | .err e', .err e => e' = e
  | .ub, .ub => True
  | _, _ => False

/-- The same for steps that also give a value. -/
def FollowV {α : Type} (I : Interp σ → Prop) : Res (α × St σ) → Res (α × Interp σ) → Prop
  | .ok r', .ok r => r'.1 = r.1 ∧ down r'.2 = r.2 ∧ I r.2
  | .err e', .err e => e' = e
  | .ub, .ub => True
  | _, _ => False

variable {I : Interp σ → Prop}

theorem Follow.ok {s : St σ} (h : I (down s)) : Follow I (.ok s) (.ok (down s)) := ⟨rfl, h⟩

theorem FollowV.ok {α : Type} {s : St σ} (a : α) (h : I (down s)) :
    FollowV I (.ok (a, s)) (.ok (a, down s)) := ⟨rfl, rfl, h⟩

theorem Follow.err (e : Err) : Follow I (.err e) (.err e) := rfl

theorem FollowV.err {α : Type} (e : Err) : FollowV (α := α) I (.err e) (.err e) := rfl

theorem Follow.bind {r' : Res (St σ)} {r : Res (Interp σ)} {k' : St σ → Res (St σ)}
    {k : Interp σ → Res (Interp σ)} (h : Follow I r' r)
    (hk : ∀ s, I (down s) → Follow I (k' s) (k (down s))) : Follow I (r' >>= k') (r >>= k) := by
  cases r' <;> cases r <;> first | exact h | exact h.elim | skip
  next s' s =>
    obtain ⟨rfl, h⟩ := h
    exact hk s' h

theorem Follow.bindV {α : Type} {r' : Res (St σ)} {r : Res (Interp σ)}
    {k' : St σ → Res (α × St σ)} {k : Interp σ → Res (α × Interp σ)} (h : Follow I r' r)
    (hk : ∀ s, I (down s) → FollowV I (k' s) (k (down s))) : FollowV I (r' >>= k') (r >>= k) := by
  cases r' <;> cases r <;> first | exact h | exact h.elim | skip
  next s' s =>
    obtain ⟨rfl, h⟩ := h
    exact hk s' h

theorem FollowV.bind {α : Type} {r' : Res (α × St σ)} {r : Res (α × Interp σ)}
    {k' : α × St σ → Res (St σ)} {k : α × Interp σ → Res (Interp σ)} (h : FollowV I r' r)
    (hk : ∀ a s, I (down s) → Follow I (k' (a, s)) (k (a, down s))) :
    Follow I (r' >>= k') (r >>= k) := by
  cases r' <;> cases r <;> first | exact h | exact h.elim | skip
  next s' s =>
    obtain ⟨a', s'⟩ := s'
    obtain ⟨a, s⟩ := s
    obtain ⟨h1, h2, h⟩ := h
    simp only at h1 h2 h
    subst h1 h2
    exact hk a' s' h

theorem Follow.read {β : Type} (q : Res β) {k' : β → Res (St σ)} {k : β → Res (Interp σ)}
    (h : ∀ b, q = .ok b → Follow I (k' b) (k b)) : Follow I (q >>= k') (q >>= k) := by
  cases q with
  | ok b => exact h b rfl
  | err e => rfl
  | ub => trivial

theorem FollowV.read {α β : Type} (q : Res β) {k' : β → Res (α × St σ)}
    {k : β → Res (α × Interp σ)} (h : ∀ b, q = .ok b → FollowV I (k' b) (k b)) :
    FollowV I (q >>= k') (q >>= k) := by
  cases q with
  | ok b => exact h b rfl
  | err e => rfl
  | ub => trivial

theorem call_follow {f : Interp σ → Res (Interp σ)} {text : Interp σ → Res (List Byte)} {s : St σ}
    (h : ∀ t, f (down s) = .ok t → I t ∧ ∃ x, text t = .ok x) :
    Follow I (call f text s) (f (down s)) := by
  unfold call
  cases hf : f (down s) with
  | ok t =>
    obtain ⟨h1, x, h2⟩ := h t hf
    simp only [Res.ok_bind, h2]
    exact ⟨rfl, h1⟩
  | err e => rfl
  | ub => trivial

theorem callV_follow {f : Interp σ → Res (Nat × Interp σ)} {text : Nat → List Byte} {s : St σ}
    (h : ∀ r, f (down s) = .ok r → I r.2) : FollowV I (callV f text s) (f (down s)) := by
  unfold callV
  cases hf : f (down s) with
  | ok r => exact ⟨rfl, rfl, h r hf⟩
  | err e => rfl
  | ub => trivial

/-- What a decoder keeps true, so that what the printing decoder prints is there. `J` is
about bitmaps, stored metadata and the state of the target, `G` about the descriptions
of data given to callbacks. -/
structure Watch (C : Ctx) (T : Target σ) (Y : Shown σ)
    (J : Bitmaps → TableCaches → σ → Prop) (G : Varinfo → Prop) : Prop where
  pending : ∀ b c t x, J b c t → J { b with pending_definitions := x } c t
  reuse : ∀ b c t, J b c t → J b.reuse_last c t
  discard : ∀ b c t, J b c t → J b.discard_last c t
  next : ∀ b c t r, J b c t → b.next = .ok r → J r.2 c t
  query : ∀ c i, C.btable.query c = .ok i → G i
  info : ∀ (s : Interp σ) c i, Interp.get_varinfo C s c = .ok i → G i
  unknown : ∀ b c t code n i, J b c t → (c.get_unknown C.E code n).2 = .ok i →
    G i ∧ J b (c.get_unknown C.E code n).1 t
  bitmap : ∀ (s : Interp σ) n s', J s.bitmaps s.caches s.tgt → T.define_bitmap s n = .ok s' →
    J s'.bitmaps s'.caches s'.tgt
  element : ∀ (s : Interp σ) i s', G i → J s.bitmaps s.caches s.tgt → T.define_variable s i = .ok s' →
    J s'.bitmaps s'.caches s'.tgt ∧ ∃ x, Y.last s'.tgt = .ok x
  associated : ∀ (s : Interp σ) i s', G i → J s.bitmaps s.caches s.tgt →
    T.define_variable_with_associated_field s i = .ok s' → J s'.bitmaps s'.caches s'.tgt
  factor : ∀ (s : Interp σ) i r, G i → J s.bitmaps s.caches s.tgt →
    T.define_delayed_replication_factor s i = .ok r → J r.2.bitmaps r.2.caches r.2.tgt
  bitmapFactor : ∀ (s : Interp σ) i r, G i → J s.bitmaps s.caches s.tgt →
    T.define_bitmap_delayed_replication_factor s i = .ok r → J r.2.bitmaps r.2.caches r.2.tgt
  significance : ∀ (s : Interp σ) i r, G i → J s.bitmaps s.caches s.tgt →
    T.define_associated_field_significance s i = .ok r → J r.2.bitmaps r.2.caches r.2.tgt
  substituted : ∀ (s : Interp σ) r s', J s.bitmaps s.caches s.tgt → s.bitmaps.next = .ok r →
    T.define_substituted_value { s with bitmaps := r.2 } r.1 = .ok s' →
    J s'.bitmaps s'.caches s'.tgt
  attr : ∀ (s : Interp σ) i r s', G i → J s.bitmaps s.caches s.tgt → s.bitmaps.next = .ok r →
    T.define_attribute { s with bitmaps := r.2 } i r.1 = .ok s' →
    J s'.bitmaps s'.caches s'.tgt ∧ (∃ j, Y.info s'.tgt r.1 = .ok j) ∧
      ∃ x, Y.attr s'.tgt i.code r.1 = .ok x
  raw : ∀ (s : Interp σ) c s', J s.bitmaps s.caches s.tgt → T.define_raw_character_data s c = .ok s' →
    J s'.bitmaps s'.caches s'.tgt
  refval : ∀ (s : Interp σ) c s', J s.bitmaps s.caches s.tgt → T.define_c03_refval_override s c = .ok s' →
    J s'.bitmaps s'.caches s'.tgt

/-- The property on states of an interpreter. -/
def Keeps (J : Bitmaps → TableCaches → σ → Prop) (s : Interp σ) : Prop :=
  J s.bitmaps s.caches s.tgt

namespace Watch

open Interp

variable {C : Ctx} {T : Target σ} {X : Texts} {Y : Shown σ}
  {J : Bitmaps → TableCaches → σ → Prop} {G : Varinfo → Prop}

theorem quiet_ok {P : Prop} {t : Interp σ} (h : P) : P ∧ ∃ x, quiet t = .ok x := ⟨h, [], rfl⟩

theorem elementOrAttribute (h : Watch C T Y J G) {s : St σ} (hs : Keeps J (down s))
    (code : Varcode) {i : Varinfo} (hi : G i) :
    Follow (Keeps J) (elementOrAttribute (target T X Y) s code i)
      (Interp.elementOrAttribute T (down s) code i) := by
  unfold Interp.elementOrAttribute
  have e1 : (down s).bitmaps = s.bitmaps := rfl
  have e2 : (down s).associated_field = s.associated_field := rfl
  rw [e1, e2]
  split
  · refine Follow.read _ fun r hr => ?_
    refine call_follow (f := fun t => T.define_attribute t i r.1) (s := { s with bitmaps := r.2 }) fun t ht => ?_
    obtain ⟨h1, ⟨j, h2⟩, x, h3⟩ := h.attr (down s) i r t hi hs hr ht
    refine ⟨h1, ?_⟩
    unfold attributeText
    simp only [h2, h3, Res.ok_bind]
    exact ⟨_, rfl⟩
  · split
    · exact call_follow (f := fun t => T.define_variable_with_associated_field t i) fun t ht => quiet_ok (h.associated _ _ _ hi hs ht)
    · refine call_follow (f := fun t => T.define_variable t i) fun t ht => ?_
      obtain ⟨h1, x, h2⟩ := h.element _ _ _ hi hs ht
      refine ⟨h1, ?_⟩
      unfold variableText
      simp only [h2, Res.ok_bind]
      exact ⟨_, rfl⟩

theorem element_follow (h : Watch C T Y J G) {s : St σ} (hs : Keeps J (down s)) {i : Varinfo} (hi : G i) :
    Follow (Keeps J) ((target T X Y).define_variable s i) (T.define_variable (down s) i) := by
  refine call_follow (f := fun t => T.define_variable t i) fun t ht => ?_
  obtain ⟨h1, x, h2⟩ := h.element _ _ _ hi hs ht
  refine ⟨h1, ?_⟩
  unfold variableText
  simp only [h2, Res.ok_bind]
  exact ⟨_, rfl⟩

theorem significance_follow (h : Watch C T Y J G) {s : St σ} (hs : Keeps J (down s)) {i : Varinfo}
    (hi : G i) : FollowV (Keeps J) ((target T X Y).define_associated_field_significance s i)
      (T.define_associated_field_significance (down s) i) :=
  callV_follow (f := fun t => T.define_associated_field_significance t i)
    (text := fun _ => []) (s := s) fun _ hr => h.significance _ _ _ hi hs hr

theorem factor_follow (h : Watch C T Y J G) {s : St σ} (hs : Keeps J (down s)) {i : Varinfo}
    (hi : G i) : FollowV (Keeps J) ((target T X Y).define_delayed_replication_factor s i)
      (T.define_delayed_replication_factor (down s) i) :=
  callV_follow (f := fun t => T.define_delayed_replication_factor t i)
    (text := fun n => more s.tgt.2 ++ ascii "delayed replication factor: " ++ Printer.dec n ++
      ascii "\n") (s := s) fun _ hr => h.factor _ _ _ hi hs hr

theorem bitmapFactor_follow (h : Watch C T Y J G) {s : St σ} (hs : Keeps J (down s)) {i : Varinfo}
    (hi : G i) : FollowV (Keeps J) ((target T X Y).define_bitmap_delayed_replication_factor s i)
      (T.define_bitmap_delayed_replication_factor (down s) i) :=
  callV_follow (f := fun t => T.define_bitmap_delayed_replication_factor t i)
    (text := fun _ => []) (s := s) fun _ hr => h.bitmapFactor _ _ _ hi hs hr

theorem get_varinfo_down (s : St σ) (c : Varcode) :
    get_varinfo C s c = get_varinfo C (down s) c := rfl

theorem b_variable_inner (h : Watch C T Y J G) {s : St σ} (hs : Keeps J (down s)) (code : Varcode) :
    Follow (Keeps J) (Interp.b_variable C (target T X Y) s code)
      (Interp.b_variable C T (down s) code) := by
  unfold Interp.b_variable
  have e2 : (down s).c03_refval_override_bits = s.c03_refval_override_bits := rfl
  rw [e2]
  split
  · exact call_follow (f := fun t => T.define_c03_refval_override t code) fun t ht => ⟨h.refval _ _ _ hs ht, _, rfl⟩
  · rw [get_varinfo_down]
    exact Follow.read _ fun i hi => h.elementOrAttribute hs code (h.info _ _ _ hi)

theorem elementText_ok (code : Varcode) : ∃ x, elementText C X code = .ok x := by
  unfold elementText Vartable.contains Vartable.query
  obtain ⟨r, hr, -⟩ := C.btable.query_entry_safe code
  simp only [hr, Res.ok_bind]
  cases r with
  | none => exact ⟨_, rfl⟩
  | some p => exact ⟨_, rfl⟩

theorem b_variable (h : Watch C T Y J G) {s : St σ} (hs : Keeps J (down s)) (code : Varcode) :
    Follow (Keeps J) (Verbose.b_variable C T X Y s code) (Interp.b_variable C T (down s) code) := by
  unfold Verbose.b_variable
  obtain ⟨x, hx⟩ := elementText_ok (C := C) (X := X) code
  rw [hx]
  exact h.b_variable_inner (s := put s _) hs code

theorem c04 (h : Watch C T Y J G) {s : St σ} (hs : Keeps J (down s)) (n : Nat)
    (next : List Varcode) :
    FollowV (Keeps J) (Interp.c04 C (target T X Y) s n next) (Interp.c04 C T (down s) n next) := by
  unfold Interp.c04
  have e2 : (down s).associated_field = s.associated_field := rfl
  rw [e2]
  split
  · exact .err _
  split
  · exact .err _
  split
  · exact ⟨rfl, rfl, hs⟩
  · refine FollowV.read _ fun p _ => ?_
    refine Follow.bindV (I := Keeps J) ?_ fun s' hs' => ⟨rfl, rfl, hs'⟩
    unfold c04_significance
    split
    · exact .err _
    · refine Follow.read _ fun i hi => ?_
      exact FollowV.bind (h.significance_follow hs (h.query _ _ hi)) fun a s' hs' => ⟨rfl, hs'⟩

theorem c06 (h : Watch C T Y J G) {s : St σ} (hs : Keeps J (down s)) (n : Nat)
    (next : List Varcode) :
    FollowV (Keeps J) (Interp.c06 C (target T X Y) s n next) (Interp.c06 C T (down s) n next) := by
  unfold Interp.c06
  refine FollowV.read _ fun p _ => ?_
  split
  · exact ⟨rfl, rfl, hs⟩
  · have hc : c06_info C s p.1 n = c06_info C (down s) p.1 n := rfl
    rw [hc]
    refine FollowV.read _ fun o ho => ?_
    refine Follow.bindV (I := Keeps J) ?_ fun s' hs' => ⟨rfl, rfl, hs'⟩
    cases o with
    | some i =>
      refine h.element_follow hs ?_
      unfold c06_info at ho
      obtain ⟨k, -, ho⟩ := Res.bind_eq_ok.mp ho
      split at ho
      · obtain ⟨j, hj, ho⟩ := Res.bind_eq_ok.mp ho
        split at ho
        · cases ho
          exact h.info _ _ _ hj
        · cases ho
      · cases ho
    | none =>
      refine Follow.read _ fun i hi => ?_
      obtain ⟨h1, h2⟩ := h.unknown _ _ _ p.1 n i hs hi
      exact h.element_follow (s := { s with caches := (s.caches.get_unknown C.E p.1 n).1 }) h2 h1

theorem c_simple (h : Watch C T Y J G) {s : St σ} (hs : Keeps J (down s)) (code : Varcode) :
    Follow (Keeps J) (Interp.c_simple (target T X Y) s code)
      (Interp.c_simple T (down s) code) := by
  unfold Interp.c_simple
  simp only
  split
  · exact ⟨rfl, hs⟩
  · exact ⟨rfl, hs⟩
  · exact ⟨rfl, hs⟩
  · exact call_follow (f := fun t => T.define_raw_character_data t code) fun t ht => quiet_ok (h.raw _ _ _ hs ht)
  · exact ⟨rfl, hs⟩
  · exact ⟨rfl, hs⟩
  · split
    · exact .err _
    · exact ⟨rfl, h.pending _ _ _ _ hs⟩
  · unfold c23
    split
    · exact ⟨rfl, h.pending _ _ _ _ hs⟩
    split
    · have e1 : (down s).bitmaps = s.bitmaps := rfl
      rw [e1]
      split
      · exact .err _
      · refine Follow.read _ fun r hr => ?_
        exact call_follow (f := fun t => T.define_substituted_value t r.1) (s := { s with bitmaps := r.2 }) fun t ht =>
          quiet_ok (h.substituted (down s) r t hs hr ht)
    · exact .err _
  · unfold c37
    split
    · exact ⟨rfl, h.pending _ _ _ _ (h.reuse _ _ _ hs)⟩
    split
    · exact ⟨rfl, h.discard _ _ _ hs⟩
    · exact .err _
  · exact ⟨rfl, hs⟩

theorem c_modifier (h : Watch C T Y J G) {s : St σ} (hs : Keeps J (down s)) (code : Varcode)
    (next : List Varcode) :
    FollowV (Keeps J) (Interp.c_modifier C (target T X Y) s code next)
      (Interp.c_modifier C T (down s) code next) := by
  unfold Interp.c_modifier
  split
  · exact h.c04 hs _ _
  split
  · exact h.c06 hs _ _
  · exact Follow.bindV (h.c_simple hs code) fun s' hs' => ⟨rfl, rfl, hs'⟩

theorem times (J : Bitmaps → TableCaches → σ → Prop) {body' : St σ → Res (St σ)}
    {body : Interp σ → Res (Interp σ)}
    (hb : ∀ s, Keeps J (down s) → Follow (Keeps J) (body' s) (body (down s))) (n : Nat) (s : St σ)
    (hs : Keeps J (down s)) :
    Follow (Keeps J) (Interp.times body' n s) (Interp.times body n (down s)) := by
  induction n generalizing s with
  | zero => exact ⟨rfl, hs⟩
  | succ n ih => exact Follow.bind (hb s hs) fun s' hs' => ih s' hs'

theorem r_replication (h : Watch C T Y J G) {body' : St σ → Res (St σ)}
    {body : Interp σ → Res (Interp σ)}
    (hb : ∀ s, Keeps J (down s) → Follow (Keeps J) (body' s) (body (down s))) {s : St σ}
    (hs : Keeps J (down s)) (code d : Varcode) :
    Follow (Keeps J) (Interp.r_replication C (target T X Y) body' s code d)
      (Interp.r_replication C T body (down s) code d) := by
  unfold Interp.r_replication
  split
  · exact times J hb _ s hs
  · refine Follow.read _ fun i hi => ?_
    exact FollowV.bind (h.factor_follow hs (h.query _ _ hi)) fun a s' hs' => times J hb _ s' hs'

theorem r_bitmap (h : Watch C T Y J G) {s : St σ} (hs : Keeps J (down s)) (code d : Varcode)
    (ops : List Varcode) :
    Follow (Keeps J) (Interp.r_bitmap C (target T X Y) s code d ops)
      (Interp.r_bitmap C T (down s) code d ops) := by
  unfold Interp.r_bitmap
  split
  · exact .err _
  split
  · exact .err _
  · refine FollowV.bind (I := Keeps J) ?_ fun n s' hs' => ?_
    · unfold bitmapSize
      split
      · exact ⟨rfl, rfl, hs⟩
      · refine FollowV.read _ fun i hi => ?_
        exact h.bitmapFactor_follow hs (h.query _ _ hi)
    · refine Follow.bind (I := Keeps J) (call_follow (f := fun t => T.define_bitmap t n) fun t ht =>
        quiet_ok (h.bitmap _ _ _ hs' ht)) fun s'' hs'' => ⟨rfl, h.pending _ _ _ _ hs''⟩

theorem deeper {body' : St σ → Res (St σ)} {r : Res (Interp σ)} {s : St σ} {x : List Byte}
    (hb : ∀ s', down s' = down s → Follow (Keeps J) (body' s') r) :
    Follow (Keeps J) (Verbose.deeper body' (put s x)) r := by
  unfold Verbose.deeper
  have := hb (indented (put s x) ((put s x).tgt.2.indent + (put s x).tgt.2.indent_step)) rfl
  revert this
  generalize body' _ = q
  intro this
  cases q <;> cases r <;> exact this

theorem replication (h : Watch C T Y J G)
    {exec' : List Varcode → St σ → Res (St σ)} {exec : List Varcode → Interp σ → Res (Interp σ)}
    (he : ∀ g s, Keeps J (down s) → Follow (Keeps J) (exec' g s) (exec g (down s))) {s : St σ}
    (hs : Keeps J (down s)) (cur : Varcode) (rest : List Varcode) :
    FollowV (Keeps J) ((over C T X Y).replication exec' s cur rest)
      (Interp.replication C T exec (down s) cur rest) := by
  unfold Over.replication Interp.replication
  simp only []
  refine FollowV.read _ fun p _ => ?_
  refine Follow.bindV (I := Keeps J) ?_ fun s' hs' => ⟨rfl, rfl, hs'⟩
  unfold Over.bitmapOrRepeat Interp.bitmapOrRepeat
  have e1 : (down s).bitmaps = s.bitmaps := rfl
  rw [e1]
  split
  · exact h.r_bitmap hs _ _ _
  · have e : ∀ d, (over C T X Y).r_replication (exec' p.1) s cur d =
        Verbose.deeper (fun s => Interp.r_replication C (target T X Y) (exec' p.1) s cur d)
          (put s (lead s cur ++ Printer.replicationText cur d)) := fun _ => rfl
    rw [e]
    refine deeper fun s' hs' => ?_
    rw [← hs']
    exact h.r_replication (he p.1) (by rw [hs']; exact hs) _ _

theorem loop (h : Watch C T Y J G) {expand' : List Varcode → St σ → Res (St σ)}
    {expand : List Varcode → Interp σ → Res (Interp σ)}
    (he : ∀ g s, Keeps J (down s) → Follow (Keeps J) (expand' g s) (expand g (down s))) (n : Nat)
    (ops : List Varcode) (s : St σ) (hs : Keeps J (down s)) :
    Follow (Keeps J) (Over.loop C (over C T X Y) expand' n ops s)
      (Interp.loop C T expand n ops (down s)) := by
  induction n generalizing ops s with
  | zero =>
    cases ops with
    | nil => exact ⟨rfl, hs⟩
    | cons c rest => trivial
  | succ n ih =>
    cases ops with
    | nil => exact ⟨rfl, hs⟩
    | cons c rest =>
      unfold Over.loop Interp.loop
      refine FollowV.bind (I := Keeps J) ?_ fun a s' hs' => ih a s' hs'
      unfold Over.step Interp.step
      generalize WR_VAR_F c = f
      match f with
      | 0 => exact Follow.bindV (h.b_variable (X := X) hs c) fun s' hs' => ⟨rfl, rfl, hs'⟩
      | 1 => exact h.replication ih hs c rest
      | 2 => exact h.c_modifier (X := X) (s := put s (lead s c ++ ascii " " ++
          Printer.describe c rest)) hs c rest
      | 3 =>
        refine FollowV.read _ fun q _ => ?_
        refine Follow.bindV (I := Keeps J) ?_ fun s' hs' => ⟨rfl, rfl, hs'⟩
        show Follow _ (Verbose.deeper _ (put s _)) _
        refine deeper fun s' hs' => ?_
        rw [← hs']
        exact he q s' (by rw [hs']; exact hs)
      | f + 4 => exact .err _

theorem run (h : Watch C T Y J G) (depth : Nat) (ops : List Varcode) (s : St σ)
    (hs : Keeps J (down s)) :
    Follow (Keeps J) (Over.run C (over C T X Y) depth ops s)
      (Interp.run C T depth ops (down s)) := by
  induction depth generalizing ops s with
  | zero =>
    exact h.loop (expand' := fun _ _ => .ub) (expand := fun _ _ => .ub) (fun _ _ _ => trivial) _ ops s hs
  | succ d ih => exact h.loop ih _ ops s hs

end Watch

end Verbose

end Wreport
