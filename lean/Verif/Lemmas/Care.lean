import Verif.Lemmas.Interp
import Verif.Spec.Tame

/-!
# Invariants of an interpreter, with and without undefined behaviour

`Care` says what the callbacks of a target keep true, as long as there is a budget
left that each of them may use a part of. A run of descriptors keeps it true, given
enough budget. With `safe` the callbacks have no undefined behaviour and the run has
none either; without, the claim is about runs that return.
-/

namespace Wreport

open Spec

/-- A value returned satisfies `P`, and if `safe` there is no undefined behaviour. -/
def Res.Has {α : Type} (r : Res α) (safe : Prop) (P : α → Prop) : Prop :=
  match r with
  | .ok a => P a
  | .err _ => True
  | .ub => ¬ safe

namespace Res.Has

variable {α β : Type} {safe : Prop}

theorem bind {x : Res α} {f : α → Res β} {P : α → Prop} {P' : β → Prop}
    (hx : x.Has safe P) (hf : ∀ a, x = .ok a → P a → (f a).Has safe P') : (x >>= f).Has safe P' := by
  cases x with
  | ok a => exact hf a rfl hx
  | err e => trivial
  | ub => exact hx

theorem mono {x : Res α} {P P' : α → Prop} (hx : x.Has safe P) (hp : ∀ a, P a → P' a) :
    x.Has safe P' := by
  cases x with
  | ok a => exact hp a hx
  | err e => trivial
  | ub => exact hx

theorem and {x : Res α} {P P' : α → Prop} (hx : x.Has safe P) (hp : ∀ a, x = .ok a → P' a) :
    x.Has safe (fun a => P a ∧ P' a) := by
  cases x with
  | ok a => exact ⟨hx, hp a rfl⟩
  | err e => trivial
  | ub => exact hx

theorem of {x : Res α} {P : α → Prop} (h : ∀ a, x = .ok a → P a) (hu : safe → x ≠ .ub) :
    x.Has safe P := by
  cases x with
  | ok a => exact h a rfl
  | err e => trivial
  | ub => exact fun s => hu s rfl

theorem ok {x : Res α} {P : α → Prop} (h : x.Has safe P) {a : α} (ha : x = .ok a) : P a := by
  rw [ha] at h
  exact h

theorem not_ub {x : Res α} {P : α → Prop} (h : x.Has safe P) (hs : safe) : x ≠ .ub := by
  intro hx
  rw [hx] at h
  exact h hs

theorem trivial' {x : Res α} (h : safe → x ≠ .ub) : x.Has safe (fun _ => True) :=
  of (fun _ _ => True.intro) h

end Res.Has

/-- What each callback keeps true, given a budget of which it uses at most `W`. `G` is
true of the descriptions of data that the interpreter gives to callbacks, `P` of the
descriptors it meets. -/
structure Care {σ : Type} (safe : Prop) (C : Ctx) (T : Target σ) (I : Nat → Interp σ → Prop)
    (W : Nat) (G : Varinfo → Prop) (P : Varcode → Prop) : Prop where
  mono : ∀ b k s, I (b + k) s → I b s
  query : ∀ c, P c → (C.btable.query c).Has safe G
  contains : ∀ c, safe → C.btable.contains c ≠ .ub
  sequence : ∀ c, P c → WR_VAR_F c = 3 →
    (C.dtable.query c).Has safe (fun seq => ∀ x ∈ seq, P x)
  factorCode : P (WR_VAR 0 31 12)
  meaningCode : P (WR_VAR 0 31 21)
  info : ∀ b s c, P c → I b s → (Interp.get_varinfo C s c).Has safe G
  unknown : ∀ b s c n, I b s → n ≠ 0 → n < 256 → (s.caches.get_unknown C.E c n).2.Has safe
    (fun i => G i ∧ I b { s with caches := (s.caches.get_unknown C.E c n).1 })
  bitmap : ∀ b s n, n < 2 ^ 32 → s.bitmaps.pending_definitions ≠ 0 → I (b + W) s →
    (T.define_bitmap s n).Has safe
      (fun s' => I b { s' with bitmaps := { s'.bitmaps with pending_definitions := 0 } })
  element : ∀ b s i, G i → I (b + W) s → (T.define_variable s i).Has safe (I b)
  associated : ∀ b s i, G i → s.associated_field.bit_count ≠ 0 → I (b + W) s →
    (T.define_variable_with_associated_field s i).Has safe (I b)
  factor : ∀ b s i, G i → I (b + W) s →
    (T.define_delayed_replication_factor s i).Has safe (fun r => r.1 < 2 ^ 32 ∧ I b r.2)
  bitmapFactor : ∀ b s i, G i → s.bitmaps.pending_definitions ≠ 0 → I (b + W) s →
    (T.define_bitmap_delayed_replication_factor s i).Has safe
      (fun r => r.1 < 2 ^ 32 ∧ r.2.bitmaps.pending_definitions ≠ 0 ∧ I b r.2)
  field : ∀ b s c, P c → WR_VAR_F c = 2 → WR_VAR_X c = 4 → WR_VAR_Y c ≤ 32 → I b s →
    I b { s with associated_field := { s.associated_field with bit_count := WR_VAR_Y c } }
  meaning : ∀ b s i, G i → I (b + W) s → (T.define_associated_field_significance s i).Has safe
    (fun r => I b { r.2 with associated_field := { r.2.associated_field with significance := r.1 } })
  attr : ∀ b s i, G i → s.bitmaps.active = true → I (b + W) s →
    (s.bitmaps.next).Has safe (fun r =>
      (T.define_attribute { s with bitmaps := r.2 } i r.1).Has safe (I b))
  refval : ∀ b s c, s.c03_refval_override_bits ≠ 0 → I (b + W) s →
    (T.define_c03_refval_override s c).Has safe (I b)
  simple : ∀ b s c, P c → WR_VAR_F c = 2 → WR_VAR_X c ≠ 4 → WR_VAR_X c ≠ 6 → I (b + W) s →
    (Interp.c_simple T s c).Has safe (I b)

namespace Care

open Interp

variable {σ : Type} {safe : Prop} {C : Ctx} {T : Target σ} {I : Nat → Interp σ → Prop} {W : Nat}
  {G : Varinfo → Prop} {P : Varcode → Prop}

theorem le (h : Care safe C T I W G P) {a b : Nat} {s : Interp σ} (hab : b ≤ a) (hi : I a s) :
    I b s := by
  obtain ⟨k, rfl⟩ := Nat.exists_eq_add_of_le hab
  exact h.mono b k s hi

theorem b_variable (h : Care safe C T I W G P) {b : Nat} {s : Interp σ} {c : Varcode} (hp : P c)
    (hi : I (b + W) s) : (Interp.b_variable C T s c).Has safe (I b) := by
  unfold Interp.b_variable
  split
  · exact h.refval b s c ‹_› hi
  · refine Res.Has.bind (h.info _ s c hp hi) fun i _ hg => ?_
    unfold elementOrAttribute
    split
    · next hc =>
      exact Res.Has.bind (h.attr b s i hg hc.2.2 hi) fun r _ hr => hr
    · split
      · exact h.associated b s i hg ‹_› hi
      · exact h.element b s i hg hi

theorem popped {ops : List Varcode} : (pop ops).Has safe (fun p => ops = p.1 :: p.2) := by
  cases ops with
  | nil => trivial
  | cons c rest => rfl

theorem c_modifier (h : Care safe C T I W G P) {b : Nat} {s : Interp σ} {c : Varcode}
    {next : List Varcode} (hf : WR_VAR_F c = 2) (hp : P c) (hn : ∀ x ∈ next, P x)
    (hi : I (b + W) s) :
    (Interp.c_modifier C T s c next).Has safe (fun r => I b r.2 ∧ r.1 <:+ next) := by
  unfold Interp.c_modifier
  split
  · next hx =>
    unfold c04
    split
    · trivial
    split
    · trivial
    next h32 =>
    split
    · next hy =>
      have := h.field b s c hp hf hx (by omega) (h.mono _ _ _ hi)
      rw [hy] at this
      exact ⟨this, List.suffix_refl _⟩
    · refine Res.Has.bind popped fun p _ hpop => ?_
      refine Res.Has.bind (P := I b) ?_ fun s' _ hs' => ?_
      · unfold c04_significance
        split
        · trivial
        · refine Res.Has.bind (h.query _ h.meaningCode) fun i _ hg => ?_
          refine Res.Has.bind (h.meaning b s i hg hi) fun r _ hr => hr
      · refine ⟨h.field b s' c hp hf hx (by omega) hs', ?_⟩
        rw [hpop]
        exact List.suffix_cons _ _
  · split
    · next hx =>
      unfold c06
      refine Res.Has.bind popped fun p _ hpop => ?_
      have hsuf : p.2 <:+ next := by rw [hpop]; exact List.suffix_cons _ _
      split
      · exact ⟨h.mono _ _ _ hi, hsuf⟩
      · next hy =>
        refine Res.Has.bind (P := fun o => ∀ i, o = some i → G i) ?_ fun o _ ho => ?_
        · unfold c06_info
          refine Res.Has.bind (P := fun _ => True) (Res.Has.trivial' (h.contains _)) fun k _ _ => ?_
          split
          · refine Res.Has.bind (h.info _ s p.1 (hn _ (by rw [hpop]; simp)) hi) fun i _ hg => ?_
            split
            · intro j hj
              cases hj
              exact hg
            · intro j hj
              cases hj
          · intro j hj
            cases hj
        · refine Res.Has.bind (P := I b) ?_ fun s' _ hs' => ⟨hs', hsuf⟩
          cases o with
          | some i => exact h.element b s i (ho i rfl) hi
          | none =>
            have h256 : WR_VAR_Y c < 256 := Nat.mod_lt _ (by decide)
            exact Res.Has.bind (h.unknown _ s p.1 _ hi hy h256) fun i _ hg =>
              h.element b _ i hg.1 hg.2
    · exact Res.Has.bind (h.simple b s c hp hf ‹_› ‹_› hi) fun s' _ hs' => ⟨hs', List.suffix_refl _⟩

theorem times (_h : Care safe C T I W G P) {body : Interp σ → Res (Interp σ)} {K : Nat}
    (hb : ∀ b s, I (b + K) s → (body s).Has safe (I b)) (n b : Nat) (s : Interp σ)
    (hi : I (b + n * K) s) : (Interp.times body n s).Has safe (I b) := by
  induction n generalizing s with
  | zero => exact (by simpa using hi : I b s)
  | succ n ih =>
    refine Res.Has.bind (hb (b + n * K) s ?_) fun s' _ hs' => ih s' hs'
    rw [Nat.succ_mul, ← Nat.add_assoc] at hi
    exact hi

theorem replication (h : Care safe C T I W G P) {exec : List Varcode → Interp σ → Res (Interp σ)}
    {K : Nat} {b : Nat} {s : Interp σ} {c : Varcode} {rest : List Varcode}
    (hn : ∀ x ∈ rest, P x)
    (he : ∀ g, g <:+: rest → ∀ b s, I (b + K) s → (exec g s).Has safe (I b))
    (hi : I (b + 2 ^ 32 * K + 2 * W) s) :
    (Interp.replication C T exec s c rest).Has safe (fun r => I b r.2 ∧ r.1 <:+ rest) := by
  unfold Interp.replication
  have hd : P (delayedCode c rest).1 ∨ WR_VAR_Y c ≠ 0 := by
    unfold delayedCode
    split
    · exact Or.inr ‹_›
    · left
      split
      · exact h.factorCode
      · split
        · exact hn _ (by simp)
        · exact h.factorCode
  have hs : (delayedCode c rest).2 <:+ rest := by
    unfold delayedCode
    split
    · exact List.suffix_refl _
    · split
      · exact List.suffix_refl _
      · split
        · exact List.suffix_cons _ _
        · exact List.suffix_refl _
  simp only []
  refine Res.Has.bind (P := fun p => p.1 <:+: rest ∧ p.2 <:+ rest) ?_ fun p _ hp => ?_
  · unfold popN
    split
    · trivial
    · refine ⟨?_, (List.drop_suffix _ _).trans hs⟩
      exact (List.take_prefix _ _).isInfix.trans hs.isInfix
  · refine Res.Has.bind (P := I b) ?_ fun s' _ hs' => ⟨hs', hp.2⟩
    unfold bitmapOrRepeat
    split
    · next hpend =>
      unfold r_bitmap
      split
      · trivial
      split
      · trivial
      refine Res.Has.bind (P := fun r => r.1 < 2 ^ 32 ∧ r.2.bitmaps.pending_definitions ≠ 0 ∧ I (b + W) r.2) ?_
        fun r _ hr => ?_
      · unfold bitmapSize
        split
        · refine ⟨Nat.lt_trans (Nat.mod_lt _ (by decide)) (by decide : 256 < 2 ^ 32), hpend, ?_⟩
          exact h.le (by omega) hi
        · refine Res.Has.bind (h.query _ (hd.resolve_right ‹_›)) fun i _ hg => ?_
          exact h.bitmapFactor (b + W) s i hg hpend (h.le (by omega) hi)
      · exact Res.Has.bind (h.bitmap b r.2 r.1 hr.1 hr.2.1 hr.2.2) fun s' _ hs' => hs'
    · unfold r_replication
      have hle : ∀ {n : Nat}, n < 2 ^ 32 → n * K ≤ 2 ^ 32 * K := fun hn =>
        Nat.mul_le_mul_right _ hn.le
      split
      · have : WR_VAR_Y c < 2 ^ 32 :=
          Nat.lt_trans (Nat.mod_lt _ (by decide)) (by decide : 256 < 2 ^ 32)
        exact h.times (he p.1 hp.1) _ b s (h.le (by have := hle this; omega) hi)
      · refine Res.Has.bind (h.query _ (hd.resolve_right ‹_›)) fun i _ hg => ?_
        refine Res.Has.bind (h.factor (b + 2 ^ 32 * K) s i hg (h.le (by omega) hi)) fun r _ hr => ?_
        exact h.times (he p.1 hp.1) _ b r.2 (h.le (by have := hle hr.1; omega) hr.2)

/-- Enough budget for the sequences that descriptors stand for. -/
theorem sequences {expand : List Varcode → Interp σ → Res (Interp σ)} (h : Care safe C T I W G P)
    (ops : List Varcode)
    (he : ∀ c ∈ ops, WR_VAR_F c = 3 → ∀ seq, C.dtable.query c = .ok seq →
      ∃ K, ∀ b s, I (b + K) s → (expand seq s).Has safe (I b)) :
    ∃ K, ∀ c ∈ ops, WR_VAR_F c = 3 → ∀ seq, C.dtable.query c = .ok seq →
      ∀ b s, I (b + K) s → (expand seq s).Has safe (I b) := by
  induction ops with
  | nil => exact ⟨0, by simp⟩
  | cons c rest ih =>
    obtain ⟨K, hK⟩ := ih fun c hc => he c (List.mem_cons_of_mem _ hc)
    have : ∃ K', WR_VAR_F c = 3 → ∀ seq, C.dtable.query c = .ok seq →
        ∀ b s, I (b + K') s → (expand seq s).Has safe (I b) := by
      by_cases hf : WR_VAR_F c = 3
      · cases hq : C.dtable.query c with
        | ok seq =>
          obtain ⟨K', hK'⟩ := he c (by simp) hf seq hq
          exact ⟨K', fun _ seq' hs => by cases hs; exact hK'⟩
        | err e => exact ⟨0, fun _ seq hs => by cases hs⟩
        | ub => exact ⟨0, fun _ seq hs => by cases hs⟩
      · exact ⟨0, fun hf' => absurd hf' hf⟩
    obtain ⟨K', hK'⟩ := this
    refine ⟨max K K', fun d hd hf seq hq b s hi => ?_⟩
    rcases List.mem_cons.mp hd with rfl | hd
    · exact hK' hf seq hq b s (h.le (by omega) hi)
    · exact hK d hd hf seq hq b s (h.le (by omega) hi)

theorem loop (h : Care safe C T I W G P) {expand : List Varcode → Interp σ → Res (Interp σ)}
    {ops : List Varcode} (hp : ∀ c ∈ ops, P c)
    {E : Nat} (he : ∀ c ∈ ops, WR_VAR_F c = 3 → ∀ seq, C.dtable.query c = .ok seq →
      ∀ b s, I (b + E) s → (expand seq s).Has safe (I b)) (n : Nat) :
    ∃ K, ∀ g, g <:+: ops → g.length ≤ n → ∀ b s, I (b + K) s →
      (Interp.loop C T expand n g s).Has safe (I b) := by
  induction n with
  | zero =>
    refine ⟨0, fun g hg hl b s hi => ?_⟩
    cases g with
    | nil => exact hi
    | cons c rest => simp at hl
  | succ n ih =>
    obtain ⟨K, hK⟩ := ih
    refine ⟨K + (2 ^ 32 * K + 2 * W + E), fun g hg hl b s hi => ?_⟩
    cases g with
    | nil => exact h.mono _ _ _ hi
    | cons c rest =>
      have hl' : rest.length ≤ n := by simpa using hl
      have hrest : rest <:+: ops := ((List.suffix_cons c rest).isInfix).trans hg
      have hpc : P c := hp c (hg.subset (by simp))
      have hpr : ∀ x ∈ rest, P x := fun x hx => hp x (hrest.subset hx)
      have key : (step C T expand (Interp.loop C T expand n) s c rest).Has safe
          (fun r => I (b + K) r.2 ∧ r.1 <:+ rest) := by
        unfold step
        split
        · exact Res.Has.bind (h.b_variable (b := b + K) hpc (h.le (by omega) hi)) fun s' _ hs' =>
            ⟨hs', List.suffix_refl _⟩
        · refine h.replication (K := K) hpr (fun g hg b s hi => ?_) (h.le (by omega) hi)
          exact hK g (hg.trans hrest) (hg.length_le.trans hl') b s hi
        · exact h.c_modifier ‹_› hpc hpr (h.le (by omega) hi)
        · refine Res.Has.bind (h.sequence c hpc ‹_›) fun seq hq _ => ?_
          refine Res.Has.bind (he c (hg.subset (by simp)) ‹_› seq hq (b + K) s
            (h.le (by omega) hi)) fun s' _ hs' => ⟨hs', List.suffix_refl _⟩
        · trivial
      refine Res.Has.bind key fun r _ hr => ?_
      exact hK r.1 (hr.2.isInfix.trans hrest) (hr.2.length_le.trans hl') b r.2 hr.1

/-- A run keeps what the callbacks keep, given enough budget. -/
theorem run (h : Care safe C T I W G P) (depth : Nat) (ops : List Varcode) (hp : ∀ c ∈ ops, P c)
    (hd : safe → NestedWithin C.dtable depth ops) :
    ∃ K, ∀ b s, I (b + K) s → (Interp.run C T depth ops s).Has safe (I b) := by
  induction depth generalizing ops with
  | zero =>
    obtain ⟨K, hK⟩ := h.loop (expand := below C T 0) (E := 0) hp (fun c hc hf seq hq b s _ => by
      intro hs
      exact hd hs c hc hf seq hq) ops.length
    exact ⟨K, fun b s hi => by
      rw [run_eq_loop]
      exact hK ops (List.infix_refl _) le_rfl b s hi⟩
  | succ d ih =>
    obtain ⟨E, hE⟩ := h.sequences (expand := below C T (d + 1)) ops fun c hc hf seq hq => by
      refine ih seq (fun x hx => ?_) fun hs => ?_
      · have := h.sequence c (hp c hc) hf
        rw [hq] at this
        exact this x hx
      · exact hd hs c hc hf seq hq
    obtain ⟨K, hK⟩ := h.loop (expand := below C T (d + 1)) (E := E) hp hE ops.length
    exact ⟨K, fun b s hi => by
      rw [run_eq_loop]
      exact hK ops (List.infix_refl _) le_rfl b s hi⟩

end Care

end Wreport
