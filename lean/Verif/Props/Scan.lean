import Verif.Lemmas.Listing
import Verif.Spec.Listing
import Verif.Props.Data

/-!
# C79: the features found in the descriptors of a bulletin
-/

namespace Wreport

open Spec

/-! ## Operators and the descriptors they take -/

/-- Descriptors left by an operator. -/
theorem Interp.c_modifier_rest {σ : Type} {C : Ctx} {T : Target σ} {s s1 : Interp σ} {c : Varcode}
    {next rest : List Varcode} (h : Interp.c_modifier C T s c next = .ok (rest, s1)) :
    (WR_VAR_X c ≠ 6 ∧ rest = next) ∨
    (WR_VAR_X c = 4 ∧ next = WR_VAR 0 31 21 :: rest) ∨
    (WR_VAR_X c = 6 ∧ ∃ n, next = n :: rest) := by
  unfold Interp.c_modifier at h
  split at h
  · rename_i hx
    unfold Interp.c04 at h
    split at h
    · cases h
    split at h
    · cases h
    split at h
    · cases h
      exact .inl ⟨by omega, rfl⟩
    · simp only [Res.bind_eq_ok] at h
      obtain ⟨p, hp, st, hs, h⟩ := h
      cases h
      refine .inr (.inl ⟨hx, ?_⟩)
      unfold Interp.c04_significance at hs
      split at hs
      · cases hs
      · rename_i hc
        unfold Interp.pop at hp
        split at hp
        · cases hp
        · cases hp
          simp only [ne_eq, not_not] at hc
          rw [hc]
  split at h
  · rename_i hx
    unfold Interp.c06 at h
    simp only [Res.bind_eq_ok] at h
    obtain ⟨p, hp, h⟩ := h
    refine .inr (.inr ⟨hx, p.1, ?_⟩)
    unfold Interp.pop at hp
    split at hp
    · cases hp
    · cases hp
      split at h
      · cases h; rfl
      · simp only [Res.bind_eq_ok] at h
        obtain ⟨_, _, _, _, h⟩ := h
        cases h
        rfl
  · rename_i hx
    obtain ⟨st, _, h⟩ := Res.bind_eq_ok.mp h
    cases h
    exact .inl ⟨hx, rfl⟩

/-- A bitmap is a replication of one B31031. -/
theorem Interp.r_bitmap_group {σ : Type} {C : Ctx} {T : Target σ} {s s1 : Interp σ}
    {c d : Varcode} {g : List Varcode} (h : Interp.r_bitmap C T s c d g = .ok s1)
    (hg : g.length = WR_VAR_X c) :
    WR_VAR_X c = 1 ∧ g = [WR_VAR 0 31 31] ∧ s1.bitmaps.pending_definitions = 0 := by
  unfold Interp.r_bitmap at h
  split at h
  · cases h
  rename_i hx
  split at h
  · cases h
  rename_i ho
  simp only [Res.bind_eq_ok] at h
  obtain ⟨r, _, st, _, h⟩ := h
  cases h
  simp only [ne_eq, not_not] at hx ho
  refine ⟨hx, ?_, rfl⟩
  rw [hx] at hg
  match g, hg, ho with
  | [a], _, ho => simpa using ho

/-- The factor of a delayed replication and what follows. -/
theorem Interp.delayedCode_split {c d : Varcode} {rest ops : List Varcode}
    (h : Interp.delayedCode c rest = (d, ops)) :
    ∃ f, Factor c f ops ∧ rest = f ++ ops ∧
      (WR_VAR_Y c ≠ 0 → d = 0) ∧ (WR_VAR_Y c = 0 → IsFactor d) := by
  unfold Interp.delayedCode at h
  split at h
  · rename_i hy
    cases h
    exact ⟨[], .inl ⟨rfl, fun h0 => absurd h0 hy⟩, rfl, fun _ => rfl, fun h0 => absurd h0 hy⟩
  · rename_i hy
    simp only [ne_eq, not_not] at hy
    split at h
    · cases h
      exact ⟨[], .inl ⟨rfl, by simp⟩, rfl, fun h0 => absurd hy h0, fun _ => by decide⟩
    · split at h
      · rename_i n r hn
        cases h
        exact ⟨[d], .inr ⟨hy, d, rfl, hn⟩, rfl, fun h0 => absurd hy h0, fun _ => hn⟩
      · rename_i n r hn
        cases h
        exact ⟨[], .inl ⟨rfl, fun _ x hx => by cases hx; exact hn⟩, rfl,
          fun h0 => absurd hy h0, fun _ => by decide⟩

/-! ## Reading descriptors -/

namespace Spec.Reads

variable {D : Varcode → Res (List Varcode)}

/-- Where a descriptor is read. -/
theorem cons {c0 c : Varcode} {rest r : List Varcode} (h : Reads D (c0 :: rest) c r) :
    (c = c0 ∧ r = rest) ∨ (WR_VAR_F c0 = 3 ∧ ∃ l, D c0 = .ok l ∧ Reads D l c r) ∨
      Reads D rest c r := by
  generalize ho : c0 :: rest = ops at h
  cases h with
  | @here pre rest' _ hp =>
    cases pre with
    | nil =>
      cases ho
      exact .inl ⟨rfl, rfl⟩
    | cons p ps =>
      cases ho
      refine .inr (.inr (.here fun q hq => hp q ?_))
      rw [List.getLast?_cons, hq]
      rfl
  | @inside pre rest' l _ s _ hp hf hl h =>
    cases pre with
    | nil =>
      cases ho
      exact .inr (.inl ⟨hf, l, hl, h⟩)
    | cons p ps =>
      cases ho
      refine .inr (.inr (.inside (fun q hq => hp q ?_) hf hl h))
      rw [List.getLast?_cons, hq]
      rfl

/-- After a local operator its local descriptor is not read. -/
theorem local_cons {c0 n c : Varcode} {rest r : List Varcode} (h : Reads D (c0 :: n :: rest) c r)
    (h0 : LocalOp c0) : (c = c0 ∧ r = n :: rest) ∨ Reads D rest c r := by
  generalize ho : c0 :: n :: rest = ops at h
  cases h with
  | @here pre rest' _ hp =>
    match pre, hp, ho with
    | [], _, ho => cases ho; exact .inl ⟨rfl, rfl⟩
    | [p], hp, ho =>
      cases ho
      exact absurd h0 (hp _ rfl)
    | p :: q :: ps, hp, ho =>
      cases ho
      refine .inr (.here fun x hx => hp x ?_)
      rw [List.getLast?_cons_cons, List.getLast?_cons, hx]
      rfl
  | @inside pre rest' l _ s _ hp hf hl h =>
    match pre, hp, ho with
    | [], _, ho => cases ho; exact absurd (h0.1.symm.trans hf) (by decide)
    | [p], hp, ho =>
      cases ho
      exact absurd h0 (hp _ rfl)
    | p :: q :: ps, hp, ho =>
      cases ho
      refine .inr (.inside (fun x hx => hp x ?_) hf hl h)
      rw [List.getLast?_cons_cons, List.getLast?_cons, hx]
      rfl

theorem append {g post : List Varcode} {c : Varcode} {r : List Varcode}
    (h : Reads D (g ++ post) c r) :
    (∃ r', Reads D g c r' ∧ ∀ n, r'.head? = some n → r.head? = some n) ∨ Reads D post c r := by
  generalize ho : g ++ post = ops at h
  cases h with
  | @here pre rest' _ hp =>
    rcases List.append_eq_append_iff.mp ho with ⟨a, h1, h2⟩ | ⟨a, h1, h2⟩
    · refine .inr ?_
      rw [h2]
      cases a with
      | nil => exact .here (pre := []) (by simp)
      | cons x xs =>
        refine .here fun p hpl => hp p ?_
        rw [h1, List.getLast?_append, hpl]
        rfl
    · cases a with
      | nil =>
        refine .inr ?_
        rw [List.nil_append] at h2
        rw [← h2]
        exact .here (pre := []) (by simp)
      | cons x xs =>
        rw [List.cons_append] at h2
        cases h2
        refine .inl ⟨xs, by rw [h1]; exact .here hp, fun n hn => ?_⟩
        rw [List.head?_append, hn]
        rfl
  | @inside pre rest' l _ s _ hp hf hl h =>
    rcases List.append_eq_append_iff.mp ho with ⟨a, h1, h2⟩ | ⟨a, h1, h2⟩
    · refine .inr ?_
      rw [h2]
      cases a with
      | nil => exact .inside (pre := []) (by simp) hf hl h
      | cons x xs =>
        refine .inside (fun p hpl => hp p ?_) hf hl h
        rw [h1, List.getLast?_append, hpl]
        rfl
    · cases a with
      | nil =>
        refine .inr ?_
        rw [List.nil_append] at h2
        rw [← h2]
        exact .inside (pre := []) (by simp) hf hl h
      | cons x xs =>
        rw [List.cons_append] at h2
        cases h2
        exact .inl ⟨r, by rw [h1]; exact .inside hp hf hl h, fun n hn => hn⟩

/-- A replication factor is an element. -/
theorem factor {c0 c : Varcode} {f ops r : List Varcode} (hc : Factor c0 f ops)
    (h : Reads D (f ++ ops) c r) : WR_VAR_F c = 0 ∨ Reads D ops c r := by
  rcases hc with ⟨rfl, -⟩ | ⟨-, d, rfl, hd, -⟩
  · exact .inr h
  · rcases cons h with ⟨rfl, -⟩ | ⟨h3, -⟩ | h
    · exact .inl hd
    · rw [hd] at h3; cases h3
    · exact .inr h

end Spec.Reads

theorem Spec.Occurs.mono {D : Varcode → Res (List Varcode)} {ops ops' : List Varcode} {c : Varcode}
    (h : Occurs D ops c) (hs : ∀ x ∈ ops, x ∈ ops') : Occurs D ops' c := by
  cases h with
  | here h => exact .here (hs _ h)
  | inside h1 h2 h3 h4 => exact .inside (hs _ h1) h2 h3 h4

/-! ## The set of features -/

namespace Scan

theorem before_irrefl (f : List Byte) : before f f = false := by
  induction f with
  | nil => rfl
  | cons a as ih =>
    unfold before
    rw [if_neg (by simp), if_neg (by simp)]
    exact ih

theorem before_trans {f g h : List Byte} (h1 : before f g = true) (h2 : before g h = true) :
    before f h = true := by
  induction f generalizing g h with
  | nil =>
    cases g with
    | nil => cases h1
    | cons b bs => cases h with
      | nil => cases h2
      | cons c cs => rfl
  | cons a as ih =>
    cases g with
    | nil => cases h1
    | cons b bs =>
      cases h with
      | nil => cases h2
      | cons c cs =>
        unfold before at h1 h2 ⊢
        simp only [UInt8.lt_iff_toNat_lt] at h1 h2 ⊢
        split at h1
        · split at h2
          · rw [if_pos (by omega)]
          · split at h2
            · cases h2
            · rw [if_pos (by omega)]
        · split at h1
          · cases h1
          · split at h2
            · rw [if_pos (by omega)]
            · split at h2
              · cases h2
              · rw [if_neg (by omega), if_neg (by omega)]
                exact ih h1 h2

theorem before_total {f g : List Byte} (h1 : before f g = false) (h2 : before g f = false) :
    f = g := by
  induction f generalizing g with
  | nil => cases g with
    | nil => rfl
    | cons b bs => cases h1
  | cons a as ih =>
    cases g with
    | nil => cases h2
    | cons b bs =>
      unfold before at h1 h2
      simp only [UInt8.lt_iff_toNat_lt] at h1 h2
      split at h1
      · cases h1
      · split at h1
        · rename_i hba
          rw [if_pos hba] at h2
          cases h2
        · rename_i h3 h4
          rw [if_neg h4, if_neg h3] at h2
          have : a = b := UInt8.toNat_inj.mp (by omega)
          rw [this, ih h1 h2]

theorem mem_insert {f g : List Byte} {fs : List (List Byte)} :
    f ∈ insert g fs ↔ f = g ∨ f ∈ fs := by
  induction fs with
  | nil => simp [insert]
  | cons x xs ih =>
    unfold insert
    split
    · simp
    · split
      · simp only [List.mem_cons, ih]
        tauto
      · rename_i h1 h2
        have := before_total (by simpa using h1) (by simpa using h2)
        subst this
        simp

theorem insert_sorted {g : List Byte} {fs : List (List Byte)}
    (h : fs.Pairwise (fun a b => before a b = true)) :
    (insert g fs).Pairwise (fun a b => before a b = true) := by
  induction fs with
  | nil => simp [insert]
  | cons x xs ih =>
    unfold insert
    rw [List.pairwise_cons] at h
    split
    · rename_i hg
      rw [List.pairwise_cons]
      refine ⟨fun y hy => ?_, List.pairwise_cons.mpr h⟩
      rcases List.mem_cons.mp hy with rfl | hy
      · exact hg
      · exact before_trans hg (h.1 y hy)
    · split
      · rename_i hx
        rw [List.pairwise_cons]
        refine ⟨fun y hy => ?_, ih h.2⟩
        rcases mem_insert.mp hy with rfl | hy
        · exact hx
        · exact h.1 y hy
      · exact List.pairwise_cons.mpr h

/-! ## What the callbacks do -/

theorem b_variable_tgt {C : Ctx} {s s1 : St} {c : Varcode}
    (h : Interp.b_variable C target s c = .ok s1) :
    s1.tgt = s.tgt ∧ s1.bitmaps.pending_definitions = s.bitmaps.pending_definitions := by
  unfold Interp.b_variable at h
  split at h
  · cases h
  · obtain ⟨info, _, h⟩ := Res.bind_eq_ok.mp h
    unfold Interp.elementOrAttribute at h
    split at h
    · obtain ⟨r, _, h⟩ := Res.bind_eq_ok.mp h
      cases h
    · split at h
      · cases h
      · cases h; exact ⟨rfl, rfl⟩

theorem c_modifier_tgt {C : Ctx} {s s1 : St} {c : Varcode} {next rest : List Varcode}
    (h : Interp.c_modifier C target s c next = .ok (rest, s1)) :
    s1.tgt = s.tgt ∧
      (¬(WR_VAR_X c = 22 ∨ WR_VAR_X c = 23) → s.bitmaps.pending_definitions = 0 →
        s1.bitmaps.pending_definitions = 0) := by
  unfold Interp.c_modifier at h
  split at h
  · unfold Interp.c04 at h
    split at h
    · cases h
    split at h
    · cases h
    split at h
    · cases h; exact ⟨rfl, fun _ h => h⟩
    · simp only [Res.bind_eq_ok] at h
      obtain ⟨p, hp, st, hs, h⟩ := h
      cases h
      unfold Interp.c04_significance at hs
      split at hs
      · cases hs
      · obtain ⟨info, _, hs⟩ := Res.bind_eq_ok.mp hs
        cases hs
        exact ⟨rfl, fun _ h => h⟩
  split at h
  · unfold Interp.c06 at h
    obtain ⟨p, hp, h⟩ := Res.bind_eq_ok.mp h
    split at h
    · cases h; exact ⟨rfl, fun _ h => h⟩
    · simp only [Res.bind_eq_ok] at h
      obtain ⟨i, _, st, hs, h⟩ := h
      cases h
      cases i with
      | some i => cases hs; exact ⟨rfl, fun _ h => h⟩
      | none =>
        obtain ⟨i, _, hs⟩ := Res.bind_eq_ok.mp (show ((s.caches.get_unknown C.E p.1
          (WR_VAR_Y c)).2 >>= fun info => target.define_variable { s with
            caches := (s.caches.get_unknown C.E p.1 (WR_VAR_Y c)).1 } info) = .ok _ from hs)
        cases hs
        exact ⟨rfl, fun _ h => h⟩
  · obtain ⟨st, hs, h⟩ := Res.bind_eq_ok.mp h
    cases h
    unfold Interp.c_simple at hs
    simp only at hs
    split at hs
    · cases hs; exact ⟨rfl, fun _ h => h⟩
    · cases hs; exact ⟨rfl, fun _ h => h⟩
    · cases hs; exact ⟨rfl, fun _ h => h⟩
    · cases hs
    · cases hs; exact ⟨rfl, fun _ h => h⟩
    · cases hs; exact ⟨rfl, fun _ h => h⟩
    · rename_i hx
      split at hs
      · cases hs
      · cases hs; exact ⟨rfl, fun hn _ => absurd (.inl hx) hn⟩
    · rename_i hx
      unfold Interp.c23 at hs
      split at hs
      · cases hs; exact ⟨rfl, fun hn _ => absurd (.inr hx) hn⟩
      split at hs
      · split at hs
        · cases hs
        · obtain ⟨r, _, hs⟩ := Res.bind_eq_ok.mp hs
          cases hs
      · cases hs
    · unfold Interp.c37 at hs
      split at hs
      · cases hs; exact ⟨rfl, fun _ _ => rfl⟩
      split at hs
      · cases hs; exact ⟨rfl, fun _ h => h⟩
      · cases hs
    · cases hs; exact ⟨rfl, fun _ h => h⟩

theorem r_bitmap_tgt {C : Ctx} {s s1 : St} {c d : Varcode} {g : List Varcode}
    (h : Interp.r_bitmap C target s c d g = .ok s1) : s1.tgt = s.tgt := by
  unfold Interp.r_bitmap at h
  split at h
  · cases h
  split at h
  · cases h
  simp only [Res.bind_eq_ok] at h
  obtain ⟨r, hr, st, hs, h⟩ := h
  cases h
  cases hs
  unfold Interp.bitmapSize at hr
  split at hr
  · cases hr; rfl
  · obtain ⟨i, _, hr⟩ := Res.bind_eq_ok.mp hr
    cases hr; rfl

/-! ## The features found -/

theorem operatorName_names {c : Varcode} {next : List Varcode} (hf : WR_VAR_F c = 2)
    (hn : WR_VAR_X c = 6 → ∃ n r, next = n :: r) : Names c (operatorName c next) := by
  unfold operatorName
  split
  · rename_i hx
    obtain ⟨n, r, rfl⟩ := hn hx
    exact .inr (.inl ⟨⟨hf, hx⟩, n, rfl⟩)
  · rename_i hx
    exact .inl ⟨hf, hx, rfl⟩

theorem replicationName_names {c d : Varcode} {rest ops : List Varcode} (hf : WR_VAR_F c = 1)
    (h : Interp.delayedCode c rest = (d, ops)) : Names c (replicationName d) := by
  obtain ⟨f, _, _, h1, h2⟩ := Interp.delayedCode_split h
  unfold replicationName
  by_cases hy : WR_VAR_Y c = 0
  · obtain ⟨h3, h4⟩ := h2 hy
    rw [if_pos (by rintro rfl; revert h4; decide)]
    exact .inr (.inr (.inr ⟨hf, hy, d, h3, h4, rfl⟩))
  · rw [if_neg (by simpa using h1 hy)]
    exact .inr (.inr (.inl ⟨hf, hy, rfl⟩))

theorem sorted_rule (C : Ctx) : Over.Rule C (over C) (fun _ s s' =>
    s.tgt.Pairwise (fun a b => before a b = true) →
      s'.tgt.Pairwise (fun a b => before a b = true)) where
  nil _ h := h
  element c rest s s1 s' _ h hp hs := hp (by rw [(b_variable_tgt h).1]; exact hs)
  operator c rest rest' s s1 s' _ h hp hs :=
    hp (by rw [(c_modifier_tgt h).1]; exact insert_sorted hs)
  replication c rest d ops g post body s s1 s' _ _ _ _ _ hb h hp hs :=
    hp (hb _ _ h (insert_sorted hs))
  bitmap c rest d ops g post s s1 s' _ _ _ _ _ h hp hs := hp (by rw [r_bitmap_tgt h]; exact hs)
  sequence c rest l body s s1 s' _ _ hb h hp hs := hp (hb _ _ h hs)

theorem sound_rule (C : Ctx) : Over.Rule C (over C) (fun ops s s' =>
    ∀ f ∈ s'.tgt, f ∈ s.tgt ∨ ∃ c, Occurs C.dtable.query ops c ∧ Names c f) where
  nil _ f h := .inl h
  element c rest s s1 s' _ h hp f hm := by
    rcases hp f hm with h1 | ⟨x, h1, h2⟩
    · rw [(b_variable_tgt h).1] at h1
      exact .inl h1
    · exact .inr ⟨x, h1.mono fun _ => List.mem_cons_of_mem _, h2⟩
  operator c rest rest' s s1 s' hf h hp f hm := by
    have hr := Interp.c_modifier_rest h
    rcases hp f hm with h1 | ⟨x, h1, h2⟩
    · rw [(c_modifier_tgt h).1] at h1
      rcases mem_insert.mp h1 with rfl | h1
      · refine .inr ⟨c, .here List.mem_cons_self, operatorName_names hf fun hx => ?_⟩
        rcases hr with ⟨h3, _⟩ | ⟨h3, _⟩ | ⟨_, n, hn⟩
        · exact absurd hx h3
        · rw [hx] at h3; cases h3
        · exact ⟨n, _, hn⟩
      · exact .inl h1
    · refine .inr ⟨x, h1.mono fun y hy => List.mem_cons_of_mem _ ?_, h2⟩
      rcases hr with ⟨_, rfl⟩ | ⟨_, rfl⟩ | ⟨_, n, rfl⟩
      · exact hy
      · exact List.mem_cons_of_mem _ hy
      · exact List.mem_cons_of_mem _ hy
  replication c rest d ops g post body s s1 s' hf _ hd ho hl hb h hp f hm := by
    obtain ⟨fa, _, h1, _, _⟩ := Interp.delayedCode_split hd
    rcases hp f hm with h2 | ⟨x, h2, h3⟩
    · rcases hb _ _ h f h2 with h2 | ⟨x, h2, h3⟩
      · rcases mem_insert.mp h2 with rfl | h2
        · exact .inr ⟨c, .here List.mem_cons_self, replicationName_names hf hd⟩
        · exact .inl h2
      · refine .inr ⟨x, h2.mono fun y hy => List.mem_cons_of_mem _ ?_, h3⟩
        rw [h1, ho]
        simp [hy]
    · refine .inr ⟨x, h2.mono fun y hy => List.mem_cons_of_mem _ ?_, h3⟩
      rw [h1, ho]
      simp [hy]
  bitmap c rest d ops g post s s1 s' hf _ hd ho hl h hp f hm := by
    obtain ⟨fa, _, h1, _, _⟩ := Interp.delayedCode_split hd
    rcases hp f hm with h2 | ⟨x, h2, h3⟩
    · rw [r_bitmap_tgt h] at h2
      exact .inl h2
    · refine .inr ⟨x, h2.mono fun y hy => List.mem_cons_of_mem _ ?_, h3⟩
      rw [h1, ho]
      simp [hy]
  sequence c rest l body s s1 s' hf hl hb h hp f hm := by
    rcases hp f hm with h2 | ⟨x, h2, h3⟩
    · rcases hb _ _ h f h2 with h2 | ⟨x, h2, h3⟩
      · exact .inl h2
      · exact .inr ⟨x, .inside List.mem_cons_self hf hl h2, h3⟩
    · exact .inr ⟨x, h2.mono fun _ => List.mem_cons_of_mem _, h3⟩

/-- The operators read are among the features. -/
def OperatorIn (fs : List (List Byte)) (c : Varcode) (r : List Varcode) : Prop :=
  WR_VAR_F c = 2 → (WR_VAR_X c ≠ 6 → varcode_format c ∈ fs) ∧
    (WR_VAR_X c = 6 → ∃ n, r.head? = some n ∧
      varcode_format c ++ ascii ":" ++ varcode_format n ∈ fs)

theorem OperatorIn.mono {fs fs' : List (List Byte)} {c : Varcode} {r r' : List Varcode}
    (h : OperatorIn fs c r) (hs : ∀ f ∈ fs, f ∈ fs')
    (hr : ∀ n, r.head? = some n → r'.head? = some n) : OperatorIn fs' c r' := by
  intro hf
  obtain ⟨h1, h2⟩ := h hf
  refine ⟨fun hx => hs _ (h1 hx), fun hx => ?_⟩
  obtain ⟨n, h3, h4⟩ := h2 hx
  exact ⟨n, hr n h3, hs _ h4⟩

theorem complete_rule (C : Ctx) : Over.Rule C (over C) (fun ops s s' =>
    (∀ f ∈ s.tgt, f ∈ s'.tgt) ∧
      ∀ c r, Reads C.dtable.query ops c r → OperatorIn s'.tgt c r) where
  nil _ := by
    refine ⟨fun _ h => h, fun c r h => ?_⟩
    generalize ho : ([] : List Varcode) = ops at h
    cases h with
    | @here pre => cases pre <;> cases ho
    | @inside pre => cases pre <;> cases ho
  element c rest s s1 s' hf h hp := by
    refine ⟨fun f hm => hp.1 f (by rw [(b_variable_tgt h).1]; exact hm), fun x r hx => ?_⟩
    rcases hx.cons with ⟨rfl, _⟩ | ⟨h3, _⟩ | hx
    · intro h2; rw [hf] at h2; cases h2
    · rw [hf] at h3; cases h3
    · exact hp.2 x r hx
  operator c rest rest' s s1 s' hf h hp := by
    have ht := (c_modifier_tgt h).1
    have hm : ∀ f, f = operatorName c rest ∨ f ∈ s.tgt → f ∈ s'.tgt := by
      intro f hf
      refine hp.1 f ?_
      rw [ht]
      exact mem_insert.mpr hf
    refine ⟨fun f hf => hm f (.inr hf), fun x r hx => ?_⟩
    have hself : OperatorIn s'.tgt c rest := by
      intro _
      have := hm _ (.inl rfl)
      unfold operatorName at this
      refine ⟨fun h6 => ?_, fun h6 => ?_⟩
      · rw [if_neg h6] at this
        exact this
      · rw [if_pos h6] at this
        rcases Interp.c_modifier_rest h with ⟨h3, _⟩ | ⟨h3, _⟩ | ⟨_, n, hn⟩
        · exact absurd h6 h3
        · rw [h6] at h3; cases h3
        · subst hn
          exact ⟨n, rfl, this⟩
    rcases Interp.c_modifier_rest h with ⟨_, rfl⟩ | ⟨_, rfl⟩ | ⟨h6, n, rfl⟩
    · rcases hx.cons with ⟨rfl, rfl⟩ | ⟨h3, _⟩ | hx
      · exact hself
      · rw [hf] at h3; cases h3
      · exact hp.2 x r hx
    · rcases hx.cons with ⟨rfl, rfl⟩ | ⟨h3, _⟩ | hx
      · exact hself
      · rw [hf] at h3; cases h3
      · rcases hx.cons with ⟨rfl, rfl⟩ | ⟨h3, _⟩ | hx
        · intro h2; exact absurd h2 (by decide)
        · exact absurd h3 (by decide)
        · exact hp.2 x r hx
    · rcases hx.local_cons ⟨hf, h6⟩ with ⟨rfl, rfl⟩ | hx
      · exact hself
      · exact hp.2 x r hx
  replication c rest d ops g post body s s1 s' hf _ hd ho hl hb h hp := by
    obtain ⟨fa, hfa, h1, _, _⟩ := Interp.delayedCode_split hd
    obtain ⟨hb1, hb2⟩ := hb _ _ h
    refine ⟨fun f hm => hp.1 f (hb1 f (mem_insert.mpr (.inr hm))), fun x r hx => ?_⟩
    rcases hx.cons with ⟨rfl, _⟩ | ⟨h3, _⟩ | hx
    · intro h2; rw [hf] at h2; cases h2
    · rw [hf] at h3; cases h3
    rw [h1] at hx
    rcases hx.factor hfa with h0 | hx
    · intro h2; rw [h0] at h2; cases h2
    rw [ho] at hx
    rcases hx.append with ⟨r', hx, hr⟩ | hx
    · exact (hb2 x r' hx).mono hp.1 hr
    · exact hp.2 x r hx
  bitmap c rest d ops g post s s1 s' hf _ hd ho hl h hp := by
    obtain ⟨fa, hfa, h1, _, _⟩ := Interp.delayedCode_split hd
    refine ⟨fun f hm => hp.1 f (by rw [r_bitmap_tgt h]; exact hm), fun x r hx => ?_⟩
    obtain ⟨_, rfl, _⟩ := Interp.r_bitmap_group h hl
    rcases hx.cons with ⟨rfl, _⟩ | ⟨h3, _⟩ | hx
    · intro h2; rw [hf] at h2; cases h2
    · rw [hf] at h3; cases h3
    rw [h1] at hx
    rcases hx.factor hfa with h0 | hx
    · intro h2; rw [h0] at h2; cases h2
    rw [ho] at hx
    rcases hx.cons with ⟨rfl, _⟩ | ⟨h3, _⟩ | hx
    · intro h2; exact absurd h2 (by decide)
    · exact absurd h3 (by decide)
    · exact hp.2 x r hx
  sequence c rest l body s s1 s' hf hl hb h hp := by
    obtain ⟨hb1, hb2⟩ := hb _ _ h
    refine ⟨fun f hm => hp.1 f (hb1 f hm), fun x r hx => ?_⟩
    rcases hx.cons with ⟨rfl, _⟩ | ⟨_, l', hl', hx⟩ | hx
    · intro h2; rw [hf] at h2; cases h2
    · rw [hl] at hl'
      cases hl'
      exact (hb2 x r hx).mono hp.1 fun _ h => h
    · exact hp.2 x r hx

/-- The replications read are among the features. -/
def ReplicationIn (fs : List (List Byte)) (c : Varcode) : Prop :=
  WR_VAR_F c = 1 → ∃ f ∈ fs, Names c f

theorem replications_rule (C : Ctx) : Over.Rule C (over C) (fun ops s s' =>
    (∀ c, Occurs C.dtable.query ops c → ¬BitmapOp c) → s.bitmaps.pending_definitions = 0 →
    s'.bitmaps.pending_definitions = 0 ∧ (∀ f ∈ s.tgt, f ∈ s'.tgt) ∧
      ∀ c r, Reads C.dtable.query ops c r → ReplicationIn s'.tgt c) where
  nil _ := by
    refine fun _ h0 => ⟨h0, fun _ h => h, fun c r h => ?_⟩
    generalize ho : ([] : List Varcode) = ops at h
    cases h with
    | @here pre => cases pre <;> cases ho
    | @inside pre => cases pre <;> cases ho
  element c rest s s1 s' hf h hp hn h0 := by
    obtain ⟨t1, t2⟩ := b_variable_tgt h
    obtain ⟨a1, a2, a3⟩ := hp (fun x hx => hn x (hx.mono fun _ => List.mem_cons_of_mem _))
      (by rw [t2]; exact h0)
    refine ⟨a1, fun f hm => a2 f (by rw [t1]; exact hm), fun x r hx => ?_⟩
    rcases hx.cons with ⟨rfl, _⟩ | ⟨h3, _⟩ | hx
    · intro h2; rw [hf] at h2; cases h2
    · rw [hf] at h3; cases h3
    · exact a3 x r hx
  operator c rest rest' s s1 s' hf h hp hn h0 := by
    obtain ⟨t1, t2⟩ := c_modifier_tgt h
    have hrest : ∀ y ∈ rest', y ∈ c :: rest := by
      intro y hy
      rcases Interp.c_modifier_rest h with ⟨_, rfl⟩ | ⟨_, rfl⟩ | ⟨_, n, rfl⟩ <;> simp [hy]
    obtain ⟨a1, a2, a3⟩ := hp (fun x hx => hn x (hx.mono hrest))
      (t2 (fun hx => hn c (.here List.mem_cons_self) ⟨hf, hx⟩) h0)
    refine ⟨a1, fun f hm => a2 f (by rw [t1]; exact mem_insert.mpr (.inr hm)), fun x r hx => ?_⟩
    have hself : ReplicationIn s'.tgt c := by
      intro h2; rw [hf] at h2; cases h2
    rcases Interp.c_modifier_rest h with ⟨_, rfl⟩ | ⟨_, rfl⟩ | ⟨h6, n, rfl⟩
    · rcases hx.cons with ⟨rfl, rfl⟩ | ⟨h3, _⟩ | hx
      · exact hself
      · rw [hf] at h3; cases h3
      · exact a3 x r hx
    · rcases hx.cons with ⟨rfl, rfl⟩ | ⟨h3, _⟩ | hx
      · exact hself
      · rw [hf] at h3; cases h3
      · rcases hx.cons with ⟨rfl, rfl⟩ | ⟨h3, _⟩ | hx
        · intro h2; exact absurd h2 (by decide)
        · exact absurd h3 (by decide)
        · exact a3 x r hx
    · rcases hx.local_cons ⟨hf, h6⟩ with ⟨rfl, rfl⟩ | hx
      · exact hself
      · exact a3 x r hx
  replication c rest d ops g post body s s1 s' hf _ hd ho hl hb h hp hn h0 := by
    obtain ⟨fa, hfa, h1, _, _⟩ := Interp.delayedCode_split hd
    obtain ⟨b1, b2, b3⟩ := hb _ _ h (fun x hx => hn x (hx.mono fun y hy => by
      rw [h1, ho]; simp [hy])) h0
    obtain ⟨a1, a2, a3⟩ := hp (fun x hx => hn x (hx.mono fun y hy => by
      rw [h1, ho]; simp [hy])) b1
    refine ⟨a1, fun f hm => a2 f (b2 f (mem_insert.mpr (.inr hm))), fun x r hx => ?_⟩
    rcases hx.cons with ⟨rfl, _⟩ | ⟨h3, _⟩ | hx
    · exact fun _ => ⟨_, a2 _ (b2 _ (mem_insert.mpr (.inl rfl))), replicationName_names hf hd⟩
    · rw [hf] at h3; cases h3
    rw [h1] at hx
    rcases hx.factor hfa with h0 | hx
    · intro h2; rw [h0] at h2; cases h2
    rw [ho] at hx
    rcases hx.append with ⟨r', hx, hr⟩ | hx
    · intro h2
      obtain ⟨f, hm, hnm⟩ := b3 x r' hx h2
      exact ⟨f, a2 f hm, hnm⟩
    · exact a3 x r hx
  bitmap c rest d ops g post s s1 s' hf hb hd ho hl h hp hn h0 := absurd h0 hb
  sequence c rest l body s s1 s' hf hl hb h hp hn h0 := by
    obtain ⟨b1, b2, b3⟩ := hb _ _ h (fun x hx => hn x (.inside List.mem_cons_self hf hl hx)) h0
    obtain ⟨a1, a2, a3⟩ := hp (fun x hx => hn x (hx.mono fun _ => List.mem_cons_of_mem _)) b1
    refine ⟨a1, fun f hm => a2 f (b2 f hm), fun x r hx => ?_⟩
    rcases hx.cons with ⟨rfl, _⟩ | ⟨_, l', hl', hx⟩ | hx
    · intro h2; rw [hf] at h2; cases h2
    · rw [hl] at hl'
      cases hl'
      intro h2
      obtain ⟨f, hm, hnm⟩ := b3 x r hx h2
      exact ⟨f, a2 f hm, hnm⟩
    · exact a3 x r hx

end Scan

/-! ## C79 -/

/-- C79: every feature found names an operator or a replication among the descriptors
or in the sequences they mention. -/
theorem C79_found_partial (C : Ctx) (depth : Nat) (datadesc : List Varcode) (caches : TableCaches)
    (fs : List (List Byte)) (h : Scan.features C depth datadesc caches = .ok fs) (f : List Byte)
    (hf : f ∈ fs) : ∃ c, Occurs C.dtable.query datadesc c ∧ Names c f := by
  obtain ⟨st, hr, h⟩ := Res.bind_eq_ok.mp h
  cases h
  rcases (Scan.sound_rule C).run depth datadesc hr f hf with h | h
  · cases h
  · exact h

/-- C79: every operator read is found; an operator that takes a local descriptor is
found together with it. -/
theorem C79_operators_partial (C : Ctx) (depth : Nat) (datadesc : List Varcode)
    (caches : TableCaches) (fs : List (List Byte))
    (h : Scan.features C depth datadesc caches = .ok fs) (c : Varcode) (rest : List Varcode)
    (hc : Reads C.dtable.query datadesc c rest) (h2 : WR_VAR_F c = 2) :
    (¬LocalOp c → varcode_format c ∈ fs) ∧
    (LocalOp c → ∃ n, rest.head? = some n ∧
      varcode_format c ++ ascii ":" ++ varcode_format n ∈ fs) := by
  obtain ⟨st, hr, h⟩ := Res.bind_eq_ok.mp h
  cases h
  obtain ⟨h3, h4⟩ := ((Scan.complete_rule C).run depth datadesc hr).2 c rest hc h2
  exact ⟨fun hl => h3 fun hx => hl ⟨h2, hx⟩, fun hl => h4 hl.2⟩

/-- C79: every replication read is found. What is missing from the property: with an
operator that announces a data present bitmap (`C79_not_bitmap`), and the descriptors
for which the scan gives up (`C79_not_scanned`). -/
theorem C79_replications_partial (C : Ctx) (depth : Nat) (datadesc : List Varcode)
    (caches : TableCaches) (fs : List (List Byte))
    (h : Scan.features C depth datadesc caches = .ok fs)
    (hb : ∀ c, Occurs C.dtable.query datadesc c → ¬BitmapOp c) (c : Varcode) (rest : List Varcode)
    (hc : Reads C.dtable.query datadesc c rest) (h1 : WR_VAR_F c = 1) :
    ∃ f ∈ fs, Names c f := by
  obtain ⟨st, hr, h⟩ := Res.bind_eq_ok.mp h
  cases h
  exact ((Scan.replications_rule C).run depth datadesc hr hb rfl).2.2 c rest hc h1

/-- C79: no feature is listed twice; they are in the order of their bytes. -/
theorem C79_once_partial (C : Ctx) (depth : Nat) (datadesc : List Varcode) (caches : TableCaches)
    (fs : List (List Byte)) (h : Scan.features C depth datadesc caches = .ok fs) :
    fs.Nodup ∧ fs.Pairwise (fun a b => Scan.before a b = true) := by
  obtain ⟨st, hr, h⟩ := Res.bind_eq_ok.mp h
  cases h
  have hs := (Scan.sorted_rule C).run depth datadesc hr List.Pairwise.nil
  refine ⟨hs.imp fun {a b} hab => ?_, hs⟩
  rintro rfl
  rw [Scan.before_irrefl] at hab
  cases hab

/-- A scan with a sequence in a delayed replication, two operators and a local
descriptor. -/
example : Scan.features sampleCtx 1
    [WR_VAR 2 1 130, WR_VAR 0 12 101, WR_VAR 1 3 0, WR_VAR 0 31 1, WR_VAR 3 1 1, WR_VAR 2 6 8,
      WR_VAR 0 63 1, WR_VAR 2 1 0, WR_VAR 1 1 2, WR_VAR 0 2 1] noCaches =
    .ok [ascii "C01000", ascii "C01130", ascii "C06008:B63001", ascii "Rxx000:B31001",
      ascii "Rxxyyy"] := by
  decide +kernel

/-- Hypotheses of C79 met there. -/
example : Reads sampleCtx.dtable.query
    [WR_VAR 1 1 2, WR_VAR 2 6 8, WR_VAR 0 63 1, WR_VAR 2 1 0] (WR_VAR 2 6 8)
    [WR_VAR 0 63 1, WR_VAR 2 1 0] ∧ WR_VAR_F (WR_VAR 2 6 8) = 2 ∧ LocalOp (WR_VAR 2 6 8) :=
  ⟨.here (pre := [WR_VAR 1 1 2]) (by
    intro p hp
    cases hp
    unfold LocalOp
    decide), by decide, by unfold LocalOp; decide⟩

/-- Bits written for a subset with a character field, an associated field, a changed
reference value or a substituted value. -/
def unusual (vars : Res (List Var)) (ops : List Varcode) : Res (List Bool) := do
  let vs ← vars
  written 0 ops vs

/-- A station name in characters, described by C05004. -/
def characters : Res (List Var) := do
  let i ← (noCaches.get_chardata Env0 (WR_VAR 2 5 4) 4).2
  let v ← Var.newStr .default i (ascii "NAME")
  return [v]

/-- A temperature and a bitmap that marks it for substitution. -/
def substituted : Res (List Var) := do
  let i ← (noCaches.get_bitmap Env0 (WR_VAR 2 23 0) (ascii "+")).2
  let v ← Var.newStr .default i (ascii "+")
  return [tempVar 5, v]

/-- The full C79 is false: scanning gives up on character data, on elements with
associated fields, on changed reference values and on substituted values, though data
with such descriptors can be encoded. -/
theorem C79_not_scanned :
    ((unusual characters [WR_VAR 2 5 4]).isOk = true ∧
      Scan.features sampleCtx 0 [WR_VAR 2 5 4] noCaches = .err .unimplemented) ∧
    ((written 0 [WR_VAR 2 4 2, WR_VAR 0 31 21, WR_VAR 0 12 101]
        [(Var.new sampleSig).putInt 1, tempVar 5]).isOk = true ∧
      Scan.features sampleCtx 0 [WR_VAR 2 4 2, WR_VAR 0 31 21, WR_VAR 0 12 101] noCaches =
        .err .unimplemented) ∧
    ((written 0 [WR_VAR 2 3 10, WR_VAR 0 12 101, WR_VAR 2 3 255, WR_VAR 0 12 101]
        [(Var.new { sampleTemp with bit_ref := 5 }).putInt 7]).isOk = true ∧
      Scan.features sampleCtx 0 [WR_VAR 2 3 10, WR_VAR 0 12 101, WR_VAR 2 3 255, WR_VAR 0 12 101]
        noCaches = .err .unimplemented) ∧
    ((unusual substituted [WR_VAR 0 12 101, WR_VAR 2 23 0, WR_VAR 1 1 1, WR_VAR 0 31 31,
        WR_VAR 2 23 255]).isOk = true ∧
      Scan.features sampleCtx 0 [WR_VAR 0 12 101, WR_VAR 2 23 0, WR_VAR 1 1 1, WR_VAR 0 31 31,
        WR_VAR 2 23 255] noCaches = .err .consistency) := by
  decide +kernel

/-- The full C79 is false: the replication that makes up a data present bitmap is not
found. -/
theorem C79_not_bitmap :
    Scan.features sampleCtx 0 [WR_VAR 0 12 101, WR_VAR 2 22 0, WR_VAR 1 1 1, WR_VAR 0 31 31]
      noCaches = .ok [ascii "C22000"] := by
  decide +kernel

end Wreport
