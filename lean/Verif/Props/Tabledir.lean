import Verif.Lemmas.Tabledir
import Verif.Lemmas.Crex

/-!
# Choice of tables: theorems
-/

namespace Wreport

open Spec Tabledir Crex

/-! ## C43 -/

/-- C43: the order of BUFR table identifiers is irreflexive and transitive, and of two
different identifiers one is less. -/
theorem C43_bufr_order : (∀ a : BufrTableID, a.lt a = false) ∧
    (∀ a b c : BufrTableID, a.lt b = true → b.lt c = true → a.lt c = true) ∧
    (∀ a b : BufrTableID, a.lt b = true ∨ a = b ∨ b.lt a = true) := by
  simp only [BufrTableID.lt_eq, decide_eq_true_eq, decide_eq_false_iff_not]
  refine ⟨fun a => by rw [lexCmp_self]; decide, fun a b c h1 h2 => lexCmp_trans_lt h1 (by omega),
    fun a b => ?_⟩
  have := lexCmp_neg a.numbers b.numbers
  rcases lt_trichotomy (lexCmp a.numbers b.numbers) 0 with h | h | h
  · exact .inl h
  · exact .inr (.inl (BufrTableID.numbers_inj (lexCmp_zero h)))
  · exact .inr (.inr (by omega))

/-- C43: the same for CREX table identifiers. -/
theorem C43_crex_order : (∀ a : CrexTableID, a.lt a = false) ∧
    (∀ a b c : CrexTableID, a.lt b = true → b.lt c = true → a.lt c = true) ∧
    (∀ a b : CrexTableID, a.lt b = true ∨ a = b ∨ b.lt a = true) := by
  simp only [CrexTableID.lt_eq, decide_eq_true_eq, decide_eq_false_iff_not]
  refine ⟨fun a => by rw [lexCmp_self]; decide, fun a b c h1 h2 => lexCmp_trans_lt h1 (by omega),
    fun a b => ?_⟩
  have := lexCmp_neg a.numbers b.numbers
  rcases lt_trichotomy (lexCmp a.numbers b.numbers) 0 with h | h | h
  · exact .inl h
  · exact .inr (.inl (CrexTableID.numbers_inj (lexCmp_zero h)))
  · exact .inr (.inr (by omega))

/-- Different identifiers of which each field decides. -/
example : (⟨98, 0, 0, 13, 1⟩ : BufrTableID).lt ⟨98, 0, 0, 13, 2⟩ = true ∧
    (⟨1, 0, 0, 0, 3, 0, 0⟩ : CrexTableID).lt ⟨1, 0, 0, 0, 3, 14, 0⟩ = true := by decide

/-! ## C44 -/

/-- C44: which of two BUFR tables is chosen for a BUFR message is decided by the first
difference of their distances; so it does not depend on their order and there are no
cycles. -/
theorem C44_bufr (w : BufrTableID) :
    (∀ a b, w.closest_bufr a b = lexCmp (closeness w a) (closeness w b)) ∧
    (∀ a b, w.closest_bufr a b = - w.closest_bufr b a) ∧
    (∀ a b c, w.closest_bufr a b ≤ 0 → w.closest_bufr b c ≤ 0 → w.closest_bufr a c ≤ 0) := by
  simp only [BufrTableID.closest_eq]
  exact ⟨fun _ _ => trivial, fun _ _ => lexCmp_neg _ _, fun _ _ _ => lexCmp_trans⟩

/-- C44, partially: the same for two tables of the same kind and a CREX message.
Missing: a BUFR and a CREX table, see `C44_not_mixed`. -/
theorem C44_crex_partial (w : CrexTableID) :
    (∀ a b, w.closest_bufr a b = lexCmp (closenessCB w a) (closenessCB w b)) ∧
    (∀ a b, w.closest_bufr a b = - w.closest_bufr b a) ∧
    (∀ a b c, w.closest_bufr a b ≤ 0 → w.closest_bufr b c ≤ 0 → w.closest_bufr a c ≤ 0) ∧
    (∀ a b, w.closest_crex a b = lexCmp (closenessCC w a) (closenessCC w b)) ∧
    (∀ a b, w.closest_crex a b = - w.closest_crex b a) ∧
    (∀ a b c, w.closest_crex a b ≤ 0 → w.closest_crex b c ≤ 0 → w.closest_crex a c ≤ 0) ∧
    (∀ a b, w.closest_mixed a b = lexCmp (closenessCB w a) (closenessCM w b)) := by
  simp only [CrexTableID.closest_bufr_eq, CrexTableID.closest_crex_eq, CrexTableID.closest_mixed_eq]
  exact ⟨fun _ _ => trivial, fun _ _ => lexCmp_neg _ _, fun _ _ _ => lexCmp_trans, fun _ _ => trivial,
    fun _ _ => lexCmp_neg _ _, fun _ _ _ => lexCmp_trans, fun _ _ => trivial⟩

/-- C44 is false in the code for tables of both kinds: the first CREX table is closer
than the second, the second is closer than the BUFR table, and the BUFR table is
closer than the first. -/
theorem C44_not_mixed :
    let w : CrexTableID := ⟨1, 0, 0, 0, 1, 3, 0⟩
    let a : CrexTableID := ⟨1, 0, 0, 0, 1, 5, 0⟩
    let b : CrexTableID := ⟨1, 0, 0, 0, 2, 3, 0⟩
    let x : BufrTableID := ⟨0, 0, 0, 4, 0⟩
    UsableC w (.crex a) ∧ UsableC w (.crex b) ∧ UsableC w (.bufr x) ∧
    w.closest_crex a b < 0 ∧ 0 < w.closest_mixed x b ∧ w.closest_mixed x a < 0 := by
  refine ⟨?_, ?_, ?_, ?_⟩
  · exact ⟨rfl, rfl, by decide, by decide⟩
  · exact ⟨rfl, rfl, by decide, by decide⟩
  · exact ⟨rfl, by decide⟩
  · decide

/-- What the distances say: a newer version is farther, an exact centre is closer than
the WMO, and with it the local version counts. -/
example : (⟨98, 0, 0, 12, 3⟩ : BufrTableID).closest_bufr ⟨0, 0, 0, 13, 0⟩ ⟨98, 0, 0, 14, 3⟩ = -1 ∧
    (⟨98, 0, 0, 12, 3⟩ : BufrTableID).closest_bufr ⟨0, 0, 0, 13, 0⟩ ⟨98, 0, 0, 13, 1⟩ = 1 ∧
    (⟨98, 0, 0, 12, 3⟩ : BufrTableID).closest_bufr ⟨98, 0, 0, 13, 5⟩ ⟨98, 0, 0, 13, 2⟩ = -1 := by
  decide

/-! ## C45 -/

theorem acceptableB (w id : BufrTableID) : w.is_acceptable_bufr id = true ↔ UsableB w (.bufr id) := by
  unfold BufrTableID.is_acceptable_bufr UsableB
  simp only [UInt8.le_iff_toNat_le, UInt8.lt_iff_toNat_lt]
  split_ifs <;> simp_all

theorem acceptableCB (w : CrexTableID) (id : BufrTableID) :
    w.is_acceptable_bufr id = true ↔ UsableC w (.bufr id) := by
  unfold CrexTableID.is_acceptable_bufr UsableC
  simp only [UInt8.le_iff_toNat_le, UInt8.lt_iff_toNat_lt]
  split_ifs <;> simp_all

theorem acceptableCC (w id : CrexTableID) : w.is_acceptable_crex id = true ↔ UsableC w (.crex id) := by
  unfold CrexTableID.is_acceptable_crex UsableC
  simp only [UInt8.le_iff_toNat_le, UInt8.lt_iff_toNat_lt]
  split_ifs <;> simp_all

/-- A search for a BUFR message. -/
theorem bufrQuery_best (w : BufrTableID) (dirs : List (List Table)) :
    ((BufrQuery w).run dirs = none ↔ ∀ t ∈ dirs.flatten, ¬ UsableB w t.kind) ∧
    ∀ t, (BufrQuery w).run dirs = some t → IsBest (UsableB w) (CloserB w) dirs.flatten t := by
  have h := search_dirs (q := BufrQuery w) (kb := closeness w) (kc := fun _ => [])
    (fun a b => by rw [← BufrTableID.closest_eq]; rfl) (fun a b h => by cases h)
    (Best.of_nil _ _ _) dirs
  rw [List.nil_append] at h
  obtain ⟨h1, h2, h3, h4⟩ := h
  unfold Query.run
  cases hc : (dirs.foldl (BufrQuery w).search ⟨none, none⟩).crex with
  | some c => have := (h4 _ _ hc).2.2.1; cases this
  | none =>
    unfold Query.result
    rw [hc]
    cases hb : (dirs.foldl (BufrQuery w).search ⟨none, none⟩).bufr with
    | none =>
      refine ⟨⟨fun _ t ht hu => ?_, fun _ => rfl⟩, fun t h => by cases h⟩
      cases hk : t.kind with
      | bufr id =>
        rw [hk, ← acceptableB] at hu
        have := h1 hb t ht id hk
        rw [show (BufrQuery w).acceptable_bufr id = w.is_acceptable_bufr id from rfl, hu] at this
        cases this
      | crex id => rw [hk] at hu; exact hu
      | raw => rw [hk] at hu; exact hu
    | some b =>
      obtain ⟨e1, e2, e3, e4⟩ := h3 _ _ hb
      have hu : UsableB w b.2.kind := by rw [e2]; exact (acceptableB w b.1).mp e3
      refine ⟨⟨fun h => (by cases h), fun h => absurd hu (h b.2 e1)⟩, fun t ht => ?_⟩
      simp only [Option.some.injEq] at ht
      subst ht
      refine ⟨e1, hu, fun u hm hu' hcl => ?_⟩
      cases hk : u.kind with
      | bufr id =>
        rw [hk] at hu' hcl
        rw [e2] at hcl
        have h5 := e4 u hm id hk ((acceptableB w id).mpr hu')
        have h6 : lexCmp (closeness w id) (closeness w b.1) < 0 := hcl
        have := lexCmp_neg (closeness w id) (closeness w b.1)
        omega
      | crex id => rw [hk] at hu'; exact hu'
      | raw => rw [hk] at hu'; exact hu'

/-- The CREX tables have no BUFR version, centre or local version. -/
def PlainCrex (tables : List Table) : Prop :=
  ∀ t ∈ tables, ∀ id, t.kind = .crex id → id.originating_centre = 0 ∧ id.originating_subcentre = 0 ∧
    id.master_table_version_number_bufr = 0 ∧ id.master_table_version_number_local = 0

/-- A search for a CREX message. -/
theorem crexQuery_best (w : CrexTableID) (dirs : List (List Table)) :
    ((CrexQuery w).run dirs = none ↔ ∀ t ∈ dirs.flatten, ¬ UsableC w t.kind) ∧
    ∀ t, (CrexQuery w).run dirs = some t → t ∈ dirs.flatten ∧ UsableC w t.kind ∧
      (PlainCrex dirs.flatten → IsBest (UsableC w) (CloserC w) dirs.flatten t) := by
  have h := search_dirs (q := CrexQuery w) (kb := closenessCB w) (kc := closenessCC w)
    (fun a b => by rw [← CrexTableID.closest_bufr_eq]; rfl)
    (fun a b _ => by rw [← CrexTableID.closest_crex_eq]; rfl)
    (Best.of_nil _ _ _) dirs
  rw [List.nil_append] at h
  obtain ⟨h1, h2, h3, h4⟩ := h
  unfold Query.run
  generalize dirs.foldl (CrexQuery w).search ⟨none, none⟩ = B at *
  -- no table of one kind
  have noB : B.bufr = none → ∀ t ∈ dirs.flatten, ∀ id, t.kind = .bufr id → ¬ UsableC w t.kind := by
    intro hb t ht id hk hu
    rw [hk, ← acceptableCB] at hu
    have := h1 hb t ht id hk
    rw [show (CrexQuery w).acceptable_bufr id = w.is_acceptable_bufr id from rfl, hu] at this
    cases this
  have noC : B.crex = none → ∀ t ∈ dirs.flatten, ∀ id, t.kind = .crex id → ¬ UsableC w t.kind := by
    intro hb t ht id hk hu
    rw [hk, ← acceptableCC] at hu
    have := h2 hb t ht id hk
    rw [show (CrexQuery w).acceptable_crex id = w.is_acceptable_crex id from rfl, hu] at this
    cases this
  -- the best of one kind
  have bestB : ∀ b, B.bufr = some b → b.2 ∈ dirs.flatten ∧ b.2.kind = .bufr b.1 ∧ UsableC w b.2.kind ∧
      ∀ u ∈ dirs.flatten, ∀ id, u.kind = .bufr id → UsableC w u.kind →
        lexCmp (closenessCB w b.1) (closenessCB w id) ≤ 0 := by
    intro b hb
    obtain ⟨e1, e2, e3, e4⟩ := h3 _ _ hb
    exact ⟨e1, e2, by rw [e2]; exact (acceptableCB w b.1).mp e3,
      fun u hm id hk hu => e4 u hm id hk ((acceptableCB w id).mpr (hk ▸ hu))⟩
  have bestC : ∀ b, B.crex = some b → b.2 ∈ dirs.flatten ∧ b.2.kind = .crex b.1 ∧ UsableC w b.2.kind ∧
      ∀ u ∈ dirs.flatten, ∀ id, u.kind = .crex id → UsableC w u.kind →
        lexCmp (closenessCC w b.1) (closenessCC w id) ≤ 0 := by
    intro b hb
    obtain ⟨e1, e2, e3, e4⟩ := h4 _ _ hb
    exact ⟨e1, e2, by rw [e2]; exact (acceptableCC w b.1).mp e3,
      fun u hm id hk hu => e4 u hm id hk ((acceptableCC w id).mpr (hk ▸ hu))⟩
  -- all the CREX tables compare in the same way to BUFR tables
  have same : PlainCrex dirs.flatten → ∀ t ∈ dirs.flatten, ∀ id, t.kind = .crex id →
      ∀ u ∈ dirs.flatten, ∀ id', u.kind = .crex id' → closenessCM w id = closenessCM w id' := by
    intro hp t ht id hk u hu id' hk'
    obtain ⟨a1, a2, a3, a4⟩ := hp t ht id hk
    obtain ⟨b1, b2, b3, b4⟩ := hp u hu id' hk'
    unfold closenessCM
    rw [a1, a2, a3, a4, b1, b2, b3, b4]
  unfold Query.result
  cases hb : B.bufr with
  | none =>
    cases hc : B.crex with
    | none =>
      refine ⟨⟨fun _ t ht hu => ?_, fun _ => rfl⟩, fun t h => by cases h⟩
      cases hk : t.kind with
      | bufr id => exact noB hb t ht id hk hu
      | crex id => exact noC hc t ht id hk hu
      | raw => rw [hk] at hu; exact hu
    | some c =>
      obtain ⟨e1, e2, e3, e4⟩ := bestC c hc
      refine ⟨⟨fun h => (by cases h), fun h => absurd e3 (h c.2 e1)⟩, fun t ht => ?_⟩
      simp only [Option.some.injEq] at ht
      subst ht
      refine ⟨e1, e3, fun _ => ⟨e1, e3, fun u hm hu hcl => ?_⟩⟩
      cases hk : u.kind with
      | bufr id => exact noB hb u hm id hk hu
      | crex id =>
        have h5 := e4 u hm id hk hu
        rw [hk, e2] at hcl
        have h6 : lexCmp (closenessCC w id) (closenessCC w c.1) < 0 := hcl
        have := lexCmp_neg (closenessCC w id) (closenessCC w c.1)
        omega
      | raw => rw [hk] at hu; exact hu
  | some b =>
    obtain ⟨e1, e2, e3, e4⟩ := bestB b hb
    cases hc : B.crex with
    | none =>
      refine ⟨⟨fun h => (by cases h), fun h => absurd e3 (h b.2 e1)⟩, fun t ht => ?_⟩
      simp only [Option.some.injEq] at ht
      subst ht
      refine ⟨e1, e3, fun _ => ⟨e1, e3, fun u hm hu hcl => ?_⟩⟩
      cases hk : u.kind with
      | crex id => exact noC hc u hm id hk hu
      | bufr id =>
        have h5 := e4 u hm id hk hu
        rw [hk, e2] at hcl
        have h6 : lexCmp (closenessCB w id) (closenessCB w b.1) < 0 := hcl
        have := lexCmp_neg (closenessCB w id) (closenessCB w b.1)
        omega
      | raw => rw [hk] at hu; exact hu
    | some c =>
      obtain ⟨f1, f2, f3, f4⟩ := bestC c hc
      have hs : (CrexQuery w).second_mixed b.1 c.1 =
          !decide (lexCmp (closenessCB w b.1) (closenessCM w c.1) ≤ 0) := by
        rw [← CrexTableID.closest_mixed_eq]; rfl
      simp only [hs]
      by_cases hle : lexCmp (closenessCB w b.1) (closenessCM w c.1) ≤ 0
      · simp only [hle, decide_true, Bool.not_true, Bool.false_eq_true, if_false]
        refine ⟨⟨fun h => (by cases h), fun h => absurd e3 (h b.2 e1)⟩, fun t ht => ?_⟩
        simp only [Option.some.injEq] at ht
        subst ht
        refine ⟨e1, e3, fun hp => ⟨e1, e3, fun u hm hu hcl => ?_⟩⟩
        cases hk : u.kind with
        | crex id =>
          rw [hk, e2] at hcl
          have h6 : lexCmp (closenessCM w id) (closenessCB w b.1) < 0 := hcl
          rw [same hp u hm id hk c.2 f1 c.1 f2] at h6
          have := lexCmp_neg (closenessCM w c.1) (closenessCB w b.1)
          omega
        | bufr id =>
          have h5 := e4 u hm id hk hu
          rw [hk, e2] at hcl
          have h6 : lexCmp (closenessCB w id) (closenessCB w b.1) < 0 := hcl
          have := lexCmp_neg (closenessCB w id) (closenessCB w b.1)
          omega
        | raw => rw [hk] at hu; exact hu
      · simp only [hle, decide_false, Bool.not_false, if_true]
        refine ⟨⟨fun h => (by cases h), fun h => absurd f3 (h c.2 f1)⟩, fun t ht => ?_⟩
        simp only [Option.some.injEq] at ht
        subst ht
        refine ⟨f1, f3, fun hp => ⟨f1, f3, fun u hm hu hcl => ?_⟩⟩
        cases hk : u.kind with
        | crex id =>
          have h5 := f4 u hm id hk hu
          rw [hk, f2] at hcl
          have h6 : lexCmp (closenessCC w id) (closenessCC w c.1) < 0 := hcl
          have := lexCmp_neg (closenessCC w id) (closenessCC w c.1)
          omega
        | bufr id =>
          have h5 := e4 u hm id hk hu
          rw [hk, f2] at hcl
          have h6 : lexCmp (closenessCB w id) (closenessCM w c.1) < 0 := hcl
          exact hle (lexCmp_trans h5 (by omega))
        | raw => rw [hk] at hu; exact hu

/-- The CREX tables that come from files have only an edition, a master table and a
version. -/
theorem dir_plain (pathname : List Byte) (names : List (List Byte)) :
    PlainCrex (Dir.tables pathname names) := by
  intro t ht id hk
  simp only [Dir.tables, List.mem_filterMap, Option.map_eq_some_iff] at ht
  obtain ⟨name, -, k, hfk, rfl⟩ := ht
  have hk' : k = .crex id := hk
  subst hk'
  revert hfk
  unfold fileKind
  split_ifs with h1 h2
  · intro h; cases h
  · intro h; cases h
  · split
    · unfold bKind
      split
      · split <;> intro h <;> cases h
        exact ⟨rfl, rfl, rfl, rfl⟩
      · split <;> intro h <;> cases h
      · split <;> intro h <;> cases h
      · intro h; cases h
    · intro h; cases h
    · intro h; cases h

namespace Tabledir

/-- One operation, and its answer. -/
def Tabledirs.step (names : List Byte → List (List Byte)) (t : Tabledirs) :
    DirOp → Option Table × Tabledirs
  | .add dir => (none, t.add_directory dir)
  | .bufr id => t.find_bufr names id
  | .crex id => t.find_crex names id

/-- The state after some operations on an empty set of directories. -/
def Tabledirs.after (names : List Byte → List (List Byte)) (ops : List DirOp) : Tabledirs :=
  ops.foldl (fun t op => (t.step names op).2) ⟨[], none⟩

/-- All the tables in the directories. -/
def Tabledirs.tables (names : List Byte → List (List Byte)) (t : Tabledirs) : List Table :=
  t.dirs.flatMap fun d => Dir.tables d (names d)

/-- The caches hold what a search would find. -/
def Index.Good (x : Index) : Prop :=
  (∀ e ∈ x.bufr_cache, (BufrQuery e.1).run x.dirs = some e.2) ∧
  (∀ e ∈ x.crex_cache, (CrexQuery e.1).run x.dirs = some e.2)

/-- The index, if there is one, is that of the directories. -/
def Tabledirs.Good (names : List Byte → List (List Byte)) (t : Tabledirs) : Prop :=
  ∀ x, t.index = some x → x.dirs = t.dirs.map (fun d => Dir.tables d (names d)) ∧ x.Good

theorem Index.mapFind_mem {κ α : Type} {lt : κ → κ → Bool} {m : List (κ × α)} {k : κ} {a : α}
    (ht : ∀ a b, lt a b = true ∨ a = b ∨ lt b a = true) (h : mapFind lt m k = some a) : (k, a) ∈ m := by
  unfold mapFind at h
  rw [Option.map_eq_some_iff] at h
  obtain ⟨e, he, rfl⟩ := h
  have h1 := List.mem_of_find?_eq_some he
  have h2 := List.find?_some he
  simp only [Bool.and_eq_true, Bool.not_eq_true'] at h2
  rcases ht e.1 k with h | h | h
  · rw [h] at h2; cases h2.1
  · rw [← h]; exact h1
  · rw [h] at h2; cases h2.2

theorem Index.find_bufr_good {x : Index} (h : x.Good) (id : BufrTableID) :
    (x.find_bufr id).1 = (BufrQuery id).run x.dirs ∧ (x.find_bufr id).2.Good ∧
    (x.find_bufr id).2.dirs = x.dirs := by
  unfold Index.find_bufr
  cases hm : mapFind BufrTableID.lt x.bufr_cache id with
  | some t => exact ⟨(h.1 _ (mapFind_mem C43_bufr_order.2.2 hm)).symm, h, rfl⟩
  | none =>
    cases hq : (BufrQuery id).run x.dirs with
    | none => exact ⟨rfl, h, rfl⟩
    | some t =>
      refine ⟨rfl, ⟨?_, h.2⟩, rfl⟩
      intro e he
      rcases List.mem_cons.mp he with rfl | he
      · exact hq
      · exact h.1 e he

theorem Index.find_crex_good {x : Index} (h : x.Good) (id : CrexTableID) :
    (x.find_crex id).1 = (CrexQuery id).run x.dirs ∧ (x.find_crex id).2.Good ∧
    (x.find_crex id).2.dirs = x.dirs := by
  unfold Index.find_crex
  cases hm : mapFind CrexTableID.lt x.crex_cache id with
  | some t => exact ⟨(h.2 _ (mapFind_mem C43_crex_order.2.2 hm)).symm, h, rfl⟩
  | none =>
    cases hq : (CrexQuery id).run x.dirs with
    | none => exact ⟨rfl, h, rfl⟩
    | some t =>
      refine ⟨rfl, ⟨h.1, ?_⟩, rfl⟩
      intro e he
      rcases List.mem_cons.mp he with rfl | he
      · exact hq
      · exact h.2 e he

theorem Tabledirs.getIndex_good {names : List Byte → List (List Byte)} {t : Tabledirs}
    (h : t.Good names) : (t.getIndex names).dirs = t.dirs.map (fun d => Dir.tables d (names d)) ∧
      (t.getIndex names).Good := by
  unfold getIndex
  cases hx : t.index with
  | some x => exact h x hx
  | none => exact ⟨rfl, fun e he => (by cases he), fun e he => (by cases he)⟩

theorem Tabledirs.find_bufr_good {names : List Byte → List (List Byte)} {t : Tabledirs}
    (h : t.Good names) (id : BufrTableID) :
    (t.find_bufr names id).1 = (BufrQuery id).run (t.dirs.map fun d => Dir.tables d (names d)) ∧
    (t.find_bufr names id).2.Good names := by
  obtain ⟨h1, h2⟩ := getIndex_good h
  obtain ⟨h3, h4, h5⟩ := Index.find_bufr_good h2 id
  refine ⟨by rw [← h1]; exact h3, ?_⟩
  intro x hx
  simp only [find_bufr, Option.some.injEq] at hx
  subst hx
  exact ⟨h5.trans h1, h4⟩

theorem Tabledirs.find_crex_good {names : List Byte → List (List Byte)} {t : Tabledirs}
    (h : t.Good names) (id : CrexTableID) :
    (t.find_crex names id).1 = (CrexQuery id).run (t.dirs.map fun d => Dir.tables d (names d)) ∧
    (t.find_crex names id).2.Good names := by
  obtain ⟨h1, h2⟩ := getIndex_good h
  obtain ⟨h3, h4, h5⟩ := Index.find_crex_good h2 id
  refine ⟨by rw [← h1]; exact h3, ?_⟩
  intro x hx
  simp only [find_crex, Option.some.injEq] at hx
  subst hx
  exact ⟨h5.trans h1, h4⟩

theorem Tabledirs.after_good (names : List Byte → List (List Byte)) (ops : List DirOp) :
    (after names ops).Good names := by
  have : ∀ (ops : List DirOp) (t : Tabledirs), t.Good names →
      (ops.foldl (fun t op => (t.step names op).2) t).Good names := by
    intro ops
    induction ops with
    | nil => exact fun _ h => h
    | cons op ops ih =>
      intro t h
      refine ih _ ?_
      cases op with
      | add dir =>
        simp only [step, add_directory]
        split
        · exact h
        · intro x hx; cases hx
      | bufr id => exact (find_bufr_good h id).2
      | crex id => exact (find_crex_good h id).2
  exact this ops _ (fun x hx => by cases hx)

end Tabledir

/-- C45 for BUFR: whatever was asked before, the table found is a best one of all those
in the directories, and none is found only if there is none that can be used. -/
theorem C45_bufr (names : List Byte → List (List Byte)) (ops : List DirOp) (w : BufrTableID) :
    let t := Tabledirs.after names ops
    let r := (t.find_bufr names w).1
    (r = none ↔ ∀ u ∈ t.tables names, ¬ UsableB w u.kind) ∧
    ∀ b, r = some b → IsBest (UsableB w) (CloserB w) (t.tables names) b := by
  intro t r
  have h := (Tabledirs.find_bufr_good (Tabledirs.after_good names ops) w).1
  have := bufrQuery_best w (t.dirs.map fun d => Dir.tables d (names d))
  rw [← h, ← List.flatMap_def] at this
  exact this

/-- C45 for CREX. -/
theorem C45_crex (names : List Byte → List (List Byte)) (ops : List DirOp) (w : CrexTableID) :
    let t := Tabledirs.after names ops
    let r := (t.find_crex names w).1
    (r = none ↔ ∀ u ∈ t.tables names, ¬ UsableC w u.kind) ∧
    ∀ b, r = some b → IsBest (UsableC w) (CloserC w) (t.tables names) b := by
  intro t r
  have h := (Tabledirs.find_crex_good (Tabledirs.after_good names ops) w).1
  have := crexQuery_best w (t.dirs.map fun d => Dir.tables d (names d))
  rw [← h, ← List.flatMap_def] at this
  refine ⟨this.1, fun b hb => (this.2 b hb).2.2 ?_⟩
  intro t' ht
  rw [List.mem_flatMap] at ht
  obtain ⟨d, -, hd⟩ := ht
  exact dir_plain d (names d) t' hd

/-- The names in two directories. -/
def sampleNames (d : List Byte) : List (List Byte) :=
  if d = ascii "/usr" then [bufrTableName 0 0 12 0, bufrTableName 0 0 14 0,
    ascii "D000000000001400.txt", ascii "readme", ascii "B000103.txt"]
  else [ascii "B00000000980013.txt", bufrTableLongName 0 0 98 14 2, bufrTableName 98 98 13 2]

/-- A question before and after a directory is added: the second answer is the table in
it, although the first was kept. -/
example :
    let ops := [DirOp.add (ascii "/usr/"), .bufr ⟨98, 0, 0, 13, 2⟩]
    let w : BufrTableID := ⟨98, 0, 0, 13, 2⟩
    (((Tabledirs.after sampleNames ops).find_bufr sampleNames w).1.map (·.btable_pathname) =
      some (ascii "/usr/B000000000001400.txt")) ∧
    (((Tabledirs.after sampleNames (ops ++ [.add (ascii "/opt")])).find_bufr sampleNames w).1.map
      (·.dtable_pathname) = some (ascii "/opt/D000000980981302.txt")) ∧
    (((Tabledirs.after sampleNames ops).find_crex sampleNames ⟨1, 0, 0, 0, 3, 0, 0⟩).1.map
      (·.btable_id) = some (ascii "B000103")) ∧
    ((Tabledirs.after sampleNames ops).find_bufr sampleNames ⟨98, 0, 0, 15, 2⟩).1 = none := by
  decide +kernel

/-- The search itself needs the hypothesis on CREX identifiers: with others it can
return a table to which another one is preferred. -/
example :
    let w : CrexTableID := ⟨1, 0, 0, 0, 1, 3, 0⟩
    let table (k : Kind) : Table := ⟨[], [], [], [], k⟩
    let a := table (.crex ⟨1, 0, 0, 0, 1, 5, 0⟩)
    let b := table (.crex ⟨1, 0, 0, 0, 2, 3, 0⟩)
    let x := table (.bufr ⟨0, 0, 0, 4, 0⟩)
    (CrexQuery w).run [[a, b, x]] = some x ∧ UsableC w b.kind ∧ CloserC w b.kind x.kind := by
  refine ⟨by decide +kernel, ⟨rfl, rfl, by decide, by decide⟩, ?_⟩
  show lexCmp _ _ < 0
  decide +kernel

/-! ## C62 -/

theorem scanD_padded {w : Nat} (hw : 0 < w) (k : Nat) (hk : k < 10 ^ w) (rest : List Byte) :
    scanD w (zeroPadded w k ++ rest) = some ((k : Int), rest) := by
  have hl := zeroPadded_length w k
  have hd := zeroPadded_digits w k
  have hv := zeroPadded_value w k hk
  generalize zeroPadded w k = z at *
  cases z with
  | nil => simp at hl; omega
  | cons a z =>
    obtain ⟨hs, h45, h43, -⟩ := digit_not (hd a List.mem_cons_self)
    have h1 : ((a :: z) ++ rest).dropWhile isSpace = (a :: z) ++ rest := by
      simp [hs]
    have h2 : ((a :: z) ++ rest).take w = a :: z := by rw [← hl, List.take_left]
    have h3 : (a :: z).takeWhile isDigit = a :: z := by
      rw [List.takeWhile_eq_self_iff]
      exact fun b hb => (isDigit_iff b).mpr (hd b hb)
    have h4 : ((a :: z) ++ rest).head? = some a := rfl
    unfold scanD
    simp only [h1, h4, Option.some.injEq, h45, h43, or_self, if_false, h2, h3, reduceCtorEq,
      List.drop_left]
    unfold digitsValue at hv
    rw [hv]

theorem scanDs_padded (l : List (Nat × Nat)) (h : ∀ p ∈ l, 0 < p.1 ∧ p.2 < 10 ^ p.1) (rest : List Byte) :
    scanDs (l.map (·.1)) (l.flatMap (fun p => zeroPadded p.1 p.2) ++ rest) =
      some (l.map fun p => (p.2 : Int)) := by
  induction l with
  | nil => rfl
  | cons p l ih =>
    have h1 := h p List.mem_cons_self
    have h2 := ih fun q hq => h q (List.mem_cons_of_mem _ hq)
    simp only [List.map_cons, List.flatMap_cons, List.append_assoc, scanDs]
    rw [scanD_padded h1.1 _ h1.2]
    simp only [Option.bind_eq_bind, Option.bind_some]
    rw [h2]
    rfl

theorem toU8_ofNat (n : Nat) : toU8 (n : Int) = UInt8.ofNat n := by
  unfold toU8
  have : ((n : Int) % 256).toNat = n % 256 := by omega
  rw [this]
  apply UInt8.toNat_inj.mp
  simp

theorem toU16_ofNat (n : Nat) : toU16 (n : Int) = UInt16.ofNat n := by
  unfold toU16
  have : ((n : Int) % 65536).toNat = n % 65536 := by omega
  rw [this]
  apply UInt16.toNat_inj.mp
  simp

theorem scanLit_append (l s : List Byte) : scanLit l (l ++ s) = some s := by
  simp [scanLit]

theorem fileKind_b {name : List Byte} {n : Nat} (hl : name.length = n) (hn : 5 ≤ n)
    (ht : ∃ s, name = s ++ ascii ".txt") (hb : name.headD 0 = 66) : fileKind name = bKind name := by
  obtain ⟨s, rfl⟩ := ht
  unfold fileKind
  have : (s ++ ascii ".txt").length - 4 = s.length := by
    rw [List.length_append]; exact Nat.add_sub_cancel _ _
  rw [if_neg (by omega), this, List.drop_left, if_neg (by simp), hb]
  rfl

/-- C62, partially: the numbers in the name of a file are those of the table. Missing:
the master table number of a BUFR table, see `C62_not_master`, and versions greater
than 255, see `C62_not_version`. -/
theorem C62_names_partial :
    (∀ mt ed v : Nat, mt < 100 → ed < 100 → v < 100 → fileKind (crexTableName mt ed v) =
      some (.crex ⟨.ofNat ed, 0, 0, .ofNat mt, .ofNat v, 0, 0⟩)) ∧
    (∀ sc ce v l : Nat, sc < 1000 → ce < 1000 → v < 100 → l < 100 →
      fileKind (bufrTableName sc ce v l) = some (.bufr ⟨.ofNat ce, .ofNat sc, 0, .ofNat v, .ofNat l⟩)) ∧
    (∀ sc ce v l : Nat, sc < 10000 → ce < 10000 → v < 256 → l < 256 →
      fileKind (bufrTableLongName 0 sc ce v l) =
        some (.bufr ⟨.ofNat ce, .ofNat sc, 0, .ofNat v, .ofNat l⟩)) := by
  refine ⟨?_, ?_, ?_⟩
  · intro mt ed v h1 h2 h3
    have h := scanDs_padded [(2, mt), (2, ed), (2, v)] (by simp; omega) (ascii ".txt")
    simp only [List.map_cons, List.map_nil, List.flatMap_cons, List.flatMap_nil, List.append_nil,
      List.append_assoc] at h
    have hn : crexTableName mt ed v =
        ascii "B" ++ (zeroPadded 2 mt ++ (zeroPadded 2 ed ++ (zeroPadded 2 v ++ ascii ".txt"))) := by
      simp only [crexTableName, List.append_assoc]
    have hl : (crexTableName mt ed v).length = 11 := by
      simp only [crexTableName, List.length_append, zeroPadded_length]; rfl
    rw [fileKind_b hl (by decide) ⟨_, rfl⟩ (by rw [hn]; rfl)]
    unfold bKind
    rw [hl]
    simp only
    rw [hn, scanLit_append, Option.bind_some, h]
    simp only [toU8_ofNat]
  · intro sc ce v l h1 h2 h3 h4
    have h := scanDs_padded [(3, sc), (3, ce), (2, v), (2, l)] (by simp; omega) (ascii ".txt")
    simp only [List.map_cons, List.map_nil, List.flatMap_cons, List.flatMap_nil, List.append_nil,
      List.append_assoc] at h
    have hn : bufrTableName sc ce v l = ascii "B00000" ++
        (zeroPadded 3 sc ++ (zeroPadded 3 ce ++ (zeroPadded 2 v ++ (zeroPadded 2 l ++ ascii ".txt")))) := by
      simp only [bufrTableName, List.append_assoc]
    have hl : (bufrTableName sc ce v l).length = 20 := by
      simp only [bufrTableName, List.length_append, zeroPadded_length]; rfl
    rw [fileKind_b hl (by decide) ⟨_, rfl⟩ (by rw [hn]; rfl)]
    unfold bKind
    rw [hl]
    simp only
    rw [hn, scanLit_append, Option.bind_some, h]
    simp only [toU8_ofNat, toU16_ofNat]
  · intro sc ce v l h1 h2 h3 h4
    have h := scanDs_padded [(3, 0), (4, sc), (4, ce), (3, v), (3, l)] (by simp; omega) (ascii ".txt")
    simp only [List.map_cons, List.map_nil, List.flatMap_cons, List.flatMap_nil, List.append_nil,
      List.append_assoc] at h
    have hn : bufrTableLongName 0 sc ce v l = ascii "B00" ++
        (zeroPadded 3 0 ++ (zeroPadded 4 sc ++ (zeroPadded 4 ce ++ (zeroPadded 3 v ++
          (zeroPadded 3 l ++ ascii ".txt"))))) := by
      simp only [bufrTableLongName, List.append_assoc]
    have hl : (bufrTableLongName 0 sc ce v l).length = 24 := by
      simp only [bufrTableLongName, List.length_append, zeroPadded_length]; rfl
    rw [fileKind_b hl (by decide) ⟨_, rfl⟩ (by rw [hn]; rfl)]
    unfold bKind
    rw [hl]
    simp only
    rw [hn, scanLit_append, Option.bind_some, h]
    simp only [toU8_ofNat, toU16_ofNat]

/-- C62: the D table of a B table has the same name in the same directory, with another
first letter. -/
theorem C62_dtable (k : Kind) (dir name ext : List Byte) (hn : name ≠ []) (he : 46 ∉ ext) :
    let t := Table.make k dir (name ++ 46 :: ext)
    t.btable_id = name ∧ t.dtable_id = 68 :: name.tail ∧
    t.btable_pathname = join dir (name ++ 46 :: ext) ∧
    t.dtable_pathname = join dir (68 :: name.tail ++ 46 :: ext) := by
  have h : beforeLast 46 (name ++ 46 :: ext) = some name := by
    unfold beforeLast
    rw [if_pos (by simp)]
    have h1 : (name ++ 46 :: ext).reverse = ext.reverse ++ 46 :: name.reverse := by simp
    have h2 : ∀ x ∈ ext.reverse, decide (x ≠ 46) = true := by
      intro x hx
      rw [List.mem_reverse] at hx
      simp only [decide_eq_true_eq]
      rintro rfl
      exact he hx
    rw [h1, List.dropWhile_append_of_pos h2]
    simp
  unfold Table.make
  rw [h]
  refine ⟨rfl, rfl, rfl, ?_⟩
  cases name with
  | nil => exact absurd rfl hn
  | cons a l => rfl

/-- C62 is false in the code for master tables other than 0: a table of oceanography
counts as one of meteorology. -/
theorem C62_not_master : fileKind (bufrTableLongName 10 0 0 1 0) = some (.bufr ⟨0, 0, 0, 1, 0⟩) := by
  decide +kernel

/-- C62 is false in the code for versions greater than 255. -/
theorem C62_not_version : fileKind (bufrTableLongName 0 0 0 270 0) = some (.bufr ⟨0, 0, 0, 14, 0⟩) := by
  decide +kernel

/-- C62 is false in the code for names with a sign in place of a digit, which are names
of tables too: the sign counts as one of the characters of its number. -/
theorem C62_not_sign : fileKind (ascii "B-12345.txt") = some (.crex ⟨23, 0, 0, 255, 45, 0, 0⟩) := by
  decide +kernel

/-- A table that is distributed with the library. -/
example : bufrTableLongName 0 0 98 13 1 = ascii "B0000000000098013001.txt" ∧
    bufrTableName 0 0 14 0 = ascii "B000000000001400.txt" ∧
    crexTableName 0 1 3 = ascii "B000103.txt" ∧
    fileKind (ascii "B0000000000098013001.txt") = some (.bufr ⟨98, 0, 0, 13, 1⟩) ∧
    (Table.make .raw (ascii "/usr") (ascii "B0000000000098013001.txt")).dtable_pathname =
      ascii "/usr/D0000000000098013001.txt" := by decide +kernel

/-! ## C63 -/

/-- The directories added so far by some operations, without slashes at the end, each
where it was first added. -/
def addedDirs : List DirOp → List (List Byte)
  | [] => []
  | .add d :: ops =>
    let d := if d.all (· = 47) then [47] else (d.reverse.dropWhile (· = 47)).reverse
    d :: (addedDirs ops).filter (· ≠ d)
  | _ :: ops => addedDirs ops

theorem clean_eq (d : List Byte) : Tabledirs.clean d =
    if d.all (· = 47) then [47] else (d.reverse.dropWhile (· = 47)).reverse := by
  unfold Tabledirs.clean
  simp only [List.reverse_eq_nil_iff, List.dropWhile_eq_nil_iff, List.mem_reverse, List.all_eq_true]

/-- C63: the directories are those added, in the order in which each was first added,
and each once; searches do not change them. -/
theorem C63_order (names : List Byte → List (List Byte)) (ops : List DirOp) :
    (Tabledirs.after names ops).dirs = addedDirs ops := by
  have hs : ∀ (t : Tabledirs) (d : List Byte), (t.step names (.add d)).2.dirs =
      if Tabledirs.clean d ∈ t.dirs then t.dirs else t.dirs ++ [Tabledirs.clean d] := by
    intro t d
    simp only [Tabledirs.step, Tabledirs.add_directory]
    split <;> rfl
  have : ∀ (ops : List DirOp) (t : Tabledirs) (ds : List (List Byte)), t.dirs = ds →
      (ops.foldl (fun t op => (t.step names op).2) t).dirs =
        ds ++ (addedDirs ops).filter (fun x => !ds.contains x) := by
    intro ops
    induction ops with
    | nil => intro t ds h; simp [addedDirs, h]
    | cons op ops ih =>
      intro t ds hds
      rw [List.foldl_cons]
      cases op with
      | bufr id => exact ih _ _ hds
      | crex id => exact ih _ _ hds
      | add d =>
        rw [ih _ _ (hs t d)]
        simp only [addedDirs, ← clean_eq, hds]
        by_cases h : Tabledirs.clean d ∈ ds
        · rw [if_pos h, List.filter_cons_of_neg (by simpa using h), List.filter_filter]
          congr 1
          apply List.filter_congr
          intro x _
          by_cases hx : x = Tabledirs.clean d
          · simp [hx, h]
          · simp [hx]
        · rw [if_neg h, List.filter_cons_of_pos (by simpa using h), List.filter_filter]
          rw [List.append_assoc]
          congr 1
          rw [List.singleton_append]
          congr 1
          apply List.filter_congr
          intro x _
          simp
  have h := this ops ⟨[], none⟩ [] rfl
  unfold Tabledirs.after
  simpa using h

/-- C63: no directory is there twice. -/
theorem C63_once (names : List Byte → List (List Byte)) (ops : List DirOp) :
    (Tabledirs.after names ops).dirs.Nodup := by
  rw [C63_order]
  induction ops with
  | nil => exact List.nodup_nil
  | cons op ops ih =>
    cases op with
    | bufr id => exact ih
    | crex id => exact ih
    | add d =>
      simp only [addedDirs]
      rw [List.nodup_cons]
      exact ⟨by simp, ih.filter _⟩

theorem first_of (w : BufrTableID) (tables : List Table) :
    Best.Of (BufrQuery w) (closeness w) (fun _ => []) tables
      (tables.foldl (BufrQuery w).consider_table ⟨none, none⟩) ∧
    ∀ id t, (tables.foldl (BufrQuery w).consider_table ⟨none, none⟩).bufr = some (id, t) →
      ∃ l r, tables = l ++ t :: r ∧ ∀ u ∈ l, UsableB w u.kind → CloserB w t.kind u.kind := by
  induction tables using List.reverseRecOn with
  | nil => exact ⟨Best.of_nil _ _ _, fun _ _ h => (by cases h)⟩
  | append_singleton tables t ih =>
    obtain ⟨hbest, hf⟩ := ih
    rw [List.foldl_append, List.foldl_cons, List.foldl_nil]
    have hb : ∀ a b, (BufrQuery w).second_bufr a b = !decide (lexCmp (closeness w a) (closeness w b) ≤ 0) :=
      fun a b => by rw [← BufrTableID.closest_eq]; rfl
    refine ⟨consider_of hb (fun a b h => by cases h) hbest t, ?_⟩
    generalize tables.foldl (BufrQuery w).consider_table ⟨none, none⟩ = B at *
    have keep : ∀ id u, B.bufr = some (id, u) →
        ∃ l r, tables ++ [t] = l ++ u :: r ∧ ∀ v ∈ l, UsableB w v.kind → CloserB w u.kind v.kind := by
      intro id u h
      obtain ⟨l, r, rfl, h2⟩ := hf id u h
      exact ⟨l, r ++ [t], by simp, h2⟩
    unfold Query.consider_table
    cases hk : t.kind with
    | raw => exact keep
    | crex id => exact keep
    | bufr id =>
      simp only
      cases ha : (BufrQuery w).acceptable_bufr id with
      | false => exact keep
      | true =>
        simp only [Bool.not_true, Bool.false_eq_true, if_false]
        cases hB : B.bufr with
        | none =>
          intro id' u h
          simp only [Option.some.injEq, Prod.mk.injEq] at h
          obtain ⟨rfl, rfl⟩ := h
          refine ⟨tables, [], rfl, fun v hv hu => ?_⟩
          exfalso
          cases hkv : v.kind with
          | raw => rw [hkv] at hu; exact hu
          | crex i => rw [hkv] at hu; exact hu
          | bufr i =>
            rw [hkv, ← acceptableB] at hu
            have := hbest.bufr_none hB v hv i hkv
            rw [show (BufrQuery w).acceptable_bufr i = w.is_acceptable_bufr i from rfl, hu] at this
            cases this
        | some best =>
          obtain ⟨bid, bt⟩ := best
          simp only [hb]
          by_cases hle : lexCmp (closeness w bid) (closeness w id) ≤ 0
          · simp only [hle, decide_true, Bool.not_true, Bool.false_eq_true, if_false]
            exact keep
          · simp only [hle, decide_false, Bool.not_false, if_true]
            intro id' u h
            simp only [Option.some.injEq, Prod.mk.injEq] at h
            obtain ⟨rfl, rfl⟩ := h
            refine ⟨tables, [], rfl, fun v hv hu => ?_⟩
            cases hkv : v.kind with
            | raw => rw [hkv] at hu; exact hu.elim
            | crex i => rw [hkv] at hu; exact hu.elim
            | bufr i =>
              rw [hkv, ← acceptableB] at hu
              have h1 := (hbest.bufr_some _ _ hB).2.2.2 v hv i hkv hu
              rw [hk]
              show lexCmp (closeness w id) (closeness w i) < 0
              have := lexCmp_neg (closeness w bid) (closeness w id)
              exact lexCmp_trans_lt (by omega) h1

theorem foldl_search (q : Query) (dirs : List (List Table)) (b : Best) :
    dirs.foldl q.search b = dirs.flatten.foldl q.consider_table b := by
  induction dirs generalizing b with
  | nil => rfl
  | cons d dirs ih =>
    rw [List.foldl_cons, ih, List.flatten_cons, List.foldl_append]
    rfl

/-- C63: of equally good tables the first is taken: the one found for a BUFR message is
closer than all those before it that can be used. -/
theorem C63_first (names : List Byte → List (List Byte)) (ops : List DirOp) (w : BufrTableID) (b : Table)
    (h : ((Tabledirs.after names ops).find_bufr names w).1 = some b) :
    ∃ l r, (Tabledirs.after names ops).tables names = l ++ b :: r ∧
      ∀ u ∈ l, UsableB w u.kind → CloserB w b.kind u.kind := by
  rw [(Tabledirs.find_bufr_good (Tabledirs.after_good names ops) w).1] at h
  unfold Query.run at h
  rw [foldl_search, ← List.flatMap_def] at h
  obtain ⟨h1, h2⟩ := first_of w ((Tabledirs.after names ops).tables names)
  change (BufrQuery w).result (((Tabledirs.after names ops).tables names).foldl
    (BufrQuery w).consider_table ⟨none, none⟩) = some b at h
  generalize ((Tabledirs.after names ops).tables names).foldl
    (BufrQuery w).consider_table ⟨none, none⟩ = B at *
  unfold Query.result at h
  cases hc : B.crex with
  | some c => have := (h1.crex_some _ _ hc).2.2.1; cases this
  | none =>
    rw [hc] at h
    cases hb : B.bufr with
    | none => rw [hb] at h; cases h
    | some x =>
      rw [hb] at h
      simp only [Option.some.injEq] at h
      subst h
      exact h2 _ _ hb

/-- The same directory twice, with a slash and without. -/
example : (Tabledirs.after sampleNames [.add (ascii "/usr/"), .add (ascii "/opt"), .add (ascii "/usr"),
    .add (ascii "//")]).dirs = [ascii "/usr", ascii "/opt", ascii "/"] := by decide +kernel

end Wreport
