import Verif.Spec.Tabledir
import Mathlib.Tactic.SplitIfs
import Mathlib.Order.Defs.LinearOrder
import Mathlib.Algebra.Order.Ring.Int

/-!
# Lemmas about the choice of tables
-/

namespace Wreport

open Spec TableCompare

/-! ## Lists of numbers -/

theorem lexCmp_self (a : List Nat) : lexCmp a a = 0 := by
  induction a with
  | nil => rfl
  | cons x xs ih => simp [lexCmp, ih]

theorem lexCmp_neg (a b : List Nat) : lexCmp a b = - lexCmp b a := by
  induction a generalizing b with
  | nil => cases b <;> rfl
  | cons x xs ih =>
    cases b with
    | nil => rfl
    | cons y ys =>
      simp only [lexCmp]
      by_cases h1 : x < y
      · rw [if_pos h1, if_neg (by omega), if_pos h1]
      · rw [if_neg h1]
        by_cases h2 : y < x
        · rw [if_pos h2, if_pos h2]; rfl
        · rw [if_neg h2, if_neg h2, if_neg h1]; exact ih ys

theorem lexCmp_trans {a b c : List Nat} (h : lexCmp a b ≤ 0) (h' : lexCmp b c ≤ 0) : lexCmp a c ≤ 0 := by
  induction a generalizing b c with
  | nil => cases c <;> simp [lexCmp]
  | cons x xs ih =>
    cases b with
    | nil => simp [lexCmp] at h
    | cons y ys =>
      cases c with
      | nil => simp [lexCmp] at h'
      | cons z zs =>
        simp only [lexCmp] at h h' ⊢
        by_cases h1 : x < y
        · by_cases h2 : y < z
          · rw [if_pos (by omega)]; decide
          · rw [if_neg h2] at h'
            by_cases h3 : z < y
            · rw [if_pos h3] at h'; omega
            · rw [if_pos (by omega)]; decide
        · rw [if_neg h1] at h
          by_cases h3 : y < x
          · rw [if_pos h3] at h; omega
          · rw [if_neg h3] at h
            by_cases h2 : y < z
            · rw [if_pos (by omega)]; decide
            · rw [if_neg h2] at h'
              by_cases h4 : z < y
              · rw [if_pos h4] at h'; omega
              · rw [if_neg h4] at h'
                rw [if_neg (by omega), if_neg (by omega)]
                exact ih h h'

/-- A strict step makes the whole strict. -/
theorem lexCmp_trans_lt {a b c : List Nat} (h : lexCmp a b < 0) (h' : lexCmp b c ≤ 0) : lexCmp a c < 0 := by
  rcases lt_or_ge (lexCmp a c) 0 with h1 | h1
  · exact h1
  · have h2 := lexCmp_neg a c
    have h3 := lexCmp_neg a b
    have h4 : lexCmp b a ≤ 0 := lexCmp_trans h' (by omega)
    omega

/-! ## The comparisons -/

/-- One comparison. -/
def cmp3 (x y : Nat) : Option Int := if x < y then some (-1) else if y < x then some 1 else none

theorem cmp3_eq (x y : Nat) {r : Option Int} {s t : List Nat} (h : r.getD 0 = lexCmp s t) :
    ((cmp3 x y).or r).getD 0 = lexCmp (x :: s) (y :: t) := by
  unfold cmp3
  simp only [lexCmp]
  split_ifs
  · rfl
  · rfl
  · exact h

theorem mtv_eq (a b : UInt8) : mtv a b = cmp3 a.toNat b.toNat := by
  unfold mtv cmp3
  simp only [UInt8.lt_iff_toNat_lt]

theorem centre_match_eq (w c : UInt16) : centre_match w c + centreRank w.toNat c.toNat = 3 := by
  unfold centre_match centreRank
  have e1 : (w = c) ↔ c.toNat = w.toNat := by
    rw [← UInt16.toNat_inj]; exact eq_comm
  have e2 : (c = 0) ↔ c.toNat = 0 := by rw [← UInt16.toNat_inj]; rfl
  have e3 : (c = 0xffff) ↔ c.toNat = 65535 := by rw [← UInt16.toNat_inj]; rfl
  simp only [e1, e2, e3]
  split_ifs <;> rfl

theorem centreRank_zero (w c : Nat) : centreRank w c = 0 ↔ c = w := by
  unfold centreRank
  split_ifs <;> simp_all

theorem centre_eq (w a b : UInt16) : centre w a b =
    (cmp3 (centreRank w.toNat a.toNat) (centreRank w.toNat b.toNat)).or
      (if a.toNat = w.toNat then none else some 0) := by
  have h1 := centre_match_eq w a
  have h2 := centre_match_eq w b
  have h3 := centreRank_zero w.toNat a.toNat
  unfold centre cmp3
  simp only
  by_cases c1 : centre_match w b < centre_match w a
  · rw [if_pos c1, if_pos (show centreRank w.toNat a.toNat < centreRank w.toNat b.toNat by omega)]; rfl
  · rw [if_neg c1, if_neg (show ¬ centreRank w.toNat a.toNat < centreRank w.toNat b.toNat by omega)]
    by_cases c2 : centre_match w a < centre_match w b
    · rw [if_pos c2, if_pos (show centreRank w.toNat b.toNat < centreRank w.toNat a.toNat by omega)]; rfl
    · rw [if_neg c2, if_neg (show ¬ centreRank w.toNat b.toNat < centreRank w.toNat a.toNat by omega),
        Option.none_or]
      by_cases c3 : a.toNat = w.toNat
      · rw [if_pos c3, if_neg (by omega)]
      · rw [if_neg c3, if_pos (by omega)]

theorem mt_local_eq (w a b : UInt8) : mt_local w a b =
    cmp3 (localRank w.toNat a.toNat) (localRank w.toNat b.toNat) := by
  have ha := a.toNat_lt
  have hb := b.toNat_lt
  have hw := w.toNat_lt
  have e : (w ≠ 0) ↔ w.toNat ≠ 0 := by rw [Ne, ← UInt8.toNat_inj]; rfl
  unfold mt_local cmp3
  simp only [UInt8.lt_iff_toNat_lt, e]
  by_cases h0 : w.toNat = 0
  · simp [h0, localRank]
  · have hr : ∀ v, localRank w.toNat v = if v < w.toNat then 256 + (w.toNat - v) else v - w.toNat := by
      intro v
      unfold localRank
      rw [if_neg h0]
      split_ifs <;> first | rfl | omega
    rw [hr, hr, if_pos h0]
    split_ifs <;> first | rfl | omega

theorem subcentre_eq (w a b : UInt16) : subcentre w a b =
    some ((cmp3 (if a.toNat = w.toNat then 0 else 1) (if b.toNat = w.toNat then 0 else 1)).getD 0) := by
  unfold subcentre cmp3
  simp only [← UInt16.toNat_inj]
  split_ifs <;> first | rfl | omega

/-- What the comparisons after the versions amount to. -/
theorem origin_eq (wc ws : UInt16) (wl : UInt8) (c s c' s' : UInt16) (l l' : UInt8) :
    ((centre wc c c').or ((mt_local wl l l').or (subcentre ws s s'))).getD 0 =
      lexCmp (originRank wc.toNat ws.toNat wl.toNat c.toNat s.toNat l.toNat)
        (originRank wc.toNat ws.toNat wl.toNat c'.toNat s'.toNat l'.toNat) := by
  unfold originRank
  rw [centre_eq, Option.or_assoc]
  by_cases h : centreRank wc.toNat c.toNat = centreRank wc.toNat c'.toNat
  · refine cmp3_eq _ _ ?_
    have h1 := centreRank_zero wc.toNat c.toNat
    have h2 := centreRank_zero wc.toNat c'.toNat
    by_cases hc : c.toNat = wc.toNat
    · rw [if_pos hc, if_pos hc, if_pos (h2.mp (h ▸ h1.mpr hc)), Option.none_or, mt_local_eq]
      refine cmp3_eq _ _ ?_
      rw [subcentre_eq, Option.getD_some]
      have := cmp3_eq (if s.toNat = ws.toNat then 0 else 1) (if s'.toNat = ws.toNat then 0 else 1)
        (r := none) (s := []) (t := []) rfl
      rw [Option.or_none] at this
      exact this
    · rw [if_neg hc, if_neg hc, if_neg (fun e => hc (h1.mp (h.trans (h2.mpr e))))]
      rfl
  · unfold cmp3
    simp only [lexCmp]
    split_ifs <;> first | rfl | omega

theorem BufrTableID.closest_eq (w a b : BufrTableID) :
    w.closest_bufr a b = lexCmp (closeness w a) (closeness w b) := by
  unfold BufrTableID.closest_bufr closeness
  rw [mtv_eq]
  exact cmp3_eq _ _ (origin_eq ..)

theorem CrexTableID.closest_bufr_eq (w : CrexTableID) (a b : BufrTableID) :
    w.closest_bufr a b = lexCmp (closenessCB w a) (closenessCB w b) := by
  unfold CrexTableID.closest_bufr closenessCB
  rw [mtv_eq]
  exact cmp3_eq _ _ (origin_eq ..)

theorem CrexTableID.closest_mixed_eq (w : CrexTableID) (a : BufrTableID) (b : CrexTableID) :
    w.closest_mixed a b = lexCmp (closenessCB w a) (closenessCM w b) := by
  unfold CrexTableID.closest_mixed closenessCB closenessCM
  rw [mtv_eq]
  exact cmp3_eq _ _ (origin_eq ..)

theorem CrexTableID.closest_crex_eq (w a b : CrexTableID) :
    w.closest_crex a b = lexCmp (closenessCC w a) (closenessCC w b) := by
  unfold CrexTableID.closest_crex closenessCC
  rw [mtv_eq, mtv_eq]
  exact cmp3_eq _ _ (cmp3_eq _ _ (origin_eq ..))

/-! ## The order of identifiers -/

theorem lexCmp_zero {a b : List Nat} (h : lexCmp a b = 0) : a = b := by
  induction a generalizing b with
  | nil => cases b with
    | nil => rfl
    | cons y ys => cases h
  | cons x xs ih => cases b with
    | nil => cases h
    | cons y ys =>
      simp only [lexCmp] at h
      by_cases h1 : x < y
      · rw [if_pos h1] at h; cases h
      · by_cases h2 : y < x
        · rw [if_neg h1, if_pos h2] at h; cases h
        · rw [if_neg h1, if_neg h2] at h
          rw [ih h, show x = y by omega]

/-- The numbers of an identifier in the order in which they are compared. -/
def BufrTableID.numbers (a : BufrTableID) : List Nat :=
  [a.originating_centre.toNat, a.originating_subcentre.toNat, a.master_table_number.toNat,
    a.master_table_version_number.toNat, a.master_table_version_number_local.toNat]

/-- The numbers of an identifier in the order in which they are compared. -/
def CrexTableID.numbers (a : CrexTableID) : List Nat :=
  [a.edition_number.toNat, a.originating_centre.toNat, a.originating_subcentre.toNat,
    a.master_table_number.toNat, a.master_table_version_number.toNat,
    a.master_table_version_number_local.toNat, a.master_table_version_number_bufr.toNat]

theorem lt_step8 (x y : UInt8) {r : Bool} {s t : List Nat} (h : r = decide (lexCmp s t < 0)) :
    (if x < y then true else if y < x then false else r) = decide (lexCmp (x.toNat :: s) (y.toNat :: t) < 0) := by
  simp only [lexCmp, UInt8.lt_iff_toNat_lt]
  split_ifs <;> first | rfl | exact h

theorem lt_step16 (x y : UInt16) {r : Bool} {s t : List Nat} (h : r = decide (lexCmp s t < 0)) :
    (if x < y then true else if y < x then false else r) = decide (lexCmp (x.toNat :: s) (y.toNat :: t) < 0) := by
  simp only [lexCmp, UInt16.lt_iff_toNat_lt]
  split_ifs <;> first | rfl | exact h

theorem BufrTableID.lt_eq (a b : BufrTableID) : a.lt b = decide (lexCmp a.numbers b.numbers < 0) :=
  lt_step16 _ _ <| lt_step16 _ _ <| lt_step8 _ _ <| lt_step8 _ _ <| lt_step8 _ _ rfl

theorem CrexTableID.lt_eq (a b : CrexTableID) : a.lt b = decide (lexCmp a.numbers b.numbers < 0) :=
  lt_step8 _ _ <| lt_step16 _ _ <| lt_step16 _ _ <| lt_step8 _ _ <| lt_step8 _ _ <| lt_step8 _ _ <|
    lt_step8 _ _ rfl

theorem BufrTableID.numbers_inj {a b : BufrTableID} (h : a.numbers = b.numbers) : a = b := by
  cases a; cases b
  simpa [BufrTableID.numbers, UInt8.toNat_inj, UInt16.toNat_inj] using h

theorem CrexTableID.numbers_inj {a b : CrexTableID} (h : a.numbers = b.numbers) : a = b := by
  cases a; cases b
  simp only [CrexTableID.numbers, List.cons.injEq, UInt8.toNat_inj, UInt16.toNat_inj, and_true] at h
  obtain ⟨rfl, rfl, rfl, rfl, rfl, rfl, rfl⟩ := h
  rfl

/-! ## Queries -/

namespace Tabledir

/-- The best tables of each kind so far. -/
structure Best.Of (q : Query) (kb : BufrTableID → List Nat) (kc : CrexTableID → List Nat)
    (tables : List Table) (b : Best) : Prop where
  bufr_none : b.bufr = none → ∀ t ∈ tables, ∀ id, t.kind = .bufr id → q.acceptable_bufr id = false
  crex_none : b.crex = none → ∀ t ∈ tables, ∀ id, t.kind = .crex id → q.acceptable_crex id = false
  bufr_some : ∀ id t, b.bufr = some (id, t) → t ∈ tables ∧ t.kind = .bufr id ∧ q.acceptable_bufr id = true ∧
    ∀ u ∈ tables, ∀ id', u.kind = .bufr id' → q.acceptable_bufr id' = true → lexCmp (kb id) (kb id') ≤ 0
  crex_some : ∀ id t, b.crex = some (id, t) → t ∈ tables ∧ t.kind = .crex id ∧ q.acceptable_crex id = true ∧
    ∀ u ∈ tables, ∀ id', u.kind = .crex id' → q.acceptable_crex id' = true → lexCmp (kc id) (kc id') ≤ 0

theorem Best.of_nil (q : Query) (kb : BufrTableID → List Nat) (kc : CrexTableID → List Nat) :
    Best.Of q kb kc [] ⟨none, none⟩ :=
  ⟨fun _ t h => (by cases h), fun _ t h => (by cases h), fun _ _ h => (by cases h),
    fun _ _ h => (by cases h)⟩

theorem consider_of {q : Query} {kb : BufrTableID → List Nat} {kc : CrexTableID → List Nat}
    (hb : ∀ a b, q.second_bufr a b = !decide (lexCmp (kb a) (kb b) ≤ 0))
    (hc : ∀ a b, q.acceptable_crex a = true → q.second_crex a b = some (!decide (lexCmp (kc a) (kc b) ≤ 0)))
    {tables : List Table} {b : Best} (h : Best.Of q kb kc tables b) (t : Table) :
    Best.Of q kb kc (tables ++ [t]) (q.consider_table b t) := by
  obtain ⟨h1, h2, h3, h4⟩ := h
  unfold Query.consider_table
  -- nothing changes for a kind the table is not of, or if it is not acceptable
  have keepB : (∀ id, t.kind = .bufr id → q.acceptable_bufr id = false) →
      (b.bufr = none → ∀ u ∈ tables ++ [t], ∀ id, u.kind = .bufr id → q.acceptable_bufr id = false) ∧
      (∀ id u, b.bufr = some (id, u) → u ∈ tables ++ [t] ∧ u.kind = .bufr id ∧ q.acceptable_bufr id = true ∧
        ∀ v ∈ tables ++ [t], ∀ id', v.kind = .bufr id' → q.acceptable_bufr id' = true →
          lexCmp (kb id) (kb id') ≤ 0) := by
    intro hn
    refine ⟨fun hb u hu id hk => ?_, fun id u hb => ?_⟩
    · rcases List.mem_append.mp hu with hu | hu
      · exact h1 hb u hu id hk
      · cases List.mem_singleton.mp hu; exact hn id hk
    · obtain ⟨e1, e2, e3, e4⟩ := h3 id u hb
      refine ⟨List.mem_append_left _ e1, e2, e3, fun v hv id' hk ha => ?_⟩
      rcases List.mem_append.mp hv with hv | hv
      · exact e4 v hv id' hk ha
      · cases List.mem_singleton.mp hv; rw [hn id' hk] at ha; cases ha
  have keepC : (∀ id, t.kind = .crex id → q.acceptable_crex id = false) →
      (b.crex = none → ∀ u ∈ tables ++ [t], ∀ id, u.kind = .crex id → q.acceptable_crex id = false) ∧
      (∀ id u, b.crex = some (id, u) → u ∈ tables ++ [t] ∧ u.kind = .crex id ∧ q.acceptable_crex id = true ∧
        ∀ v ∈ tables ++ [t], ∀ id', v.kind = .crex id' → q.acceptable_crex id' = true →
          lexCmp (kc id) (kc id') ≤ 0) := by
    intro hn
    refine ⟨fun hb u hu id hk => ?_, fun id u hb => ?_⟩
    · rcases List.mem_append.mp hu with hu | hu
      · exact h2 hb u hu id hk
      · cases List.mem_singleton.mp hu; exact hn id hk
    · obtain ⟨e1, e2, e3, e4⟩ := h4 id u hb
      refine ⟨List.mem_append_left _ e1, e2, e3, fun v hv id' hk ha => ?_⟩
      rcases List.mem_append.mp hv with hv | hv
      · exact e4 v hv id' hk ha
      · cases List.mem_singleton.mp hv; rw [hn id' hk] at ha; cases ha
  cases hk : t.kind with
  | raw =>
    have k1 := keepB (by simp [hk])
    have k2 := keepC (by simp [hk])
    exact ⟨k1.1, k2.1, k1.2, k2.2⟩
  | bufr id =>
    have k2 := keepC (by simp [hk])
    simp only
    cases ha : q.acceptable_bufr id with
    | false =>
      have k1 := keepB (by simp [hk, ha])
      exact ⟨k1.1, k2.1, k1.2, k2.2⟩
    | true =>
      simp only [Bool.not_true, Bool.false_eq_true, if_false]
      -- the table becomes the best one
      have take : (∀ v ∈ tables, ∀ id', v.kind = .bufr id' → q.acceptable_bufr id' = true →
          lexCmp (kb id) (kb id') ≤ 0) →
          Best.Of q kb kc (tables ++ [t]) { b with bufr := some (id, t) } := by
        intro hall
        refine ⟨fun e => (by cases e), k2.1, fun i u e => ?_, k2.2⟩
        simp only [Option.some.injEq, Prod.mk.injEq] at e
        obtain ⟨rfl, rfl⟩ := e
        refine ⟨by simp, hk, ha, fun v hv id' hk' ha' => ?_⟩
        rcases List.mem_append.mp hv with hv | hv
        · exact hall v hv id' hk' ha'
        · cases List.mem_singleton.mp hv
          rw [hk] at hk'
          cases hk'
          rw [lexCmp_self]
      cases hbest : b.bufr with
      | none =>
        refine take fun v hv id' hk' ha' => ?_
        rw [h1 hbest v hv id' hk'] at ha'
        cases ha'
      | some best =>
        obtain ⟨e1, e2, e3, e4⟩ := h3 best.1 best.2 hbest
        simp only [hb]
        by_cases hle : lexCmp (kb best.1) (kb id) ≤ 0
        · simp only [hle, decide_true, Bool.not_true, Bool.false_eq_true, if_false]
          refine ⟨fun e => (by rw [hbest] at e; cases e), k2.1, fun i u e => ?_, k2.2⟩
          rw [hbest] at e
          cases e
          refine ⟨List.mem_append_left _ e1, e2, e3, fun v hv id' hk' ha' => ?_⟩
          rcases List.mem_append.mp hv with hv | hv
          · exact e4 v hv id' hk' ha'
          · cases List.mem_singleton.mp hv
            rw [hk] at hk'
            cases hk'
            exact hle
        · simp only [hle, decide_false, Bool.not_false, if_true]
          refine take fun v hv id' hk' ha' => ?_
          have := lexCmp_neg (kb best.1) (kb id)
          exact lexCmp_trans (by omega) (e4 v hv id' hk' ha')
  | crex id =>
    have k1 := keepB (by simp [hk])
    simp only
    cases ha : q.acceptable_crex id with
    | false =>
      have k2 := keepC (by simp [hk, ha])
      exact ⟨k1.1, k2.1, k1.2, k2.2⟩
    | true =>
      simp only [Bool.not_true, Bool.false_eq_true, if_false]
      have take : (∀ v ∈ tables, ∀ id', v.kind = .crex id' → q.acceptable_crex id' = true →
          lexCmp (kc id) (kc id') ≤ 0) →
          Best.Of q kb kc (tables ++ [t]) { b with crex := some (id, t) } := by
        intro hall
        refine ⟨k1.1, fun e => (by cases e), k1.2, fun i u e => ?_⟩
        simp only [Option.some.injEq, Prod.mk.injEq] at e
        obtain ⟨rfl, rfl⟩ := e
        refine ⟨by simp, hk, ha, fun v hv id' hk' ha' => ?_⟩
        rcases List.mem_append.mp hv with hv | hv
        · exact hall v hv id' hk' ha'
        · cases List.mem_singleton.mp hv
          rw [hk] at hk'
          cases hk'
          rw [lexCmp_self]
      cases hbest : b.crex with
      | none =>
        refine take fun v hv id' hk' ha' => ?_
        rw [h2 hbest v hv id' hk'] at ha'
        cases ha'
      | some best =>
        obtain ⟨e1, e2, e3, e4⟩ := h4 best.1 best.2 hbest
        simp only [hc _ _ e3]
        by_cases hle : lexCmp (kc best.1) (kc id) ≤ 0
        · simp only [hle, decide_true, Bool.not_true]
          refine ⟨k1.1, fun e => (by rw [hbest] at e; cases e), k1.2, fun i u e => ?_⟩
          rw [hbest] at e
          cases e
          refine ⟨List.mem_append_left _ e1, e2, e3, fun v hv id' hk' ha' => ?_⟩
          rcases List.mem_append.mp hv with hv | hv
          · exact e4 v hv id' hk' ha'
          · cases List.mem_singleton.mp hv
            rw [hk] at hk'
            cases hk'
            exact hle
        · simp only [hle, decide_false, Bool.not_false]
          refine take fun v hv id' hk' ha' => ?_
          have := lexCmp_neg (kc best.1) (kc id)
          exact lexCmp_trans (by omega) (e4 v hv id' hk' ha')

theorem search_of {q : Query} {kb : BufrTableID → List Nat} {kc : CrexTableID → List Nat}
    (hb : ∀ a b, q.second_bufr a b = !decide (lexCmp (kb a) (kb b) ≤ 0))
    (hc : ∀ a b, q.acceptable_crex a = true → q.second_crex a b = some (!decide (lexCmp (kc a) (kc b) ≤ 0)))
    {tables : List Table} {b : Best} (h : Best.Of q kb kc tables b) (more : List Table) :
    Best.Of q kb kc (tables ++ more) (q.search b more) := by
  induction more generalizing tables b with
  | nil => rw [List.append_nil]; exact h
  | cons t more ih =>
    have := ih (consider_of hb hc h t)
    rw [List.append_assoc] at this
    exact this

theorem search_dirs {q : Query} {kb : BufrTableID → List Nat} {kc : CrexTableID → List Nat}
    (hb : ∀ a b, q.second_bufr a b = !decide (lexCmp (kb a) (kb b) ≤ 0))
    (hc : ∀ a b, q.acceptable_crex a = true → q.second_crex a b = some (!decide (lexCmp (kc a) (kc b) ≤ 0)))
    {tables : List Table} {b : Best} (h : Best.Of q kb kc tables b) (dirs : List (List Table)) :
    Best.Of q kb kc (tables ++ dirs.flatten) (dirs.foldl q.search b) := by
  induction dirs generalizing tables b with
  | nil => simpa using h
  | cons d dirs ih =>
    have := ih (search_of hb hc h d)
    rw [List.append_assoc] at this
    exact this

end Tabledir

end Wreport
