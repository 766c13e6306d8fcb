import Verif.Props.Tabledir

/-!
# The first of equally good tables

C63 for CREX messages, for which BUFR and CREX tables can be used.
-/

namespace Wreport

open Spec Tabledir

theorem firsts_of {q : Query} {kb : BufrTableID → List Nat} {kc : CrexTableID → List Nat}
    (hb : ∀ a b, q.second_bufr a b = !decide (lexCmp (kb a) (kb b) ≤ 0))
    (hc : ∀ a b, q.second_crex a b = some (!decide (lexCmp (kc a) (kc b) ≤ 0)))
    (tables : List Table) :
    Best.Of q kb kc tables (tables.foldl q.consider_table ⟨none, none⟩) ∧
    (∀ id t, (tables.foldl q.consider_table ⟨none, none⟩).bufr = some (id, t) →
      ∃ l r, tables = l ++ t :: r ∧ ∀ u ∈ l, ∀ i, u.kind = .bufr i → q.acceptable_bufr i = true →
        lexCmp (kb id) (kb i) < 0) ∧
    (∀ id t, (tables.foldl q.consider_table ⟨none, none⟩).crex = some (id, t) →
      ∃ l r, tables = l ++ t :: r ∧ ∀ u ∈ l, ∀ i, u.kind = .crex i → q.acceptable_crex i = true →
        lexCmp (kc id) (kc i) < 0) := by
  induction tables using List.reverseRecOn with
  | nil => exact ⟨Best.of_nil _ _ _, fun _ _ h => (by cases h), fun _ _ h => (by cases h)⟩
  | append_singleton tables t ih =>
    obtain ⟨hbest, hf, hg⟩ := ih
    rw [List.foldl_append, List.foldl_cons, List.foldl_nil]
    refine ⟨consider_of hb (fun a b _ => hc a b) hbest t, ?_⟩
    generalize tables.foldl q.consider_table ⟨none, none⟩ = B at *
    have keepB : ∀ id u, B.bufr = some (id, u) →
        ∃ l r, tables ++ [t] = l ++ u :: r ∧ ∀ v ∈ l, ∀ i, v.kind = .bufr i → q.acceptable_bufr i = true →
          lexCmp (kb id) (kb i) < 0 := by
      intro id u h
      obtain ⟨l, r, rfl, h2⟩ := hf id u h
      exact ⟨l, r ++ [t], by simp, h2⟩
    have keepC : ∀ id u, B.crex = some (id, u) →
        ∃ l r, tables ++ [t] = l ++ u :: r ∧ ∀ v ∈ l, ∀ i, v.kind = .crex i → q.acceptable_crex i = true →
          lexCmp (kc id) (kc i) < 0 := by
      intro id u h
      obtain ⟨l, r, rfl, h2⟩ := hg id u h
      exact ⟨l, r ++ [t], by simp, h2⟩
    unfold Query.consider_table
    cases hk : t.kind with
    | raw => exact ⟨keepB, keepC⟩
    | crex id =>
      simp only
      cases ha : q.acceptable_crex id with
      | false => exact ⟨keepB, keepC⟩
      | true =>
        simp only [Bool.not_true, Bool.false_eq_true, if_false]
        cases hB : B.crex with
        | none =>
          refine ⟨keepB, fun id' u h => ?_⟩
          simp only [Option.some.injEq, Prod.mk.injEq] at h
          obtain ⟨rfl, rfl⟩ := h
          refine ⟨tables, [], rfl, fun v hv i hkv hu => ?_⟩
          rw [hbest.crex_none hB v hv i hkv] at hu
          cases hu
        | some best =>
          obtain ⟨bid, bt⟩ := best
          simp only [hc]
          by_cases hle : lexCmp (kc bid) (kc id) ≤ 0
          · simp only [hle, decide_true, Bool.not_true]
            exact ⟨keepB, keepC⟩
          · simp only [hle, decide_false, Bool.not_false]
            refine ⟨keepB, fun id' u h => ?_⟩
            simp only [Option.some.injEq, Prod.mk.injEq] at h
            obtain ⟨rfl, rfl⟩ := h
            refine ⟨tables, [], rfl, fun v hv i hkv hu => ?_⟩
            have h1 := (hbest.crex_some _ _ hB).2.2.2 v hv i hkv hu
            have := lexCmp_neg (kc bid) (kc id)
            exact lexCmp_trans_lt (by omega) h1
    | bufr id =>
      simp only
      cases ha : q.acceptable_bufr id with
      | false => exact ⟨keepB, keepC⟩
      | true =>
        simp only [Bool.not_true, Bool.false_eq_true, if_false]
        cases hB : B.bufr with
        | none =>
          refine ⟨fun id' u h => ?_, keepC⟩
          simp only [Option.some.injEq, Prod.mk.injEq] at h
          obtain ⟨rfl, rfl⟩ := h
          refine ⟨tables, [], rfl, fun v hv i hkv hu => ?_⟩
          rw [hbest.bufr_none hB v hv i hkv] at hu
          cases hu
        | some best =>
          obtain ⟨bid, bt⟩ := best
          simp only [hb]
          by_cases hle : lexCmp (kb bid) (kb id) ≤ 0
          · simp only [hle, decide_true, Bool.not_true, Bool.false_eq_true, if_false]
            exact ⟨keepB, keepC⟩
          · simp only [hle, decide_false, Bool.not_false, if_true]
            refine ⟨fun id' u h => ?_, keepC⟩
            simp only [Option.some.injEq, Prod.mk.injEq] at h
            obtain ⟨rfl, rfl⟩ := h
            refine ⟨tables, [], rfl, fun v hv i hkv hu => ?_⟩
            have h1 := (hbest.bufr_some _ _ hB).2.2.2 v hv i hkv hu
            have := lexCmp_neg (kb bid) (kb id)
            exact lexCmp_trans_lt (by omega) h1

/-- C63 for a CREX message: the table found is closer than all those before it that can be
used, but for CREX tables if it is a BUFR table. Missing: those, because a BUFR table is
taken rather than an equally good CREX table that comes first (`C63_not_first`). -/
theorem C63_first_crex_partial (names : List Byte → List (List Byte)) (ops : List DirOp) (w : CrexTableID)
    (b : Table) (h : ((Tabledirs.after names ops).find_crex names w).1 = some b) :
    ∃ l r, (Tabledirs.after names ops).tables names = l ++ b :: r ∧
      ∀ u ∈ l, UsableC w u.kind → (∀ i, u.kind = .crex i → ∃ j, b.kind = .crex j) →
        CloserC w b.kind u.kind := by
  rw [(Tabledirs.find_crex_good (Tabledirs.after_good names ops) w).1] at h
  unfold Query.run at h
  rw [foldl_search, ← List.flatMap_def] at h
  obtain ⟨hbest, hf, hg⟩ := firsts_of (q := CrexQuery w) (kb := closenessCB w) (kc := closenessCC w)
    (fun a b => by rw [← CrexTableID.closest_bufr_eq]; rfl)
    (fun a b => by rw [← CrexTableID.closest_crex_eq]; rfl)
    ((Tabledirs.after names ops).tables names)
  change (CrexQuery w).result (((Tabledirs.after names ops).tables names).foldl
    (CrexQuery w).consider_table ⟨none, none⟩) = some b at h
  generalize ((Tabledirs.after names ops).tables names).foldl
    (CrexQuery w).consider_table ⟨none, none⟩ = B at *
  generalize (Tabledirs.after names ops).tables names = tables at *
  -- the BUFR table
  have isB : ∀ x, B.bufr = some x → x.2 = b → ∃ l r, tables = l ++ b :: r ∧
      ∀ u ∈ l, UsableC w u.kind → (∀ i, u.kind = .crex i → ∃ j, b.kind = .crex j) →
        CloserC w b.kind u.kind := by
    rintro ⟨id, x⟩ hx rfl
    obtain ⟨l, r, h1, h2⟩ := hf id x hx
    refine ⟨l, r, h1, fun u hu hus hn => ?_⟩
    have hk := (hbest.bufr_some _ _ hx).2.1
    simp only [hk] at hn ⊢
    cases hku : u.kind with
    | raw => rw [hku] at hus; exact hus.elim
    | crex i => obtain ⟨j, hj⟩ := hn i hku; cases hj
    | bufr i => exact h2 u hu i hku ((acceptableCB w i).mpr (hku ▸ hus))
  -- the CREX table
  have isC : ∀ x, B.crex = some x → x.2 = b →
      (∀ y, B.bufr = some y → lexCmp (closenessCM w x.1) (closenessCB w y.1) < 0) →
      ∃ l r, tables = l ++ b :: r ∧
      ∀ u ∈ l, UsableC w u.kind → (∀ i, u.kind = .crex i → ∃ j, b.kind = .crex j) →
        CloserC w b.kind u.kind := by
    rintro ⟨id, x⟩ hx rfl hm
    obtain ⟨l, r, h1, h2⟩ := hg id x hx
    refine ⟨l, r, h1, fun u hu hus hn => ?_⟩
    have hk := (hbest.crex_some _ _ hx).2.1
    simp only [hk]
    have hut : u ∈ tables := by rw [h1]; exact List.mem_append_left _ hu
    cases hku : u.kind with
    | raw => rw [hku] at hus; exact hus.elim
    | crex i => exact h2 u hu i hku ((acceptableCC w i).mpr (hku ▸ hus))
    | bufr i =>
      have ha : (CrexQuery w).acceptable_bufr i = true := (acceptableCB w i).mpr (hku ▸ hus)
      show lexCmp (closenessCM w id) (closenessCB w i) < 0
      cases hb : B.bufr with
      | none =>
        rw [hbest.bufr_none hb u hut i hku] at ha
        cases ha
      | some y =>
        exact lexCmp_trans_lt (hm y hb) ((hbest.bufr_some y.1 y.2 hb).2.2.2 u hut i hku ha)
  unfold Query.result at h
  cases hb : B.bufr with
  | none =>
    cases hc : B.crex with
    | none => rw [hb, hc] at h; cases h
    | some c =>
      rw [hb, hc] at h
      exact isC c hc (by simpa using h) (fun y hy => by rw [hb] at hy; cases hy)
  | some x =>
    cases hc : B.crex with
    | none =>
      rw [hb, hc] at h
      exact isB x hb (by simpa using h)
    | some c =>
      rw [hb, hc] at h
      have hs : (CrexQuery w).second_mixed x.1 c.1 =
          !decide (lexCmp (closenessCB w x.1) (closenessCM w c.1) ≤ 0) := by
        rw [← CrexTableID.closest_mixed_eq]; rfl
      simp only [hs] at h
      by_cases hle : lexCmp (closenessCB w x.1) (closenessCM w c.1) ≤ 0
      · simp only [hle, decide_true, Bool.not_true, Bool.false_eq_true, if_false,
          Option.some.injEq] at h
        exact isB x hb h
      · simp only [hle, decide_false, Bool.not_false, if_true, Option.some.injEq] at h
        refine isC c hc h fun y hy => ?_
        rw [hb] at hy
        cases hy
        have := lexCmp_neg (closenessCB w x.1) (closenessCM w c.1)
        omega

/-- A CREX table in one directory and a BUFR table of version zero in the other. -/
def mixedNames (d : List Byte) : List (List Byte) :=
  if d = ascii "/usr" then [crexTableName 0 1 3] else [bufrTableName 0 0 0 0]

/-- C63 fails for CREX messages: a CREX table in the first directory and a BUFR table in the
second are equally close to what a message wants, and the one in the second is found. -/
theorem C63_not_first :
    let t := Tabledirs.after mixedNames [.add (ascii "/usr"), .add (ascii "/opt")]
    let w : CrexTableID := ⟨1, 0, 0, 0, 3, 0, 0⟩
    ((t.find_crex mixedNames w).1.map (·.btable_pathname) =
      some (ascii "/opt/B000000000000000.txt")) ∧
    ∃ a b, t.tables mixedNames = [a, b] ∧ a.btable_pathname = ascii "/usr/B000103.txt" ∧
      UsableC w a.kind ∧ UsableC w b.kind ∧ ¬ CloserC w a.kind b.kind ∧ ¬ CloserC w b.kind a.kind := by
  intro t w
  refine ⟨by decide +kernel, ?_⟩
  have h : (t.tables mixedNames).map (fun u => (u.kind, u.btable_pathname)) =
      [(.crex ⟨1, 0, 0, 0, 3, 0, 0⟩, ascii "/usr/B000103.txt"),
        (.bufr ⟨0, 0, 0, 0, 0⟩, ascii "/opt/B000000000000000.txt")] := by decide +kernel
  generalize t.tables mixedNames = l at h ⊢
  rw [List.map_eq_cons_iff] at h
  obtain ⟨a, l', rfl, h1, h⟩ := h
  rw [List.map_eq_cons_iff] at h
  obtain ⟨b, l'', rfl, h2, h⟩ := h
  rw [List.map_eq_nil_iff] at h
  subst h
  rw [Prod.mk.injEq] at h1 h2
  refine ⟨a, b, rfl, h1.2, ?_⟩
  rw [h1.1, h2.1]
  simp only [UsableC, CloserC, w]
  decide

/-- The hypotheses of C63 are met with two CREX tables that are as good: the first is found. -/
example :
    let names : List Byte → List (List Byte) := fun _ => [crexTableName 0 1 3]
    ((Tabledirs.after names [.add (ascii "/usr"), .add (ascii "/opt")]).find_crex names
      ⟨1, 0, 0, 0, 3, 0, 0⟩).1.map (·.btable_pathname) = some (ascii "/usr/B000103.txt") := by
  decide +kernel

end Wreport
