import Verif.Spec.Structure
import Verif.Lemmas.Interp
import Verif.Lemmas.Tables
import Verif.Lemmas.VarCopy

/-!
# Targets that take the variables the descriptors stand for
-/

namespace Wreport

open Spec Interp

variable {σ : Type}

/-- What is in force in a state of the interpreter. -/
def Interp.mode (st : Interp σ) : Mode where
  references := decide (st.c03_refval_override_bits ≠ 0)
  announced := st.bitmaps.pending_definitions
  inUse := st.bitmaps.current.map fun b => (b.refs.length, b.iter)
  last := st.bitmaps.last.map fun b => b.refs.length

/-- A step left bitmaps and changes of reference values alone. -/
def Kept (I : σ → Prop) (s s' : Interp σ) : Prop :=
  I s'.tgt ∧ s'.bitmaps = s.bitmaps ∧ s'.c03_refval_override_bits = s.c03_refval_override_bits

theorem Kept.mode {I : σ → Prop} {s s' : Interp σ} (h : Kept I s s') : s'.mode = s.mode := by
  unfold Interp.mode
  rw [h.2.1, h.2.2]

/-- A target takes one variable for each descriptor; `vars` are those taken so far. The target's state always meets `I`. -/
structure Sequential (T : Target σ) (I : σ → Prop) (vars : σ → List VarCore) (R : Reading) :
    Prop where
  bitmap : ∀ s n s', I s.tgt → T.define_bitmap s n = .ok s' →
    I s'.tgt ∧ s'.c03_refval_override_bits = s.c03_refval_override_bits ∧
    ∃ v refs, vars s'.tgt = vars s.tgt ++ [v] ∧ s'.bitmaps = { s.bitmaps with current := some ⟨refs, 0⟩ } ∧
      R.bitmapCode s.bitmaps.pending_definitions v.code ∧ MarksOf v refs.length
  element : ∀ s i s', I s.tgt → T.define_variable s i = .ok s' → Kept I s s' ∧
    ∃ v, vars s'.tgt = vars s.tgt ++ [v] ∧ v.code = i.code
  associated : ∀ s i s', I s.tgt → T.define_variable_with_associated_field s i = .ok s' → Kept I s s' ∧
    ∃ v, vars s'.tgt = vars s.tgt ++ [v] ∧ v.code = i.code
  factor : ∀ s i n s', I s.tgt → T.define_delayed_replication_factor s i = .ok (n, s') → Kept I s s' ∧
    ∃ v, vars s'.tgt = vars s.tgt ++ [v] ∧ v.code = i.code ∧ R.count v n
  bitmapFactor : ∀ s i n s', I s.tgt → T.define_bitmap_delayed_replication_factor s i = .ok (n, s') →
    Kept I s s' ∧ vars s'.tgt = vars s.tgt
  significance : ∀ s i n s', I s.tgt → T.define_associated_field_significance s i = .ok (n, s') → Kept I s s' ∧
    ∃ v, vars s'.tgt = vars s.tgt ++ [v] ∧ v.code = i.code
  substituted : ∀ s p s', I s.tgt → T.define_substituted_value s p = .ok s' → Kept I s s' ∧
    vars s'.tgt = vars s.tgt
  attr : ∀ s i p s', I s.tgt → T.define_attribute s i p = .ok s' → Kept I s s' ∧ vars s'.tgt = vars s.tgt
  raw : ∀ s c s', I s.tgt → T.define_raw_character_data s c = .ok s' → Kept I s s' ∧
    ∃ v, vars s'.tgt = vars s.tgt ++ [v] ∧ v.code = c
  refval : ∀ s c s', I s.tgt → T.define_c03_refval_override s c = .ok s' → Kept I s s' ∧ vars s'.tgt = vars s.tgt

namespace Sequential

theorem query_code {t : Vartable} {c : Varcode} {i : Varinfo} (h : t.query c = .ok i) : i.code = c := by
  obtain ⟨r, hr, h1⟩ := t.query_entry_safe c
  unfold Vartable.query at h
  rw [hr, Res.ok_bind] at h
  cases r with
  | none => cases h
  | some x =>
    obtain ⟨j, e⟩ := x
    cases h
    exact (h1 j e rfl).2

theorem mark_next {s : Interp σ} {p : Nat} {b : Bitmaps} (h : s.bitmaps.next = .ok (p, b)) :
    s.mode.mark = some ({ s with bitmaps := b }).mode := by
  unfold Bitmaps.next at h
  unfold Mode.mark Interp.mode
  cases hc : s.bitmaps.current with
  | none => rw [hc] at h; cases h
  | some c =>
    simp only [hc] at h
    simp only [Option.map_some]
    unfold Bitmap.next at h
    cases hp : c.refs.reverse[c.iter]? with
    | none => rw [hp] at h; cases h
    | some q =>
      rw [hp] at h
      simp only [Res.ok_bind] at h
      have hl : c.iter < c.refs.length := by
        have := (List.getElem?_eq_some_iff.mp hp).1
        rwa [List.length_reverse] at this
      unfold Bitmap.eob at h
      by_cases he : c.iter + 1 = c.refs.length
      · simp only [he, decide_true, if_true, Res.pure_def, Res.ok.injEq, Prod.mk.injEq] at h
        obtain ⟨-, rfl⟩ := h
        rw [if_neg (by omega), if_pos he]
        rfl
      · simp only [he, decide_false, Bool.false_eq_true, if_false, Res.pure_def, Res.ok.injEq,
          Prod.mk.injEq] at h
        obtain ⟨-, rfl⟩ := h
        rw [if_pos (by omega)]
        rfl

theorem query_altered_code {E : Env} {t : Vartable} (ht : AlterationsKeepCode t) {c : Varcode}
    {sc : Int} {l : Nat} {r : Int} {x : Nat × Varinfo} (h : (t.query_altered E c sc l r).2 = .ok x) :
    x.2.code = c := by
  obtain ⟨q, hq, h1⟩ := t.query_entry_safe c
  unfold Vartable.query_altered at h
  rw [hq] at h
  cases q with
  | none => cases h
  | some y =>
    obtain ⟨j, e⟩ := y
    obtain ⟨h2, h3⟩ := h1 j e rfl
    simp only at h
    unfold VartableEntry.get_alteration at h
    by_cases hb : e.varinfo.matchesAlt sc l r = true
    · rw [if_pos hb] at h
      cases h
      exact h3
    · rw [if_neg hb] at h
      cases hf : findAlt sc l r e.alterations with
      | some z =>
        rw [hf] at h
        obtain ⟨k, v⟩ := z
        cases h
        rw [← h3]
        exact ht e (List.mem_of_getElem? h2) v (findAlt_some hf).1
      | none =>
        rw [hf] at h
        unfold Vartable.addAltered at h
        simp only at h
        split at h
        · rename_i v hv
          cases h
          obtain ⟨-, -, hv⟩ := Res.bind_eq_ok.mp hv
          rw [(alter_fields hv).1, h3]
        all_goals cases h

theorem get_varinfo_code {C : Ctx} (ht : AlterationsKeepCode C.btable) {s : Interp σ} {c : Varcode}
    {i : Varinfo} (h : get_varinfo C s c = .ok i) : i.code = c := by
  unfold get_varinfo at h
  obtain ⟨peek, h1, h⟩ := Res.bind_eq_ok.mp h
  by_cases hu : s.unmodified = true
  · rw [if_pos hu] at h
    cases h
    exact query_code h1
  · rw [if_neg hu] at h
    obtain ⟨_, -, h⟩ := Res.bind_eq_ok.mp h
    obtain ⟨_, -, h⟩ := Res.bind_eq_ok.mp h
    obtain ⟨_, -, h⟩ := Res.bind_eq_ok.mp h
    obtain ⟨_, -, h⟩ := Res.bind_eq_ok.mp h
    obtain ⟨_, -, h⟩ := Res.bind_eq_ok.mp h
    obtain ⟨x, h2, h⟩ := Res.bind_eq_ok.mp h
    cases h
    exact query_altered_code ht h2

theorem lookupOrAdd_code {κ : Type} [DecidableEq κ] {m : List (κ × Varinfo)} {k : κ} {c : Varcode}
    {mk : Res Varinfo} {i : Varinfo} (hm : ∀ i, mk = .ok i → i.code = c)
    (h : (TableCaches.lookupOrAdd m k c mk).2 = .ok i) : i.code = c := by
  unfold TableCaches.lookupOrAdd at h
  split at h
  · split at h
    · cases h
    · rename_i hc
      cases h
      simpa using hc
  · cases mk with
    | ok j => cases h; exact hm _ rfl
    | err e => cases h
    | ub => cases h

theorem get_bitmap_code {E : Env} {t : TableCaches} {c : Varcode} {b : List Byte} {i : Varinfo}
    (h : (t.get_bitmap E c b).2 = .ok i) : i.code = c :=
  lookupOrAdd_code (fun _ hm => (compute_range_fields hm).1) h

theorem get_chardata_code {E : Env} {t : TableCaches} {c : Varcode} {n : Nat} {i : Varinfo}
    (h : (t.get_chardata E c n).2 = .ok i) : i.code = c :=
  lookupOrAdd_code (fun _ hm => (compute_range_fields hm).1) h

theorem get_unknown_code {E : Env} {t : TableCaches} {c : Varcode} {n : Nat} {i : Varinfo}
    (h : (t.get_unknown E c n).2 = .ok i) : i.code = c :=
  lookupOrAdd_code (fun _ hm => (compute_range_fields hm).1) h

variable {C : Ctx} {T : Target σ} {vars : σ → List VarCore} {I : σ → Prop} {R : Reading}

/-- The descriptors were followed from one state to another. -/
def Took (I : σ → Prop) (vars : σ → List VarCore) (R : Reading) (s : Interp σ)
    (ops : List Varcode) (s' : Interp σ) : Prop :=
  I s.tgt → I s'.tgt ∧ ∃ vs, vars s'.tgt = vars s.tgt ++ vs ∧ Follows R s.mode ops vs s'.mode

theorem took_times {g : List Varcode} {body : Interp σ → Res (Interp σ)}
    (hb : ∀ s s', body s = .ok s' → Took I vars R s g s') (n : Nat) (s s' : Interp σ)
    (h : times body n s = .ok s') (hI : I s.tgt) :
    I s'.tgt ∧ ∃ vs, vars s'.tgt = vars s.tgt ++ vs ∧ Repeats R n s.mode g vs s'.mode := by
  induction n generalizing s with
  | zero =>
    cases h
    exact ⟨hI, [], by simp, .zero _ _⟩
  | succ n ih =>
    obtain ⟨s1, h1, h2⟩ := Res.bind_eq_ok.mp h
    obtain ⟨hI1, vs, a1, a2⟩ := hb s s1 h1 hI
    obtain ⟨hI2, ws, b1, b2⟩ := ih s1 h2 hI1
    exact ⟨hI2, vs ++ ws, by rw [b1, a1, List.append_assoc], .succ _ _ _ _ _ _ _ a2 b2⟩

/-- An element. -/
theorem took_b_variable (hT : Sequential T I vars R) (ht : AlterationsKeepCode C.btable)
    {s s1 s' : Interp σ} {c : Varcode} (hf : WR_VAR_F c = 0) {ops : List Varcode}
    (h : b_variable C T s c = .ok s1) (hr : Took I vars R s1 ops s') :
    Took I vars R s (c :: ops) s' := by
  intro hI
  unfold b_variable at h
  by_cases hb : s.c03_refval_override_bits ≠ 0
  · rw [if_pos hb] at h
    obtain ⟨k, e⟩ := hT.refval s c s1 (by exact hI) h
    obtain ⟨hI', vs, r1, r2⟩ := hr (k.1)
    exact ⟨hI', vs, by rw [r1, e], .reference _ _ _ _ _ hf (by simp [Interp.mode, hb]) (k.mode ▸ r2)⟩
  · rw [if_neg hb] at h
    have hm : s.mode.references = false := by simpa [Interp.mode] using hb
    obtain ⟨info, hi, h⟩ := Res.bind_eq_ok.mp h
    have hc := get_varinfo_code ht hi
    unfold elementOrAttribute at h
    by_cases ha : WR_VAR_F c = 0 ∧ WR_VAR_X c = 33 ∧ s.bitmaps.active = true
    · rw [if_pos ha] at h
      obtain ⟨⟨p, b⟩, h1, h2⟩ := Res.bind_eq_ok.mp h
      obtain ⟨k, e⟩ := hT.attr _ _ _ _ (by exact hI) h2
      obtain ⟨hI', vs, r1, r2⟩ := hr (k.1)
      exact ⟨hI', vs, by rw [r1, e], .quality _ _ _ _ _ _ hf hm ha.2.1 (mark_next h1) (k.mode ▸ r2)⟩
    · rw [if_neg ha] at h
      have hx : WR_VAR_X c ≠ 33 ∨ s.mode.inUse = none := by
        by_cases hx : WR_VAR_X c = 33
        · right
          have : s.bitmaps.active = false := by
            by_contra hn
            exact ha ⟨hf, hx, by simpa using hn⟩
          unfold Bitmaps.active at this
          simp only [Interp.mode, Option.map_eq_none_iff]
          cases hcur : s.bitmaps.current with
          | none => rfl
          | some b => rw [hcur] at this; cases this
        · exact .inl hx
      have key : Kept I s s1 ∧ ∃ v, vars s1.tgt = vars s.tgt ++ [v] ∧ v.code = info.code := by
        by_cases hn : s.associated_field.bit_count ≠ 0
        · rw [if_pos hn] at h
          exact hT.associated _ _ _ (by exact hI) h
        · rw [if_neg hn] at h
          exact hT.element _ _ _ (by exact hI) h
      obtain ⟨k, v, e1, e2⟩ := key
      obtain ⟨hI', vs, r1, r2⟩ := hr (k.1)
      exact ⟨hI', v :: vs, by rw [r1, e1]; simp, .element _ _ _ _ _ _ hf hm hx (e2.trans hc) (k.mode ▸ r2)⟩

/-- An operator. -/
theorem took_c_modifier (hT : Sequential T I vars R) (ht : AlterationsKeepCode C.btable)
    {s s1 s' : Interp σ} {c : Varcode} (hf : WR_VAR_F c = 2) {ops rest : List Varcode}
    (h : c_modifier C T s c ops = .ok (rest, s1)) (hr : Took I vars R s1 rest s') :
    Took I vars R s (c :: ops) s' := by
  intro hI
  unfold c_modifier at h
  by_cases h4 : WR_VAR_X c = 4
  · rw [if_pos h4] at h
    unfold c04 at h
    split at h
    · cases h
    split at h
    · cases h
    by_cases hy : WR_VAR_Y c = 0
    · rw [if_pos hy] at h
      cases h
      obtain ⟨hI', vs, r1, r2⟩ := hr hI
      exact ⟨hI', vs, r1, .fieldEnd _ _ _ _ _ hf h4 hy r2⟩
    · rw [if_neg hy] at h
      obtain ⟨⟨x, tl⟩, hp, h⟩ := Res.bind_eq_ok.mp h
      obtain ⟨s2, h2, h⟩ := Res.bind_eq_ok.mp h
      cases h
      unfold c04_significance at h2
      split at h2
      · cases h2
      rename_i hx
      simp only [ne_eq, not_not] at hx
      subst hx
      obtain ⟨info, hi, h2⟩ := Res.bind_eq_ok.mp h2
      obtain ⟨⟨n, s3⟩, h3, h2⟩ := Res.bind_eq_ok.mp h2
      cases h2
      obtain ⟨k, v, e1, e2⟩ := hT.significance _ _ _ _ (by exact hI) h3
      have ho : ops = WR_VAR 0 31 21 :: tl := by
        unfold pop at hp
        split at hp
        · cases hp
        · cases hp; rfl
      rw [ho]
      obtain ⟨hI', vs, r1, r2⟩ := hr (k.1)
      refine ⟨hI', v :: vs, by rw [r1]; show vars s3.tgt ++ vs = _; rw [e1]; simp, ?_⟩
      exact .field _ _ _ _ _ _ hf h4 hy (e2.trans (query_code hi)) (k.mode ▸ r2)
  rw [if_neg h4] at h
  by_cases h6 : WR_VAR_X c = 6
  · rw [if_pos h6] at h
    unfold c06 at h
    obtain ⟨⟨x, tl⟩, hp, h⟩ := Res.bind_eq_ok.mp h
    have ho : ops = x :: tl := by
      unfold pop at hp
      split at hp
      · cases hp
      · cases hp; rfl
    rw [ho]
    by_cases hy : WR_VAR_Y c = 0
    · rw [if_pos hy] at h
      cases h
      obtain ⟨hI', vs, r1, r2⟩ := hr hI
      exact ⟨hI', vs, r1, .localNothing _ _ _ _ _ _ hf h6 hy r2⟩
    · rw [if_neg hy] at h
      obtain ⟨info, hi, h⟩ := Res.bind_eq_ok.mp h
      obtain ⟨s2, h2, h⟩ := Res.bind_eq_ok.mp h
      cases h
      have key : Kept I s s1 ∧ ∃ v, vars s1.tgt = vars s.tgt ++ [v] ∧ v.code = x := by
        cases info with
        | some i =>
          obtain ⟨k, v, e1, e2⟩ := hT.element _ _ _ (by exact hI) h2
          refine ⟨k, v, e1, ?_⟩
          rw [e2]
          unfold c06_info at hi
          obtain ⟨kn, -, hi⟩ := Res.bind_eq_ok.mp hi
          by_cases hk : kn = true
          · rw [if_pos hk] at hi
            obtain ⟨i', h3, hi⟩ := Res.bind_eq_ok.mp hi
            split at hi
            · cases hi
              exact get_varinfo_code ht h3
            · cases hi
          · rw [if_neg hk] at hi
            cases hi
        | none =>
          unfold c06_define at h2
          obtain ⟨i, hi', h2⟩ := Res.bind_eq_ok.mp h2
          obtain ⟨k, v, e1, e2⟩ := hT.element _ _ _ (by exact hI) h2
          exact ⟨k, v, e1, e2.trans (get_unknown_code hi')⟩
      obtain ⟨k, v, e1, e2⟩ := key
      obtain ⟨hI', vs, r1, r2⟩ := hr (k.1)
      exact ⟨hI', v :: vs, by rw [r1, e1]; simp, .localWidth _ _ _ _ _ _ _ hf h6 hy e2 (k.mode ▸ r2)⟩
  rw [if_neg h6] at h
  obtain ⟨s2, h2, h⟩ := Res.bind_eq_ok.mp h
  cases h
  unfold c_simple at h2
  simp only at h2
  have hc0 : c ≠ 0 := by
    rintro rfl
    cases hf
  split at h2
  · rename_i hx
    cases h2
    obtain ⟨hI', vs, r1, r2⟩ := hr hI
    exact ⟨hI', vs, r1, .operator _ _ _ _ _ hf (by rw [hx]; decide) r2⟩
  · rename_i hx
    cases h2
    obtain ⟨hI', vs, r1, r2⟩ := hr hI
    exact ⟨hI', vs, r1, .operator _ _ _ _ _ hf (by rw [hx]; decide) r2⟩
  · rename_i hx
    cases h2
    obtain ⟨hI', vs, r1, r2⟩ := hr hI
    refine ⟨hI', vs, r1, .references _ _ _ _ _ hf hx ?_⟩
    have : ({ s with c03_refval_override_bits := if WR_VAR_Y c = 255 then 0 else WR_VAR_Y c } :
        Interp σ).mode = { s.mode with
          references := decide (WR_VAR_Y c ≠ 0 ∧ WR_VAR_Y c ≠ 255) } := by
      unfold Interp.mode
      simp only [Mode.mk.injEq, and_true]
      by_cases hy : WR_VAR_Y c = 255 <;> simp [hy]
    rwa [this] at r2
  · rename_i hx
    obtain ⟨k, v, e1, e2⟩ := hT.raw _ _ _ (by exact hI) h2
    obtain ⟨hI', vs, r1, r2⟩ := hr (k.1)
    exact ⟨hI', v :: vs, by rw [r1, e1]; simp, .characters _ _ _ _ _ _ hf hx e2 (k.mode ▸ r2)⟩
  · rename_i hx
    cases h2
    obtain ⟨hI', vs, r1, r2⟩ := hr hI
    exact ⟨hI', vs, r1, .operator _ _ _ _ _ hf (by rw [hx]; decide) r2⟩
  · rename_i hx
    cases h2
    obtain ⟨hI', vs, r1, r2⟩ := hr hI
    exact ⟨hI', vs, r1, .operator _ _ _ _ _ hf (by rw [hx]; decide) r2⟩
  · rename_i hx
    split at h2
    · cases h2
    rename_i hy
    cases h2
    obtain ⟨hI', vs, r1, r2⟩ := hr hI
    exact ⟨hI', vs, r1, .announce _ _ _ _ _ hf (.inl hx) (by simpa using hy) r2⟩
  · rename_i hx
    unfold c23 at h2
    by_cases hy : WR_VAR_Y c = 0
    · rw [if_pos hy] at h2
      cases h2
      obtain ⟨hI', vs, r1, r2⟩ := hr hI
      exact ⟨hI', vs, r1, .announce _ _ _ _ _ hf (.inr hx) hy r2⟩
    rw [if_neg hy] at h2
    by_cases hy2 : WR_VAR_Y c = 255
    · rw [if_pos hy2] at h2
      split at h2
      · cases h2
      obtain ⟨⟨p, b⟩, h3, h2⟩ := Res.bind_eq_ok.mp h2
      obtain ⟨k, e⟩ := hT.substituted _ _ _ (by exact hI) h2
      obtain ⟨hI', vs, r1, r2⟩ := hr (k.1)
      exact ⟨hI', vs, by rw [r1, e], .substituted _ _ _ _ _ _ hf hx hy2 (mark_next h3) (k.mode ▸ r2)⟩
    · rw [if_neg hy2] at h2
      cases h2
  · rename_i hx
    unfold c37 at h2
    by_cases hy : WR_VAR_Y c = 0
    · rw [if_pos hy] at h2
      cases h2
      obtain ⟨hI', vs, r1, r2⟩ := hr hI
      refine ⟨hI', vs, r1, .again _ _ _ _ _ hf hx hy ?_⟩
      have : ({ s with bitmaps := { s.bitmaps.reuse_last with pending_definitions := 0 } } :
          Interp σ).mode = s.mode.again := by
        unfold Interp.mode Mode.again Bitmaps.reuse_last
        cases s.bitmaps.last <;> rfl
      rwa [this] at r2
    rw [if_neg hy] at h2
    by_cases hy2 : WR_VAR_Y c = 255
    · rw [if_pos hy2] at h2
      cases h2
      obtain ⟨hI', vs, r1, r2⟩ := hr hI
      exact ⟨hI', vs, r1, .forget _ _ _ _ _ hf hx hy2 r2⟩
    · rw [if_neg hy2] at h2
      cases h2
  · cases h2
    obtain ⟨hI', vs, r1, r2⟩ := hr hI
    refine ⟨hI', vs, r1, .operator _ _ _ _ _ hf ?_ r2⟩
    simp only [List.mem_cons, List.not_mem_nil, or_false, not_or]
    refine ⟨?_, h4, ?_, h6, ?_, ?_, ?_⟩ <;> assumption

/-- A replication. -/
theorem took_replication (hT : Sequential T I vars R) {s s1 s' : Interp σ} {c : Varcode}
    (hf : WR_VAR_F c = 1) {tl rest : List Varcode}
    {exec : List Varcode → Interp σ → Res (Interp σ)}
    (he : ∀ g, g.length ≤ tl.length → ∀ s s', exec g s = .ok s' → Took I vars R s g s')
    (h : replication C T exec s c tl = .ok (rest, s1)) (hr : Took I vars R s1 rest s') :
    Took I vars R s (c :: tl) s' := by
  intro hI
  unfold replication at h
  have hl := delayedCode_length c tl
  obtain ⟨⟨g, tl'⟩, hp, h⟩ := Res.bind_eq_ok.mp h
  obtain ⟨s2, h2, h⟩ := Res.bind_eq_ok.mp h
  cases h
  obtain ⟨hp1, hp2⟩ := popN_ok hp
  simp only [Prod.mk.injEq] at hp2
  obtain ⟨rfl, rfl⟩ := hp2
  have hlen : ((delayedCode c tl).2.take (WR_VAR_X c)).length = WR_VAR_X c := by
    rw [List.length_take]
    omega
  have happ := List.take_append_drop (WR_VAR_X c) (delayedCode c tl).2
  generalize hg : (delayedCode c tl).2.take (WR_VAR_X c) = g at *
  generalize hd : (delayedCode c tl).2.drop (WR_VAR_X c) = rest at *
  have hgl : g.length ≤ tl.length := by omega
  unfold bitmapOrRepeat at h2
  by_cases hpend : s.bitmaps.pending_definitions ≠ 0
  · rw [if_pos hpend] at h2
    unfold r_bitmap at h2
    split at h2
    · cases h2
    rename_i hx
    simp only [ne_eq, not_not] at hx
    split at h2
    · cases h2
    rename_i hh
    simp only [ne_eq, not_not] at hh
    have hg1 : g = [WR_VAR 0 31 31] := by
      cases g with
      | nil => cases hh
      | cons a g =>
        cases hh
        cases g with
        | nil => rfl
        | cons b g => rw [hx] at hlen; simp at hlen
    subst hg1
    obtain ⟨⟨n, s3⟩, h3, h2⟩ := Res.bind_eq_ok.mp h2
    obtain ⟨s4, h4, h2⟩ := Res.bind_eq_ok.mp h2
    cases h2
    have key : (Kept I s s3 ∧ vars s3.tgt = vars s.tgt) ∧
        (tl = WR_VAR 0 31 31 :: rest ∧ WR_VAR_Y c ≠ 0 ∨
          WR_VAR_Y c = 0 ∧ ∃ f, IsFactor f ∧ tl = f :: WR_VAR 0 31 31 :: rest) := by
      unfold bitmapSize at h3
      by_cases hy : WR_VAR_Y c = 0
      · rw [if_neg (by simpa using hy)] at h3
        obtain ⟨info, -, h3⟩ := Res.bind_eq_ok.mp h3
        refine ⟨hT.bitmapFactor _ _ _ _ (by exact hI) h3, .inr ⟨hy, ?_⟩⟩
        cases tl with
        | nil =>
          simp [delayedCode, hy] at happ
        | cons x tl =>
          by_cases hxf : IsFactor x
          · rw [delayedCode_factor hy hxf] at happ
            simp only at happ
            exact ⟨x, hxf, by rw [← happ]; rfl⟩
          · rw [delayedCode_implicit hy hxf] at happ
            simp only [List.cons_append, List.nil_append, List.cons.injEq] at happ
            rw [← happ.1] at hxf
            exact absurd (by decide) hxf
      · rw [if_pos hy] at h3
        cases h3
        refine ⟨⟨⟨hI, rfl, rfl⟩, rfl⟩, .inl ⟨?_, hy⟩⟩
        rw [delayedCode_fixed hy] at happ
        exact happ.symm
    obtain ⟨⟨k, e⟩, htl⟩ := key
    obtain ⟨b0, b1, v, refs, b2, b3, b4, b5⟩ := hT.bitmap _ _ _ k.1 h4
    obtain ⟨hI', vs, r1, r2⟩ := hr (b0)
    refine ⟨hI', v :: vs, by rw [r1]; show vars s4.tgt ++ vs = _; rw [b2, e]; simp, ?_⟩
    refine .bitmap _ _ _ _ _ _ refs.length _ hf hx hpend htl
      (show R.bitmapCode s.bitmaps.pending_definitions v.code by rw [← k.2.1]; exact b4) b5 ?_
    have hm : ({ s4 with bitmaps := { s4.bitmaps with pending_definitions := 0 } } : Interp σ).mode =
        { s.mode with
          announced := 0
          inUse := some (refs.length, 0) } := by
      unfold Interp.mode
      rw [b3, k.2.1]
      simp only [Option.map_some, b1, k.2.2]
    rwa [hm] at r2
  · rw [if_neg hpend] at h2
    have hann : s.bitmaps.pending_definitions = 0 := by simpa using hpend
    unfold r_replication at h2
    by_cases hy : WR_VAR_Y c = 0
    · rw [if_neg (by simpa using hy)] at h2
      obtain ⟨info, hi, h2⟩ := Res.bind_eq_ok.mp h2
      obtain ⟨⟨n, s3⟩, h3, h2⟩ := Res.bind_eq_ok.mp h2
      obtain ⟨k, v, e1, e2, e3⟩ := hT.factor _ _ _ _ (by exact hI) h3
      obtain ⟨hIw, ws, a1, a2⟩ := took_times (he g hgl) _ _ _ h2 k.1
      obtain ⟨hI', vs, r1, r2⟩ := hr (hIw)
      refine ⟨hI', v :: (ws ++ vs), by rw [r1, a1, e1]; simp, ?_⟩
      refine .delayed _ _ _ _ (delayedCode c tl).1 _ g rest _ n _ _ hf hy ?_ hlen hann
        (e2.trans (query_code hi)) e3 (k.mode ▸ a2) r2
      cases tl with
      | nil =>
        right
        simp only [delayedCode, hy] at happ ⊢
        exact ⟨rfl, happ.symm, by simp⟩
      | cons y tl =>
        by_cases hxf : IsFactor y
        · left
          rw [delayedCode_factor hy hxf] at happ ⊢
          exact ⟨hxf, by rw [happ]⟩
        · right
          rw [delayedCode_implicit hy hxf] at happ ⊢
          exact ⟨rfl, happ.symm, by simpa using hxf⟩
    · rw [if_pos hy] at h2
      obtain ⟨hIw, ws, a1, a2⟩ := took_times (he g hgl) _ _ _ h2 hI
      rw [delayedCode_fixed hy] at happ
      simp only at happ
      rw [← happ]
      obtain ⟨hI', vs, r1, r2⟩ := hr (hIw)
      exact ⟨hI', ws ++ vs, by rw [r1, a1]; simp, .fixed _ _ _ _ _ _ _ _ hf hy hlen hann a2 r2⟩

theorem took_run (hT : Sequential T I vars R) (hq : R.query = C.dtable.query)
    (ht : AlterationsKeepCode C.btable) (d : Nat)
    (ops : List Varcode) (s s' : Interp σ) (h : run C T d ops s = .ok s') :
    Took I vars R s ops s' := by
  have main : ∀ d, (∀ ops s s', below C T d ops s = .ok s' → Took I vars R s ops s') →
      ∀ n ops s s', ops.length ≤ n → run C T d ops s = .ok s' → Took I vars R s ops s' := by
    intro d hb n
    induction n with
    | zero =>
      intro ops s s' hl h
      have : ops = [] := List.length_eq_zero_iff.mp (by omega)
      subst this
      rw [run_nil] at h
      cases h
      exact fun hI => ⟨hI, [], by simp, .nil _⟩
    | succ n ih =>
      intro ops s s' hl h
      cases ops with
      | nil =>
        rw [run_nil] at h
        cases h
        exact fun hI => ⟨hI, [], by simp, .nil _⟩
      | cons c tl =>
        have hl' : tl.length ≤ n := by simpa using hl
        have hf : WR_VAR_F c < 4 := Nat.mod_lt _ (by omega)
        obtain hf | hf | hf | hf : WR_VAR_F c = 0 ∨ WR_VAR_F c = 1 ∨ WR_VAR_F c = 2 ∨ WR_VAR_F c = 3 := by
          omega
        · rw [run_element hf] at h
          obtain ⟨s1, h1, h2⟩ := Res.bind_eq_ok.mp h
          exact took_b_variable hT ht hf h1 (ih _ _ _ hl' h2)
        · rw [run_replication hf] at h
          obtain ⟨⟨rest, s1⟩, h1, h2⟩ := Res.bind_eq_ok.mp h
          refine took_replication hT hf (fun g hg s s' h => ih g s s' (by omega) h) h1 (ih _ _ _ ?_ h2)
          have := replication_length h1
          simp only at this ⊢
          omega
        · rw [run_operator hf] at h
          obtain ⟨⟨rest, s1⟩, h1, h2⟩ := Res.bind_eq_ok.mp h
          refine took_c_modifier hT ht hf h1 (ih _ _ _ ?_ h2)
          have := c_modifier_length h1
          simp only at this ⊢
          omega
        · rw [run_sequence hf] at h
          obtain ⟨l, h1, h⟩ := Res.bind_eq_ok.mp h
          obtain ⟨s1, h2, h3⟩ := Res.bind_eq_ok.mp h
          intro hI
          obtain ⟨hI1, vs, a1, a2⟩ := hb _ _ _ h2 hI
          obtain ⟨hI2, ws, b1, b2⟩ := ih _ _ _ hl' h3 hI1
          exact ⟨hI2, vs ++ ws, by rw [b1, a1, List.append_assoc],
            .sequence _ _ _ _ _ _ _ _ hf (hq ▸ h1) a2 b2⟩
  induction d generalizing ops s s' with
  | zero =>
    exact main 0 (fun ops s s' h => by cases h) _ ops s s' le_rfl h
  | succ d ih =>
    exact main (d + 1) (fun ops s s' h => ih ops s s' h) _ ops s s' le_rfl h

end Sequential

end Wreport
