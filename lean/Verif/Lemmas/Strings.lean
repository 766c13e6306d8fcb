import Verif.Model.Strings
import Verif.Spec.Strings

/-! # Facts about the string functions -/

namespace Wreport.Str

open Spec

theorem isPrefixOf_iff' {a b : List Byte} : a.isPrefixOf b = true ↔ ∃ r, b = a ++ r := by
  rw [List.isPrefixOf_iff_prefix]
  constructor
  · rintro ⟨r, rfl⟩; exact ⟨r, rfl⟩
  · rintro ⟨r, rfl⟩; exact ⟨r, rfl⟩

/-! ## Splitting -/

theorem endsAtFirst_nil (sep : List Byte) : EndsAtFirst sep [] := by
  intro a b hab
  have hl := congrArg List.length hab
  simp at hl
  exact List.length_eq_zero_iff.1 (by omega)

theorem endsAtFirst_le {sep t t' s s' : List Byte} (h' : EndsAtFirst sep t')
    (h : t ++ sep ++ s = t' ++ sep ++ s') (hl : t.length ≤ t'.length) : t = t' := by
  have hp : t ++ sep <+: t' ++ sep := by
    apply List.prefix_of_prefix_length_le (l₃ := t ++ sep ++ s)
    · exact List.prefix_append _ _
    · rw [h]; exact List.prefix_append _ _
    · simp; exact hl
  obtain ⟨b, hb⟩ := hp
  have := h' t b hb.symm
  subst this
  simpa using hb

theorem endsAtFirst_eq {sep t t' s s' : List Byte} (h1 : EndsAtFirst sep t)
    (h2 : EndsAtFirst sep t') (h : t ++ sep ++ s = t' ++ sep ++ s') : t = t' := by
  rcases Nat.le_total t.length t'.length with hl | hl
  · exact endsAtFirst_le h2 h hl
  · exact (endsAtFirst_le h1 h.symm hl).symm

/-- The pieces of a text are determined. -/
theorem isSplit_unique {sep s : List Byte} {a b : List (List Byte)} (ha : IsSplit sep s a)
    (hb : IsSplit sep s b) : a = b := by
  induction ha generalizing b with
  | last t hn =>
    generalize hx : t = x at hb
    cases hb with
    | last => rfl
    | cons t' s' toks hf h => exact absurd ⟨t', s', hx.symm⟩ hn
  | cons t s toks hf h ih =>
    generalize hx : t ++ sep ++ s = x at hb
    cases hb with
    | last _ hn => exact absurd ⟨t, s, hx⟩ hn
    | cons t' s' toks' hf' h' =>
      have := endsAtFirst_eq hf hf' hx
      subst this
      simp at hx
      subst hx
      rw [ih h']

theorem isSplit_ne_nil {sep s : List Byte} {a : List (List Byte)} (h : IsSplit sep s a) : a ≠ [] := by
  cases h <;> simp

theorem join_isSplit {sep s : List Byte} {a : List (List Byte)} (h : IsSplit sep s a) :
    join sep a = s := by
  induction h with
  | last t hn => simp [join]
  | cons t s toks hf h ih =>
    cases toks with
    | nil => exact absurd rfl (isSplit_ne_nil h)
    | cons u us =>
      simp [join] at ih ⊢
      exact ih

theorem find_some {sep : List Byte} (hs : sep ≠ []) : ∀ (s : List Byte) (pos t : Nat),
    find sep s pos = some t →
    ∃ a b, s = a ++ sep ++ b ∧ t = pos + a.length ∧ EndsAtFirst sep a := by
  intro s
  induction s with
  | nil => intro pos t h; simp [find, hs] at h
  | cons c s ih =>
    intro pos t h
    unfold find at h
    split at h
    · rename_i hp
      obtain ⟨r, hr⟩ := isPrefixOf_iff'.1 hp
      exact ⟨[], r, by simpa using hr, by simpa using h.symm, endsAtFirst_nil sep⟩
    · rename_i hp
      obtain ⟨a, b, hs', ht, hf⟩ := ih _ _ h
      refine ⟨c :: a, b, by simp [hs'], by simp [ht]; omega, ?_⟩
      intro a' b' hab
      cases a' with
      | nil =>
        exfalso
        apply hp
        rw [isPrefixOf_iff']
        refine ⟨b' ++ b, ?_⟩
        rw [hs']
        have : c :: a ++ sep ++ b = ([] ++ sep ++ b') ++ b := by rw [← hab]
        simpa using this
      | cons d a' =>
        simp at hab
        exact hf a' b' (by simpa using hab.2)

theorem find_none {sep : List Byte} (hs : sep ≠ []) : ∀ (s : List Byte) (pos : Nat),
    find sep s pos = none → ¬ sep <:+: s := by
  intro s
  induction s with
  | nil =>
    rintro pos - ⟨a, b, h⟩
    simp at h
    exact hs h.2.1
  | cons c s ih =>
    intro pos h
    unfold find at h
    split at h
    · simp at h
    · rename_i hp
      rintro ⟨a, b, hab⟩
      cases a with
      | nil => exact hp (isPrefixOf_iff'.2 ⟨b, by simpa using hab.symm⟩)
      | cons d a =>
        simp at hab
        exact ih _ h ⟨a, b, by simpa using hab.2⟩

theorem collect_succ (str sep : List Byte) (skip : Bool) (fuel : Nat) (cur : List Byte)
    (f : Option Nat) :
    Iter.collect str sep skip (fuel + 1) ⟨true, cur, f⟩ =
      (Iter.next str sep skip fuel ⟨true, cur, f⟩).bind fun it =>
        (Iter.collect str sep skip fuel it).bind fun r => some (cur :: r) := by
  simp [Iter.collect]

theorem collect_done (str sep : List Byte) (skip : Bool) (fuel : Nat) (cur : List Byte) :
    Iter.collect str sep skip (fuel + 2) ⟨true, cur, none⟩ = some [cur] := by
  simp [Iter.collect, Iter.next]

/-- Where `operator++` stops inside the text. -/
theorem next_cases {str sep : List Byte} (hs : sep ≠ []) (skip : Bool) (fuel : Nat)
    (cur : List Byte) (e : Nat) (he : e ≤ str.length) :
    (∃ t, str.drop e = t ∧ (¬ sep <:+: t) ∧
      Iter.next str sep skip fuel ⟨true, cur, some e⟩ = some ⟨true, t, none⟩) ∨
    (∃ a b, str.drop e = a ++ sep ++ b ∧ EndsAtFirst sep a ∧
      e + a.length + sep.length ≤ str.length ∧ str.drop (e + a.length + sep.length) = b ∧
      Iter.next str sep skip fuel ⟨true, cur, some e⟩ =
        afterToken str sep skip fuel a (e + a.length + sep.length)) := by
  by_cases h : e = str.length
  · left
    refine ⟨[], by simp [h], ?_, by simp [Iter.next, h]⟩
    rintro ⟨a, b, hab⟩
    simp at hab
    exact hs hab.2.1
  · cases hf : find sep (str.drop e) e with
    | none =>
      left
      exact ⟨_, rfl, find_none hs _ _ hf, by simp [Iter.next, h, hs, hf]⟩
    | some t =>
      right
      obtain ⟨a, b, hd, ht, hfirst⟩ := find_some hs _ _ _ hf
      have hl := congrArg List.length hd
      simp at hl
      refine ⟨a, b, hd, hfirst, by omega, ?_, ?_⟩
      · rw [Nat.add_assoc, ← List.drop_drop, hd, ← List.length_append, List.drop_left]
      · simp [Iter.next, h, hs, hf, ht]
        rw [hd]
        simp

theorem collect_ok {str sep : List Byte} (hs : sep ≠ []) : ∀ (fuel : Nat) (cur : List Byte) (e : Nat),
    e ≤ str.length → str.length - e + 3 ≤ fuel →
    ∃ toks, Iter.collect str sep false fuel ⟨true, cur, some e⟩ = some (cur :: toks) ∧
      IsSplit sep (str.drop e) toks := by
  intro fuel
  induction fuel with
  | zero => intro cur e _ hf; omega
  | succ fuel ih =>
    intro cur e he hf
    rcases next_cases hs false fuel cur e he with ⟨t, ht, hn, hx⟩ | ⟨a, b, hd, hfirst, hle, hb, hx⟩
    · refine ⟨[t], ?_, ht ▸ .last t hn⟩
      obtain ⟨f, rfl⟩ : ∃ f, fuel = f + 2 := ⟨fuel - 2, by omega⟩
      rw [collect_succ, hx, Option.bind_some, collect_done, Option.bind_some]
    · have hpos : 0 < sep.length := List.length_pos_iff.2 hs
      obtain ⟨toks, ht, hsp⟩ := ih a (e + a.length + sep.length) hle (by omega)
      refine ⟨a :: toks, ?_, ?_⟩
      · rw [collect_succ, hx]
        simp [afterToken, ht]
      · rw [hd]
        exact .cons a b toks hfirst (hb ▸ hsp)

/-- Splitting a text that is not empty. -/
theorem split_ok {str sep : List Byte} (hs : sep ≠ []) (hstr : str ≠ []) (fuel : Nat)
    (hf : str.length + 3 ≤ fuel) :
    ∃ toks, split str sep false fuel = some toks ∧ IsSplit sep str toks := by
  obtain ⟨toks, ht, hsp⟩ := collect_ok hs (fuel + 1) [] 0 (by omega) (by omega : str.length - 0 + 3 ≤ fuel + 1)
  refine ⟨toks, ?_, by simpa using hsp⟩
  rw [collect_succ] at ht
  obtain ⟨it, hit, hc⟩ := Option.bind_eq_some_iff.1 ht
  obtain ⟨r, hr, hc⟩ := Option.bind_eq_some_iff.1 hc
  simp at hc
  simp [split, Iter.begin, if_neg hstr, hit, hr, hc]

theorem split_nil (sep : List Byte) (skip : Bool) (fuel : Nat) :
    split [] sep skip (fuel + 1) = some [] := by
  simp [split, Iter.begin, Iter.collect]

theorem skip_ok {str sep : List Byte} (hs : sep ≠ []) : ∀ (fuel e : Nat), e ≤ str.length →
    str.length - e + 1 ≤ fuel →
    ∃ e' k, skipSeparators str sep fuel e = some e' ∧ e ≤ e' ∧ e' ≤ str.length ∧
      str.drop e = (List.replicate k sep).flatten ++ str.drop e' ∧ (¬ sep <+: str.drop e') ∧
      ∀ toks, IsSplit sep (str.drop e') toks →
        IsSplit sep (str.drop e) (List.replicate k [] ++ toks) := by
  intro fuel
  induction fuel with
  | zero => intro e _ hf; omega
  | succ fuel ih =>
    intro e he hf
    have hpos : 0 < sep.length := List.length_pos_iff.2 hs
    by_cases hp : sep <+: str.drop e
    · have hle := hp.length_le
      simp at hle
      obtain ⟨e', k, h1, h2, h3, h4, h5, h6⟩ := ih (e + sep.length) (by omega)
        (by omega : str.length - (e + sep.length) + 1 ≤ fuel)
      obtain ⟨r, hr⟩ := hp
      have hr' : str.drop (e + sep.length) = r := by
        rw [← List.drop_drop, ← hr, List.drop_left]
      refine ⟨e', k + 1, ?_, by omega, h3, ?_, h5, ?_⟩
      · unfold skipSeparators
        rw [if_pos (by omega), if_pos (isPrefixOf_iff'.2 ⟨r, hr.symm⟩)]
        exact h1
      · rw [← hr, ← hr', h4]
        simp [List.replicate_succ]
      · intro toks ht
        have := h6 toks ht
        rw [hr'] at this
        rw [← hr]
        exact .cons [] r _ (endsAtFirst_nil sep) this
    · refine ⟨e, 0, ?_, by omega, he, by simp, hp, by simp⟩
      have hp' : ¬ sep.isPrefixOf (str.drop e) = true := by
        rw [isPrefixOf_iff']
        rintro ⟨r, hr⟩
        exact hp ⟨r, hr.symm⟩
      unfold skipSeparators
      rw [if_neg hp']
      split <;> rfl

theorem isSplit_empty {sep : List Byte} (hs : sep ≠ []) : IsSplit sep [] [[]] :=
  .last [] (by rintro ⟨a, b, h⟩; simp at h; exact hs h.2.1)

theorem collect_skip {str sep : List Byte} (hs : sep ≠ []) : ∀ (fuel : Nat) (cur : List Byte) (e : Nat),
    e < str.length → (¬ sep <+: str.drop e) → str.length - e + 3 ≤ fuel →
    ∃ toks, Iter.collect str sep true fuel ⟨true, cur, some e⟩ =
        some (cur :: toks.filter (· ≠ [])) ∧ IsSplit sep (str.drop e) toks := by
  intro fuel
  induction fuel with
  | zero => intro cur e _ _ hf; omega
  | succ fuel ih =>
    intro cur e he hp hf
    rcases next_cases (str := str) hs true fuel cur e (by omega) with
      ⟨t, ht, hn, hx⟩ | ⟨a, b, hd, hfirst, hle, hb, hx⟩
    · refine ⟨[t], ?_, ht ▸ .last t hn⟩
      have htn : t ≠ [] := by
        rintro rfl
        have := congrArg List.length ht
        simp at this
        omega
      obtain ⟨f, rfl⟩ : ∃ f, fuel = f + 2 := ⟨fuel - 2, by omega⟩
      rw [collect_succ, hx, Option.bind_some, collect_done, Option.bind_some]
      simp [htn]
    · have hpos : 0 < sep.length := List.length_pos_iff.2 hs
      have han : a ≠ [] := by
        rintro rfl
        exact hp ⟨b, by simpa using hd.symm⟩
      obtain ⟨e', k, h1, h2, h3, h4, h5, h6⟩ :=
        skip_ok hs fuel (e + a.length + sep.length) hle (by omega)
      rw [collect_succ, hx]
      by_cases hend : e' = str.length
      · refine ⟨a :: (List.replicate k [] ++ [[]]), ?_, ?_⟩
        · obtain ⟨f, rfl⟩ : ∃ f, fuel = f + 2 := ⟨fuel - 2, by omega⟩
          simp [afterToken, h1, hend, collect_done, han]
        · rw [hd]
          refine .cons a b _ hfirst ?_
          rw [← hb]
          exact h6 _ (by rw [hend]; simpa using isSplit_empty hs)
      · obtain ⟨toks, ht, hsp⟩ := ih a e' (by omega) h5 (by omega)
        refine ⟨a :: (List.replicate k [] ++ toks), ?_, ?_⟩
        · simp [afterToken, h1, hend, ht, han]
        · rw [hd]
          refine .cons a b _ hfirst ?_
          rw [← hb]
          exact h6 _ hsp

/-- Splitting without empty pieces. -/
theorem split_skip_ok {str sep : List Byte} (hs : sep ≠ [])
    (hstr : ∀ k, str ≠ (List.replicate k sep).flatten) (fuel : Nat) (hf : str.length + 3 ≤ fuel) :
    ∃ toks, split str sep true fuel = some (toks.filter (· ≠ [])) ∧ IsSplit sep str toks := by
  have hne : str ≠ [] := by simpa using hstr 0
  obtain ⟨e, k, h1, h2, h3, h4, h5, h6⟩ := skip_ok hs fuel 0 (by omega) (by omega : str.length - 0 + 1 ≤ fuel)
  have hlt : e < str.length := by
    by_contra hge
    have he : e = str.length := by omega
    apply hstr k
    simpa [he] using h4
  obtain ⟨toks, ht, hsp⟩ := collect_skip hs (fuel + 1) [] e hlt h5 (by omega)
  refine ⟨List.replicate k [] ++ toks, ?_, by simpa using h6 _ hsp⟩
  rw [collect_succ] at ht
  obtain ⟨it, hit, hc⟩ := Option.bind_eq_some_iff.1 ht
  obtain ⟨r, hr, hc⟩ := Option.bind_eq_some_iff.1 hc
  simp at hc
  simp [split, Iter.begin, if_neg hne, h1, hit, hr, hc]

/-- With an empty separator the loop of `skip_separators` does not end. -/
theorem skip_empty_sep (str : List Byte) : ∀ (fuel e : Nat), e ≤ str.length →
    skipSeparators str [] fuel e = none := by
  intro fuel
  induction fuel with
  | zero => intro e _; rfl
  | succ fuel ih =>
    intro e he
    unfold skipSeparators
    simp [he, ih]

/-! ## Single character separators -/

theorem isSplit_splitOn {c : Byte} {s : List Byte} {toks : List (List Byte)}
    (h : IsSplit [c] s toks) : toks = s.splitOn c := by
  induction h with
  | last t hn =>
    rw [List.splitOn_eq_singleton]
    intro hm
    obtain ⟨a, b, rfl⟩ := List.append_of_mem hm
    exact hn ⟨a, b, by simp⟩
  | cons t s toks hf h ih =>
    rw [ih]
    simp only [List.append_assoc, List.singleton_append]
    rw [List.splitOn_append_cons_self_of_not_mem]
    intro hm
    obtain ⟨a, b, rfl⟩ := List.append_of_mem hm
    have := hf a (b ++ [c]) (by simp)
    simp at this

end Wreport.Str
