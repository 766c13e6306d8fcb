import Mathlib.Logic.Relation
import Verif.Lemmas.Strings
import Verif.Lemmas.Bits

/-! # Facts about the ends of strings, paths and escapes -/

namespace Wreport.Str

open Spec

/-! ## Ends -/

theorem drop_skipFront (p : Byte → Bool) (s : List Byte) :
    s.drop (skipFront p s) = s.dropWhile p ∧ skipFront p s ≤ s.length := by
  induction s with
  | nil => simp [skipFront]
  | cons c s ih =>
    simp only [skipFront, List.dropWhile_cons]
    split
    · simpa using ih
    · simp

theorem cutBack_spec (p : Byte → Bool) (s : List Byte) (lo : Nat) : ∀ e, lo ≤ e →
    lo ≤ cutBack p s lo e ∧ cutBack p s lo e ≤ e ∧
      (∀ i, cutBack p s lo e ≤ i → i < e → p (s.getD i 0) = true) ∧
      (cutBack p s lo e = lo ∨ (0 < cutBack p s lo e ∧ p (s.getD (cutBack p s lo e - 1) 0) = false)) := by
  intro e
  induction e with
  | zero =>
    intro h
    have : lo = 0 := by omega
    subst this
    refine ⟨by simp [cutBack], by simp [cutBack], fun i _ h => by omega, Or.inl (by simp [cutBack])⟩
  | succ e ih =>
    intro h
    unfold cutBack
    by_cases hc : (lo < e + 1 && p (s.getD e 0)) = true
    · rw [if_pos hc]
      simp only [Bool.and_eq_true, decide_eq_true_eq] at hc
      obtain ⟨h1, h2, h3, h4⟩ := ih (by omega)
      refine ⟨h1, by omega, ?_, h4⟩
      intro i hi hie
      by_cases he : i = e
      · rw [he]; exact hc.2
      · exact h3 i hi (by omega)
    · rw [if_neg hc]
      refine ⟨h, le_refl _, fun i h1 h2 => by omega, ?_⟩
      by_cases hl : lo < e + 1
      · right
        simp [hl] at hc
        simp [hc]
      · left; omega

theorem mem_drop_getD {s : List Byte} {n : Nat} {c : Byte} (h : c ∈ s.drop n) :
    ∃ i, n ≤ i ∧ i < s.length ∧ s.getD i 0 = c := by
  obtain ⟨i, hi, rfl⟩ := List.mem_iff_getElem.1 h
  simp at hi
  refine ⟨n + i, by omega, by omega, ?_⟩
  simp [List.getD_eq_getElem?_getD, List.getElem?_eq_getElem (show n + i < s.length by omega)]

theorem getLast_take {s : List Byte} {n : Nat} {c : Byte} (hn : n ≤ s.length)
    (h : (s.take n).getLast? = some c) : 0 < n ∧ s.getD (n - 1) 0 = c := by
  rw [List.getLast?_eq_getElem?] at h
  simp [Nat.min_eq_left hn] at h
  have h0 : 0 < n := by
    rcases Nat.eq_zero_or_pos n with rfl | h0
    · simp at h
    · exact h0
  rw [List.getElem?_take_of_lt (by omega)] at h
  exact ⟨h0, by simp [List.getD_eq_getElem?_getD, h]⟩

theorem rstripped_take (p : Byte → Bool) (s : List Byte) :
    RStripped p s (s.take (cutBack p s 0 s.length)) := by
  obtain ⟨_, h2, h3, h4⟩ := cutBack_spec p s 0 s.length (by omega)
  refine ⟨s.drop _, (List.take_append_drop _ _).symm, ?_, ?_⟩
  · intro c hc
    obtain ⟨i, hi, hl, rfl⟩ := mem_drop_getD hc
    exact h3 i hi hl
  · intro c hc
    obtain ⟨h0, rfl⟩ := getLast_take h2 hc
    rcases h4 with h4 | h4
    · omega
    · exact h4.2

theorem lstripped_drop (p : Byte → Bool) (s : List Byte) : LStripped p s (s.drop (skipFront p s)) := by
  rw [(drop_skipFront p s).1]
  refine ⟨s.takeWhile p, List.takeWhile_append_dropWhile.symm, ?_, ?_⟩
  · intro c hc
    exact by
      have := List.all_takeWhile (p := p) (l := s)
      rw [List.all_eq_true] at this
      exact this c hc
  · intro c hc
    have hh : s.dropWhile p ≠ [] := by intro h; simp [h] at hc
    have := List.head_dropWhile_not p hh
    rw [List.head?_eq_some_head hh] at hc
    simp at hc
    rw [← hc]
    simpa using this

/-! ## Paths -/

theorem rfind_spec (s : List Byte) : ∀ n, match rfind s n with
    | none => ∀ j < n, s[j]? ≠ some 47
    | some i => i < n ∧ s[i]? = some 47 ∧ ∀ j, i < j → j < n → s[j]? ≠ some 47 := by
  intro n
  induction n with
  | zero => simp [rfind]
  | succ n ih =>
    unfold rfind
    by_cases h : s[n]? = some 47
    · rw [if_pos h]
      exact ⟨by omega, h, fun j _ _ => by omega⟩
    · rw [if_neg h]
      cases hr : rfind s n with
      | none =>
        rw [hr] at ih
        intro j hj
        by_cases hjn : j = n
        · rw [hjn]; exact h
        · exact ih j (by omega)
      | some i =>
        rw [hr] at ih
        refine ⟨by omega, ih.2.1, fun j h1 h2 => ?_⟩
        by_cases hjn : j = n
        · rw [hjn]; exact h
        · exact ih.2.2 j h1 (by omega)

/-- The last slash of the first `n` characters. -/
theorem rfind_split {s : List Byte} {n i : Nat} (hn : n ≤ s.length) (h : rfind s n = some i) :
    ∃ b, s.take n = s.take i ++ 47 :: b ∧ (47 : Byte) ∉ b ∧ i + 1 ≤ n := by
  have := rfind_spec s n
  rw [h] at this
  obtain ⟨h1, h2, h3⟩ := this
  refine ⟨(s.take n).drop (i + 1), ?_, ?_, by omega⟩
  · have hi : i < (s.take n).length := by simp; omega
    have := List.take_append_drop i (s.take n)
    rw [List.drop_eq_getElem_cons hi] at this
    rw [List.take_take, Nat.min_eq_left (by omega)] at this
    rw [← this]
    congr 2
    · simp
      have := List.getElem?_eq_getElem (show i < s.length by omega)
      rw [h2] at this
      simpa using this.symm
    · rw [this]
  · intro hm
    obtain ⟨j, hj, he⟩ := List.mem_iff_getElem.1 hm
    simp at hj he
    apply h3 (i + 1 + j) (by omega) (by omega)
    rw [List.getElem?_eq_getElem (by omega), he]

theorem rfind_none {s : List Byte} {n : Nat} (h : rfind s n = none) :
    (47 : Byte) ∉ s.take n := by
  have := rfind_spec s n
  rw [h] at this
  intro hm
  obtain ⟨j, hj, he⟩ := List.mem_iff_getElem.1 hm
  simp at hj he
  apply this j (by omega)
  rw [List.getElem?_eq_getElem (by omega), he]

theorem components_append (a b : List Byte) : components (a ++ 47 :: b) = components a ++ components b := by
  simp [components, List.splitOn_append_cons_self]

@[simp] theorem components_nil : components [] = [] := by simp [components]

theorem components_cons (b : List Byte) : components (47 :: b) = components b := by
  simpa using components_append [] b

theorem components_name {t : List Byte} (h : (47 : Byte) ∉ t) (hn : t ≠ []) : components t = [t] := by
  simp [components, List.splitOn_eq_singleton h, hn]

theorem components_slashes {a b : List Byte} (h : ∀ c ∈ b, c = 47) : components (a ++ b) = components a := by
  have h0 : ∀ b : List Byte, (∀ c ∈ b, c = 47) → components b = [] := by
    intro b
    induction b with
    | nil => intro; simp
    | cons c b ih =>
      intro hb
      rw [hb c (by simp), components_cons]
      exact ih fun d hd => hb d (by simp [hd])
  cases b with
  | nil => simp
  | cons c b =>
    rw [h c (by simp), components_append, h0 b fun d hd => h d (by simp [hd])]
    simp

theorem components_mem {p x : List Byte} (h : x ∈ components p) : (47 : Byte) ∉ x ∧ x ≠ [] := by
  have hx : ∀ (q : List Byte) (x : List Byte), x ∈ q.splitOn 47 → (47 : Byte) ∉ x := by
    intro q
    induction q with
    | nil => intro x hx; simp at hx; simp [hx]
    | cons c q ih =>
      intro x hx
      rw [List.splitOn_cons_eq_if_modifyHead] at hx
      split at hx
      · rcases List.mem_cons.1 hx with rfl | hx
        · simp
        · exact ih x hx
      · rename_i hc
        cases hq : q.splitOn 47 with
        | nil => simp [hq] at hx
        | cons y ys =>
          rw [hq] at hx ih
          simp only [List.modifyHead_cons, List.mem_cons] at hx
          rcases hx with rfl | hx
          · have := ih y (by simp)
            simp at hc
            simp [this]
            exact fun h => hc h.symm
          · exact ih x (by simp [hx])
  simp [components] at h
  exact ⟨hx p x h.1, h.2⟩

theorem appendpath_components (a b : List Byte) :
    components (appendpath a b) = components a ++ components b := by
  unfold appendpath
  split
  · rename_i h; simp [h]
  split
  · rename_i h; simp [h]
  split
  · rename_i hb ha hl
    obtain ⟨a', rfl⟩ : ∃ a', a = a' ++ [47] := by
      rw [List.getLast?_eq_some_iff] at hl
      exact hl
    have h1 : components (a' ++ [47]) = components a' := components_slashes (by simp)
    split
    · rename_i hh
      cases b with
      | nil => simp at hb
      | cons c b =>
        simp at hh
        subst hh
        rw [h1, components_cons]
        simpa using components_append a' b
    · rw [h1]
      simpa using components_append a' b
  · split
    · rename_i hh
      cases b with
      | nil => simp at hh
      | cons c b =>
        simp at hh
        subst hh
        rw [components_cons, components_append]
    · rw [components_append]

/-- The stack of `normpath` holds names only. -/
def Plain (names : List (List Byte)) : Prop :=
  ∀ n ∈ names, n ≠ [46] ∧ n ≠ [46, 46] ∧ n ≠ [] ∧ (47 : Byte) ∉ n

/-- Bottom of the stack. -/
def base (root : Bool) : List (List Byte) := if root then [[47]] else []

/-- Number of steps down. -/
def downs (a : List (List Byte)) : Nat := (a.filter (fun x => x ≠ [46] ∧ x ≠ [46, 46])).length

theorem foldlM_filter : ∀ (toks : List (List Byte)) (st : List (List Byte)),
    toks.foldlM normStep st = (toks.filter (· ≠ [])).foldlM normStep st := by
  intro toks
  induction toks with
  | nil => intro st; rfl
  | cons t toks ih =>
    intro st
    by_cases h : t = []
    · subst h
      simp [normStep, ih]
    · simp only [List.foldlM_cons, List.filter_cons, h, ne_eq, not_false_eq_true, decide_true,
        if_true]
      congr 1
      funext st'
      exact ih st'

theorem norm_fold (root : Bool) : ∀ (cs names : List (List Byte)), Plain names →
    (∀ c ∈ cs, (47 : Byte) ∉ c ∧ c ≠ []) →
    (∃ names', cs.foldlM normStep (base root ++ names) = .ok (base root ++ names') ∧ Plain names' ∧
      Relation.ReflTransGen (Simplifies root) (names ++ cs) names' ∧
      (root = false → ∀ a b, cs = a ++ b → a.count [46, 46] ≤ names.length + downs a)) ∨
    (cs.foldlM normStep (base root ++ names) = .ub ∧ root = false ∧
      ∃ a b, cs = a ++ b ∧ names.length + downs a < a.count [46, 46]) := by
  intro cs
  induction cs with
  | nil =>
    intro names hp _
    left
    refine ⟨names, rfl, hp, by simp; exact .refl, ?_⟩
    intro _ a b h
    have : a = [] := by simp at h; exact h.1
    simp [this]
  | cons c cs ih =>
    intro names hp hcs
    have hc := hcs c (by simp)
    have hcs' : ∀ d ∈ cs, (47 : Byte) ∉ d ∧ d ≠ [] := fun d hd => hcs d (by simp [hd])
    by_cases h1 : c = [46]
    · subst h1
      have hst : normStep (base root ++ names) [46] = .ok (base root ++ names) := by simp [normStep]
      rw [List.foldlM_cons, hst]
      rcases ih names hp hcs' with ⟨names', e1, e2, e3, e4⟩ | ⟨e1, e2, a, b, e3, e4⟩
      · left
        refine ⟨names', e1, e2, .head ?_ e3, ?_⟩
        · simpa using Simplifies.dot (root := root) names cs
        · intro hr a b hab
          cases a with
          | nil => simp
          | cons d a =>
            simp at hab
            have := e4 hr a b hab.2
            rw [← hab.1]
            simp [downs] at this ⊢
            exact this
      · right
        refine ⟨e1, e2, [46] :: a, b, by simp [e3], ?_⟩
        simp [downs] at e4 ⊢
        exact e4
    · by_cases h2 : c = [46, 46]
      · subst h2
        rcases List.eq_nil_or_concat names with hn | ⟨n', l, hn⟩
        · subst hn
          cases root with
          | true =>
            have hst : normStep (base true ++ []) [46, 46] = .ok (base true ++ []) := by
              simp [normStep, base]
            rw [List.foldlM_cons, hst]
            rcases ih [] (by intro n hn; simp at hn) hcs' with ⟨names', e1, e2, e3, e4⟩ | ⟨e1, e2, _⟩
            · left
              exact ⟨names', e1, e2, .head (.top cs rfl) e3, fun h => by simp at h⟩
            · simp at e2
          | false =>
            right
            refine ⟨?_, rfl, [[46, 46]], cs, by simp, by simp [downs]⟩
            rw [List.foldlM_cons]
            simp [normStep, base]
        · subst hn
          have hl := hp l (by simp)
          have hl47 : l ≠ [47] := by rintro rfl; simp at hl
          have hst : normStep (base root ++ (n' ++ [l])) [46, 46] = .ok (base root ++ n') := by
            simp only [normStep]
            rw [if_neg (by simp), if_pos trivial]
            simp only [← List.append_assoc, List.getLast?_concat, List.dropLast_concat]
            rw [if_neg hl.2.1, if_neg hl47]
          rw [List.concat_eq_append, List.foldlM_cons, hst]
          have hp' : Plain n' := fun n hn => hp n (by simp [hn])
          rcases ih n' hp' hcs' with ⟨names', e1, e2, e3, e4⟩ | ⟨e1, e2, a, b, e3, e4⟩
          · left
            refine ⟨names', e1, e2, .head ?_ e3, ?_⟩
            · simpa using Simplifies.back (root := root) n' cs l hl.1 hl.2.1
            · intro hr a b hab
              cases a with
              | nil => simp
              | cons d a =>
                simp at hab
                have := e4 hr a b hab.2
                rw [← hab.1]
                simp [downs] at this ⊢
                omega
          · right
            refine ⟨e1, e2, [46, 46] :: a, b, by simp [e3], ?_⟩
            simp [downs] at e4 ⊢
            omega
      · have hst : normStep (base root ++ names) c = .ok (base root ++ (names ++ [c])) := by
          simp [normStep, h1, h2, hc.2]
        rw [List.foldlM_cons, hst]
        have hp' : Plain (names ++ [c]) := by
          intro n hn
          rcases List.mem_append.1 hn with hn | hn
          · exact hp n hn
          · simp at hn
            subst hn
            exact ⟨h1, h2, hc.2, hc.1⟩
        rcases ih (names ++ [c]) hp' hcs' with ⟨names', e1, e2, e3, e4⟩ | ⟨e1, e2, a, b, e3, e4⟩
        · left
          refine ⟨names', e1, e2, by simpa using e3, ?_⟩
          intro hr a b hab
          cases a with
          | nil => simp
          | cons d a =>
            simp at hab
            have := e4 hr a b hab.2
            rw [← hab.1]
            simp [downs, h1, h2] at this ⊢
            omega
        · right
          refine ⟨e1, e2, c :: a, b, by simp [e3], ?_⟩
          simp [downs, h1, h2] at e4 ⊢
          omega

theorem intercalate_flatMap (t : List Byte) (ns : List (List Byte)) :
    [47].intercalate (t :: ns) = t ++ ns.flatMap (47 :: ·) := by
  induction ns generalizing t with
  | nil => simp
  | cons n ns ih =>
    rw [List.intercalate_cons_cons, ih n]
    simp

theorem foldl_appendpath : ∀ (ns : List (List Byte)) (x : List Byte), Plain ns → x ≠ [] →
    x.getLast? ≠ some 47 → ns.foldl appendpath x = x ++ ns.flatMap (47 :: ·) := by
  intro ns
  induction ns with
  | nil => intro x _ _ _; simp
  | cons n ns ih =>
    intro x hp hx hl
    have hn := hp n (by simp)
    have hh : n.head? ≠ some 47 := by
      intro h
      cases n with
      | nil => simp at h
      | cons c n => simp at h; simp [h] at hn
    have ha : appendpath x n = x ++ 47 :: n := by
      simp [appendpath, hn.2.2.1, hx, hl, hh]
    rw [List.foldl_cons, ha, ih _ (fun m hm => hp m (by simp [hm])) (by simp)]
    · simp
    · rw [List.getLast?_append, List.getLast?_cons]
      cases hg : n.getLast? with
      | none => simp at hg; exact absurd hg hn.2.2.1
      | some c =>
        simp
        rintro rfl
        exact hn.2.2.2 (List.mem_of_getLast? hg)

/-- The text built from the stack. -/
theorem stack_text (root : Bool) (names : List (List Byte)) (hp : Plain names) :
    (if base root ++ names = [] then (.ok [46] : Res (List Byte))
      else .ok ((base root ++ names).foldl appendpath [])) = .ok (pathText root names) := by
  cases root with
  | true =>
    rw [if_neg (by simp [base])]
    cases names with
    | nil => simp [base, appendpath, pathText]
    | cons n ns =>
      have hn := hp n (by simp)
      have hh : n.head? ≠ some 47 := by
        intro h
        cases n with
        | nil => simp at h
        | cons c n => simp at h; simp [h] at hn
      have ha : appendpath [47] n = 47 :: n := by
        simp [appendpath, hn.2.2.1, hh]
      have h0 : appendpath [] [47] = [47] := by simp [appendpath]
      simp only [base, if_true, List.singleton_append, List.foldl_cons, h0, ha]
      rw [foldl_appendpath _ _ (fun m hm => hp m (by simp [hm])) (by simp)]
      · rw [pathText, intercalate_flatMap]; simp
      · rw [List.getLast?_cons]
        cases hg : n.getLast? with
        | none => simp at hg; exact absurd hg hn.2.2.1
        | some c =>
          simp
          rintro rfl
          exact hn.2.2.2 (List.mem_of_getLast? hg)
  | false =>
    cases names with
    | nil => simp [base, pathText]
    | cons n ns =>
      have hn := hp n (by simp)
      have h0 : appendpath [] n = n := by simp [appendpath, hn.2.2.1]
      rw [if_neg (by simp [base])]
      simp only [base, Bool.false_eq_true, if_false, List.nil_append, List.foldl_cons, h0]
      rw [foldl_appendpath _ _ (fun m hm => hp m (by simp [hm])) hn.2.2.1]
      · rw [pathText, intercalate_flatMap]; simp
      · intro hg
        exact hn.2.2.2 (List.mem_of_getLast? hg)

theorem normpath_eq (p : List Byte) :
    normpath p = ((components p).foldlM normStep (base (absolute p)) >>= fun st =>
      if st = [] then .ok [46] else .ok (st.foldl appendpath [])) := by
  have hb : (if p.head? = some 47 then ([[47]] : List (List Byte)) else []) = base (absolute p) := by
    simp [base, absolute]
  by_cases h : p = []
  · subst h
    simp only [normpath, List.length_nil, split_nil, normTokens]
    rw [hb]
    simp
  · obtain ⟨toks, ht, hsp⟩ := split_ok (sep := [47]) (by simp) h (p.length + 3) (by omega)
    simp only [normpath, ht, normTokens]
    rw [hb, foldlM_filter, isSplit_splitOn hsp]
    rfl

end Wreport.Str
