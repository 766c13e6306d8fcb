import Verif.Model.Notes
import Verif.Spec.Notes
import Verif.Lemmas.VerboseDec

/-! # Comparisons with notes count what comparisons count -/

namespace Wreport

open Spec

namespace Notes

variable {E : Env} {desc : Varinfo → List Byte} {on : Bool}

theorem last_append {a b : List Byte} (h : b.getLast? = some 10) : (a ++ b).getLast? = some 10 := by
  rw [List.getLast?_append, h]
  rfl

theorem told_zero : Told on 0 [] := ⟨fun _ => rfl, fun _ => by simp, Or.inl rfl⟩

theorem told_logf {r : Res (List Byte)} {t : List Byte} {n : Nat} (h : logf on r = .ok t)
    (hn : n ≠ 0) (hr : ∀ x, r = .ok x → x.getLast? = some 10) : Told on n t := by
  unfold logf at h
  cases on with
  | false =>
    cases h
    exact ⟨fun _ => rfl, fun h => absurd h (by decide), Or.inl rfl⟩
  | true =>
    have := hr t h
    refine ⟨fun h => absurd h (by decide), fun _ => ⟨fun e => ?_, fun e => absurd e hn⟩, Or.inr this⟩
    rw [e] at this
    cases this

theorem told_ok {x t : List Byte} {n : Nat} (h : logf on (.ok x) = .ok t)
    (hn : n ≠ 0) (hx : x.getLast? = some 10) : Told on n t :=
  told_logf h hn fun y hy => by cases hy; exact hx

theorem told_one {x : List Byte} (hx : x.getLast? = some 10) : Told on (one on x).1 (one on x).2 := by
  unfold one note
  cases on with
  | false => exact ⟨fun _ => rfl, fun h => absurd h (by decide), Or.inl rfl⟩
  | true =>
    refine ⟨fun h => absurd h (by decide), fun _ => ⟨fun e => ?_, fun e => absurd e Nat.one_ne_zero⟩, Or.inr hx⟩
    simp only [if_true] at e
    rw [e] at hx
    cases hx

theorem told_both {a b : Nat × List Byte} (ha : Told on a.1 a.2) (hb : Told on b.1 b.2) :
    Told on (both a b).1 (both a b).2 := by
  refine ⟨fun h => ?_, fun h => ?_, ?_⟩
  · simp [both, ha.quiet h, hb.quiet h]
  · simp [both, ha.told h, hb.told h]
  · rcases hb.lines with h | h
    · simpa [both, h] using ha.lines
    · exact Or.inr (last_append h)

/-! ## Variables -/

theorem diffValue_told {a b : VarCore} {o : Option Nat} {t : List Byte}
    (h : diffValue E desc on a b = .ok (o, t)) :
    Var.diffValue a b = .ok o ∧ (∀ n, o = some n → Told on n t) := by
  unfold diffValue at h
  unfold Var.diffValue
  by_cases hc : a.code = b.code
  swap
  · rw [if_pos hc] at h ⊢
    obtain ⟨x, h1, h⟩ := Res.bind_eq_ok.mp h
    cases h
    refine ⟨rfl, fun n hn => ?_⟩
    cases hn
    exact told_ok h1 (by decide) (last_append (by decide))
  rw [if_neg (by simpa using hc)] at h ⊢
  cases hsa : a.isset <;> cases hsb : b.isset <;>
    simp only [hsa, hsb, Bool.not_true, Bool.not_false, Bool.and_self, Bool.and_false,
      Bool.and_true, Bool.or_self, Bool.or_false, Bool.or_true,
      if_true, Bool.false_eq_true, if_false] at h ⊢
  · cases h
    exact ⟨rfl, fun n hn => by cases hn; exact told_zero⟩
  · obtain ⟨p, h1, h⟩ := Res.bind_eq_ok.mp h
    obtain ⟨x, h2, h⟩ := Res.bind_eq_ok.mp h
    cases h
    refine ⟨rfl, fun n hn => ?_⟩
    cases hn
    refine told_logf h2 (by decide) fun y hy => ?_
    obtain ⟨s, -, hy⟩ := Res.bind_eq_ok.mp hy
    cases hy
    exact last_append (by decide)
  · obtain ⟨p, h1, h⟩ := Res.bind_eq_ok.mp h
    obtain ⟨x, h2, h⟩ := Res.bind_eq_ok.mp h
    cases h
    refine ⟨rfl, fun n hn => ?_⟩
    cases hn
    refine told_logf h2 (by decide) fun y hy => ?_
    obtain ⟨s, -, hy⟩ := Res.bind_eq_ok.mp hy
    cases hy
    exact last_append (by decide)
  · by_cases ht : a.info.type = b.info.type
    swap
    · rw [if_pos ht] at h ⊢
      obtain ⟨x, h1, h⟩ := Res.bind_eq_ok.mp h
      cases h
      refine ⟨rfl, fun n hn => ?_⟩
      cases hn
      exact told_ok h1 (by decide) (last_append (by decide))
    rw [if_neg (by simpa using ht)] at h ⊢
    cases hta : a.info.type <;> simp only [hta, reduceCtorEq, false_and, if_false, true_and] at h ⊢
    case binary =>
      by_cases hl : a.info.bit_len = b.info.bit_len
      swap
      · rw [if_pos hl] at h ⊢
        obtain ⟨x, h1, h⟩ := Res.bind_eq_ok.mp h
        cases h
        refine ⟨rfl, fun n hn => ?_⟩
        cases hn
        exact told_ok h1 (by decide) (last_append (by decide))
      rw [if_neg (by simpa using hl)] at h ⊢
      obtain ⟨e, h1, h⟩ := Res.bind_eq_ok.mp h
      rw [h1]
      cases e with
      | true => cases h; exact ⟨rfl, fun n hn => by cases hn⟩
      | false =>
        simp only [Bool.false_eq_true, if_false] at h
        obtain ⟨x, -, h⟩ := Res.bind_eq_ok.mp h
        obtain ⟨y, -, h⟩ := Res.bind_eq_ok.mp h
        obtain ⟨z, h2, h⟩ := Res.bind_eq_ok.mp h
        cases h
        refine ⟨rfl, fun n hn => ?_⟩
        cases hn
        exact told_ok h2 (by decide) (last_append (by decide))
    case string =>
      obtain ⟨e, h1, h⟩ := Res.bind_eq_ok.mp h
      rw [h1]
      cases e with
      | true => cases h; exact ⟨rfl, fun n hn => by cases hn⟩
      | false =>
        simp only [Bool.false_eq_true, if_false] at h
        obtain ⟨x, -, h⟩ := Res.bind_eq_ok.mp h
        obtain ⟨y, -, h⟩ := Res.bind_eq_ok.mp h
        obtain ⟨z, h2, h⟩ := Res.bind_eq_ok.mp h
        cases h
        refine ⟨rfl, fun n hn => ?_⟩
        cases hn
        refine told_logf h2 (by decide) fun y hy => ?_
        obtain ⟨s, -, hy⟩ := Res.bind_eq_ok.mp hy
        obtain ⟨s, -, hy⟩ := Res.bind_eq_ok.mp hy
        cases hy
        exact last_append (by decide)
    case integer =>
      obtain ⟨e, h1, h⟩ := Res.bind_eq_ok.mp h
      rw [h1]
      cases e with
      | true => cases h; exact ⟨rfl, fun n hn => by cases hn⟩
      | false =>
        simp only [Bool.false_eq_true, if_false] at h
        obtain ⟨x, -, h⟩ := Res.bind_eq_ok.mp h
        obtain ⟨y, -, h⟩ := Res.bind_eq_ok.mp h
        obtain ⟨z, h2, h⟩ := Res.bind_eq_ok.mp h
        cases h
        refine ⟨rfl, fun n hn => ?_⟩
        cases hn
        exact told_ok h2 (by decide) (last_append (by decide))
    case decimal =>
      obtain ⟨e, h1, h⟩ := Res.bind_eq_ok.mp h
      rw [h1]
      cases e with
      | true => cases h; exact ⟨rfl, fun n hn => by cases hn⟩
      | false =>
        simp only [Bool.false_eq_true, if_false] at h
        obtain ⟨x, -, h⟩ := Res.bind_eq_ok.mp h
        obtain ⟨y, -, h⟩ := Res.bind_eq_ok.mp h
        obtain ⟨x', -, h⟩ := Res.bind_eq_ok.mp h
        obtain ⟨y', -, h⟩ := Res.bind_eq_ok.mp h
        obtain ⟨z, h2, h⟩ := Res.bind_eq_ok.mp h
        cases h
        refine ⟨rfl, fun n hn => ?_⟩
        cases hn
        exact told_ok h2 (by decide) (last_append (by decide))

theorem print_last {v : VarCore} {l : List VarCore} {x : List Byte}
    (h : print E desc v l = .ok x) : x.getLast? = some 10 := by
  obtain ⟨y, h1, h⟩ := Res.bind_eq_ok.mp h
  obtain ⟨z, h2, h⟩ := Res.bind_eq_ok.mp h
  cases h
  have one : ∀ {v y}, printOne E desc v = .ok y → y.getLast? = some 10 := by
    intro v y h
    obtain ⟨s, -, h⟩ := Res.bind_eq_ok.mp h
    cases h
    exact last_append (by decide)
  have many : ∀ {l z}, printAttrs E desc l = .ok z → z = [] ∨ z.getLast? = some 10 := by
    clear h1 h2
    intro l z h2
    induction l generalizing z with
    | nil => cases h2; exact Or.inl rfl
    | cons a l ih =>
      obtain ⟨p, h3, h2⟩ := Res.bind_eq_ok.mp h2
      obtain ⟨q, h4, h2⟩ := Res.bind_eq_ok.mp h2
      cases h2
      rcases ih h4 with h | h
      · rw [h, List.append_nil]
        exact Or.inr (last_append (one h3))
      · exact Or.inr (last_append h)
  rcases many h2 with h | h
  · rw [h, List.append_nil]
    exact one h1
  · exact last_append h

theorem diff_told (k : Nat) :
    (∀ (owner : VarCore) (chain l m : List VarCore) (r : Nat × List Byte), l.length ≤ k →
      diffAttrs E desc on owner chain l m = .ok r → Var.diffAttrs l m = .ok r.1 ∧ Told on r.1 r.2) ∧
    (∀ (a : VarCore) (l : List VarCore) (b : VarCore) (m : List VarCore) (r : Nat × List Byte),
      l.length < k → diffChain E desc on a l b m = .ok r →
      Var.diffChain a l b m = .ok r.1 ∧ Told on r.1 r.2) := by
  induction k with
  | zero =>
    refine ⟨fun owner chain l m r hl h => ?_, fun a l b m r hl => absurd hl (by omega)⟩
    obtain rfl : l = [] := List.length_eq_zero_iff.mp (by omega)
    rw [diffAttrs] at h
    · cases h
      exact ⟨by rw [Var.diffAttrs]; simp, told_zero⟩
    · simp
  | succ k ih =>
    have chain : ∀ (a : VarCore) (l : List VarCore) (b : VarCore) (m : List VarCore) (r : Nat × List Byte),
        l.length < k + 1 → diffChain E desc on a l b m = .ok r →
        Var.diffChain a l b m = .ok r.1 ∧ Told on r.1 r.2 := by
      intro a l b m r hl h
      rw [diffChain] at h
      rw [Var.diffChain]
      obtain ⟨⟨o, t⟩, h1, h⟩ := Res.bind_eq_ok.mp h
      obtain ⟨g1, g2⟩ := diffValue_told h1
      rw [g1]
      cases o with
      | some n =>
        cases h
        exact ⟨rfl, g2 n rfl⟩
      | none =>
        simp only [Res.ok_bind] at h ⊢
        by_cases he : l.isEmpty = m.isEmpty
        swap
        · rw [if_pos he] at h ⊢
          obtain ⟨x, h2, h⟩ := Res.bind_eq_ok.mp h
          cases h
          exact ⟨rfl, told_ok h2 Nat.one_ne_zero (last_append (by cases l.isEmpty <;> decide))⟩
        rw [if_neg (by simpa using he)] at h ⊢
        by_cases hlm : l.length = m.length
        swap
        · rw [if_pos hlm] at h ⊢
          obtain ⟨x, h2, h⟩ := Res.bind_eq_ok.mp h
          cases h
          exact ⟨rfl, told_ok h2 (by simp only; omega) (last_append (by decide))⟩
        rw [if_neg (by simpa using hlm)] at h ⊢
        exact ih.1 a l l m r (by omega) h
    refine ⟨fun owner ch l m r hl h => ?_, chain⟩
    cases l with
    | nil =>
      rw [diffAttrs] at h
      · cases h
        exact ⟨by rw [Var.diffAttrs]; simp, told_zero⟩
      · simp
    | cons a l =>
      cases m with
      | nil =>
        rw [diffAttrs] at h
        · cases h
          exact ⟨by rw [Var.diffAttrs]; simp, told_zero⟩
        · simp
      | cons b m =>
        rw [diffAttrs] at h
        rw [Var.diffAttrs]
        simp only [ne_eq] at h ⊢
        generalize (if a.code < b.code then a.code else if b.code < a.code then b.code else 0) = ex at h ⊢
        by_cases he : ex = 0
        swap
        · rw [if_pos he] at h ⊢
          obtain ⟨x, h2, h⟩ := Res.bind_eq_ok.mp h
          cases h
          exact ⟨rfl, told_ok h2 Nat.one_ne_zero (last_append (by decide))⟩
        rw [if_neg (by simpa using he)] at h ⊢
        obtain ⟨d, h2, h⟩ := Res.bind_eq_ok.mp h
        obtain ⟨g1, g2⟩ := chain a l b m d (by simp at hl; omega) h2
        rw [g1]
        simp only [Res.ok_bind]
        by_cases hd : d.1 = 0
        swap
        · rw [if_pos hd] at h ⊢
          obtain ⟨x, h3, h⟩ := Res.bind_eq_ok.mp h
          obtain ⟨t, h4, h⟩ := Res.bind_eq_ok.mp h
          cases h
          refine ⟨rfl, ?_⟩
          have ht := told_ok h4 hd (last_append (print_last h3))
          refine ⟨fun e => ?_, fun e => ?_, ?_⟩
          · simp [g2.quiet e, ht.quiet e]
          · simp [g2.told e, ht.told e]
          · rcases ht.lines with e | e
            · simpa [e] using g2.lines
            · exact Or.inr (last_append e)
        rw [if_neg (by simpa using hd)] at h ⊢
        exact ih.1 owner ch l m r (by simp at hl; omega) h

/-- `Var::diff` with notes counts what it counts. -/
theorem diffVar_told {a b : Var} {r : Nat × List Byte} (h : diffVar E desc on a b = .ok r) :
    a.diff b = .ok r.1 ∧ Told on r.1 r.2 :=
  (diff_told (a.attrs.length + 1)).2 _ _ _ _ _ (by omega) h

/-! ## Notes can be written -/

/-- A value that notes can show: it is sane, not the smallest 32-bit number, and if it is
binary and notes are wanted, there is a NUL in its buffer. -/
structure _root_.Wreport.VarCore.Showable (E : Env) (on : Bool) (v : VarCore) : Prop where
  sane : v.Sane E
  num : ∀ i, v.view = some (.num i) → i ≠ -2147483648 ∨ E.wrapv = true
  nul : on = true → v.info.type = .binary → v.isset = true → ∃ m s, v.cell = .mem m ∧ cstr m = .ok s

theorem logf_ok {r : Res (List Byte)} (h : on = true → ∃ x, r = .ok x) : ∃ t, logf on r = .ok t := by
  unfold logf
  cases on with
  | false => exact ⟨_, rfl⟩
  | true => exact h rfl

theorem enqc_shown {v : VarCore} (h : v.Showable E on) (hs : v.isset = true) :
    ∃ p, v.enqc E = .ok p ∧ (on = true → ∃ s, cstr p = .ok s) := by
  have hw := h.sane.wf
  have hnum := h.num
  unfold VarCore.WF at hw
  unfold VarCore.view at hnum
  unfold VarCore.enqc
  simp only [hs, Bool.not_true, Bool.false_eq_true, if_false] at hnum ⊢
  cases ht : v.info.type <;> simp only [ht] at hw hnum ⊢
  case string =>
    rcases hw with hw | ⟨m, hc, -, hw⟩
    · rw [hs] at hw; simp at hw
    · obtain ⟨s, hw⟩ := hw hs
      exact ⟨m, by simp [VarCore.ptr, hc], fun _ => ⟨s, hw⟩⟩
  case binary =>
    rcases hw with hw | ⟨m, hc, -, -⟩
    · rw [hs] at hw; simp at hw
    · refine ⟨m, by simp [VarCore.ptr, hc], fun ho => ?_⟩
      obtain ⟨m', s, h1, h2⟩ := h.nul ho ht hs
      rw [hc] at h1
      cases h1
      exact ⟨s, h2⟩
  all_goals
    obtain ⟨i, hc, hi⟩ := hw
    simp only [hc] at hnum ⊢
    obtain ⟨s, h1, h2, m, h3⟩ := int32_to_stdstr_ok E hi (hnum i rfl)
    refine ⟨_, h3, fun _ => ⟨s, ?_⟩⟩
    exact cstr_c_str s m (strToInt32_decimal h2 hi).2.2

theorem format_ok {v : VarCore} (h : v.Sane E) (u : List Byte) : ∃ x, v.format E u = .ok x := by
  obtain ⟨x, hx⟩ := h.formatFile u
  unfold VarCore.formatFile at hx
  unfold VarCore.format
  cases hs : v.isset with
  | false => exact ⟨_, rfl⟩
  | true =>
    simp only [hs, Bool.not_true, Bool.false_eq_true, if_false] at hx ⊢
    cases ht : v.info.type <;> simp only [ht] at hx ⊢
    case string => exact ⟨_, hx⟩
    case binary => exact ⟨_, hx⟩
    all_goals
      rw [hx]
      exact ⟨_, rfl⟩

theorem print_ok {v : VarCore} {l : List VarCore} (h : v.Sane E) (hl : ∀ x ∈ l, x.Sane E) :
    ∃ x, print E desc v l = .ok x := by
  have one : ∀ {v : VarCore}, v.Sane E → ∃ y, printOne E desc v = .ok y := by
    intro v h
    obtain ⟨s, hs⟩ := format_ok h (ascii "(undef)")
    unfold printOne
    rw [hs]
    exact ⟨_, rfl⟩
  have many : ∃ y, printAttrs E desc l = .ok y := by
    clear h
    induction l with
    | nil => exact ⟨_, rfl⟩
    | cons a l ih =>
      obtain ⟨x, hx⟩ := one (hl a (by simp))
      obtain ⟨y, hy⟩ := ih fun x hx => hl x (List.mem_cons_of_mem _ hx)
      unfold printAttrs
      rw [hx, Res.ok_bind, hy]
      exact ⟨_, rfl⟩
  obtain ⟨x, hx⟩ := one h
  obtain ⟨y, hy⟩ := many
  unfold print
  rw [hx, Res.ok_bind, hy]
  exact ⟨_, rfl⟩

theorem diffValue_ok {a b : VarCore} (ha : a.Showable E on) (hb : b.Showable E on)
    (hi : a.code = b.code → a.info = b.info) : ∃ r, diffValue E desc on a b = .ok r := by
  unfold diffValue
  by_cases hc : a.code = b.code
  swap
  · rw [if_pos hc]
    obtain ⟨t, h⟩ := logf_ok (on := on) (r := .ok _) fun _ => ⟨_, rfl⟩
    rw [h]
    exact ⟨_, rfl⟩
  have hi := hi hc
  rw [if_neg (by simpa using hc)]
  have hve := value_equals_eq ha.sane.wf hb.sane.wf hi
  cases hsa : a.isset <;> cases hsb : b.isset <;>
    simp only [Bool.not_true, Bool.not_false, Bool.and_self, Bool.and_false,
      Bool.and_true, if_true, Bool.false_eq_true, if_false]
  · exact ⟨_, rfl⟩
  · obtain ⟨p, h1, h2⟩ := enqc_shown hb hsb
    rw [h1]
    simp only [Res.ok_bind]
    obtain ⟨t, h⟩ := logf_ok (on := on) (r := cstr p >>= fun s => pure (head desc a ++
      ascii "first value is NULL, second value is " ++ s ++ ascii "\n")) fun ho => by
        obtain ⟨s, h3⟩ := h2 ho
        rw [h3]
        exact ⟨_, rfl⟩
    rw [h]
    exact ⟨_, rfl⟩
  · obtain ⟨p, h1, h2⟩ := enqc_shown ha hsa
    rw [h1]
    simp only [Res.ok_bind]
    obtain ⟨t, h⟩ := logf_ok (on := on) (r := cstr p >>= fun s => pure (head desc a ++
      ascii "first value is " ++ s ++ ascii ", second value is NULL\n")) fun ho => by
        obtain ⟨s, h3⟩ := h2 ho
        rw [h3]
        exact ⟨_, rfl⟩
    rw [h]
    exact ⟨_, rfl⟩
  · rw [if_neg (by simp [hi])]
    rw [hve]
    have hwa := ha.sane.wf
    have hwb := hb.sane.wf
    unfold VarCore.WF at hwa hwb
    rw [← hi] at hwb
    cases hta : a.info.type <;> simp only [hta] at hwa hwb ⊢
    case binary =>
      rw [if_neg (by simp [hi])]
      simp only [Res.ok_bind]
      split
      · exact ⟨_, rfl⟩
      · obtain ⟨x, hx⟩ := format_ok ha.sane []
        obtain ⟨y, hy⟩ := format_ok hb.sane []
        rw [hx, Res.ok_bind, hy, Res.ok_bind]
        obtain ⟨t, h⟩ := logf_ok (on := on) (r := .ok _) fun _ => ⟨_, rfl⟩
        rw [h]
        exact ⟨_, rfl⟩
    case string =>
      simp only [Res.ok_bind]
      split
      · exact ⟨_, rfl⟩
      · rcases hwa with hw | ⟨m, hm, -, hw⟩
        · rw [hsa] at hw; simp at hw
        rcases hwb with hw' | ⟨m', hm', -, hw'⟩
        · rw [hsb] at hw'; simp at hw'
        obtain ⟨s, hw⟩ := hw hsa
        obtain ⟨s', hw'⟩ := hw' hsb
        simp only [VarCore.ptr, hm, hm', Res.ok_bind, hw, hw']
        obtain ⟨t, h⟩ := logf_ok (on := on) (r := .ok _) fun _ => ⟨_, rfl⟩
        simp only [Res.pure_def]
        rw [h]
        exact ⟨_, rfl⟩
    case integer =>
      simp only [Res.ok_bind]
      split
      · exact ⟨_, rfl⟩
      · obtain ⟨i, hci, -⟩ := hwa
        obtain ⟨j, hcj, -⟩ := hwb
        have e1 : a.enqi = .ok i := by simp [VarCore.enqi, hsa, hta, hci]
        have e2 : b.enqi = .ok j := by simp [VarCore.enqi, hsb, ← hi, hta, hcj]
        rw [e1, Res.ok_bind, e2, Res.ok_bind]
        obtain ⟨t, h⟩ := logf_ok (on := on) (r := .ok _) fun _ => ⟨_, rfl⟩
        rw [h]
        exact ⟨_, rfl⟩
    case decimal =>
      simp only [Res.ok_bind]
      split
      · exact ⟨_, rfl⟩
      · obtain ⟨i, hci, -⟩ := hwa
        obtain ⟨j, hcj, -⟩ := hwb
        have e1 : a.enqi = .ok i := by simp [VarCore.enqi, hsa, hta, hci]
        have e2 : b.enqi = .ok j := by simp [VarCore.enqi, hsb, ← hi, hta, hcj]
        obtain ⟨x, -, hx⟩ := enqd_decode ha.sane.made (Or.inr hta) hsa hci
        obtain ⟨y, -, hy⟩ := enqd_decode hb.sane.made (Or.inr (hi ▸ hta)) hsb hcj
        rw [← hi] at hy
        rw [e1, Res.ok_bind, e2, Res.ok_bind, hx, Res.ok_bind, hy, Res.ok_bind]
        obtain ⟨t, h⟩ := logf_ok (on := on) (r := .ok _) fun _ => ⟨_, rfl⟩
        rw [h]
        exact ⟨_, rfl⟩

theorem diff_ok (k : Nat) :
    (∀ (owner : VarCore) (chain l m : List VarCore), l.length ≤ k → owner.Sane E →
      (∀ x ∈ chain, x.Sane E) → (∀ x ∈ l, x.Showable E on) → (∀ x ∈ m, x.Showable E on) →
      (∀ x ∈ l, ∀ y ∈ m, x.code = y.code → x.info = y.info) →
      ∃ r, diffAttrs E desc on owner chain l m = .ok r) ∧
    (∀ (a : VarCore) (l : List VarCore) (b : VarCore) (m : List VarCore), l.length < k →
      (∀ x ∈ a :: l, x.Showable E on) → (∀ x ∈ b :: m, x.Showable E on) →
      (∀ x ∈ a :: l, ∀ y ∈ b :: m, x.code = y.code → x.info = y.info) →
      ∃ r, diffChain E desc on a l b m = .ok r) := by
  induction k with
  | zero =>
    refine ⟨fun owner chain l m hl _ _ _ _ _ => ?_, fun a l b m hl => absurd hl (by omega)⟩
    obtain rfl : l = [] := List.length_eq_zero_iff.mp (by omega)
    exact ⟨_, by rw [diffAttrs]; simp⟩
  | succ k ih =>
    have chain : ∀ (a : VarCore) (l : List VarCore) (b : VarCore) (m : List VarCore), l.length < k + 1 →
        (∀ x ∈ a :: l, x.Showable E on) → (∀ x ∈ b :: m, x.Showable E on) →
        (∀ x ∈ a :: l, ∀ y ∈ b :: m, x.code = y.code → x.info = y.info) →
        ∃ r, diffChain E desc on a l b m = .ok r := by
      intro a l b m hl ha hb hi
      rw [diffChain]
      obtain ⟨⟨o, t⟩, h1⟩ := diffValue_ok (desc := desc) (ha a (by simp)) (hb b (by simp))
        (hi a (by simp) b (by simp))
      rw [h1]
      cases o with
      | some n => exact ⟨_, rfl⟩
      | none =>
        simp only [Res.ok_bind]
        split
        · obtain ⟨t, h⟩ := logf_ok (on := on) (r := .ok _) fun _ => ⟨_, rfl⟩
          rw [h]
          exact ⟨_, rfl⟩
        · split
          · obtain ⟨t, h⟩ := logf_ok (on := on) (r := .ok _) fun _ => ⟨_, rfl⟩
            rw [h]
            exact ⟨_, rfl⟩
          · exact ih.1 a l l m (by omega) (ha a (by simp)).sane
              (fun x hx => (ha x (List.mem_cons_of_mem _ hx)).sane)
              (fun x hx => ha x (List.mem_cons_of_mem _ hx))
              (fun x hx => hb x (List.mem_cons_of_mem _ hx))
              (fun x hx y hy => hi x (List.mem_cons_of_mem _ hx) y (List.mem_cons_of_mem _ hy))
    refine ⟨fun owner ch l m hl ho hch ha hb hi => ?_, chain⟩
    cases l with
    | nil => exact ⟨_, by rw [diffAttrs]; simp⟩
    | cons a l =>
      cases m with
      | nil => exact ⟨_, by rw [diffAttrs]; simp⟩
      | cons b m =>
        rw [diffAttrs]
        simp only [ne_eq]
        generalize (if a.code < b.code then a.code else if b.code < a.code then b.code else 0) = ex
        split
        · obtain ⟨t, h⟩ := logf_ok (on := on) (r := .ok _) fun _ => ⟨_, rfl⟩
          rw [h]
          exact ⟨_, rfl⟩
        · obtain ⟨d, hd⟩ := chain a l b m (by simp at hl; omega) ha hb hi
          rw [hd]
          simp only [Res.ok_bind]
          split
          · obtain ⟨x, hx⟩ := print_ok (desc := desc) ho hch
            rw [hx, Res.ok_bind]
            obtain ⟨t, h⟩ := logf_ok (on := on) (r := .ok _) fun _ => ⟨_, rfl⟩
            rw [h]
            exact ⟨_, rfl⟩
          · exact ih.1 owner ch l m (by simp at hl; omega) ho hch
              (fun x hx => ha x (List.mem_cons_of_mem _ hx))
              (fun x hx => hb x (List.mem_cons_of_mem _ hx))
              (fun x hx y hy => hi x (List.mem_cons_of_mem _ hx) y (List.mem_cons_of_mem _ hy))

/-- Variables from the same tables whose values notes can show can be compared. -/
theorem diffVar_ok {a b : Var} (ha : ∀ x ∈ a.toVarCore :: a.attrs, x.Showable E on)
    (hb : ∀ x ∈ b.toVarCore :: b.attrs, x.Showable E on) (ht : SameTables a b) :
    ∃ r, diffVar E desc on a b = .ok r :=
  (diff_ok (a.attrs.length + 1)).2 _ _ _ _ (by omega) ha hb ht

/-! ## Subsets and bulletins -/

theorem diffVars_told {s s' : Subset} {r : Nat × List Byte} (h : diffVars E desc on s s' = .ok r) :
    Subset.diffVars s s' = .ok r.1 ∧ Told on r.1 r.2 := by
  induction s generalizing s' with
  | nil =>
    cases h
    exact ⟨by simp [Subset.diffVars], told_zero⟩
  | cons a s ih =>
    cases s' with
    | nil =>
      cases h
      exact ⟨by simp [Subset.diffVars], told_zero⟩
    | cons b s' =>
      obtain ⟨d, h1, h⟩ := Res.bind_eq_ok.mp h
      obtain ⟨g1, g2⟩ := diffVar_told h1
      simp only [Subset.diffVars, g1, Res.ok_bind]
      split at h
      · rename_i hd
        cases h
        rw [if_pos hd]
        exact ⟨rfl, g2⟩
      · rename_i hd
        rw [if_neg hd]
        exact ih h

theorem diffSubset_told {t t' : Tables} {s s' : Subset} {r : Nat × List Byte}
    (h : diffSubset E desc on t s t' s' = .ok r) :
    Subset.diff t s t' s' = .ok r.1 ∧ Told on r.1 r.2 := by
  unfold diffSubset at h
  unfold Subset.diff
  cases hb : t.btable with
  | none => simp [hb] at h
  | some b =>
    cases hb' : t'.btable with
    | none => simp [hb, hb'] at h
    | some b' =>
      simp only [hb, hb'] at h ⊢
      by_cases hp : b.1 = b'.1
      swap
      · rw [if_pos hp] at h ⊢
        obtain ⟨x, h1, h⟩ := Res.bind_eq_ok.mp h
        cases h
        exact ⟨rfl, told_ok h1 Nat.one_ne_zero (last_append (by decide))⟩
      rw [if_neg (by simpa using hp)] at h ⊢
      by_cases hl : s.length = s'.length
      swap
      · rw [if_pos hl] at h ⊢
        obtain ⟨x, h1, h⟩ := Res.bind_eq_ok.mp h
        cases h
        exact ⟨rfl, told_ok h1 Nat.one_ne_zero (last_append (by decide))⟩
      rw [if_neg (by simpa using hl)] at h ⊢
      exact diffVars_told h

theorem diffSubsets_told {t t' : Tables} {l l' : List Subset} {r : Nat × List Byte}
    (h : diffSubsets E desc on t t' l l' = .ok r) :
    Bulletin.diffSubsets t t' l l' = .ok r.1 ∧ Told on r.1 r.2 := by
  induction l generalizing l' r with
  | nil =>
    cases h
    exact ⟨by simp [Bulletin.diffSubsets], told_zero⟩
  | cons s l ih =>
    cases l' with
    | nil =>
      cases h
      exact ⟨by simp [Bulletin.diffSubsets], told_zero⟩
    | cons s' l' =>
      obtain ⟨d, h1, h⟩ := Res.bind_eq_ok.mp h
      obtain ⟨n, h2, h⟩ := Res.bind_eq_ok.mp h
      cases h
      obtain ⟨g1, g2⟩ := diffSubset_told h1
      obtain ⟨g3, g4⟩ := ih h2
      simp only [Bulletin.diffSubsets, g1, g3, Res.ok_bind]
      exact ⟨rfl, told_both g2 g4⟩

theorem told_number (name : String) (a b : Nat) :
    (number on name a b).1 = Bulletin.differ a b ∧
      Told on (number on name a b).1 (number on name a b).2 := by
  unfold number Bulletin.differ
  split
  · exact ⟨rfl, told_one (last_append (by decide))⟩
  · exact ⟨rfl, told_zero⟩

theorem differ_u8 (a b : UInt8) : Bulletin.differ a.toNat b.toNat = Bulletin.differ a b := by
  unfold Bulletin.differ
  simp only [ne_eq, UInt8.toNat_inj]

theorem differ_u16 (a b : UInt16) : Bulletin.differ a.toNat b.toNat = Bulletin.differ a b := by
  unfold Bulletin.differ
  simp only [ne_eq, UInt16.toNat_inj]

theorem differ_bool (a b : Bool) : Bulletin.differ a.toNat b.toNat = Bulletin.differ a b := by
  cases a <;> cases b <;> rfl

theorem told_if {p : Prop} [Decidable p] {x : List Byte} (hx : x.getLast? = some 10) :
    (if p then one on x else (0, [])).1 = (if p then 1 else 0) ∧
      Told on (if p then one on x else (0, [])).1 (if p then one on x else (0, [])).2 := by
  by_cases h : p
  · rw [if_pos h, if_pos h]
    exact ⟨rfl, told_one hx⟩
  · rw [if_neg h, if_neg h]
    exact ⟨rfl, told_zero⟩

theorem diffDetails_told {d : Details} {m : Bulletin} {r : Nat × List Byte}
    (h : diffDetails on d m = .ok r) : Bulletin.diff_details d m = .ok r.1 ∧ Told on r.1 r.2 := by
  unfold diffDetails at h
  unfold Bulletin.diff_details
  cases d with
  | bufr d =>
    cases hm : m.details with
    | crex m => simp [hm] at h
    | bufr m' =>
      simp only [hm, Res.ok.injEq] at h ⊢
      subst h
      refine ⟨?_, told_both (told_number ..).2 <| told_both (told_number ..).2 <|
        told_both (told_number ..).2 <| told_both (told_number ..).2 (told_if (by decide)).2⟩
      simp only [both, (told_number ..).1, (told_if (p := d.optional_section ≠ m'.optional_section)
        (x := ascii "BUFR optional section contents differ\n") (by decide)).1, differ_u8]
      simp only [Bulletin.differ]
      omega
  | crex d =>
    cases hm : m.details with
    | bufr m => simp [hm] at h
    | crex m' =>
      simp only [hm, Res.ok.injEq] at h ⊢
      subst h
      have key := told_if (on := on)
        (p := d.master_table_version_number ≠ m'.master_table_version_number)
        (x := firstSecond "BUFR master table version numbers differ"
          (Printer.dec d.master_table_version_number_bufr.toNat)
          (Printer.dec m'.master_table_version_number_bufr.toNat)) (last_append (by decide))
      refine ⟨?_, told_both (told_number ..).2 <| told_both (told_number ..).2 <|
        told_both (told_number ..).2 <| told_both key.2 (told_number ..).2⟩
      simp only [both, (told_number ..).1, key.1, differ_u8, differ_bool]
      simp only [Bulletin.differ]
      omega

theorem diffEncoding_told {b m : Bulletin} {r : Nat × List Byte} (h : diffEncoding on b m = .ok r) :
    Bulletin.diffEncoding b m = .ok r.1 ∧ Told on r.1 r.2 := by
  unfold diffEncoding at h
  unfold Bulletin.diffEncoding
  split at h
  · rename_i he
    cases h
    rw [if_pos he]
    exact ⟨rfl, told_one (last_append (by decide))⟩
  · rename_i he
    rw [if_neg he]
    exact diffDetails_told h

theorem diffFields_told (b m : Bulletin) : (diffFields on b m).1 = Bulletin.diffFields b m ∧
    Told on (diffFields on b m).1 (diffFields on b m).2 := by
  constructor
  · unfold diffFields Bulletin.diffFields
    simp only [both, (told_number ..).1, differ_u8, differ_u16]
    omega
  · unfold diffFields
    repeat' apply told_both
    all_goals exact (told_number ..).2

theorem diffPath_told (what tables : String) (a b : Option (List Byte)) :
    (diffPath on what tables a b).1 = Bulletin.diffPath a b ∧
      Told on (diffPath on what tables a b).1 (diffPath on what tables a b).2 := by
  unfold diffPath Bulletin.diffPath
  cases a <;> cases b <;> simp only
  · exact ⟨rfl, told_zero⟩
  · exact ⟨rfl, told_one (last_append (by decide))⟩
  · exact ⟨rfl, told_one (last_append (by decide))⟩
  · rename_i p q
    by_cases h : p = q
    · subst h
      simp only [ne_eq, not_true_eq_false, if_false]
      exact ⟨by simp, told_zero⟩
    · simp only [ne_eq, h, not_false_eq_true, if_true]
      exact ⟨by simp [one, h], told_one (last_append (by decide))⟩

theorem descLoop_told (i : Nat) (a b : List Varcode) :
    (descLoop on i a b).1 = ((a.zip b).filter fun p => p.1 ≠ p.2).length ∧
      Told on (descLoop on i a b).1 (descLoop on i a b).2 := by
  induction a generalizing b i with
  | nil => exact ⟨rfl, told_zero⟩
  | cons x a ih =>
    cases b with
    | nil => exact ⟨rfl, told_zero⟩
    | cons y b =>
      have key := told_if (on := on) (p := x ≠ y)
        (x := ascii "Data descriptors differ at element " ++ Printer.dec i ++ ascii " (first has " ++
          Printer.digits x ++ ascii ", second has " ++ Printer.digits y ++ ascii ")\n")
        (last_append (by decide))
      obtain ⟨h1, h2⟩ := ih (i + 1) b
      refine ⟨?_, told_both key.2 h2⟩
      simp only [descLoop, both, key.1, h1, List.zip_cons_cons, List.filter_cons]
      by_cases h : x = y
      · simp [h]
      · simp only [ne_eq, h, not_false_eq_true, if_true, decide_true, List.length_cons]
        omega

theorem diffDesc_told (a b : List Varcode) : (diffDesc on a b).1 = Bulletin.diffDesc a b ∧
    Told on (diffDesc on a b).1 (diffDesc on a b).2 := by
  unfold diffDesc Bulletin.diffDesc
  split
  · exact ⟨rfl, told_one (last_append (by decide))⟩
  · exact descLoop_told 0 a b

theorem diffAllSubsets_told {b m : Bulletin} {r : Nat × List Byte}
    (h : diffAllSubsets E desc on b m = .ok r) :
    Bulletin.diffAllSubsets b m = .ok r.1 ∧ Told on r.1 r.2 := by
  unfold diffAllSubsets at h
  unfold Bulletin.diffAllSubsets
  split at h
  · rename_i hl
    cases h
    rw [if_pos hl, (told_number ..).1]
    refine ⟨by simp [Bulletin.differ, hl], ?_⟩
    rw [← (told_number (on := on) "Number of subsets differ" ..).1]
    exact (told_number ..).2
  · rename_i hl
    rw [if_neg hl]
    exact diffSubsets_told h

/-- `Bulletin::diff` with notes counts what it counts. -/
theorem diffBulletin_told {b m : Bulletin} {r : Nat × List Byte}
    (h : diffBulletin E desc on b m = .ok r) : b.diff m = .ok r.1 ∧ Told on r.1 r.2 := by
  obtain ⟨d, h1, h⟩ := Res.bind_eq_ok.mp h
  obtain ⟨s, h2, h⟩ := Res.bind_eq_ok.mp h
  obtain ⟨g1, g2⟩ := diffEncoding_told h1
  obtain ⟨g3, g4⟩ := diffAllSubsets_told h2
  cases h
  refine ⟨?_, told_both g2 <| told_both (diffFields_told ..).2 <| told_both (diffPath_told ..).2 <|
    told_both (diffPath_told ..).2 <| told_both (diffDesc_told ..).2 g4⟩
  unfold Bulletin.diff
  simp only [g1, g3, Res.ok_bind, Res.pure_def, both, (diffFields_told ..).1, (diffPath_told ..).1,
    (diffDesc_told ..).1]
  congr 1
  omega

/-- The variables of two subsets can be compared with notes. -/
def CanTell (E : Env) (on : Bool) (s s' : Subset) : Prop :=
  ∀ p ∈ s.zip s', (∀ x ∈ p.1.toVarCore :: p.1.attrs, x.Showable E on) ∧
    (∀ x ∈ p.2.toVarCore :: p.2.attrs, x.Showable E on) ∧ SameTables p.1 p.2

theorem diffVars_ok {s s' : Subset} (h : CanTell E on s s') : ∃ r, diffVars E desc on s s' = .ok r := by
  induction s generalizing s' with
  | nil => exact ⟨_, rfl⟩
  | cons a s ih =>
    cases s' with
    | nil => exact ⟨_, rfl⟩
    | cons b s' =>
      obtain ⟨h1, h2, h3⟩ := h (a, b) (by simp)
      obtain ⟨d, hd⟩ := diffVar_ok (desc := desc) h1 h2 h3
      unfold diffVars
      rw [hd]
      simp only [Res.ok_bind]
      split
      · exact ⟨_, rfl⟩
      · exact ih fun p hp => h p (by simp [hp])

theorem diffSubset_ok {t t' : Tables} {s s' : Subset} (ht : t.btable ≠ none) (ht' : t'.btable ≠ none)
    (h : CanTell E on s s') : ∃ r, diffSubset E desc on t s t' s' = .ok r := by
  obtain ⟨b, hb⟩ := Option.ne_none_iff_exists'.mp ht
  obtain ⟨b', hb'⟩ := Option.ne_none_iff_exists'.mp ht'
  unfold diffSubset
  simp only [hb, hb']
  split
  · obtain ⟨t, h⟩ := logf_ok (on := on) (r := .ok _) fun _ => ⟨_, rfl⟩
    rw [h]
    exact ⟨_, rfl⟩
  · split
    · obtain ⟨t, h⟩ := logf_ok (on := on) (r := .ok _) fun _ => ⟨_, rfl⟩
      rw [h]
      exact ⟨_, rfl⟩
    · exact diffVars_ok h

theorem diffSubsets_ok {t t' : Tables} {l l' : List Subset}
    (ht : l = [] ∨ t.btable ≠ none) (ht' : l' = [] ∨ t'.btable ≠ none)
    (h : ∀ q ∈ l.zip l', CanTell E on q.1 q.2) : ∃ r, diffSubsets E desc on t t' l l' = .ok r := by
  induction l generalizing l' with
  | nil => exact ⟨_, rfl⟩
  | cons s l ih =>
    cases l' with
    | nil => exact ⟨_, rfl⟩
    | cons s' l' =>
      have ht := ht.resolve_left (by simp)
      have ht' := ht'.resolve_left (by simp)
      obtain ⟨d, hd⟩ := diffSubset_ok (desc := desc) ht ht' (h (s, s') (by simp))
      obtain ⟨n, hn⟩ := ih (l' := l') (Or.inr ht) (Or.inr ht') fun q hq => h q (by simp [hq])
      unfold diffSubsets
      rw [hd, Res.ok_bind, hn]
      exact ⟨_, rfl⟩

theorem diffEncoding_ok (b m : Bulletin) : ∃ r, diffEncoding on b m = .ok r := by
  unfold diffEncoding Bulletin.encoding_name diffDetails
  cases b.details <;> cases m.details <;> simp [ascii]

theorem diffBulletin_ok {b m : Bulletin} (ht : b.subsets = [] ∨ b.tables.btable ≠ none)
    (ht' : m.subsets = [] ∨ m.tables.btable ≠ none)
    (h : ∀ q ∈ b.subsets.zip m.subsets, CanTell E on q.1 q.2) :
    ∃ r, diffBulletin E desc on b m = .ok r := by
  obtain ⟨d, hd⟩ := diffEncoding_ok (on := on) b m
  have : ∃ s, diffAllSubsets E desc on b m = .ok s := by
    unfold diffAllSubsets
    split
    · exact ⟨_, rfl⟩
    · exact diffSubsets_ok ht ht' h
  obtain ⟨s, hs⟩ := this
  unfold diffBulletin
  rw [hd, Res.ok_bind, hs]
  exact ⟨_, rfl⟩

end Notes

end Wreport
