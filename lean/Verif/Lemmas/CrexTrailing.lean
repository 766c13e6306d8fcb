import Verif.Lemmas.Sim
import Verif.Model.Crex

/-!
# What decoding a CREX message does not look at

A text that is decoded has `++` at the end of its data, and numbers are not read beyond.
-/

namespace Wreport.Crex

namespace In

/-- The same place, with something after the text. -/
def more (i : In) (m : List Byte) : In := { i with data := i.data ++ m }

theorem rem_more {i : In} (m : List Byte) (h : i.cur ≤ i.data.length) :
    (i.more m).rem = i.rem ++ m := by
  unfold rem more
  exact List.drop_append_of_le_length h

theorem rem_count (i : In) : i.rem.length = i.data.length - i.cur := List.length_drop

theorem peek_more {i : In} (m : List Byte) {k : Nat} (h : i.cur + k < i.data.length) :
    (i.more m).peek k = i.peek k := by
  unfold peek more
  simp only [List.length_append]
  rw [if_pos h, if_pos (by omega)]
  congr 1
  simp only [List.getD_eq_getElem?_getD]
  rw [List.getElem?_append_left h]

theorem check_eof_ok {i : In} {u : Unit} (h : i.check_eof = .ok u) : i.cur < i.data.length := by
  unfold check_eof at h
  split at h
  · cases h
  · omega

theorem check_eof_more {i : In} (m : List Byte) (h : i.cur < i.data.length) :
    (i.more m).check_eof = .ok () := by
  unfold check_eof more
  simp only [List.length_append]
  rw [if_neg (by omega)]

theorem available_ok {i : In} {n : Nat} {u : Unit} (h : i.check_available_data n = .ok u) :
    i.cur + n ≤ i.data.length := by
  unfold check_available_data at h
  split at h
  · cases h
  · omega

theorem available_more {i : In} (m : List Byte) {n : Nat} (h : i.cur + n ≤ i.data.length) :
    (i.more m).check_available_data n = .ok () := by
  unfold check_available_data more
  simp only [List.length_append]
  rw [if_neg (by omega)]

theorem takeWhile_append_short {α : Type} {p : α → Bool} {l : List α} (m : List α)
    (h : (l.takeWhile p).length < l.length) : (l ++ m).takeWhile p = l.takeWhile p := by
  rw [List.takeWhile_append]
  rw [if_neg (by omega)]

theorem skip_spaces_cur (i : In) : i.cur ≤ i.skip_spaces.cur := Nat.le_add_right _ _

theorem skip_spaces_data (i : In) : i.skip_spaces.data = i.data := rfl

theorem skip_spaces_more {i : In} (m : List Byte) (h : i.skip_spaces.cur < i.data.length) :
    (i.more m).skip_spaces = i.skip_spaces.more m := by
  have hc : i.cur < i.data.length := lt_of_le_of_lt i.skip_spaces_cur h
  unfold skip_spaces at h ⊢
  rw [rem_more m (by omega)]
  have : (i.rem.takeWhile isSpace).length < i.rem.length := by
    rw [rem_count]
    simp only [adv] at h
    omega
  rw [takeWhile_append_short m this]
  rfl

theorem skip_data_more {i : In} (m : List Byte) {n : Nat}
    (h : (i.skip_data_and_spaces n).cur < i.data.length) :
    (i.more m).skip_data_and_spaces n = (i.skip_data_and_spaces n).more m :=
  skip_spaces_more (i := i.adv n) m h

theorem take_more {i : In} (m : List Byte) {n : Nat} (h : i.cur + n ≤ i.data.length) :
    (i.more m).rem.take n = i.rem.take n := by
  rw [rem_more m (by omega), List.take_append_of_le_length (by rw [rem_count]; omega)]

theorem read_word_more {i : In} (m : List Byte) {n : Nat} (h : (i.read_word n).2.cur < i.data.length) :
    (i.more m).read_word n = ((i.read_word n).1, (i.read_word n).2.more m) := by
  have hc : i.cur + ((i.rem.takeWhile (fun c => !isSpace c)).take (n - 1)).length < i.data.length :=
    lt_of_le_of_lt (skip_spaces_cur (i.adv _)) h
  have hw : (((i.more m).rem).takeWhile (fun c => !isSpace c)).take (n - 1) =
      (i.rem.takeWhile (fun c => !isSpace c)).take (n - 1) := by
    rw [rem_more m (by omega)]
    by_cases hs : (i.rem.takeWhile (fun c => !isSpace c)).length < i.rem.length
    · rw [takeWhile_append_short m hs]
    · have hle : (i.rem.takeWhile (fun c => !isSpace c)).length ≤ i.rem.length :=
        (List.takeWhile_prefix _).length_le
      have he : i.rem.takeWhile (fun c => !isSpace c) = i.rem :=
        (List.takeWhile_prefix _).eq_of_length (by omega)
      rw [List.takeWhile_append, he, if_pos rfl]
      rw [he, List.length_take, rem_count] at hc
      rw [List.take_append_of_le_length (by rw [rem_count]; omega)]
  unfold read_word
  simp only [hw]
  congr 1
  exact skip_spaces_more (i := i.adv _) m h

/-- The text goes on to the end of the data. -/
def Goes (i : In) : Prop := ∃ a b, i.rem = a ++ 43 :: 43 :: b

theorem Goes.of_le {i j : In} (hd : j.data = i.data) (hc : i.cur ≤ j.cur) (h : j.Goes) : i.Goes := by
  obtain ⟨a, b, h⟩ := h
  refine ⟨i.rem.take (j.cur - i.cur) ++ a, b, ?_⟩
  have : j.rem = i.rem.drop (j.cur - i.cur) := by
    unfold rem
    rw [hd, List.drop_drop]
    congr 1
    omega
  rw [List.append_assoc, ← h, this, List.take_append_drop]

theorem Goes.lt {i : In} (h : i.Goes) : i.cur < i.data.length := by
  obtain ⟨a, b, h⟩ := h
  have := congrArg List.length h
  rw [rem_count] at this
  simp only [List.length_append, List.length_cons] at this
  omega

end In

theorem isSpace_plus : isSpace 43 = false := by decide

theorem isDigit_plus : isDigit 43 = false := by decide

/-- A number is read up to the first character that is not part of it. -/
theorem strtol_more (a b m : List Byte) :
    strtol ((a ++ 43 :: 43 :: b) ++ m) = strtol (a ++ 43 :: 43 :: b) := by
  have hd : ∀ a b : List Byte, ∃ a', (a ++ 43 :: 43 :: b).dropWhile isSpace = a' ++ 43 :: 43 :: b ∧
      ∀ m, ((a ++ 43 :: 43 :: b) ++ m).dropWhile isSpace = (a' ++ 43 :: 43 :: b) ++ m := by
    intro a b
    induction a with
    | nil => exact ⟨[], by simp [isSpace_plus], fun m => by
        simp [isSpace_plus]⟩
    | cons x a ih =>
      by_cases hx : isSpace x = true
      · obtain ⟨a', h1, h2⟩ := ih
        exact ⟨a', by simp only [List.cons_append, List.dropWhile_cons, hx, if_true]; exact h1,
          fun m => by simp only [List.cons_append, List.dropWhile_cons, hx, if_true]; exact h2 m⟩
      · exact ⟨x :: a, by simp only [List.cons_append, List.dropWhile_cons, hx]; rfl,
          fun m => by simp only [List.cons_append, List.dropWhile_cons, hx]; rfl⟩
  have ht : ∀ (u v m : List Byte), ((u ++ 43 :: v) ++ m).takeWhile isDigit =
      (u ++ 43 :: v).takeWhile isDigit := by
    intro u v m
    induction u with
    | nil => simp [isDigit_plus]
    | cons x u ih =>
      simp only [List.cons_append, List.takeWhile_cons]
      split
      · rw [ih]
      · rfl
  obtain ⟨a', h1, h2⟩ := hd a b
  unfold strtol
  rw [h1, h2 m]
  have hh : ((a' ++ 43 :: 43 :: b) ++ m).head? = (a' ++ 43 :: 43 :: b).head? := by
    cases a' <;> rfl
  simp only [hh]
  have : (if (a' ++ 43 :: 43 :: b).head? = some 45 ∨ (a' ++ 43 :: 43 :: b).head? = some 43 then
        ((a' ++ 43 :: 43 :: b) ++ m).tail else (a' ++ 43 :: 43 :: b) ++ m).takeWhile isDigit =
      (if (a' ++ 43 :: 43 :: b).head? = some 45 ∨ (a' ++ 43 :: 43 :: b).head? = some 43 then
        (a' ++ 43 :: 43 :: b).tail else a' ++ 43 :: 43 :: b).takeWhile isDigit := by
    split
    · cases a' with
      | nil => exact ht [] b m
      | cons x a' => exact ht a' (43 :: b) m
    · exact ht a' (43 :: b) m
  rw [this]

/-! ## Values -/

theorem In.checkDigit_more {i j : In} (m : List Byte) (hc : i.cur < i.data.length)
    (h : i.checkDigit = .ok j) :
    (i.more m).checkDigit = .ok (j.more m) ∧ j.data = i.data ∧ i.cur ≤ j.cur ∧ j.cur ≤ i.cur + 1 := by
  unfold In.checkDigit at h ⊢
  by_cases hd : i.has_check_digit = true
  · rw [if_pos hd] at h
    rw [if_pos (show (i.more m).has_check_digit = true from hd), In.peek_more m (by omega)]
    obtain ⟨c, h1, h⟩ := Res.bind_eq_ok.mp h
    rw [h1, Res.ok_bind]
    split at h
    · cases h
    · next hx =>
      rw [if_neg (show ¬ charSub0 c ≠ ((i.more m).expected_check_digit : Int) from hx)]
      cases h
      exact ⟨rfl, rfl, Nat.le_add_right _ _, le_rfl⟩
  · rw [if_neg hd] at h
    rw [if_neg (show ¬ (i.more m).has_check_digit = true from hd)]
    cases h
    exact ⟨rfl, rfl, le_rfl, Nat.le_add_right _ _⟩

/-- A value is read the same, and the text from it on goes on with what follows. -/
theorem In.parse_value_more {i : In} {n : Nat} {sg : Bool} {r : List Byte × List Byte × In}
    (h : i.parse_value n sg = .ok r) :
    r.2.2.data = i.data ∧ i.cur ≤ r.2.2.cur ∧ (r.2.2.Goes → ∃ a b, r.1 = a ++ 43 :: 43 :: b) ∧
    ∀ m, r.2.2.cur < i.data.length →
      (i.more m).parse_value n sg = .ok (r.1 ++ m, r.2.1, r.2.2.more m) := by
  unfold In.parse_value at h
  obtain ⟨u, h1, h⟩ := Res.bind_eq_ok.mp h
  have ha := In.available_ok h1
  obtain ⟨j, h2, h⟩ := Res.bind_eq_ok.mp h
  obtain ⟨c, h3, h⟩ := Res.bind_eq_ok.mp h
  cases h
  obtain ⟨-, e1, e2, e3⟩ := In.checkDigit_more [] (by omega) h2
  have hn : (if (sg && decide (c = 45)) = true then n + 1 else n) ≤ n + 1 := by
    split <;> omega
  have hk : ∀ k, j.cur ≤ ((j.adv k).skip_spaces).cur := fun k =>
    Nat.le_trans (Nat.le_add_right _ _ : j.cur ≤ (j.adv k).cur) (In.skip_spaces_cur (j.adv k))
  refine ⟨e1, e2.trans (hk _), fun hg => ?_,
    fun m hm => ?_⟩
  · refine In.Goes.of_le (i := j) ?_ ?_ hg
    · rfl
    · exact hk _
  obtain ⟨g1, -⟩ := In.checkDigit_more m (by omega) h2
  unfold In.parse_value
  rw [In.available_more m ha, Res.ok_bind, g1, Res.ok_bind, In.peek_more m (by rw [e1]; omega), h3,
    Res.ok_bind]
  have hs : ∀ k, k ≤ n + 1 → ((j.adv k).skip_spaces).cur < i.data.length →
      ((j.more m).rem, In.trimmed ((j.more m).rem.take k), ((j.more m).adv k).skip_spaces) =
      (j.rem ++ m, In.trimmed (j.rem.take k), ((j.adv k).skip_spaces).more m) := by
    intro k hk hlt
    rw [In.take_more m (by rw [e1]; omega), In.rem_more m (by rw [e1]; omega),
      show (j.more m).adv k = (j.adv k).more m from rfl,
      In.skip_spaces_more (i := j.adv k) m (show _ < j.data.length by rw [e1]; exact hlt)]
  exact congrArg Res.ok (hs _ hn hm)

namespace Decoder

/-- What decoders reading a text, and the same with something after it, have in
common. -/
def extended (m : List Byte) : Rel Dec Dec where
  le a b := b.input.data = a.input.data ∧ a.input.cur ≤ b.input.cur
  refl _ := ⟨rfl, le_rfl⟩
  trans _ _ _ h h' := ⟨h'.1.trans h.1, h.2.trans h'.2⟩
  Q F a b c c' x y := F.input.Goes ∧ b = ⟨a.input.more m, a.out⟩ ∧ y = x ∧
    c'.bitmap_table = c.bitmap_table ∧ c'.chardata_table = c.chardata_table
  stable _ _ _ _ _ _ _ _ _ h := h

theorem read_variable_extended (C : Ctx) (m : List Byte) (info : Varinfo) (s : St) :
    (extended m).SimV s (read_variable C s info) (fun t => read_variable C t info) := by
  intro n s' h
  unfold read_variable at h
  obtain ⟨r, h1, h⟩ := Res.bind_eq_ok.mp h
  obtain ⟨res, h2, h⟩ := Res.bind_eq_ok.mp h
  obtain ⟨w, h3, h⟩ := Res.bind_eq_ok.mp h
  cases h
  obtain ⟨e1, e2, e3, e4⟩ := In.parse_value_more h1
  refine ⟨⟨e1, e2⟩, fun F t hF hr => ?_⟩
  obtain ⟨hsame, hg, ht, hxy⟩ := hr
  have hgo : r.2.2.Goes := In.Goes.of_le hF.1 hF.2 hg
  obtain ⟨a, b, hab⟩ := e3 hgo
  have hp := e4 m (e1 ▸ hgo.lt)
  have hhead : (r.1 ++ m).headD 0 = r.1.headD 0 := by
    rw [hab]
    cases a <;> rfl
  have hset : setValue C.O info (r.1 ++ m) r.2.1 = setValue C.O info r.1 r.2.1 := by
    unfold setValue
    rw [hab, strtol_more]
  refine ⟨{ t with tgt := ⟨r.2.2.more m, s.tgt.out ++ [w]⟩ }, ?_, ⟨?_, hg, rfl, hxy⟩⟩
  · show read_variable C t info = _
    unfold read_variable
    rw [ht]
    simp only [hp, Res.ok_bind, hhead, hset]
    rw [h2, Res.ok_bind, h3]
    rfl
  · obtain ⟨a1, a2, a3, a4, a5, a6, a7, a8, a9, a10⟩ := hsame
    exact ⟨a1, a2, a3, a4, a5, a6, a7, a8, a9, a10⟩

theorem extended_sims (C : Ctx) (m : List Byte) : (extended m).Sims (target C) (target C) where
  bitmap _ _ := .err rfl
  element s i := (read_variable_extended C m i s).bind (k := fun r => .ok r.2) (k' := fun r => .ok r.2)
    fun _ s' => .pure (s := s') (g := fun t => t) rfl fun _ _ h => h
  associated _ _ := .err rfl
  factor s i := read_variable_extended C m i s
  bitmapFactor _ _ := .err rfl
  significance _ _ := .err rfl
  substituted _ _ := .err rfl
  attr _ _ _ := .err rfl
  raw _ _ := .err rfl
  refval _ _ := .err rfl

theorem subsetEnd_more {i j : In} {last : Bool} (h : subsetEnd i = .ok (last, j)) :
    j.data = i.data ∧ i.cur ≤ j.cur ∧ (last = true → i.Goes) ∧
    ∀ m, subsetEnd (i.more m) = .ok (last, j.more m) := by
  unfold subsetEnd at h
  obtain ⟨u, h1, h⟩ := Res.bind_eq_ok.mp h
  have c1 : i.skip_spaces.cur < i.data.length := In.check_eof_ok h1
  obtain ⟨c, h2, h⟩ := Res.bind_eq_ok.mp h
  split at h
  · cases h
  · next hc =>
    obtain ⟨u, h3, h⟩ := Res.bind_eq_ok.mp h
    have c2 : i.skip_spaces.cur + 1 < i.data.length := In.check_eof_ok h3
    obtain ⟨c', h4, h⟩ := Res.bind_eq_ok.mp h
    have hle := i.skip_spaces_cur
    have hgo : c' = 43 → i.Goes := by
      intro hc'
      refine In.Goes.of_le (j := i.skip_spaces) rfl hle ⟨[], (i.skip_spaces.rem).drop 2, ?_⟩
      have e0 : i.skip_spaces.peek 0 = .ok 43 := by rw [h2]; simpa using hc
      have e1 : i.skip_spaces.peek 1 = .ok 43 := by
        rw [← hc', ← h4]
        rfl
      unfold In.peek at e0 e1
      rw [In.skip_spaces_data, if_pos (by omega)] at e0 e1
      simp only [Res.ok.injEq] at e0 e1
      unfold In.rem
      rw [In.skip_spaces_data]
      rw [List.drop_drop, List.nil_append, List.drop_eq_getElem_cons (by omega),
        List.drop_eq_getElem_cons (i := i.skip_spaces.cur + 1) (by omega)]
      rw [List.getD_eq_getElem?_getD, List.getElem?_eq_getElem (by omega), Option.getD_some] at e0 e1
      simp only [Nat.add_zero] at e0
      rw [e0, e1]
    have hm : ∀ m, subsetEnd (i.more m) = if c' = 43 then
        .ok (true, (i.skip_spaces.adv 2).more m) else .ok (false, (i.skip_spaces.adv 1).more m) := by
      intro m
      unfold subsetEnd
      simp only [In.skip_spaces_more m c1]
      rw [In.check_eof_more m c1, Res.ok_bind, In.peek_more m (show i.skip_spaces.cur + 0 < i.data.length by omega),
        h2, Res.ok_bind, if_neg hc,
        show (i.skip_spaces.more m).adv 1 = (i.skip_spaces.adv 1).more m from rfl,
        In.check_eof_more (i := i.skip_spaces.adv 1) m c2, Res.ok_bind,
        In.peek_more (i := i.skip_spaces.adv 1) (k := 0) m (show i.skip_spaces.cur + 1 + 0 < i.data.length by omega),
        h4, Res.ok_bind]
      rfl
    split at h
    · next hx =>
      cases h
      refine ⟨rfl, ?_, fun _ => hgo hx, fun m => ?_⟩
      · simp only [In.adv]
        omega
      · rw [hm, if_pos hx]
        rfl
    · next hx =>
      cases h
      refine ⟨rfl, ?_, fun h => ?_, fun m => ?_⟩
      · simp only [In.adv]
        omega
      · cases h
      · rw [hm, if_neg hx]

theorem extended_R {m : List Byte} {F : Dec} {s t : St} : (extended m).R F s t ↔
    F.input.Goes ∧ t = { s with tgt := ⟨s.tgt.input.more m, s.tgt.out⟩ } := by
  constructor
  · rintro ⟨⟨a1, a2, a3, a4, a5, a6, a7, a8, a9, a10⟩, ⟨b1, b2, b3, b4, b5⟩⟩
    refine ⟨b1, ?_⟩
    obtain ⟨t1, ⟨u1, u2, u3⟩, t3, t4, t5, t6, t7, t8, ⟨v1, v2, v3⟩, t10⟩ := t
    simp only at a1 a2 a3 a4 a5 a6 a7 a8 a9 a10 b2 b3 b4 b5
    subst a1 a2 a3 a4 a5 a6 a7 a8 a9 a10 b2 b3 b4 b5
    rfl
  · rintro ⟨b1, rfl⟩
    exact ⟨⟨rfl, rfl, rfl, rfl, rfl, rfl, rfl, rfl, rfl, rfl⟩, ⟨b1, rfl, rfl, rfl, rfl⟩⟩

theorem decodeSubset_more (C : Ctx) (depth : Nat) (ops : List Varcode) (c : TableCaches) {i : In}
    {vs : List Var} {c' : TableCaches} {last : Bool} {j : In}
    (h : decodeSubset C depth ops c i = .ok (vs, c', last, j)) (hg : last = true ∨ j.Goes) :
    i.Goes ∧ ∀ m, decodeSubset C depth ops c (i.more m) = .ok (vs, c', last, j.more m) := by
  unfold decodeSubset at h
  obtain ⟨st, h1, h⟩ := Res.bind_eq_ok.mp h
  obtain ⟨⟨l, k⟩, h2, h⟩ := Res.bind_eq_ok.mp h
  cases h
  obtain ⟨e1, e2, e3, e4⟩ := subsetEnd_more h2
  obtain ⟨⟨f1, f2⟩, -⟩ := Interp.sim_run C (extended_sims C []) depth ops _ st h1
  have hst : st.tgt.input.Goes := hg.elim e3 fun h => In.Goes.of_le e1 e2 h
  refine ⟨In.Goes.of_le f1 f2 hst, fun m => ?_⟩
  obtain ⟨-, g⟩ := Interp.sim_run C (extended_sims C m) depth ops _ st h1
  obtain ⟨t, g1, g2⟩ := g st.tgt (.new c ⟨i.more m, []⟩) ⟨rfl, le_rfl⟩ (extended_R.mpr ⟨hst, rfl⟩)
  obtain ⟨-, rfl⟩ := extended_R.mp g2
  unfold decodeSubset
  rw [g1, Res.ok_bind]
  simp only [e4 m, Res.ok_bind]
  rfl

theorem decodeSubsets_more (C : Ctx) (depth : Nat) (ops : List Varcode) (fuel : Nat) :
    ∀ (c : TableCaches) (i : In) (vss : List (List Var)) (j : In),
      decodeSubsets C depth ops fuel c i = some (.ok (vss, j)) →
      i.Goes ∧ ∀ m, decodeSubsets C depth ops fuel c (i.more m) = some (.ok (vss, j.more m)) := by
  induction fuel with
  | zero => intro c i vss j h; cases h
  | succ fuel ih =>
    intro c i vss j h
    unfold decodeSubsets at h
    cases hs : decodeSubset C depth ops c i with
    | err e => simp only [hs] at h; cases h
    | ub => simp only [hs] at h; cases h
    | ok r =>
      obtain ⟨vs, c', last, k⟩ := r
      simp only [hs] at h
      cases last with
      | true =>
        simp only [if_true, Option.some.injEq, Res.ok.injEq, Prod.mk.injEq] at h
        obtain ⟨rfl, rfl⟩ := h
        obtain ⟨g1, g2⟩ := decodeSubset_more C depth ops c hs (.inl rfl)
        refine ⟨g1, fun m => ?_⟩
        unfold decodeSubsets
        simp only [g2 m, if_true]
      | false =>
        simp only [Bool.false_eq_true, if_false] at h
        cases hr : decodeSubsets C depth ops fuel c' k with
        | none => rw [hr] at h; cases h
        | some r =>
          rw [hr] at h
          simp only [Option.map_some, Option.some.injEq] at h
          obtain ⟨⟨a, b⟩, rfl, h⟩ := Res.bind_eq_ok.mp h
          cases h
          obtain ⟨q1, q2⟩ := ih c' k _ _ hr
          obtain ⟨g1, g2⟩ := decodeSubset_more C depth ops c hs (.inr q1)
          refine ⟨g1, fun m => ?_⟩
          unfold decodeSubsets
          simp only [g2 m, Bool.false_eq_true, if_false, q2 m, Option.map_some, Res.ok_bind]

theorem findPlus_ok : ∀ {l : List Byte} {n : Nat}, findPlus l = .ok n →
    (l.drop n).take 2 = [43, 43] := by
  intro l
  induction l with
  | nil => intro n h; cases h
  | cons x l ih =>
    intro n h
    unfold findPlus at h
    split at h
    · next he =>
      cases h
      cases he
      rfl
    · next he =>
      obtain ⟨k, h1, h⟩ := Res.bind_eq_ok.mp h
      cases h
      cases he
      exact ih h1
    · cases h

/-- The end of a message is refused after an optional section. -/
theorem decodeEnd_supp {i : In} (h : i.skip_spaces.rem.take 4 = ascii "SUPP") :
    (decodeEnd i).isOk = false := by
  cases hd : decodeEnd i with
  | err e => rfl
  | ub => rfl
  | ok u =>
    exfalso
    unfold decodeEnd at hd
    obtain ⟨-, -, hd⟩ := Res.bind_eq_ok.mp hd
    obtain ⟨-, -, hd⟩ := Res.bind_eq_ok.mp hd
    simp only [h, if_true] at hd
    obtain ⟨n, h1, hd⟩ := Res.bind_eq_ok.mp hd
    obtain ⟨-, -, hd⟩ := Res.bind_eq_ok.mp hd
    obtain ⟨-, -, hd⟩ := Res.bind_eq_ok.mp hd
    obtain ⟨k, h2, h3⟩ := Res.bind_eq_ok.mp (show findPlus (i.skip_spaces.rem.drop 4) >>=
      (fun n => Res.ok (n + 4)) = _ from h1)
    cases h3
    have hp := findPlus_ok h2
    have hr : (i.skip_spaces.adv (k + 4)).rem = (i.skip_spaces.rem.drop 4).drop k := by
      unfold In.rem In.adv
      simp only [List.drop_drop]
      congr 1
      omega
    obtain ⟨t, ht⟩ : ∃ t, (i.skip_spaces.adv (k + 4)).rem = 43 :: 43 :: t := by
      rw [hr]
      generalize (i.skip_spaces.rem.drop 4).drop k = l at hp
      match l, hp with
      | [a, b], hp => cases hp; exact ⟨[], rfl⟩
      | a :: b :: c :: t, hp => cases hp; exact ⟨c :: t, rfl⟩
    have hsk : (i.skip_spaces.adv (k + 4)).skip_spaces = i.skip_spaces.adv (k + 4) := by
      unfold In.skip_spaces
      rw [show ((i.adv _).adv (k + 4)).rem = _ from ht]
      simp [isSpace_plus, In.adv]
    rw [hsk, ht] at hd
    split at hd
    · cases hd
    · next hx =>
      revert hx
      simp only [List.take_succ_cons, not_not]
      intro hx
      have := congrArg List.head? hx
      revert this
      simp only [List.head?_cons]
      decide

/-- Without an optional section, the message ends after the spaces. -/
theorem decodeEnd_plain {i : In} (h : i.skip_spaces.rem.take 4 ≠ ascii "SUPP") :
    decodeEnd i = .ok () ↔ i.skip_spaces.rem.take 4 = ascii "7777" := by
  have hlen : i.skip_spaces.rem.take 4 = ascii "7777" → i.skip_spaces.cur + 4 ≤ i.skip_spaces.data.length := by
    intro h
    have := congrArg List.length h
    rw [List.length_take, In.rem_count, show (ascii "7777").length = 4 from rfl] at this
    omega
  unfold decodeEnd
  simp only [h, if_false, Res.ok_bind]
  constructor
  · intro hd
    obtain ⟨-, -, hd⟩ := Res.bind_eq_ok.mp hd
    obtain ⟨-, -, hd⟩ := Res.bind_eq_ok.mp hd
    obtain ⟨-, -, hd⟩ := Res.bind_eq_ok.mp hd
    obtain ⟨-, -, hd⟩ := Res.bind_eq_ok.mp hd
    split at hd
    · cases hd
    · next hx => exact not_not.mp hx
  · intro h7
    have hl := hlen h7
    have c1 : i.skip_spaces.check_eof = .ok () := by
      unfold In.check_eof
      rw [if_neg (by omega)]
    have c2 : i.skip_spaces.check_available_data 4 = .ok () := by
      unfold In.check_available_data
      rw [if_neg (by omega)]
    rw [c1, Res.ok_bind, c2, Res.ok_bind, Res.ok_bind, Res.ok_bind, if_neg (by simpa using h7)]

theorem decodeEnd_more {i : In} (m : List Byte) (h : decodeEnd i = .ok ()) :
    decodeEnd (i.more m) = .ok () := by
  by_cases hs : i.skip_spaces.rem.take 4 = ascii "SUPP"
  · have := decodeEnd_supp hs
    rw [h] at this
    cases this
  · have h7 := (decodeEnd_plain hs).mp h
    have hl := congrArg List.length h7
    rw [List.length_take, In.rem_count, show (ascii "7777").length = 4 from rfl,
      In.skip_spaces_data] at hl
    have e : (i.more m).skip_spaces = i.skip_spaces.more m := In.skip_spaces_more m (by omega)
    have e' : (i.more m).skip_spaces.rem.take 4 = i.skip_spaces.rem.take 4 := by
      rw [e]
      exact In.take_more m (by rw [In.skip_spaces_data]; omega)
    exact (decodeEnd_plain (by rw [e']; exact hs)).mpr (by rw [e']; exact h7)

/-! ## The header -/

theorem skip_data_cur (i : In) (n : Nat) : i.cur + n ≤ (i.skip_data_and_spaces n).cur :=
  In.skip_spaces_cur (i.adv n)

theorem descTurn_again {s t : DescSt} (h : descTurn s = .again t) :
    t.1.data = s.1.data ∧ s.1.cur ≤ t.1.cur ∧ ∀ m, t.1.cur < s.1.data.length →
      descTurn (s.1.more m, s.2) = .again (t.1.more m, t.2) := by
  unfold descTurn at h
  cases hp : s.1.peek 0 with
  | err e => simp only [hp] at h; cases h
  | ub => simp only [hp] at h; cases h
  | ok c =>
    simp only [hp] at h
    have hpm : ∀ m, s.1.cur < s.1.data.length → (s.1.more m).peek 0 = .ok c := fun m hlt => by
      rw [In.peek_more m (by omega), hp]
    split at h
    · next hc =>
      split at h
      · cases h
      · next hl =>
        cases hq : parseDescriptor (s.1.rem.take 6) with
        | err e => simp only [hq] at h; cases h
        | ub => simp only [hq] at h; cases h
        | ok code =>
          simp only [hq, Turn.again.injEq] at h
          subst h
          have hk := skip_data_cur s.1 6
          refine ⟨rfl, by simp only; omega, fun m hlt => ?_⟩
          simp only at hlt
          unfold descTurn
          simp only [hpm m (by omega)]
          rw [if_pos hc, if_neg (by simp only [In.more, List.length_append]; omega),
            In.take_more m (by omega), hq, In.skip_data_more m hlt]
    · next hc =>
      split at h
      · next hE =>
        simp only [Turn.again.injEq] at h
        subst h
        have hk := skip_data_cur { s.1 with has_check_digit := true, expected_check_digit := 1 } 1
        simp only at hk
        refine ⟨rfl, by simp only; omega, fun m hlt => ?_⟩
        simp only at hlt
        unfold descTurn
        simp only [hpm m (by omega)]
        rw [if_neg hc, if_pos hE]
        have := In.skip_data_more (i := { s.1 with has_check_digit := true, expected_check_digit := 1 })
          m hlt
        exact congrArg (fun i => Turn.again (i, { s.2 with has_check_digit := true })) this
      · next hE =>
        split at h
        · cases h
        · next hP =>
          simp only [Turn.again.injEq] at h
          subst h
          refine ⟨rfl, le_rfl, fun m hlt => ?_⟩
          unfold descTurn
          simp only [hpm m hlt]
          rw [if_neg hc, if_neg hE, if_neg hP]

theorem descTurn_out {s t : DescSt} (h : descTurn s = .out (.ok t)) :
    t.1.data = s.1.data ∧ s.1.cur ≤ t.1.cur ∧ ∀ m, t.1.cur < s.1.data.length →
      descTurn (s.1.more m, s.2) = .out (.ok (t.1.more m, t.2)) := by
  unfold descTurn at h
  cases hp : s.1.peek 0 with
  | err e => simp only [hp] at h; cases h
  | ub => simp only [hp] at h; cases h
  | ok c =>
    simp only [hp] at h
    split at h
    · split at h
      · cases h
      · cases hq : parseDescriptor (s.1.rem.take 6) with
        | err e => simp only [hq] at h; cases h
        | ub => simp only [hq] at h; cases h
        | ok code => simp only [hq] at h; cases h
    · next hc =>
      split at h
      · cases h
      · next hE =>
        split at h
        · next hP =>
          simp only [Turn.out.injEq] at h
          obtain ⟨u, h1, h⟩ := Res.bind_eq_ok.mp h
          obtain ⟨d, h2, h⟩ := Res.bind_eq_ok.mp h
          split at h
          · cases h
          · next hd =>
            cases h
            have hk := skip_data_cur s.1 2
            have ha := In.available_ok h1
            refine ⟨rfl, by simp only; omega, fun m hlt => ?_⟩
            simp only at hlt
            unfold descTurn
            rw [In.peek_more m (by omega), hp]
            simp only
            rw [if_neg hc, if_neg hE, if_pos hP, In.available_more m ha, Res.ok_bind,
              In.peek_more m (by omega), h2, Res.ok_bind, if_neg hd, In.skip_data_more m hlt]
            rfl
        · cases h

theorem descLoop_more (fuel : Nat) : ∀ {s t : DescSt}, descLoop fuel s = some (.ok t) →
    t.1.data = s.1.data ∧ s.1.cur ≤ t.1.cur ∧ ∀ m, t.1.cur < s.1.data.length →
      descLoop fuel (s.1.more m, s.2) = some (.ok (t.1.more m, t.2)) := by
  induction fuel with
  | zero => intro s t h; cases h
  | succ fuel ih =>
    intro s t h
    unfold descLoop at h
    cases hq : descTurn s with
    | again s' =>
      simp only [hq] at h
      obtain ⟨a1, a2, a3⟩ := descTurn_again hq
      obtain ⟨b1, b2, b3⟩ := ih h
      refine ⟨b1.trans a1, a2.trans b2, fun m hlt => ?_⟩
      unfold descLoop
      simp only [a3 m (by omega)]
      exact b3 m (by rw [a1]; exact hlt)
    | out r =>
      simp only [hq, Option.some.injEq] at h
      subst h
      obtain ⟨a1, a2, a3⟩ := descTurn_out hq
      refine ⟨a1, a2, fun m hlt => ?_⟩
      unfold descLoop
      simp only [a3 m hlt]

theorem decodeStart_more {data : List Byte} {s : DescSt} (h : decodeStart data = .ok s) :
    s.1.data = data ∧ ∀ m, decodeStart (data ++ m) = .ok (s.1.more m, s.2) := by
  unfold decodeStart at h
  obtain ⟨u, h1, h⟩ := Res.bind_eq_ok.mp h
  have ha : 0 + 6 ≤ data.length := In.available_ok h1
  split at h
  · cases h
  · next h6 =>
    obtain ⟨u, h2, h⟩ := Res.bind_eq_ok.mp h
    have h2' : ((In.new data).skip_data_and_spaces 6).cur < data.length := In.check_eof_ok h2
    obtain ⟨c, h3, h⟩ := Res.bind_eq_ok.mp h
    split at h
    · cases h
    · next hc =>
      dsimp only at h
      split at h
      · cases h
      · next t e v hsc =>
        obtain ⟨u, h4, h⟩ := Res.bind_eq_ok.mp h
        have h4' : (((In.new data).skip_data_and_spaces 6).read_word 11).2.cur < data.length :=
          In.check_eof_ok h4
        obtain ⟨c', h5, h⟩ := Res.bind_eq_ok.mp h
        split at h
        · cases h
        · next hc' =>
          obtain ⟨a, h7, h⟩ := Res.bind_eq_ok.mp h
          obtain ⟨u, h8, h⟩ := Res.bind_eq_ok.mp h
          have h8' : ((((In.new data).skip_data_and_spaces 6).read_word 11).2.read_word 20).2.cur <
            data.length := In.check_eof_ok h8
          cases h
          refine ⟨rfl, fun m => ?_⟩
          unfold decodeStart
          have e0 : In.new (data ++ m) = (In.new data).more m := rfl
          have e1 := In.skip_data_more (i := In.new data) m (n := 6) h2'
          have e2 := In.read_word_more (i := (In.new data).skip_data_and_spaces 6) m (n := 11) h4'
          have e3 := In.read_word_more (i := (((In.new data).skip_data_and_spaces 6).read_word 11).2) m
            (n := 20) h8'
          simp only [e0, e1, e2, e3]
          rw [In.available_more m ha, Res.ok_bind, In.take_more m ha, if_neg h6,
            In.check_eof_more (i := (In.new data).skip_data_and_spaces 6) m h2', Res.ok_bind,
            In.peek_more (i := (In.new data).skip_data_and_spaces 6) m (by exact h2'), h3, Res.ok_bind,
            if_neg hc, hsc]
          simp only
          rw [In.check_eof_more (i := (((In.new data).skip_data_and_spaces 6).read_word 11).2) m h4',
            Res.ok_bind, In.peek_more (i := (((In.new data).skip_data_and_spaces 6).read_word 11).2) m
            (by exact h4'), h5, Res.ok_bind, if_neg hc', h7, Res.ok_bind,
            In.check_eof_more (i := ((((In.new data).skip_data_and_spaces 6).read_word 11).2.read_word 20).2)
              m h8']
          rfl

/-- A CREX message is decoded the same with something after it. -/
theorem decode_more (load : Header → Res (Ctx × TableCaches)) (depth fuel : Nat) (data : List Byte)
    {r : Header × List (List Var)} (h : decode load depth fuel data = some (.ok r)) (m : List Byte) :
    decode load depth fuel (data ++ m) = some (.ok r) := by
  unfold decode at h
  cases hh : decode_header fuel data with
  | none => rw [hh] at h; cases h
  | some q =>
    rw [hh] at h
    cases q with
    | err e => cases h
    | ub => cases h
    | ok s =>
      obtain ⟨i, hd⟩ := s
      simp only at h
      cases hq : load hd with
      | err e => rw [hq] at h; cases h
      | ub => rw [hq] at h; cases h
      | ok t =>
        rw [hq] at h
        simp only at h
        cases hx : decode_data t.1 depth fuel hd.datadesc t.2 i with
        | none => rw [hx] at h; cases h
        | some x =>
          rw [hx] at h
          simp only [Option.map_some, Option.some.injEq] at h
          obtain ⟨vss, rfl, h⟩ := Res.bind_eq_ok.mp h
          cases h
          have hdat : i.cur < i.data.length ∧
              decode_data t.1 depth fuel hd.datadesc t.2 (i.more m) = some (.ok vss) := by
            unfold decode_data at hx ⊢
            cases he : i.check_eof with
            | err e => rw [he] at hx; cases hx
            | ub => rw [he] at hx; cases hx
            | ok u =>
              have hlt := In.check_eof_ok he
              rw [he] at hx
              simp only at hx
              refine ⟨hlt, ?_⟩
              rw [In.check_eof_more m hlt]
              simp only
              cases hs : decodeSubsets t.1 depth hd.datadesc fuel t.2 i with
              | none => rw [hs] at hx; cases hx
              | some y =>
                rw [hs] at hx
                simp only [Option.map_some, Option.some.injEq] at hx
                obtain ⟨⟨a, b⟩, hy, hx⟩ := Res.bind_eq_ok.mp hx
                obtain ⟨u, h5, hx⟩ := Res.bind_eq_ok.mp hx
                cases hx
                rw [hy] at hs
                rw [(decodeSubsets_more _ _ _ _ _ _ _ _ hs).2 m]
                simp only [Option.map_some, Res.ok_bind]
                rw [decodeEnd_more m h5]
                rfl
          have hhd : decode_header fuel (data ++ m) = some (.ok (i.more m, hd)) := by
            unfold decode_header at hh ⊢
            cases hs : decodeStart data with
            | err e => rw [hs] at hh; cases hh
            | ub => rw [hs] at hh; cases hh
            | ok s =>
              rw [hs] at hh
              simp only at hh
              obtain ⟨g1, g2⟩ := decodeStart_more hs
              obtain ⟨k1, k2, k3⟩ := descLoop_more fuel hh
              rw [g2 m]
              simp only
              exact k3 m (by simp only at k1 ⊢; rw [← k1]; exact hdat.1)
          unfold decode
          rw [hhd]
          simp only
          rw [hq]
          simp only
          rw [hdat.2]
          rfl

end Decoder

end Wreport.Crex
