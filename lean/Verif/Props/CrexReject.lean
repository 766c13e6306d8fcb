import Verif.Props.CrexMessage

/-!
# What the CREX decoder accepts: theorems
-/

namespace Wreport.Crex

open Spec

/-! ## C69 -/

/-- Text as in a CREX message: the start, the T group, the A group with `a` after the
letter, the descriptors, the data and the end section. -/
def CrexText (a data : List Byte) : Prop :=
  ∃ s1 t s2 s3 d b c e : List Byte,
    data = ascii "CREX++" ++ s1 ++ (84 :: t) ++ s2 ++ (65 :: a) ++ s3 ++ d ++ ascii "++" ++ b ++
      ascii "++" ++ c ++ ascii "7777" ++ e ∧
    (∀ x ∈ s1 ++ s2 ++ s3, isSpace x = true) ∧ (∀ x ∈ t ++ a, isSpace x = false)

/-- Reading went on over some text. -/
theorem Onward.text {i j : In} (h : Onward i j) (hi : InText i) : ∃ x, i.rem = x ++ j.rem := by
  obtain ⟨h1, h2, h3⟩ := h hi
  refine ⟨i.rem.take (j.cur - i.cur), ?_⟩
  have : j.rem = i.rem.drop (j.cur - i.cur) := by
    unfold In.rem
    rw [h3, List.drop_drop]
    congr 1
    omega
  rw [this, List.take_append_drop]

theorem skip_text (i : In) : ∃ s, i.rem = s ++ i.skip_spaces.rem ∧ ∀ x ∈ s, isSpace x = true := by
  refine ⟨i.rem.takeWhile isSpace, ?_, fun x hx => List.mem_takeWhile_imp hx⟩
  rw [In.rem_skip, List.takeWhile_append_dropWhile]

theorem read_word_text (i : In) (n : Nat) : ∃ s, i.rem = (i.read_word n).1 ++ s ++ (i.read_word n).2.rem ∧
    (∀ x ∈ s, isSpace x = true) ∧ ∀ x ∈ (i.read_word n).1, isSpace x = false := by
  obtain ⟨s, h1, h2⟩ := skip_text (i.adv (i.read_word n).1.length)
  refine ⟨s, ?_, h2, ?_⟩
  · have h3 : (i.adv (i.read_word n).1.length).rem = i.rem.drop (i.read_word n).1.length := In.rem_adv ..
    have hp : (i.read_word n).1 <+: i.rem := (List.take_prefix _ _).trans (List.takeWhile_prefix _)
    obtain ⟨r, hr⟩ := hp
    rw [List.append_assoc]
    show _ = _ ++ (s ++ (i.adv (i.read_word n).1.length).skip_spaces.rem)
    rw [← h1, h3, ← hr, List.drop_left]
  · intro x hx
    have := List.mem_takeWhile_imp (List.mem_of_mem_take hx)
    simpa using this

theorem peek_rem {i : In} (h : i.cur ≤ i.data.length) {c : Byte} (hp : i.peek 0 = .ok c) (h0 : c ≠ 0) :
    ∃ t, i.rem = c :: t := by
  rcases rem_eq_nil_or i h with ⟨-, h2⟩ | ⟨d, t, h1, h2⟩
  · rw [h2] at hp; cases hp; exact absurd rfl h0
  · rw [h2] at hp; cases hp; exact ⟨t, h1⟩

theorem read_word_head {i : In} {n : Nat} {c : Byte} {t : List Byte} (h : i.rem = c :: t)
    (hc : isSpace c = false) : ∃ w, (i.read_word (n + 2)).1 = c :: w := by
  unfold In.read_word
  rw [h, List.takeWhile_cons_of_pos (by rw [hc]; rfl)]
  exact ⟨_, rfl⟩

theorem descLoop_text {fuel : Nat} {s s' : Decoder.DescSt} (hs : InText s.1)
    (h : Decoder.descLoop fuel s = some (.ok s')) :
    (∃ d b, s.1.rem = d ++ ascii "++" ++ b ++ s'.1.rem) ∧
    s'.2.data_category = s.2.data_category ∧ s'.2.data_subcategory = s.2.data_subcategory ∧
    s'.2.data_subcategory_local = s.2.data_subcategory_local := by
  induction fuel generalizing s with
  | zero => cases h
  | succ n ih =>
    unfold Decoder.descLoop at h
    rcases rem_eq_nil_or s.1 hs with ⟨-, hp⟩ | ⟨c, t, hr, hp⟩
    · simp only [Decoder.descTurn, hp] at h
      exact ih hs h
    simp only [Decoder.descTurn, hp] at h
    have hl : s.1.cur < s.1.data.length := by
      have := In.rem_length s.1
      rw [hr, List.length_cons] at this
      omega
    by_cases hd : c = 66 ∨ c = 82 ∨ c = 67 ∨ c = 68
    · rw [if_pos hd] at h
      by_cases h6 : s.1.data.length < s.1.cur + 6
      · rw [if_pos h6] at h; cases h
      · rw [if_neg h6] at h
        cases hc : Decoder.parseDescriptor (s.1.rem.take 6) with
        | err e => simp only [hc] at h; cases h
        | ub => simp only [hc] at h; cases h
        | ok code =>
          simp only [hc] at h
          obtain ⟨⟨d, b, k1⟩, k2⟩ := ih (s := (s.1.skip_data_and_spaces 6, _))
            (skip_cur (i := s.1) (n := 6) (by omega)).1 h
          obtain ⟨x, hx⟩ := Onward.text ((Onward.adv (i := s.1) (n := 6) (by omega)).trans (Onward.skip _)) hs
          refine ⟨⟨x ++ d, b, ?_⟩, k2⟩
          rw [hx]
          simp only [In.skip_data_and_spaces] at k1
          rw [k1]
          simp only [List.append_assoc]
    · rw [if_neg hd] at h
      by_cases h69 : c = 69
      · rw [if_pos h69] at h
        obtain ⟨⟨d, b, k1⟩, k2⟩ := ih (s := (In.skip_data_and_spaces ⟨s.1.data, s.1.cur, true, 1⟩ 1, _))
          (skip_cur (i := ⟨s.1.data, s.1.cur, true, 1⟩) (n := 1) (by simp only; omega)).1 h
        obtain ⟨x, hx⟩ := Onward.text ((Onward.adv (i := ⟨s.1.data, s.1.cur, true, 1⟩) (n := 1)
          (by simp only; omega)).trans (Onward.skip _)) hs
        refine ⟨⟨x ++ d, b, ?_⟩, k2⟩
        show In.rem ⟨s.1.data, s.1.cur, true, 1⟩ = _
        rw [hx]
        simp only [In.skip_data_and_spaces] at k1
        rw [k1]
        simp only [List.append_assoc]
      · rw [if_neg h69] at h
        by_cases h43 : c = 43
        · rw [if_pos h43] at h
          simp only [Option.some.injEq] at h
          obtain ⟨_, h2, h⟩ := Res.bind_eq_ok.mp h
          obtain ⟨d, h3, h⟩ := Res.bind_eq_ok.mp h
          split at h
          · cases h
          · next h4 =>
            have h4 : d = 43 := by simpa using h4
            subst h4
            simp only [Res.pure_def, Res.ok.injEq] at h
            subst h
            have h5 : s.1.cur + 1 < s.1.data.length := by
              unfold In.peek at h3
              split at h3
              · omega
              · split at h3
                · cases h3
                · cases h3
            have h6 : ∃ u, t = 43 :: u := by
              cases t with
              | nil =>
                have := In.rem_length s.1
                rw [hr, List.length_cons, List.length_nil] at this
                omega
              | cons e u =>
                have := In.peek_ok (i := s.1) (k := 1) (c := e) (by rw [hr]; rfl)
                rw [this] at h3
                cases h3
                exact ⟨u, rfl⟩
            obtain ⟨u, rfl⟩ := h6
            refine ⟨⟨[], u.takeWhile isSpace, ?_⟩, rfl, rfl, rfl⟩
            rw [(skip_cur (i := s.1) (n := 2) (by omega)).2, hr, h43]
            show 43 :: 43 :: u = [] ++ [43, 43] ++ _ ++ u.dropWhile isSpace
            simp [List.takeWhile_append_dropWhile]
        · rw [if_neg h43] at h
          exact ih hs h

theorem decodeStart_text {data : List Byte} {s : Decoder.DescSt}
    (h : Decoder.decodeStart data = .ok s) :
    ∃ s1 t s2 a s3, data = ascii "CREX++" ++ s1 ++ (84 :: t) ++ s2 ++ (65 :: a) ++ s3 ++ s.1.rem ∧
      (∀ x ∈ s1 ++ s2 ++ s3, isSpace x = true) ∧ (∀ x ∈ t ++ a, isSpace x = false) ∧
      Decoder.scanATable (65 :: a) =
        .ok (s.2.data_category, s.2.data_subcategory, s.2.data_subcategory_local) := by
  unfold Decoder.decodeStart at h
  obtain ⟨_, h0, h⟩ := Res.bind_eq_ok.mp h
  have h6 : (In.new data).cur + 6 ≤ (In.new data).data.length := by
    unfold In.check_available_data at h0
    split at h0
    · cases h0
    · omega
  have g1 := (skip_cur h6).1
  split at h
  · cases h
  · next hcrex =>
    have hcrex : data.take 6 = ascii "CREX++" := by
      simp only [ne_eq, not_not] at hcrex
      exact hcrex
    have hdata : data = ascii "CREX++" ++ (data.drop 6).takeWhile isSpace ++
        ((In.new data).skip_data_and_spaces 6).rem := by
      rw [(skip_cur h6).2]
      show data = ascii "CREX++" ++ (data.drop 6).takeWhile isSpace ++ (data.drop 6).dropWhile isSpace
      rw [List.append_assoc, List.takeWhile_append_dropWhile, ← hcrex, List.take_append_drop]
    obtain ⟨-, -, h⟩ := Res.bind_eq_ok.mp h
    obtain ⟨c, hc, h⟩ := Res.bind_eq_ok.mp h
    split at h
    · cases h
    · next h84 =>
      have h84 : c = 84 := by simpa using h84
      subst h84
      obtain ⟨t0, ht0⟩ := peek_rem g1 hc (by decide)
      obtain ⟨w1, hw1⟩ := read_word_head (n := 9) ht0 (by decide)
      obtain ⟨p2, q1, q2, q3⟩ := read_word_text ((In.new data).skip_data_and_spaces 6) 11
      obtain ⟨r1, -, -⟩ := Onward.read_word ((In.new data).skip_data_and_spaces 6) 11 g1
      simp only at h
      split at h
      · cases h
      · obtain ⟨-, -, h⟩ := Res.bind_eq_ok.mp h
        obtain ⟨c, hc, h⟩ := Res.bind_eq_ok.mp h
        split at h
        · cases h
        · next h65 =>
          have h65 : c = 65 := by simpa using h65
          subst h65
          obtain ⟨t1, ht1⟩ := peek_rem r1 hc (by decide)
          obtain ⟨w2, hw2⟩ := read_word_head (n := 18) ht1 (by decide)
          obtain ⟨p3, u1, u2, u3⟩ :=
            read_word_text (((In.new data).skip_data_and_spaces 6).read_word 11).2 20
          obtain ⟨a, ha, h⟩ := Res.bind_eq_ok.mp h
          obtain ⟨-, -, h⟩ := Res.bind_eq_ok.mp h
          simp only [Res.pure_def, Res.ok.injEq] at h
          subst h
          simp only
          rw [hw1] at q1 q3
          rw [hw2] at u1 u3 ha
          refine ⟨(data.drop 6).takeWhile isSpace, w1, p2, w2, p3, ?_, ?_, ?_, ha⟩
          · rw [u1] at q1
            rw [q1] at hdata
            simp only [List.append_assoc] at hdata ⊢
            exact hdata
          · intro x hx
            simp only [List.mem_append] at hx
            rcases hx with (hx | hx) | hx
            · exact List.mem_takeWhile_imp hx
            · exact q2 x hx
            · exact u2 x hx
          · intro x hx
            rcases List.mem_append.mp hx with hx | hx
            · exact q3 x (List.mem_cons_of_mem _ hx)
            · exact u3 x (List.mem_cons_of_mem _ hx)

theorem subsetEnd_text {i j : In} (h : Decoder.subsetEnd i = .ok (true, j)) (hi : InText i) :
    ∃ s, i.rem = s ++ ascii "++" ++ j.rem := by
  have ho : Onward i j := fun hi => by
    obtain ⟨a, b, c⟩ := subsetEnd_onward h hi
    exact ⟨a, by omega, c⟩
  unfold Decoder.subsetEnd at h
  obtain ⟨_, h0, h⟩ := Res.bind_eq_ok.mp h
  obtain ⟨c, h1, h⟩ := Res.bind_eq_ok.mp h
  obtain ⟨a1, -, -⟩ := Onward.skip i hi
  split at h
  · cases h
  · next h43 =>
    have h43 : c = 43 := by simpa using h43
    subst h43
    obtain ⟨t, ht⟩ := peek_rem a1 h1 (by decide)
    have hlen := In.rem_length i.skip_spaces
    rw [ht, List.length_cons] at hlen
    obtain ⟨_, h2, h⟩ := Res.bind_eq_ok.mp h
    obtain ⟨c', h3, h⟩ := Res.bind_eq_ok.mp h
    split at h
    · next h43 =>
      subst h43
      obtain ⟨u, hu⟩ := peek_rem (i := i.skip_spaces.adv 1) (by show i.skip_spaces.cur + 1 ≤ i.skip_spaces.data.length; omega)
        h3 (by decide)
      rw [In.rem_adv, ht] at hu
      simp only [Res.pure_def, Res.ok.injEq, Prod.mk.injEq] at h
      obtain ⟨-, rfl⟩ := h
      obtain ⟨s, hs, -⟩ := skip_text i
      refine ⟨s, ?_⟩
      rw [hs, In.rem_adv, In.rem_adv, ht]
      simp only [List.drop_succ_cons, List.drop_zero] at hu ⊢
      subst hu
      simp [ascii]
    · simp only [Res.pure_def, Res.ok.injEq, Prod.mk.injEq] at h
      cases h.1

theorem decodeSubsets_text {C : Ctx} {depth : Nat} {datadesc : List Varcode} {fuel : Nat}
    {c : TableCaches} {i j : In} {l : List (List Var)} (hi : InText i)
    (h : Decoder.decodeSubsets C depth datadesc fuel c i = some (.ok (l, j))) :
    InText j ∧ ∃ b, i.rem = b ++ ascii "++" ++ j.rem := by
  induction fuel generalizing c i l with
  | zero => cases h
  | succ n ih =>
    unfold Decoder.decodeSubsets at h
    cases hd : Decoder.decodeSubset C depth datadesc c i with
    | err e => rw [hd] at h; cases h
    | ub => rw [hd] at h; cases h
    | ok r =>
      obtain ⟨vars, c', last, k⟩ := r
      obtain ⟨a1, a2, a3⟩ := decodeSubset_onward hd hi
      rw [hd] at h
      simp only at h
      cases last with
      | true =>
        simp only [if_true, Option.some.injEq, Res.ok.injEq, Prod.mk.injEq] at h
        obtain ⟨-, rfl⟩ := h
        refine ⟨a1, ?_⟩
        unfold Decoder.decodeSubset at hd
        obtain ⟨st, h1, h⟩ := Res.bind_eq_ok.mp hd
        obtain ⟨⟨b', j'⟩, h2, h⟩ := Res.bind_eq_ok.mp h
        simp only [Res.pure_def, Res.ok.injEq, Prod.mk.injEq] at h
        obtain ⟨-, -, rfl, rfl⟩ := h
        obtain ⟨hle, -⟩ := Interp.sim_run C (onwardSims C) depth datadesc _ st h1
        have hle : Onward i st.tgt.input := hle
        obtain ⟨x, hx⟩ := hle.text hi
        obtain ⟨s, hs⟩ := subsetEnd_text h2 (hle hi).1
        exact ⟨x ++ s, by rw [hx, hs]; simp only [List.append_assoc]⟩
      | false =>
        simp only [Bool.false_eq_true, if_false] at h
        cases hr : Decoder.decodeSubsets C depth datadesc n c' k with
        | none => rw [hr] at h; cases h
        | some r =>
          rw [hr] at h
          simp only [Option.map_some, Option.some.injEq] at h
          obtain ⟨⟨l', j'⟩, h1, h⟩ := Res.bind_eq_ok.mp h
          simp only [Res.ok.injEq, Prod.mk.injEq] at h
          obtain ⟨-, rfl⟩ := h
          subst h1
          obtain ⟨b1, b, hb⟩ := ih a1 hr
          refine ⟨b1, ?_⟩
          obtain ⟨x, hx⟩ := Onward.text (fun _ => ⟨a1, by omega, a3⟩ : Onward i k) hi
          exact ⟨x ++ b, by rw [hx, hb]; simp only [List.append_assoc]⟩

theorem decodeEnd_text {i : In} (h : Decoder.decodeEnd i = .ok ()) :
    ∃ c e, i.rem = c ++ ascii "7777" ++ e := by
  have last : ∀ j : In, (∃ x, i.rem = x ++ j.rem) → j.rem.take 4 = ascii "7777" →
      ∃ c e, i.rem = c ++ ascii "7777" ++ e := by
    rintro j ⟨x, hx⟩ hj
    refine ⟨x, j.rem.drop 4, ?_⟩
    rw [hx, List.append_assoc, ← hj, List.take_append_drop]
  obtain ⟨s, hs, -⟩ := skip_text i
  unfold Decoder.decodeEnd at h
  obtain ⟨_, -, h⟩ := Res.bind_eq_ok.mp h
  obtain ⟨_, -, h⟩ := Res.bind_eq_ok.mp h
  simp only at h
  split at h
  · obtain ⟨n, -, h⟩ := Res.bind_eq_ok.mp h
    obtain ⟨_, -, h⟩ := Res.bind_eq_ok.mp h
    obtain ⟨_, -, h⟩ := Res.bind_eq_ok.mp h
    split at h
    · cases h
    · next h7 =>
      simp only [ne_eq, not_not] at h7
      obtain ⟨s', hs', -⟩ := skip_text (i.skip_spaces.adv n)
      refine last _ ⟨s ++ i.skip_spaces.rem.take n ++ s', ?_⟩ h7
      rw [hs, List.append_assoc, ← hs', In.rem_adv]
      simp only [List.append_assoc, List.take_append_drop]
  · obtain ⟨n, -, h⟩ := Res.bind_eq_ok.mp h
    obtain ⟨_, -, h⟩ := Res.bind_eq_ok.mp h
    obtain ⟨_, -, h⟩ := Res.bind_eq_ok.mp h
    split at h
    · cases h
    · next h7 =>
      simp only [ne_eq, not_not] at h7
      exact last _ ⟨s, hs⟩ h7

/-- C69: whatever is decoded as a CREX message has the sections of one, in order and
with their marks: the start, the T group, an A group with three or six characters
(before a NUL, if there is one), a list of descriptors and data that both end with
`++`, and the end section. An A group of three digits is the category, and of six
digits the category and subcategory. -/
theorem C69_accepted (load : Header → Res (Ctx × TableCaches)) (depth fuel : Nat) (data : List Byte)
    (h : Header) (subsets : List (List Var))
    (hd : Decoder.decode load depth fuel data = some (.ok (h, subsets))) :
    ∃ a, CrexText a data ∧
      ((a.takeWhile (· ≠ 0)).length = 3 ∨ (a.takeWhile (· ≠ 0)).length = 6) ∧
      (∀ k, k < 1000 → a = zeroPadded 3 k →
        h.data_category = .ofNat k ∧ h.data_subcategory = 255 ∧ h.data_subcategory_local = 0) ∧
      (∀ c k, c < 1000 → k < 1000 → a = zeroPadded 3 c ++ zeroPadded 3 k →
        h.data_category = .ofNat c ∧ h.data_subcategory = .ofNat k ∧ h.data_subcategory_local = 255) := by
  unfold Decoder.decode Decoder.decode_header at hd
  cases h0 : Decoder.decodeStart data with
  | err e => rw [h0] at hd; cases hd
  | ub => rw [h0] at hd; cases hd
  | ok s =>
    rw [h0] at hd
    simp only at hd
    obtain ⟨t1, t2⟩ := decodeStart_inText h0
    obtain ⟨s1, t, s2, a, s3, e1, e2, e3, e4⟩ := decodeStart_text h0
    cases h1 : Decoder.descLoop fuel s with
    | none => rw [h1] at hd; cases hd
    | some r =>
      rw [h1] at hd
      cases r with
      | err e => cases hd
      | ub => cases hd
      | ok s' =>
        obtain ⟨i, hh⟩ := s'
        simp only at hd
        obtain ⟨u1, u2⟩ := descLoop_inText t1 h1
        obtain ⟨⟨d, b0, f1⟩, f2, f3, f4⟩ := descLoop_text t1 h1
        simp only at u1 u2 f1 f2 f3 f4
        cases h2 : load hh with
        | err e => rw [h2] at hd; cases hd
        | ub => rw [h2] at hd; cases hd
        | ok ct =>
          rw [h2] at hd
          simp only at hd
          unfold Decoder.decode_data at hd
          cases h3 : i.check_eof with
          | err e => rw [h3] at hd; cases hd
          | ub => rw [h3] at hd; cases hd
          | ok x =>
            rw [h3] at hd
            simp only at hd
            cases h4 : Decoder.decodeSubsets ct.1 depth hh.datadesc fuel ct.2 i with
            | none => rw [h4] at hd; cases hd
            | some r =>
              rw [h4] at hd
              simp only [Option.map_some, Option.some.injEq] at hd
              obtain ⟨ss, g1, hd⟩ := Res.bind_eq_ok.mp hd
              simp only [Res.ok.injEq, Prod.mk.injEq] at hd
              obtain ⟨rfl, rfl⟩ := hd
              obtain ⟨⟨l, j⟩, g2, g3⟩ := Res.bind_eq_ok.mp g1
              subst g2
              obtain ⟨u, g4, g5⟩ := Res.bind_eq_ok.mp g3
              obtain ⟨-, b, hb⟩ := decodeSubsets_text u1 h4
              obtain ⟨c, e, he⟩ := decodeEnd_text g4
              refine ⟨a, ⟨s1, t, s2, s3, d, b0 ++ b, c, e, ?_, e2, e3⟩, ?_, ?_, ?_⟩
              · rw [e1, f1, hb, he]
                simp only [List.append_assoc]
              · unfold Decoder.scanATable at e4
                rw [List.takeWhile_cons_of_pos rfl] at e4
                simp only [List.length_cons, Nat.add_sub_cancel] at e4
                split at e4
                · next h => exact .inl h
                · split at e4
                  · next h => exact .inr h
                  · cases e4
              · intro k hk ha
                have hn : ∀ b ∈ 65 :: a, b ≠ 0 := by
                  intro b hb
                  rcases List.mem_cons.mp hb with rfl | hb
                  · decide
                  · rw [ha] at hb
                    exact zeroPadded_nul _ _ b hb
                unfold Decoder.scanATable at e4
                rw [takeWhile_nul hn, ha] at e4
                simp only [List.tail_cons, List.length_cons, zeroPadded_length, Nat.add_sub_cancel,
                  if_true, Res.ok.injEq, Prod.mk.injEq] at e4
                rw [strtol_padded 3 _ (by decide) (by omega) (by omega)] at e4
                have : toU32 ((k : Nat) : Int) = k := by unfold toU32; omega
                rw [this] at e4
                exact ⟨f2.trans e4.1.symm, f3.trans e4.2.1.symm, f4.trans e4.2.2.symm⟩
              · intro k k' hk hk' ha
                have hn : ∀ b ∈ 65 :: a, b ≠ 0 := by
                  intro b hb
                  rcases List.mem_cons.mp hb with rfl | hb
                  · decide
                  · rw [ha] at hb
                    rcases List.mem_append.mp hb with hb | hb <;> exact zeroPadded_nul _ _ b hb
                unfold Decoder.scanATable at e4
                rw [takeWhile_nul hn, ha] at e4
                simp only [List.tail_cons, List.length_cons, List.length_append, zeroPadded_length,
                  Nat.reduceAdd, Nat.reduceSub, Nat.reduceEqDiff, if_false, if_true, Res.ok.injEq,
                  Prod.mk.injEq] at e4
                rw [zeroPadded_append 3 3 _ _ (by omega), strtol_padded _ _ (by decide) (by omega) (by omega)] at e4
                have : toU32 ((k * 10 ^ 3 + k' : Nat) : Int) = k * 1000 + k' := by unfold toU32; omega
                rw [this, show (k * 1000 + k') / 1000 = k by omega,
                  show (k * 1000 + k') % 1000 = k' by omega] at e4
                exact ⟨f2.trans e4.1.symm, f3.trans e4.2.1.symm, f4.trans e4.2.2.symm⟩

/-- What a text is decoded to: the categories and the values. -/
def decoded (text : List Byte) : Option (Res (List UInt8 × List (List (Option Value)))) :=
  (Decoder.decode (fun _ => .ok (sampleCtx, noCaches)) 3 50 text).map fun r => r.bind fun r =>
    .ok ([r.1.data_category, r.1.data_subcategory, r.1.data_subcategory_local],
      r.2.map fun s => s.map (·.toVarCore.view))

/-- Messages that are decoded, with both kinds of A group, and others that are not: no
end section, no A group, an A group of four digits. -/
example :
    decoded (ascii "CREX++\r\r\nT000103 A004 B12101++\r\r\n 00273++\r\r\n7777") =
      some (.ok ([4, 255, 0], [[some (.num 273)]])) ∧
    decoded (ascii "CREX++\r\r\nT000103 A004007 B12101++\r\r\n 00273++\r\r\n7777") =
      some (.ok ([4, 7, 255], [[some (.num 273)]])) ∧
    decoded (ascii "CREX++\r\r\nT000103 A004 B12101++\r\r\n 00273++\r\r\n777 7") = some (.err .parse) ∧
    decoded (ascii "CREX++\r\r\nT000103 004 B12101++\r\r\n 00273++\r\r\n7777") = some (.err .parse) ∧
    decoded (ascii "CREX++\r\r\nT000103 A0004 B12101++\r\r\n 00273++\r\r\n7777") =
      some (.err .consistency) ∧
    decoded (ascii "CREX++\r\r\nT000103 A004 B12101+\r\r\n 00273++\r\r\n7777") = some (.err .parse) :=
  ⟨by decide +kernel, by decide +kernel, by decide +kernel, by decide +kernel, by decide +kernel,
    by decide +kernel⟩

end Wreport.Crex
