import Verif.Lemmas.CrexCare

/-! # Headers of CREX messages without undefined behaviour -/

namespace Wreport.Crex

open Spec

theorem peek_safe {i : In} (h : InText i) : i.peek 0 ≠ .ub := by
  unfold In.peek
  unfold InText at h
  split
  · simp
  · rw [if_pos (by omega)]; simp

namespace Decoder

theorem parseDescriptor_safe {s : List Byte} (h : 6 ≤ s.length) (h0 : 0 ∉ s) :
    parseDescriptor s ≠ .ub := by
  unfold parseDescriptor
  simp only
  split
  · simp
  · next hd =>
    have hd' : ∀ k, 1 ≤ k → k < 6 → isDigit (s.getD k 0) = true := by
      intro k h1 h6
      rw [Bool.not_eq_true, Bool.not_eq_false', List.all_eq_true] at hd
      have hk : s.getD k 0 = s[k]'(by omega) := by
        rw [List.getD_eq_getElem?_getD, List.getElem?_eq_getElem (by omega : k < s.length)]
        rfl
      have hm : s[k]'(by omega) ∈ (s.drop 1).take 5 := by
        rw [List.mem_iff_getElem]
        refine ⟨k - 1, by simp; omega, ?_⟩
        rw [List.getElem_take, List.getElem_drop]
        congr 1
        omega
      have hb := hd _ hm
      rw [Bool.or_eq_true, decide_eq_true_eq] at hb
      rw [hk]
      refine hb.resolve_right fun e => h0 (e ▸ List.getElem_mem _)
    have g1 := (isDigit_iff _).mp (hd' 1 (by omega) (by omega))
    have g2 := (isDigit_iff _).mp (hd' 2 (by omega) (by omega))
    rw [if_neg]
    · simp
    · unfold charSub0
      rw [if_pos (by omega), if_pos (by omega)]
      omega

theorem descLoop_safe {fuel : Nat} {s : DescSt} (hs : InText s.1) (h0 : 0 ∉ s.1.data) :
    descLoop fuel s ≠ some .ub := by
  induction fuel generalizing s with
  | zero => simp [descLoop]
  | succ n ih =>
    unfold descLoop
    cases hp : s.1.peek 0 with
    | err e => simp [descTurn, hp]
    | ub => exact absurd hp (peek_safe hs)
    | ok c =>
      simp only [descTurn, hp]
      have h1 : c ≠ 0 → s.1.cur < s.1.data.length := by
        intro hc
        unfold In.peek at hp
        split at hp
        · omega
        · split at hp
          · cases hp; exact absurd rfl hc
          · cases hp
      by_cases hd : c = 66 ∨ c = 82 ∨ c = 67 ∨ c = 68
      · rw [if_pos hd]
        by_cases h6 : s.1.data.length < s.1.cur + 6
        · rw [if_pos h6]; simp
        · rw [if_neg h6]
          cases hc : parseDescriptor (s.1.rem.take 6) with
          | err e => simp
          | ub =>
            refine absurd hc (parseDescriptor_safe ?_ fun hm => h0 ?_)
            · rw [List.length_take, In.rem_length]; omega
            · exact List.mem_of_mem_drop (List.mem_of_mem_take hm)
          | ok code =>
            simp only
            exact ih (s := (s.1.skip_data_and_spaces 6, _)) (skip_cur (i := s.1) (n := 6) (by omega)).1 h0
      · rw [if_neg hd]
        by_cases h69 : c = 69
        · rw [if_pos h69]
          have := h1 (by rw [h69]; decide)
          exact ih (s := (In.skip_data_and_spaces ⟨s.1.data, s.1.cur, true, 1⟩ 1, _))
            (skip_cur (i := ⟨s.1.data, s.1.cur, true, 1⟩) (n := 1) (by simp only; omega)).1 h0
        · rw [if_neg h69]
          by_cases h43 : c = 43
          · rw [if_pos h43]
            have hc := h1 (by rw [h43]; decide)
            intro h
            simp only [Option.some.injEq] at h
            revert h
            refine Res.Has.not_ub (safe := True) (P := fun _ => True) ?_ trivial
            refine Res.Has.bind (P := fun _ => True) ?_ fun _ _ _ => ?_
            · unfold In.check_available_data
              split <;> trivial
            · refine Res.Has.bind (P := fun _ => True) ?_ fun d _ _ => ?_
              · unfold In.peek
                split
                · trivial
                · rw [if_pos (by omega)]; trivial
              · split <;> trivial
          · rw [if_neg h43]
            exact ih hs h0

theorem scanATable_safe (w : List Byte) : scanATable w ≠ .ub := by
  unfold scanATable
  generalize toU32 _ = x
  simp only
  split
  · simp
  · split <;> simp

theorem decodeStart_safe (data : List Byte) : decodeStart data ≠ .ub := by
  have eof : ∀ j : In, j.check_eof.Has True (fun _ => True) := by
    intro j
    unfold In.check_eof
    split <;> trivial
  refine Res.Has.not_ub (safe := True) (P := fun _ => True) ?_ trivial
  unfold decodeStart
  simp only
  refine Res.Has.bind (P := fun _ => (In.new data).cur + 6 ≤ (In.new data).data.length) ?_ fun _ _ h6 => ?_
  · unfold In.check_available_data
    split
    · trivial
    · next h => show _ ≤ _; omega
  have g1 := (skip_cur h6).1
  split
  · trivial
  · refine Res.Has.bind (eof _) fun _ _ _ => ?_
    refine Res.Has.bind (P := fun _ => True) (Res.Has.trivial' fun _ => peek_safe g1) fun _ _ _ => ?_
    split
    · trivial
    · split
      · trivial
      · obtain ⟨w1, -, -⟩ := Onward.read_word ((In.new data).skip_data_and_spaces 6) 11 g1
        refine Res.Has.bind (eof _) fun _ _ _ => ?_
        refine Res.Has.bind (P := fun _ => True) (Res.Has.trivial' fun _ => peek_safe w1) fun _ _ _ => ?_
        split
        · trivial
        · generalize hz : scanATable _ = z
          have hz' : z ≠ .ub := hz ▸ scanATable_safe _
          clear hz
          refine Res.Has.bind (P := fun _ => True) ?_ fun _ _ _ => ?_
          · exact Res.Has.trivial' fun _ => hz'
          · exact Res.Has.bind (eof _) fun _ _ _ => trivial

/-- Decoding the header of a text without NUL. -/
theorem decode_header_safe {data : List Byte} (h0 : 0 ∉ data) (fuel : Nat) :
    decode_header fuel data ≠ some .ub := by
  unfold decode_header
  cases h : decodeStart data with
  | err e => simp
  | ub => exact absurd h (decodeStart_safe data)
  | ok s =>
    obtain ⟨h1, h2⟩ := decodeStart_inText h
    exact descLoop_safe h1 (by rw [h2]; exact h0)

theorem decode_header_inText {data : List Byte} {fuel : Nat} {s : DescSt}
    (h : decode_header fuel data = some (.ok s)) : InText s.1 := by
  unfold decode_header at h
  cases hs : decodeStart data with
  | err e => rw [hs] at h; cases h
  | ub => rw [hs] at h; cases h
  | ok t =>
    rw [hs] at h
    exact (descLoop_inText (decodeStart_inText hs).1 h).1

end Decoder

end Wreport.Crex
