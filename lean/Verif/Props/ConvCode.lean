import Verif.Spec.Conv
import Verif.Model.Conv
import Mathlib.Tactic.Linarith
import Mathlib.Tactic.IntervalCases
import Mathlib.Tactic.NormNum

/-!
# C54: conversion of code tables
-/

namespace Wreport

open Conv Spec

/-! ## Cloud types -/

/-- The table for both directions, and an error for everything else. -/
def CloudPair (base slash : Int) (fwd back : Int → Res Int) : Prop :=
  (∀ x y, fwd x = .ok y ↔ (x, y) ∈ cloudTypes base slash) ∧
  (∀ x y, back y = .ok x ↔ (x, y) ∈ cloudTypes base slash) ∧
  (∀ x, (∀ y, (x, y) ∉ cloudTypes base slash) → fwd x = .err .domain) ∧
  (∀ y, (∀ x, (x, y) ∉ cloudTypes base slash) → back y = .err .domain)

theorem mem_cloudTypes {base slash x y : Int} :
    (x, y) ∈ cloudTypes base slash ↔ (0 ≤ x ∧ x ≤ 9 ∧ y = base + x) ∨ (x = -1 ∧ y = slash) := by
  simp only [cloudTypes, List.mem_cons, Prod.mk.injEq, List.not_mem_nil, or_false]
  constructor
  · rintro (⟨h, h'⟩ | ⟨h, h'⟩ | ⟨h, h'⟩ | ⟨h, h'⟩ | ⟨h, h'⟩ | ⟨h, h'⟩ | ⟨h, h'⟩ | ⟨h, h'⟩ | ⟨h, h'⟩ |
      ⟨h, h'⟩ | ⟨h, h'⟩) <;> omega
  · rintro (⟨h1, h2, h3⟩ | h)
    · interval_cases x <;> simp [h3]
    · simp [h]

/-- A pair of functions of the form of the four in the code. -/
theorem cloudPair_of {base slash : Int} (hs : slash < base ∨ base + 9 < slash)
    {fwd back : Int → Res Int}
    (hf : ∀ x, fwd x = if 0 ≤ x ∧ x ≤ 9 then .ok (base + x) else if x = -1 then .ok slash
      else .err .domain)
    (hb : ∀ y, back y = if base ≤ y ∧ y ≤ base + 9 then .ok (y - base) else if y = slash then
      .ok (-1) else .err .domain) : CloudPair base slash fwd back := by
  refine ⟨fun x y => ?_, fun x y => ?_, fun x h => ?_, fun y h => ?_⟩
  · rw [hf, mem_cloudTypes]
    split
    · simp only [Res.ok.injEq]; omega
    · split
      · simp only [Res.ok.injEq]; omega
      · simp only [reduceCtorEq, false_iff]; omega
  · rw [hb, mem_cloudTypes]
    split
    · simp only [Res.ok.injEq]; omega
    · split
      · simp only [Res.ok.injEq]; omega
      · simp only [reduceCtorEq, false_iff]; omega
  · rw [hf]
    have h1 := h (base + x)
    have h2 := h slash
    rw [mem_cloudTypes] at h1 h2
    rw [if_neg (by omega), if_neg (by omega)]
  · rw [hb]
    have h1 := h (y - base)
    have h2 := h (-1)
    rw [mem_cloudTypes] at h1 h2
    rw [if_neg (by omega), if_neg (by omega)]

/-- Cloud types: for all four SYNOP tables the two functions are the table of the comment read
in the two directions, for every `int`, and give an error outside it. -/
theorem C54_clouds :
    CloudPair 0 59 convert_WMO0500_to_BUFR20012 convert_BUFR20012_to_WMO0500 ∧
    CloudPair 10 60 convert_WMO0509_to_BUFR20012 convert_BUFR20012_to_WMO0509 ∧
    CloudPair 20 61 convert_WMO0515_to_BUFR20012 convert_BUFR20012_to_WMO0515 ∧
    CloudPair 30 62 convert_WMO0513_to_BUFR20012 convert_BUFR20012_to_WMO0513 := by
  refine ⟨cloudPair_of (by omega) (fun x => ?_) (fun y => ?_), cloudPair_of (by omega) (fun x => ?_)
    (fun y => ?_), cloudPair_of (by omega) (fun x => ?_) (fun y => ?_), cloudPair_of (by omega)
    (fun x => ?_) (fun y => ?_)⟩ <;>
  simp only [convert_WMO0500_to_BUFR20012, convert_BUFR20012_to_WMO0500,
    convert_WMO0509_to_BUFR20012, convert_BUFR20012_to_WMO0509, convert_WMO0515_to_BUFR20012,
    convert_BUFR20012_to_WMO0515, convert_WMO0513_to_BUFR20012, convert_BUFR20012_to_WMO0513,
    Int.zero_add, Int.sub_zero, Int.add_comm 10, Int.add_comm 20, Int.add_comm 30] <;> rfl

/-- There and back. -/
theorem C54_clouds_inverse {base slash : Int} {fwd back : Int → Res Int}
    (h : CloudPair base slash fwd back) (x y : Int) : fwd x = .ok y ↔ back y = .ok x :=
  (h.1 x y).trans (h.2.1 x y).symm

/-- A BUFR cloud type belongs to at most one of the four tables. -/
theorem C54_clouds_distinct {b s b' s' x x' y : Int}
    (h : (b, s) ∈ [(0, 59), (10, 60), (20, 61), (30, 62)])
    (h' : (b', s') ∈ [(0, 59), (10, 60), (20, 61), (30, 62)])
    (m : (x, y) ∈ cloudTypes b s) (m' : (x', y) ∈ cloudTypes b' s') : b = b' ∧ x = x' := by
  rw [mem_cloudTypes] at m m'
  simp only [List.mem_cons, Prod.mk.injEq, List.not_mem_nil, or_false] at h h'
  omega

example : convert_WMO0509_to_BUFR20012 7 = .ok 17 ∧ convert_BUFR20012_to_WMO0509 17 = .ok 7 ∧
    convert_BUFR20012_to_WMO0515 17 = .err .domain := by decide

/-! ## Weather -/

/-- Full statement: every code of the table (0-99, 0-9) is kept in both directions and
everything else is an error. Missing: negative codes, which are accepted
(`C54_not_negative`). -/
theorem C54_weather_partial (x : Int) :
    (0 ≤ x → x ≤ 99 → convert_WMO4677_to_BUFR20003 x = .ok x ∧
      convert_BUFR20003_to_WMO4677 x = .ok x) ∧
    (99 < x → convert_WMO4677_to_BUFR20003 x = .err .domain ∧
      convert_BUFR20003_to_WMO4677 x = .err .domain) ∧
    (0 ≤ x → x ≤ 9 → convert_WMO4561_to_BUFR20004 x = .ok x ∧
      convert_BUFR20004_to_WMO4561 x = .ok x) ∧
    (9 < x → convert_WMO4561_to_BUFR20004 x = .err .domain ∧
      convert_BUFR20004_to_WMO4561 x = .err .domain) := by
  simp only [convert_WMO4677_to_BUFR20003, convert_BUFR20003_to_WMO4677,
    convert_WMO4561_to_BUFR20004, convert_BUFR20004_to_WMO4561]
  refine ⟨fun _ h => ?_, fun h => ?_, fun _ h => ?_, fun h => ?_⟩
  · simp [h]
  · simp [Int.not_le.mpr h]
  · simp [h]
  · simp [Int.not_le.mpr h]

/-- Negative codes, which are in no table, are not an error in any direction. -/
theorem C54_not_negative (x : Int) (h : x < 0) :
    convert_WMO4677_to_BUFR20003 x = .ok x ∧ convert_BUFR20003_to_WMO4677 x = .ok x ∧
    convert_WMO4561_to_BUFR20004 x = .ok x ∧ convert_BUFR20004_to_WMO4561 x = .ok x := by
  have h1 : x ≤ 99 := by omega
  have h2 : x ≤ 9 := by omega
  simp [convert_WMO4677_to_BUFR20003, convert_BUFR20003_to_WMO4677, convert_WMO4561_to_BUFR20004,
    convert_BUFR20004_to_WMO4561, h1, h2]

/-! ## Level significance -/

theorem and_flag {x i : Nat} : x &&& 2 ^ i ≠ 0 ↔ x.testBit i = true := by
  constructor
  · intro h
    by_contra hc
    refine h (Nat.eq_of_testBit_eq fun j => ?_)
    rw [Nat.testBit_and, Nat.testBit_two_pow, Nat.zero_testBit]
    by_cases hij : i = j
    · subst hij; simpa using hc
    · simp [hij]
  · intro h h'
    have := congrArg (·.testBit i) h'
    simp [Nat.testBit_and, h] at this

theorem testBit_orIf (x i bits res j : Nat) :
    (orIf x (2 ^ i) bits res).testBit j = (res.testBit j || (x.testBit i && bits.testBit j)) := by
  unfold orIf
  have h : x &&& 2 ^ i ≠ 0 ↔ x.testBit i = true := and_flag
  by_cases hx : x.testBit i = true
  · rw [if_pos (h.mpr hx)]; simp [hx]
  · rw [if_neg (fun h' => hx (h.mp h'))]; simp [hx]

theorem flagMissing {x : Nat} : x &&& 1 ≠ 0 ↔ x.testBit 0 = true := and_flag (i := 0)

/-- From 08001: without the flag for missing, exactly the flags with the same meaning are
set; with it, all. -/
theorem C54_levels_forward (x : Nat) :
    (x.testBit 0 = false → ∀ j, (convert_BUFR08001_to_BUFR08042 x).testBit j = true ↔
      ∃ p ∈ levelFlags, x.testBit p.1 = true ∧ j ∈ p.2) ∧
    (x.testBit 0 = true → convert_BUFR08001_to_BUFR08042 x = 2 ^ 18 - 1) := by
  constructor
  · intro h j
    unfold convert_BUFR08001_to_BUFR08042
    rw [if_neg (by rw [BUFR08001.MISSING, flagMissing, h]; simp)]
    rw [show BUFR08001.SURFACE = 2 ^ 6 from rfl, show BUFR08001.STD = 2 ^ 5 from rfl,
      show BUFR08001.TROPO = 2 ^ 4 from rfl, show BUFR08001.MAXWIND = 2 ^ 3 from rfl,
      show BUFR08001.SIGTH = 2 ^ 2 from rfl, show BUFR08001.SIGWIND = 2 ^ 1 from rfl]
    simp only [testBit_orIf]
    rw [show BUFR08042.SURFACE = 2 ^ 17 from rfl, show BUFR08042.STD = 2 ^ 16 from rfl,
      show BUFR08042.TROPO = 2 ^ 15 from rfl, show BUFR08042.MAXWIND = 2 ^ 14 from rfl,
      show BUFR08042.SIGTEMP = 2 ^ 13 from rfl, show BUFR08042.SIGHUM = 2 ^ 12 from rfl,
      show BUFR08042.SIGWIND = 2 ^ 11 from rfl]
    simp only [Nat.testBit_or, Nat.testBit_two_pow, Nat.zero_testBit, Bool.false_or, levelFlags,
      List.mem_cons, List.not_mem_nil, or_false, exists_eq_or_imp, exists_eq_left,
      Bool.or_eq_true, Bool.and_eq_true, decide_eq_true_eq]
    grind
  · intro h
    unfold convert_BUFR08001_to_BUFR08042
    rw [if_pos (by rw [BUFR08001.MISSING, flagMissing, h])]
    rfl

/-- To 08001: a flag is set if one with the same meaning is. -/
theorem C54_levels_back (x : Nat) :
    (x.testBit 0 = false → ∀ i, (convert_BUFR08042_to_BUFR08001 x).testBit i = true ↔
      ∃ p ∈ levelFlags, p.1 = i ∧ ∃ j ∈ p.2, x.testBit j = true) ∧
    (x.testBit 0 = true → convert_BUFR08042_to_BUFR08001 x = 2 ^ 7 - 1) := by
  constructor
  · intro h j
    unfold convert_BUFR08042_to_BUFR08001
    rw [if_neg (by rw [BUFR08042.MISSING, flagMissing, h]; simp)]
    rw [show BUFR08042.SURFACE = 2 ^ 17 from rfl, show BUFR08042.STD = 2 ^ 16 from rfl,
      show BUFR08042.TROPO = 2 ^ 15 from rfl, show BUFR08042.MAXWIND = 2 ^ 14 from rfl,
      show BUFR08042.SIGTEMP = 2 ^ 13 from rfl, show BUFR08042.SIGHUM = 2 ^ 12 from rfl,
      show BUFR08042.SIGWIND = 2 ^ 11 from rfl]
    simp only [testBit_orIf]
    rw [show BUFR08001.SURFACE = 2 ^ 6 from rfl, show BUFR08001.STD = 2 ^ 5 from rfl,
      show BUFR08001.TROPO = 2 ^ 4 from rfl, show BUFR08001.MAXWIND = 2 ^ 3 from rfl,
      show BUFR08001.SIGTH = 2 ^ 2 from rfl, show BUFR08001.SIGWIND = 2 ^ 1 from rfl]
    simp only [Nat.testBit_two_pow, Nat.zero_testBit, Bool.false_or, levelFlags,
      List.mem_cons, List.not_mem_nil, or_false, exists_eq_or_imp, exists_eq_left,
      Bool.or_eq_true, Bool.and_eq_true, decide_eq_true_eq]
    grind
  · intro h
    unfold convert_BUFR08042_to_BUFR08001
    rw [if_pos (by rw [BUFR08042.MISSING, flagMissing, h])]
    rfl

/-- The 08001 values that come back from 08042: 7 bits without the missing flag, or all of
them set. -/
theorem C54_levels_inverse (x : Nat) :
    convert_BUFR08042_to_BUFR08001 (convert_BUFR08001_to_BUFR08042 x) = x ↔
      (x < 2 ^ 7 ∧ x % 2 = 0) ∨ x = 2 ^ 7 - 1 := by
  have hmod : x.testBit 0 = false ↔ x % 2 = 0 := by
    rw [Nat.testBit_zero]; simp
  by_cases h0 : x.testBit 0 = true
  · rw [(C54_levels_forward x).2 h0, (C54_levels_back _).2 (by decide)]
    have : x % 2 ≠ 0 := fun h => by rw [hmod.mpr h] at h0; cases h0
    omega
  · have h0' : x.testBit 0 = false := by simpa using h0
    have hf := (C54_levels_forward x).1 h0'
    have hf0 : (convert_BUFR08001_to_BUFR08042 x).testBit 0 = false := by
      rw [Bool.eq_false_iff]
      intro h
      rw [hf] at h
      simp [levelFlags] at h
    have hb := (C54_levels_back (convert_BUFR08001_to_BUFR08042 x)).1 hf0
    have hx : x % 2 = 0 := hmod.mp h0'
    have key : ∀ i, (convert_BUFR08042_to_BUFR08001 (convert_BUFR08001_to_BUFR08042 x)).testBit i =
        true ↔ (1 ≤ i ∧ i ≤ 6 ∧ x.testBit i = true) := by
      intro i
      rw [hb]
      simp only [hf]
      simp only [levelFlags, List.mem_cons, List.not_mem_nil, or_false, exists_eq_or_imp,
        exists_eq_left]
      constructor
      · rintro (⟨rfl, h⟩ | ⟨rfl, h | h⟩ | ⟨rfl, h⟩ | ⟨rfl, h⟩ | ⟨rfl, h⟩ | ⟨rfl, h⟩) <;>
          exact ⟨by omega, by omega, by simpa using h⟩
      · rintro ⟨h1, h2, h3⟩
        interval_cases i <;> simp [h3]
    constructor
    · intro h
      left
      refine ⟨?_, hx⟩
      rw [h] at key
      refine Nat.lt_pow_two_of_testBit x fun i hi => ?_
      rw [Bool.eq_false_iff]
      intro ht
      have := (key i).mp ht
      omega
    · intro h
      have hlt : x < 2 ^ 7 := by omega
      refine Nat.eq_of_testBit_eq fun i => ?_
      rw [Bool.eq_iff_iff, key]
      constructor
      · exact fun h => h.2.2
      · intro ht
        refine ⟨?_, ?_, ht⟩
        · rcases Nat.eq_zero_or_pos i with rfl | h'
          · rw [h0'] at ht; cases ht
          · exact h'
        · by_contra hc
          have : x < 2 ^ i := lt_of_lt_of_le hlt (Nat.pow_le_pow_right (by omega) (by omega))
          rw [Nat.testBit_lt_two_pow this] at ht; cases ht

/-- The 08042 values that come back from 08001: only flags that 08001 has, those for humidity
and temperature equal, or all of them set. -/
theorem C54_levels_inverse_back (y : Nat) :
    convert_BUFR08001_to_BUFR08042 (convert_BUFR08042_to_BUFR08001 y) = y ↔
      ((∀ j, y.testBit j = true → 11 ≤ j ∧ j ≤ 17) ∧ y.testBit 12 = y.testBit 13) ∨
        y = 2 ^ 18 - 1 := by
  by_cases h0 : y.testBit 0 = true
  · rw [(C54_levels_back y).2 h0, (C54_levels_forward _).2 (by decide)]
    constructor
    · intro h; right; exact h.symm
    · rintro (⟨h, -⟩ | h)
      · have := h 0 h0; omega
      · exact h.symm
  · have h0' : y.testBit 0 = false := by simpa using h0
    have hb := (C54_levels_back y).1 h0'
    have hb0 : (convert_BUFR08042_to_BUFR08001 y).testBit 0 = false := by
      rw [Bool.eq_false_iff]
      intro h
      rw [hb] at h
      simp [levelFlags] at h
    have hf := (C54_levels_forward (convert_BUFR08042_to_BUFR08001 y)).1 hb0
    have key : ∀ j, (convert_BUFR08001_to_BUFR08042 (convert_BUFR08042_to_BUFR08001 y)).testBit j =
        true ↔ (11 ≤ j ∧ j ≤ 17 ∧ (y.testBit j = true ∨
          ((j = 12 ∨ j = 13) ∧ (y.testBit 12 = true ∨ y.testBit 13 = true)))) := by
      intro j
      rw [hf]
      simp only [hb]
      simp only [levelFlags, List.mem_cons, List.not_mem_nil, or_false, exists_eq_or_imp,
        exists_eq_left]
      constructor
      · rintro (⟨h, rfl⟩ | ⟨h, rfl | rfl⟩ | ⟨h, rfl⟩ | ⟨h, rfl⟩ | ⟨h, rfl⟩ | ⟨h, rfl⟩)
        · exact ⟨by omega, by omega, .inl (by simpa using h)⟩
        · exact ⟨by omega, by omega, .inr ⟨.inl rfl, by simpa using h⟩⟩
        · exact ⟨by omega, by omega, .inr ⟨.inr rfl, by simpa using h⟩⟩
        all_goals exact ⟨by omega, by omega, .inl (by simpa using h)⟩
      · rintro ⟨h1, h2, h3⟩
        interval_cases j <;> simp at h3 ⊢ <;> first | exact h3 | (rcases h3 with h | h | h <;> simp [h])
    constructor
    · intro h
      rw [h] at key
      left
      refine ⟨fun j hj => ⟨((key j).mp hj).1, ((key j).mp hj).2.1⟩, ?_⟩
      rw [Bool.eq_iff_iff]
      constructor
      · intro h'; exact (key 13).mpr ⟨by omega, by omega, .inr ⟨.inr rfl, .inl h'⟩⟩
      · intro h'; exact (key 12).mpr ⟨by omega, by omega, .inr ⟨.inl rfl, .inr h'⟩⟩
    · rintro (⟨h1, h2⟩ | h)
      · refine Nat.eq_of_testBit_eq fun j => ?_
        rw [Bool.eq_iff_iff, key]
        constructor
        · rintro ⟨-, -, h | ⟨h, h'⟩⟩
          · exact h
          · rcases h with rfl | rfl
            · rcases h' with h' | h'
              · exact h'
              · rw [h2]; exact h'
            · rcases h' with h' | h'
              · rw [← h2]; exact h'
              · exact h'
        · exact fun h => ⟨(h1 j h).1, (h1 j h).2, .inl h⟩
      · subst h; simp at h0

/-- Values that are not kept. -/
theorem C54_not_levels : convert_BUFR08042_to_BUFR08001 (convert_BUFR08001_to_BUFR08042 3) = 127 ∧
    convert_BUFR08001_to_BUFR08042 (convert_BUFR08042_to_BUFR08001 0x1000) = 0x3000 := by decide

/-- AOF level significance: exactly the flags with the same meaning. -/
theorem C54_aof (x j : Nat) : (convert_AOFVSS_to_BUFR08042 x).testBit j = true ↔
    ∃ p ∈ aofFlags, x.testBit p.1 = true ∧ p.2 = j := by
  unfold convert_AOFVSS_to_BUFR08042
  simp only [Nat.one_shiftLeft, testBit_orIf]
  rw [show BUFR08042.SURFACE = 2 ^ 17 from rfl, show BUFR08042.STD = 2 ^ 16 from rfl,
      show BUFR08042.TROPO = 2 ^ 15 from rfl, show BUFR08042.MAXWIND = 2 ^ 14 from rfl,
      show BUFR08042.SIGTEMP = 2 ^ 13 from rfl, show BUFR08042.SIGWIND = 2 ^ 11 from rfl]
  simp only [Nat.testBit_two_pow, Nat.zero_testBit, Bool.false_or, aofFlags,
      List.mem_cons, List.not_mem_nil, or_false, exists_eq_or_imp, exists_eq_left,
      Bool.or_eq_true, Bool.and_eq_true, decide_eq_true_eq]
  grind

example : convert_BUFR08001_to_BUFR08042 0x44 = 0x23000 ∧
    convert_BUFR08042_to_BUFR08001 0x23000 = 0x44 ∧ convert_AOFVSS_to_BUFR08042 0x48 = 0x30000 := by
  decide

/-! ## Octants -/

/-- Octants to degrees and back, and an error outside 0-8. -/
theorem C54_octants (x : Int) :
    (0 ≤ x ∧ x ≤ 8 → ∃ d, convert_octants_to_degrees x = .ok d ∧
      convert_degrees_to_octants (.fin d) = .ok x) ∧
    (x < 0 ∨ 8 < x → convert_octants_to_degrees x = .err .domain) := by
  constructor
  · rintro ⟨h1, h2⟩
    refine ⟨x * 45, by simp [convert_octants_to_degrees]; omega, ?_⟩
    interval_cases x <;> decide +kernel
  · intro h
    simp [convert_octants_to_degrees, h]

/-- Degrees to octants: 0 is calm, the other directions give the octant they are in. -/
theorem C54_degrees (d : ℚ) :
    (0 < d → d ≤ 360 → ∃ o, convert_degrees_to_octants (.fin d) = .ok o ∧ InOctant d o) ∧
    convert_degrees_to_octants (.fin 0) = .ok 0 ∧
    (d < 0 ∨ 360 < d → convert_degrees_to_octants (.fin d) = .err .domain) := by
  refine ⟨fun h1 h2 => ?_, by decide +kernel, fun h => ?_⟩
  · unfold convert_degrees_to_octants
    have n1 : ¬ d < 0 := not_lt.mpr h1.le
    have n2 : ¬ 360 < d := not_lt.mpr h2
    have n3 : d ≠ 0 := ne_of_gt h1
    simp only [Dbl.lt, Dbl.gt, n1, n2, decide_false, Bool.or_self, Bool.false_eq_true, if_false,
      Dbl.fin.injEq, n3]
    have le_or : ∀ c : ℚ, (decide (d < c) || decide (d = c)) = decide (d ≤ c) := by
      intro c; simp [le_iff_lt_or_eq]
    simp only [Bool.or_assoc, le_or]
    split
    · next h =>
      refine ⟨8, rfl, by omega, by omega, ?_⟩
      simp only [Bool.or_eq_true, decide_eq_true_eq] at h
      rcases h with h | h
      · exact ⟨0, by norm_num at h ⊢; linarith, by norm_num at h ⊢; linarith⟩
      · exact ⟨1, by norm_num at h ⊢; linarith, by norm_num at h ⊢; linarith⟩
    next h0 =>
    simp only [Bool.or_eq_true, decide_eq_true_eq, not_or, not_lt, not_le] at h0
    have fin : ∀ o : Int, 1 ≤ o → o ≤ 8 → 45 * (o : ℚ) - 45 / 2 < d → d ≤ 45 * o + 45 / 2 →
        ∃ o', (Res.ok o : Res Int) = .ok o' ∧ InOctant d o' := by
      intro o h1 h2 h3 h4
      exact ⟨o, rfl, h1, h2, 0, by simpa using h3, by simpa using h4⟩
    have step : ∀ (o : Int) (a b : ℚ) (r : Res Int), 1 ≤ o → o ≤ 8 → a = 45 * o - 45 / 2 →
        b = 45 * o + 45 / 2 → (¬ (a < d ∧ d ≤ b) → ∃ o', r = .ok o' ∧ InOctant d o') →
        ∃ o', (if (decide (a < d) && decide (d ≤ b)) = true then (.ok o : Res Int) else r) = .ok o' ∧
          InOctant d o' := by
      intro o a b r h1 h2 ha hb hr
      by_cases hc : a < d ∧ d ≤ b
      · rw [if_pos (by simpa using hc)]
        exact fin o h1 h2 (ha ▸ hc.1) (hb ▸ hc.2)
      · rw [if_neg (by simpa using hc)]
        exact hr hc
    refine step 1 _ _ _ (by omega) (by omega) (by norm_num) (by norm_num) fun s1 => ?_
    refine step 2 _ _ _ (by omega) (by omega) (by norm_num) (by norm_num) fun s2 => ?_
    refine step 3 _ _ _ (by omega) (by omega) (by norm_num) (by norm_num) fun s3 => ?_
    refine step 4 _ _ _ (by omega) (by omega) (by norm_num) (by norm_num) fun s4 => ?_
    refine step 5 _ _ _ (by omega) (by omega) (by norm_num) (by norm_num) fun s5 => ?_
    refine step 6 _ _ _ (by omega) (by omega) (by norm_num) (by norm_num) fun s6 => ?_
    have cut : ∀ {a b : ℚ}, a < d → ¬ (a < d ∧ d ≤ b) → b < d := fun h h' => by
      by_contra hc; exact h' ⟨h, not_lt.mp hc⟩
    have := cut (cut (cut (cut (cut (cut h0.2 s1) s2) s3) s4) s5) s6
    refine fin 7 (by omega) (by omega) ?_ ?_
    · norm_num at this ⊢; linarith
    · have := h0.1; norm_num at this ⊢; linarith
  · simp only [convert_degrees_to_octants, Dbl.lt, Dbl.gt]
    have : (decide (d < 0) || decide (360 < d)) = true := by simpa using h
    simp only [this, if_true]

/-- NaN is north-west: it passes the check of the range and no comparison holds. -/
theorem C54_not_nan : convert_degrees_to_octants .nan = .ok 7 := by decide +kernel

example : convert_degrees_to_octants (.fin 350) = .ok 8 ∧ InOctant 350 8 := by
  refine ⟨by decide +kernel, by omega, by omega, 0, by norm_num, by norm_num⟩

end Wreport
