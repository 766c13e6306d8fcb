import Verif.Spec.Var
import Verif.Lemmas.Varcode
import Verif.Lemmas.Varinfo
import Mathlib.Tactic.IntervalCases

namespace Wreport

open Spec

/-! ## Writing decimal numbers -/

theorem digitsValue_append (a b : List Byte) :
    digitsValue (a ++ b) = digitsValue a * 10 ^ b.length + digitsValue b := by
  have key : ∀ (l : List Byte) (v : Nat),
      l.foldl (fun v b => v * 10 + (b.toNat - 48)) v =
        v * 10 ^ l.length + l.foldl (fun v b => v * 10 + (b.toNat - 48)) 0 := by
    intro l
    induction l with
    | nil => simp
    | cons x l ih =>
      intro v
      simp only [List.foldl_cons, List.length_cons]
      rw [ih (v * 10 + (x.toNat - 48)), ih (0 * 10 + (x.toNat - 48))]
      ring
  unfold digitsValue
  rw [List.foldl_append, key]

theorem digit_toNat {k : Nat} (h : k < 10) : (UInt8.ofNat (48 + k)).toNat = 48 + k := by
  rw [UInt8.toNat_ofNat', Nat.mod_eq_of_lt (by omega)]

theorem digitPair_value {k : Nat} (h : k < 100) : digitsValue (digitPair k) = k := by
  have h1 : k / 10 < 10 := by omega
  have h2 : k % 10 < 10 := by omega
  simp only [digitPair, digitsValue, List.foldl_cons, List.foldl_nil, digit_toNat h1,
    digit_toNat h2]
  omega

theorem u32Digits_append (n : Nat) (acc : List Byte) :
    u32Digits n acc = u32Digits n [] ++ acc := by
  induction n using Nat.strong_induction_on generalizing acc with
  | _ n ih =>
    rw [u32Digits, u32Digits.eq_def n []]
    split
    · rw [ih (n / 100) (by omega) (digitPair (n % 100) ++ acc),
        ih (n / 100) (by omega) (digitPair (n % 100) ++ [])]
      simp
    · split <;> simp

/-- The text written by the digit loop is the decimal form of the number. -/
theorem u32Digits_decimal (n : Nat) : IsDecimalNat (u32Digits n []) n := by
  induction n using Nat.strong_induction_on with
  | _ n ih =>
    rw [u32Digits]
    split
    · next h =>
      obtain ⟨h1, h2, h3, h4⟩ := ih (n / 100) (by omega)
      rw [u32Digits_append]
      have hk : n % 100 < 100 := Nat.mod_lt _ (by omega)
      refine ⟨by simp [h1], ?_, ?_, ?_⟩
      · intro b hb
        rw [List.mem_append] at hb
        rcases hb with hb | hb
        · exact h2 b hb
        · simp only [digitPair, List.append_nil, List.mem_cons, List.not_mem_nil, or_false] at hb
          rcases hb with rfl | rfl
          · rw [digit_toNat (by omega)]; omega
          · rw [digit_toNat (by omega)]; omega
      · rw [digitsValue_append, h3, List.append_nil, digitPair_value hk]
        simp [digitPair]; omega
      · intro hh
        exfalso
        rw [List.head?_append_of_ne_nil _ h1] at hh
        have hl := h4 hh
        obtain ⟨b, hb⟩ := List.length_eq_one_iff.mp hl
        rw [hb] at hh h3
        simp only [List.head?_cons, Option.some.injEq] at hh
        subst hh
        simp [digitsValue] at h3
        omega
    · split
      · next h =>
        refine ⟨by simp, ?_, ?_, by simp⟩
        · intro b hb
          simp only [List.mem_singleton] at hb
          subst hb
          rw [digit_toNat h]; omega
        · simp [digitsValue, -UInt8.ofNat_add, digit_toNat h]
      · next h1 h2 =>
        refine ⟨by simp [digitPair], ?_, ?_, ?_⟩
        · intro b hb
          simp only [digitPair, List.append_nil, List.mem_cons, List.not_mem_nil, or_false] at hb
          rcases hb with rfl | rfl
          · rw [digit_toNat (by omega)]; omega
          · rw [digit_toNat (by omega)]; omega
        · rw [List.append_nil, digitPair_value (by omega)]
        · intro hh
          exfalso
          simp only [digitPair, List.append_nil, List.head?_cons, Option.some.injEq] at hh
          have := congrArg UInt8.toNat hh
          rw [digit_toNat (by omega)] at this
          simp at this
          omega

theorem u32Digits_length (n : Nat) :
    (u32Digits n []).length =
      if n ≥ 100 then (u32Digits (n / 100) []).length + 2 else if n < 10 then 1 else 2 := by
  rw [u32Digits]
  split
  · rw [u32Digits_append]; simp [digitPair]
  · split <;> simp [digitPair]

/-- The digit count matches the number of digits written. -/
theorem count_digits_eq (n : Nat) (h : n < 4294967296) :
    (u32Digits n []).length = count_digits n := by
  rw [u32Digits_length, u32Digits_length, u32Digits_length, u32Digits_length, u32Digits_length]
  unfold count_digits
  split_ifs <;> omega

theorem uint32_to_str_ok (n : Nat) (h : n < 4294967296) :
    uint32_to_str n (count_digits n) = .ok (u32Digits n []) := by
  unfold uint32_to_str
  simp [count_digits_eq n h]

/-! ## Reading decimal numbers -/

theorem str_to_unsigned_digits (s : List Byte) (h : ∀ b ∈ s, 48 ≤ b.toNat ∧ b.toNat ≤ 57) :
    str_to_unsigned s = digitsValue s % 4294967296 := by
  have key : ∀ (l : List Byte) (v w : Nat), (∀ b ∈ l, 48 ≤ b.toNat ∧ b.toNat ≤ 57) →
      v = w % 4294967296 →
      l.foldl (fun val b => toU32 (val * 10 + charSub0 b)) v =
        l.foldl (fun v b => v * 10 + (b.toNat - 48)) w % 4294967296 := by
    intro l
    induction l with
    | nil => intro v w _ hv; simpa using hv
    | cons x l ih =>
      intro v w hl hv
      simp only [List.foldl_cons]
      apply ih _ _ (fun b hb => hl b (List.mem_cons_of_mem _ hb))
      have hx := hl x (by simp)
      unfold toU32 charSub0
      rw [if_pos (by omega)]
      omega
  exact key s 0 0 h rfl

theorem isDigit_iff (b : Byte) : isDigit b = true ↔ 48 ≤ b.toNat ∧ b.toNat ≤ 57 := by
  simp [isDigit]

theorem digit_ne_minus {b : Byte} (h : 48 ≤ b.toNat ∧ b.toNat ≤ 57) : b ≠ 45 := by
  rintro rfl; simp at h

theorem isnumber_digits {s : List Byte} (h : ∀ b ∈ s, 48 ≤ b.toNat ∧ b.toNat ≤ 57) :
    isnumber s = true := by
  unfold isnumber
  split
  · next t => exact absurd rfl (digit_ne_minus (h 45 (by simp)))
  · rw [List.all_eq_true]; intro b hb; rw [isDigit_iff]; exact h b hb

theorem isnumber_minus {s : List Byte} (h : ∀ b ∈ s, 48 ≤ b.toNat ∧ b.toNat ≤ 57) :
    isnumber (45 :: s) = true := by
  unfold isnumber
  simp only [List.all_eq_true]; intro b hb; rw [isDigit_iff]; exact h b hb

/-- Reading the decimal form of an integer gives the integer. -/
theorem strToInt32_decimal {s : List Byte} {i : Int} (h : IsDecimalInt s i)
    (hi : inInt i = true) : isnumber s = true ∧ strToInt32 s = i ∧ NulFree s := by
  rw [inInt_iff] at hi
  unfold IsDecimalInt at h
  split at h
  · next hneg =>
    obtain ⟨t, rfl, h1, h2, h3, h4⟩ := h
    refine ⟨isnumber_minus h2, ?_, ?_⟩
    · unfold strToInt32
      simp only
      rw [str_to_unsigned_digits t h2, h3]
      unfold ofU32 wrapInt toU32
      omega
    · intro b hb
      rcases List.mem_cons.mp hb with rfl | hb
      · decide
      · have := h2 b hb
        rintro rfl; simp at this
  · next hpos =>
    obtain ⟨h1, h2, h3, h4⟩ := h
    refine ⟨isnumber_digits h2, ?_, ?_⟩
    · unfold strToInt32
      split
      · next t => exact absurd rfl (digit_ne_minus (h2 45 (by simp)))
      · rw [str_to_unsigned_digits s h2, h3]
        unfold ofU32 wrapInt
        omega
    · intro b hb
      have := h2 b hb
      rintro rfl; simp at this

theorem toU32_nonneg {i : Int} (h0 : 0 ≤ i) (h : i < 4294967296) : toU32 i = i.natAbs := by
  unfold toU32; omega

/-- Text form of an integer other than the most negative one. -/
theorem int32_to_stdstr_ok (E : Env) {i : Int} (hi : inInt i = true)
    (hm : i ≠ -2147483648 ∨ E.wrapv = true) :
    ∃ s, int32_to_stdstr E i = .ok s ∧ IsDecimalInt s i ∧
      ∃ m, int32_to_str E i = .ok (c_str s ++ m) := by
  rw [inInt_iff] at hi
  unfold int32_to_stdstr int32_to_str
  by_cases hneg : i < 0
  · rw [if_pos hneg, if_pos hneg]
    have hs : ∃ n, E.sint (-i) = .ok n ∧ toU32 n = i.natAbs := by
      unfold Env.sint
      by_cases hmin : i = -2147483648
      · subst hmin
        rcases hm with hm | hm
        · exact absurd rfl hm
        · rw [if_neg (by decide), if_pos hm]
          exact ⟨_, rfl, by decide⟩
      · rw [if_pos (by rw [inInt_iff]; omega)]
        exact ⟨_, rfl, by unfold toU32; omega⟩
    obtain ⟨n, h1, h2⟩ := hs
    simp only [h1, Res.ok_bind, h2]
    have hlt : i.natAbs < 4294967296 := by omega
    rw [uint32_to_str_ok _ hlt]
    have hc : count_digits i.natAbs ≤ 10 := by unfold count_digits; split_ifs <;> omega
    rw [if_neg (by omega)]
    simp only [Res.ok_bind, Res.pure_def]
    refine ⟨_, rfl, ?_, _, rfl⟩
    unfold IsDecimalInt
    rw [if_pos hneg]
    exact ⟨_, rfl, u32Digits_decimal _⟩
  · rw [if_neg hneg, if_neg hneg]
    have h2 : toU32 i = i.natAbs := toU32_nonneg (by omega) (by omega)
    simp only [h2]
    have hlt : i.natAbs < 4294967296 := by omega
    rw [uint32_to_str_ok _ hlt]
    have hc : count_digits i.natAbs ≤ 10 := by unfold count_digits; split_ifs <;> omega
    rw [if_neg (by omega)]
    simp only [Res.ok_bind, Res.pure_def]
    refine ⟨_, rfl, ?_, _, rfl⟩
    unfold IsDecimalInt
    rw [if_neg hneg]
    exact u32Digits_decimal _

end Wreport
