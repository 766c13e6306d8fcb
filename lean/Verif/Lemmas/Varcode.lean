import Verif.Model.Varcode
import Verif.Spec.Varcode

namespace Wreport

theorem shl_or (x y k : Nat) (h : y < 2 ^ k) : (x <<< k) ||| y = x * 2 ^ k + y := by
  rw [← Nat.shiftLeft_add_eq_or_of_lt h, Nat.shiftLeft_eq]

theorem WR_VAR_eq (f x y : Nat) (hx : x < 64) (hy : y < 256) (hf : f < 4) :
    WR_VAR f x y = f * 16384 + x * 256 + y := by
  unfold WR_VAR
  rw [Nat.or_assoc, shl_or x y 8 hy, shl_or f (x * 2 ^ 8 + y) 14 (by omega)]
  simp only [Nat.reducePow]
  omega

theorem WR_VAR_F_eq (c : Nat) (h : c < 65536) : WR_VAR_F c = c / 16384 := by
  unfold WR_VAR_F; rw [Nat.shiftRight_eq_div_pow]; omega

theorem WR_VAR_X_eq (c : Nat) : WR_VAR_X c = c / 256 % 64 := by
  unfold WR_VAR_X; rw [Nat.shiftRight_eq_div_pow]

theorem WR_VAR_Y_eq (c : Nat) : WR_VAR_Y c = c % 256 := rfl

theorem digitChar_toNat (n : Nat) : (digitChar n).toNat = 48 + n % 10 := by
  unfold digitChar
  rw [UInt8.toNat_ofNat']
  omega

theorem isDigit_digitChar (n : Nat) : isDigit (digitChar n) = true := by
  unfold isDigit; rw [digitChar_toNat]; simp; omega

theorem charSub0_of_digit (b : Byte) (h1 : 48 ≤ b.toNat) (h2 : b.toNat ≤ 57) :
    charSub0 b = ((b.toNat - 48 : Nat) : Int) := by
  unfold charSub0
  rw [if_pos (by omega)]
  omega

theorem ofInt_shl_or (x y : Nat) (hx : x < 100) (hy : y < 1000) :
    (((BitVec.ofInt 32 (x : Int)) <<< 8) ||| (BitVec.ofInt 32 (y : Int))).toNat
      = (x <<< 8) ||| y := by
  have hx' : x <<< 8 < 2 ^ 32 := by rw [Nat.shiftLeft_eq]; omega
  simp only [BitVec.toNat_or, BitVec.toNat_shiftLeft, BitVec.ofInt_natCast, BitVec.toNat_ofNat]
  rw [Nat.mod_eq_of_lt (a := x) (by omega), Nat.mod_eq_of_lt hx', Nat.mod_eq_of_lt (a := y) (by omega)]

/-- `WR_STRING_TO_VAR` on five digits. -/
theorem string_to_var_digits (d1 d2 d3 d4 d5 : Byte)
    (h : ∀ d ∈ [d1, d2, d3, d4, d5], 48 ≤ d.toNat ∧ d.toNat ≤ 57) :
    WR_STRING_TO_VAR d1 d2 d3 d4 d5 =
      ((Spec.natOfDigits [d1, d2] <<< 8) ||| Spec.natOfDigits [d3, d4, d5]) % 65536 := by
  simp only [List.mem_cons, List.not_mem_nil, or_false, forall_eq_or_imp, forall_eq] at h
  obtain ⟨⟨a1, b1⟩, ⟨a2, b2⟩, ⟨a3, b3⟩, ⟨a4, b4⟩, a5, b5⟩ := h
  unfold WR_STRING_TO_VAR
  simp only [charSub0_of_digit, *, Spec.natOfDigits, List.foldl]
  rw [show (((d1.toNat - 48 : Nat) : Int) * 10 + ((d2.toNat - 48 : Nat) : Int))
        = (((d1.toNat - 48) * 10 + (d2.toNat - 48) : Nat) : Int) by push_cast; rfl,
      show (((d3.toNat - 48 : Nat) : Int) * 100 + ((d4.toNat - 48 : Nat) : Int) * 10
          + ((d5.toNat - 48 : Nat) : Int))
        = (((d3.toNat - 48) * 100 + (d4.toNat - 48) * 10 + (d5.toNat - 48) : Nat) : Int) by
          push_cast; rfl,
      ofInt_shl_or _ _ (by omega) (by omega)]
  congr 2
  · omega
  · omega

theorem varcodeCheck_digits (d1 d2 d3 d4 d5 : Byte) (rest : List Byte)
    (h : ∀ d ∈ [d1, d2, d3, d4, d5], 48 ≤ d.toNat ∧ d.toNat ≤ 57) :
    varcodeCheck (d1 :: d2 :: d3 :: d4 :: d5 :: rest) 5 false = .ok () := by
  simp only [List.mem_cons, List.not_mem_nil, or_false, forall_eq_or_imp, forall_eq] at h
  simp [varcodeCheck, isDigit, h]

theorem varcodeCheck_nondigit (pre : List Byte) (b : Byte) (rest : List Byte) (n : Nat)
    (hn : pre.length < n) (hb : isDigit b = false) :
    varcodeCheck (pre ++ b :: rest) n false = .err .consistency := by
  induction pre generalizing n with
  | nil =>
    match n, hn with
    | n + 1, _ => simp [varcodeCheck, hb]
  | cons a pre ih =>
    match n, hn with
    | n + 1, hn =>
      simp only [List.cons_append, varcodeCheck]
      split
      · exact ih n (by simpa using hn)
      · rfl

theorem varcodeParseF_letter (c : Byte) (f : Nat) (h : Spec.letterF c = some f) :
    varcodeParseF c = f * 16384 ∧ f < 4 := by
  unfold Spec.letterF at h
  split at h <;> simp_all <;> subst h <;> decide

/-- Parsing a letter followed by five digits, in general. -/
theorem varcode_parse_digits (c d1 d2 d3 d4 d5 : Byte) (rest : List Byte)
    (h : ∀ d ∈ [d1, d2, d3, d4, d5], 48 ≤ d.toNat ∧ d.toNat ≤ 57) :
    varcode_parse (c :: d1 :: d2 :: d3 :: d4 :: d5 :: rest) =
      .ok ((varcodeParseF c +
        ((Spec.natOfDigits [d1, d2] <<< 8) ||| Spec.natOfDigits [d3, d4, d5]) % 65536) % 65536) := by
  unfold varcode_parse
  simp only [varcodeCheck_digits d1 d2 d3 d4 d5 rest h]
  simp only [List.getD_cons_zero, List.getD_cons_succ]
  rw [string_to_var_digits _ _ _ _ _ h]

end Wreport
