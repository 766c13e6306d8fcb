import Verif.Lemmas.Varcode

/-!
# C01, C02: descriptor text
-/

namespace Wreport

open Spec

/-- C02 (part): a descriptor text is parsed to exactly its descriptor, also when
followed by more text. Missing from the full property: rejection of every other
text, which the code does not do (see the `C02_not_...` theorems). -/
theorem C02_parse_canonical_partial (s rest : List Byte) (f x y : Nat)
    (h : IsDescriptorText s f x y) :
    varcode_parse (s ++ rest) = .ok (descriptorCode f x y) := by
  obtain ⟨c, d1, d2, d3, d4, d5, rfl, hc, hd, rfl, hx, rfl, hy⟩ := h
  obtain ⟨hF, hf⟩ := varcodeParseF_letter c f hc
  simp only [List.cons_append, List.nil_append]
  rw [varcode_parse_digits _ _ _ _ _ _ _ hd, shl_or _ _ 8 hy, hF]
  unfold descriptorCode
  congr 1
  omega

example : IsDescriptorText (ascii "B12101") 0 12 101 :=
  ⟨0x42, 0x31, 0x32, 0x31, 0x30, 0x31, by decide, by decide, by decide, by decide, by decide,
    by decide, by decide⟩

/-- C02 (part): a text in which one of the five characters after the first is
present and is not a digit is rejected with an error. -/
theorem C02_nondigit_rejected_partial (c b : Byte) (pre post : List Byte)
    (hlen : pre.length < 5) (hb : isDigit b = false) :
    varcode_parse (c :: (pre ++ b :: post)) = .err .consistency := by
  unfold varcode_parse
  simp only [varcodeCheck_nondigit pre b post 5 hlen hb]

example : isDigit 0x2e = false ∧ [0x31, 0x32].length < 5 := by decide

/-- C02 fails: the five-character text "B0100" is accepted, although it is not a
descriptor text, and gives a code of another table (F=3). -/
theorem C02_not_short_rejected :
    varcode_parse (ascii "B0100") = .ok 65488 ∧
      ¬ ∃ f x y, IsDescriptorText (ascii "B0100") f x y := by
  refine ⟨by decide, ?_⟩
  rintro ⟨f, x, y, c, d1, d2, d3, d4, d5, h, -⟩
  have := congrArg List.length h
  simp [ascii] at this

/-- C02 fails: "B01" makes the parser read past the end of the string. -/
theorem C02_not_memory_safe : varcode_parse (ascii "B01") = .ub := by decide

/-- C02 fails: a first character that names no table is accepted as table B. -/
theorem C02_not_letter_rejected : varcode_parse (ascii "Z01001") = .ok (WR_VAR 0 1 1) := by decide

/-- C02 fails: X above 63 is accepted and changes F. -/
theorem C02_not_x_rejected : varcode_parse (ascii "B64001") = .ok (WR_VAR 1 0 1) := by decide

/-- C02 fails: Y above 255 is accepted and changes X. -/
theorem C02_not_y_rejected : varcode_parse (ascii "B00256") = .ok (WR_VAR 0 1 0) := by decide

/-- Printing gives a descriptor text for the descriptor's F, X and Y. -/
theorem C01_format_is_text (c : Varcode) (h : c < 65536) :
    IsDescriptorText (varcode_format c) (c / 16384) (c / 256 % 64) (c % 256) := by
  have hF := WR_VAR_F_eq c h
  unfold varcode_format
  rw [hF, WR_VAR_X_eq, WR_VAR_Y_eq]
  refine ⟨_, _, _, _, _, _, rfl, ?_, ?_, ?_, by omega, ?_, by omega⟩
  · have : c / 16384 < 4 := by omega
    match c / 16384, this with
    | 0, _ => rfl
    | 1, _ => rfl
    | 2, _ => rfl
    | 3, _ => rfl
  · intro d hd
    simp only [List.mem_cons, List.not_mem_nil, or_false] at hd
    rcases hd with rfl | rfl | rfl | rfl | rfl <;> rw [digitChar_toNat] <;> omega
  · simp only [natOfDigits, List.foldl, digitChar_toNat]; omega
  · have hdiv : c % 256 / 10 / 10 = c % 256 / 100 := Nat.div_div_eq_div_mul _ _ _
    simp only [natOfDigits, List.foldl, digitChar_toNat]; omega

/-- C01: printing a descriptor and parsing the text gives the descriptor back. -/
theorem C01_parse_format (c : Varcode) (h : c < 65536) :
    varcode_parse (varcode_format c) = .ok c := by
  have := C02_parse_canonical_partial _ [] _ _ _ (C01_format_is_text c h)
  rw [List.append_nil] at this
  rw [this]
  unfold descriptorCode
  congr 1
  omega

example : varcode_format (WR_VAR 3 21 5) = ascii "D21005" ∧ WR_VAR 3 21 5 < 65536 := by decide

/-- C01: different descriptors print differently. -/
theorem C01_format_injective (c d : Varcode) (hc : c < 65536) (hd : d < 65536)
    (h : varcode_format c = varcode_format d) : c = d := by
  have h1 := C01_parse_format c hc
  rw [h, C01_parse_format d hd] at h1
  exact (Res.ok.inj h1).symm

/-- C01: composing a code from F, X, Y and taking it apart are inverse. -/
theorem C01_components (f x y : Nat) (hf : f < 4) (hx : x < 64) (hy : y < 256) :
    WR_VAR f x y = descriptorCode f x y ∧ WR_VAR_F (WR_VAR f x y) = f ∧
      WR_VAR_X (WR_VAR f x y) = x ∧ WR_VAR_Y (WR_VAR f x y) = y := by
  rw [WR_VAR_eq f x y hx hy hf]
  refine ⟨rfl, ?_, ?_, ?_⟩
  · rw [WR_VAR_F_eq _ (by omega)]; omega
  · rw [WR_VAR_X_eq]; omega
  · rw [WR_VAR_Y_eq]; omega

/-- C01: variable type names round trip, and only the four names are accepted. -/
theorem C01_vartype_roundtrip (t : Vartype) (s : List Byte) :
    vartype_parse s = .ok t ↔ s = vartype_format t := by
  constructor
  · intro h
    unfold vartype_parse at h
    split at h
    · injection h with h; subst h; assumption
    · split at h
      · injection h with h; subst h; assumption
      · split at h
        · injection h with h; subst h; assumption
        · split at h
          · injection h with h; subst h; assumption
          · exact absurd h (by simp)
  · rintro rfl
    cases t <;> decide

end Wreport
