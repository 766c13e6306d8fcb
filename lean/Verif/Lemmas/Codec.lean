import Verif.Model.Bits
import Verif.Model.Input
import Verif.Lemmas.Bits
import Verif.Lemmas.VarNum
import Verif.Lemmas.VarCopy
import Verif.Spec.Field
import Mathlib.Data.List.TakeWhile

/-! # Writing and reading fields -/

namespace Wreport

open Spec

namespace BitOut

theorem append_byte_ok {o : BitOut} (h : o.WF) (b : Byte) :
    ∃ o', o.append_byte b.toNat = .ok o' ∧ o'.WF ∧ o'.bits = o.bits ++ bytesBits [b] := by
  obtain ⟨o', h1, h2, h3⟩ := add_bits_ok h (b.toNat % 2 ^ 8) (n := 8) (by omega) (by omega)
  refine ⟨o', h1, h2, ?_⟩
  rw [h3, Wreport.bits_mod (by omega)]
  simp [bytesBits]

theorem append_blanks_ok {o : BitOut} (h : o.WF) (left : Nat) :
    ∃ o', o.append_blanks left = .ok o' ∧ o'.WF ∧ o'.bits = o.bits ++ textField left [] := by
  induction left using Nat.strongRecOn generalizing o with
  | ind left ih =>
    unfold append_blanks
    by_cases h0 : left = 0
    · subst h0
      exact ⟨o, by simp, h, by simp [textField, padText, bytesBits]⟩
    · rw [if_neg h0]
      by_cases h8 : 8 ≤ left
      · rw [if_pos h8]
        obtain ⟨o1, a1, a2, a3⟩ := append_byte_ok h 32
        obtain ⟨o2, b1, b2, b3⟩ := ih (left - 8) (by omega) a2
        refine ⟨o2, ?_, b2, ?_⟩
        · have : (32 : Byte).toNat = 32 := rfl
          rw [this] at a1
          rw [a1]; exact b1
        · rw [b3, a3, List.append_assoc]
          congr 1
          unfold textField padText
          rw [show left / 8 = (left - 8) / 8 + 1 by omega, show left % 8 = (left - 8) % 8 by omega]
          simp [List.replicate_succ, bytesBits]
      · rw [if_neg h8]
        obtain ⟨o1, a1, a2, a3⟩ := add_bits_ok h 0 (n := left) (by omega) (by omega)
        refine ⟨o1, a1, a2, ?_⟩
        rw [a3, Wreport.bits_zero]
        unfold textField padText
        rw [show left / 8 = 0 by omega, show left % 8 = left by omega]
        simp [bytesBits]

theorem append_string_ok {o : BitOut} (h : o.WF) {t : List Byte} (ht : NulFree t) (r : Mem)
    (left : Nat) :
    ∃ o', o.append_string (c_str t ++ r) left = .ok o' ∧ o'.WF ∧
      o'.bits = o.bits ++ textField left (t.take (left / 8)) := by
  induction t generalizing left o with
  | nil =>
    unfold append_string
    by_cases h0 : left = 0
    · subst h0
      exact ⟨o, by simp, h, by simp [textField, padText, bytesBits]⟩
    · rw [if_neg h0]
      simp only [c_str, toMem, List.nil_append, List.map_cons, List.map_nil, List.cons_append,
        if_true, List.take_nil]
      exact append_blanks_ok h left
  | cons b t ih =>
    have hb : b ≠ 0 := ht b (by simp)
    unfold append_string
    by_cases h0 : left = 0
    · subst h0
      exact ⟨o, by simp, h, by simp [textField, padText, bytesBits]⟩
    · rw [if_neg h0]
      simp only [c_str, toMem, List.map_cons, List.cons_append, if_neg hb]
      by_cases h8 : 8 ≤ left
      · rw [if_pos h8]
        obtain ⟨o1, a1, a2, a3⟩ := append_byte_ok h b
        obtain ⟨o2, b1, b2, b3⟩ := ih a2 (fun x hx => ht x (List.mem_cons_of_mem _ hx)) (left - 8)
        refine ⟨o2, ?_, b2, ?_⟩
        · rw [a1]; exact b1
        · rw [b3, a3, List.append_assoc]
          congr 1
          unfold textField padText
          rw [show left / 8 = (left - 8) / 8 + 1 by omega, show left % 8 = (left - 8) % 8 by omega]
          simp [bytesBits]
      · rw [if_neg h8]
        obtain ⟨o1, a1, a2, a3⟩ := add_bits_ok h 0 (n := left) (by omega) (by omega)
        refine ⟨o1, a1, a2, ?_⟩
        rw [a3, Wreport.bits_zero]
        unfold textField padText
        rw [show left / 8 = 0 by omega, show left % 8 = left by omega]
        simp [bytesBits]

theorem append_binary_ok {o : BitOut} (h : o.WF) {w : List Byte} (r : Mem) {left : Nat}
    (hl : (left + 7) / 8 ≤ w.length) :
    ∃ o', o.append_binary (toMem w ++ r) left = .ok o' ∧ o'.WF ∧
      o'.bits = o.bits ++ binField left w := by
  induction w generalizing left o with
  | nil =>
    simp only [List.length_nil] at hl
    have h0 : left = 0 := by omega
    subst h0
    unfold append_binary
    exact ⟨o, by simp, h, by simp [binField, bytesBits, Spec.bits]⟩
  | cons b w ih =>
    simp only [List.length_cons] at hl
    unfold append_binary
    by_cases h0 : left = 0
    · subst h0
      exact ⟨o, by simp, h, by simp [binField, bytesBits, Spec.bits]⟩
    · rw [if_neg h0]
      simp only [toMem, List.map_cons, List.cons_append]
      by_cases h8 : 8 ≤ left
      · rw [if_pos h8]
        obtain ⟨o1, a1, a2, a3⟩ := append_byte_ok h b
        obtain ⟨o2, b1, b2, b3⟩ := ih a2 (left := left - 8) (by omega)
        refine ⟨o2, ?_, b2, ?_⟩
        · rw [a1]; exact b1
        · rw [b3, a3, List.append_assoc]
          congr 1
          unfold binField
          rw [show left / 8 = (left - 8) / 8 + 1 by omega, show left % 8 = (left - 8) % 8 by omega]
          simp [bytesBits]
      · rw [if_neg h8]
        obtain ⟨o1, a1, a2, a3⟩ := add_bits_ok h b.toNat (n := left) (by omega) (by omega)
        refine ⟨o1, a1, a2, ?_⟩
        rw [a3]
        unfold binField
        rw [show left / 8 = 0 by omega, show left % 8 = left by omega]
        simp [bytesBits]

theorem append_missing_ok {o : BitOut} (h : o.WF) {n : Nat} (h1 : 0 < n) (h2 : n ≤ 32) :
    ∃ o', o.append_missing n = .ok o' ∧ o'.WF ∧ o'.bits = o.bits ++ missingField n := by
  obtain ⟨o', a1, a2, a3⟩ := add_bits_ok h 0xffffffff h1 h2
  refine ⟨o', a1, a2, ?_⟩
  rw [a3]
  have : Spec.bits n 0xffffffff = Spec.bits n (2 ^ n - 1) := by
    apply Wreport.bits_congr
    intro i hi
    rw [show 0xffffffff = 2 ^ 32 - 1 by norm_num, Nat.testBit_two_pow_sub_one,
      Nat.testBit_two_pow_sub_one]
    simp; omega
  rw [this, Wreport.bits_ones]
  rfl

end BitOut

namespace Input

/-- The bytes read for a field of whole bytes and a last partial byte. -/
def chunks (width : Nat) (w : List Byte) (last : Nat) : List Byte :=
  w ++ if width % 8 = 0 then [] else [UInt8.ofNat last]

theorem getBytes_ok {i : Input} (h : i.WF) {w : List Byte} {last width : Nat} {rest : List Bool}
    (hw : w.length = width / 8) (hl : last < 2 ^ (width % 8))
    (hrem : i.rem = bytesBits w ++ (Spec.bits (width % 8) last ++ rest)) (hrest : 8 ≤ rest.length) :
    ∃ i', i.getBytes width = .ok (chunks width w last, i') ∧ i'.WF ∧ i'.rem = rest ∧
      i'.data = i.data := by
  induction w generalizing width i with
  | nil =>
    simp only [List.length_nil] at hw
    have e8 : width % 8 = width := by omega
    unfold getBytes
    by_cases h0 : width = 0
    · subst h0
      refine ⟨i, by simp [chunks], h, ?_, rfl⟩
      simpa [bytesBits, Spec.bits] using hrem
    · rw [if_neg h0, if_neg (by omega)]
      rw [e8] at hl hrem
      obtain ⟨i', g1, g2, g3, g4⟩ := get_bits_ok h (n := width) (v := last) (rest := rest)
        (by omega) hl (by simpa [bytesBits] using hrem) hrest
      refine ⟨i', ?_, g2, g3, g4⟩
      simp only [g1, Res.ok_bind]
      unfold getBytes
      simp [chunks, e8, h0]
  | cons b w ih =>
    simp only [List.length_cons] at hw
    unfold getBytes
    rw [if_neg (by omega)]
    have hb : b.toNat < 2 ^ 8 := by have := b.toNat_lt; omega
    rw [bytesBits_cons, List.append_assoc] at hrem
    obtain ⟨i1, g1, g2, g3, g4⟩ := get_bits_ok h (n := 8) (v := b.toNat) (by omega) hb hrem
      (by simp; omega)
    have em : (width - 8) % 8 = width % 8 := by omega
    obtain ⟨i2, k1, k2, k3, k4⟩ := ih g2 (width := width - 8) (by omega) (by rw [em]; exact hl)
      (by rw [em]; exact g3)
    refine ⟨i2, ?_, k2, k3, k4.trans g4⟩
    have hc : (if 8 < width then 8 else width) = 8 := by split <;> omega
    simp only [hc, g1, Res.ok_bind, k1, Res.pure_def]
    simp [chunks, em]

/-- Dropping the trailing bytes that satisfy the test keeps a text whose last byte does not. -/
theorem dropWhile_tail {p : Byte → Bool} {s pad : List Byte} {b : Byte} (hb : p b = false)
    (hp : ∀ x ∈ pad, p x = true) :
    (((s ++ [b]) ++ pad).reverse.dropWhile p).reverse = s ++ [b] := by
  rw [List.reverse_append, List.dropWhile_append_of_pos (by intro x hx; exact hp x (by simpa using hx))]
  simp [hb]

theorem trimEnd_pad {t pad : List Byte} (ht : NoTrailingBlank t)
    (hp : ∀ x ∈ pad, (x = 0 || isSpace x) = true) : trimEnd (t ++ pad) = t := by
  obtain ⟨s, b, rfl, h1, h2⟩ := ht
  have hb : (decide (b = 0) || isSpace b) = false := by simp [h1, h2]
  cases s with
  | nil =>
    simp only [List.nil_append, List.cons_append, trimEnd]
    have : ((pad.reverse).dropWhile fun c => decide (c = 0) || isSpace c) = [] := by
      rw [List.dropWhile_eq_nil_iff]
      intro x hx
      exact hp x (by simpa using hx)
    rw [this]; rfl
  | cons a s =>
    simp only [List.cons_append, trimEnd]
    rw [dropWhile_tail hb hp]

theorem trimEnd_pad' {t pad : List Byte} (ht : t.length = 1 ∨ NoTrailingBlank t)
    (hp : ∀ x ∈ pad, (x = 0 || isSpace x) = true) : trimEnd (t ++ pad) = t := by
  rcases ht with ht | ht
  · obtain ⟨b, rfl⟩ := List.length_eq_one_iff.mp ht
    simp only [List.cons_append, List.nil_append, trimEnd]
    rw [List.dropWhile_eq_nil_iff.mpr (fun x hx => hp x (by simpa using hx))]
    rfl
  · exact trimEnd_pad ht hp

/-- Reading a text field. -/
theorem decode_string_ok {i : Input} (h : i.WF) {t : List Byte} {width : Nat} {rest : List Bool}
    (ht : t.length = 1 ∨ NoTrailingBlank t) (hlen : t.length ≤ width / 8) (hnul : NulFree t)
    (hff : (∃ b ∈ t, b ≠ 0xff) ∨ t.length < width / 8)
    (hrem : i.rem = textField width t ++ rest) (hrest : 8 ≤ rest.length) :
    ∃ i', i.decode_string width = .ok (some t, i') ∧ i'.WF ∧ i'.rem = rest ∧ i'.data = i.data := by
  obtain ⟨i', g1, g2, g3, g4⟩ := getBytes_ok h (w := padText (width / 8) t) (last := 0)
    (width := width) (rest := rest) (by simp [padText]; omega) (by positivity)
    (by rw [hrem, textField, Wreport.bits_zero, List.append_assoc]) hrest
  refine ⟨i', ?_, g2, g3, g4⟩
  unfold decode_string
  rw [g1]
  simp only [Res.ok_bind]
  rw [if_neg]
  · have : chunks width (padText (width / 8) t) 0 =
        t ++ (List.replicate (width / 8 - t.length) 32 ++ if width % 8 = 0 then [] else [0]) := by
      simp [chunks, padText]
    rw [this, trimEnd_pad' ht]
    · rfl
    · intro x hx
      rcases List.mem_append.mp hx with hx | hx
      · rw [List.eq_of_mem_replicate hx]; decide
      · split at hx
        · simp at hx
        · simp only [List.mem_singleton] at hx; subst hx; decide
  · intro hall
    rw [List.all_eq_true] at hall
    rcases hff with ⟨b, hb, hbf⟩ | hlt
    · have := hall b (by simp [chunks, padText, hb])
      simp [hbf, hnul b hb] at this
    · have := hall 32 (by
        simp only [chunks, padText, List.append_assoc, List.mem_append, List.mem_replicate]
        right; left; exact ⟨by omega, trivial⟩)
      simp at this

/-- Reading ones in a field of whole bytes. -/
theorem getBytes_ones {i : Input} (h : i.WF) {width : Nat} {rest : List Bool}
    (h8 : width % 8 = 0) (hrem : i.rem = missingField width ++ rest) (hrest : 8 ≤ rest.length) :
    ∃ i', i.getBytes width = .ok (List.replicate (width / 8) 0xff, i') ∧ i'.WF ∧ i'.rem = rest ∧
      i'.data = i.data := by
  have hb : ∀ k, bytesBits (List.replicate k 0xff) = List.replicate (8 * k) true := by
    intro k
    induction k with
    | zero => rfl
    | succ k ih =>
      rw [List.replicate_succ, bytesBits_cons, ih, show 8 * (k + 1) = 8 + 8 * k by omega,
        List.replicate_add]
      rfl
  obtain ⟨i', g1, g2, g3, g4⟩ := getBytes_ok h (w := List.replicate (width / 8) 0xff) (last := 0)
    (width := width) (rest := rest) (by simp) (by positivity)
    (by rw [hrem, h8, hb, show 8 * (width / 8) = width by omega]; simp [missingField, Spec.bits]) hrest
  exact ⟨i', by rw [g1]; simp [chunks, h8], g2, g3, g4⟩

/-- Reading a missing text field of whole bytes. -/
theorem decode_string_missing {i : Input} (h : i.WF) {width : Nat} {rest : List Bool}
    (h8 : width % 8 = 0) (hrem : i.rem = missingField width ++ rest) (hrest : 8 ≤ rest.length) :
    ∃ i', i.decode_string width = .ok (none, i') ∧ i'.WF ∧ i'.rem = rest ∧ i'.data = i.data := by
  obtain ⟨i', g1, g2, g3, g4⟩ := getBytes_ones h h8 hrem hrest
  refine ⟨i', ?_, g2, g3, g4⟩
  unfold decode_string
  rw [g1]
  simp only [Res.ok_bind]
  rw [if_pos (by simp)]
  rfl

/-- Reading text into a variable. -/
theorem setDecoded_ok {O : Opts} {dest : Var} (h : dest.toVarCore.WF) (ht : dest.info.type = .string)
    {t : List Byte} (hnul : NulFree t) :
    ∃ v, setDecoded O dest (some t) = .ok v ∧ v.toVarCore.WF ∧ v.info = dest.info ∧
      v.attrs = dest.attrs ∧ v.toVarCore.view = some (.text (t.take dest.info.len)) := by
  obtain ⟨m, h1, h2, h3⟩ := assign_c_ok h ht t [] hnul dest.info.len
  rw [Nat.min_self] at h3
  refine ⟨dest.putMem m, ?_, Var.WF_putMem_string ht h2 h3, rfl, rfl, Var.view_putMem_string ht h3⟩
  unfold setDecoded
  simp only [Var.setc, ht]
  simp only [List.append_nil] at h1
  rw [h1]
  rfl

theorem all_ones_ok {E : Env} {n : Nat} (h0 : 0 < n) (h1 : n ≤ 31 ∨ (n = 32 ∧ E.wrapv = true)) :
    all_ones E n = .ok (2 ^ n - 1) := by
  by_cases h31 : n ≤ 31
  · interval_cases n <;> rfl
  · obtain ⟨rfl, hw⟩ : n = 32 ∧ E.wrapv = true := h1.resolve_left h31
    simp only [all_ones, Env.sint, shl1, hw]
    rfl

/-- The bytes of a binary field, the last one cut to its declared bits. -/
def declared (width : Nat) (w : List Byte) : List Byte :=
  chunks width (w.take (width / 8)) ((w.getD (width / 8) 0).toNat % 2 ^ (width % 8))

theorem length_declared {width : Nat} {w : List Byte} (h : (width + 7) / 8 ≤ w.length) :
    (declared width w).length = (width + 7) / 8 := by
  unfold declared chunks
  split <;> simp <;> omega

theorem getD_declared {width : Nat} {w : List Byte} (h : (width + 7) / 8 ≤ w.length) {i j : Nat}
    (hi : i < (width + 7) / 8) :
    ((declared width w).getD i 0).toNat.testBit j = true ↔
      DeclaredBit width i j ∧ (w.getD i 0).toNat.testBit j = true := by
  unfold declared chunks DeclaredBit
  by_cases hlt : i < width / 8
  · rw [List.getD, List.getElem?_append_left (by simp; omega), List.getElem?_take, if_pos hlt]
    constructor
    · exact fun hb => ⟨Or.inl (by omega), hb⟩
    · exact fun hb => hb.2
  · have he : i = width / 8 := by omega
    have h8 : width % 8 ≠ 0 := by omega
    subst he
    have hpw : 2 ^ (width % 8) ≤ 2 ^ 7 := Nat.pow_le_pow_right (by omega) (by omega)
    have hmod := Nat.mod_lt (w.getD (width / 8) 0).toNat (show 0 < 2 ^ (width % 8) by positivity)
    rw [if_neg h8, List.getD, List.getElem?_append_right (by simp)]
    have hl : (w.take (width / 8)).length = width / 8 := by simp; omega
    simp only [hl, Nat.sub_self, List.getElem?_cons_zero, Option.getD_some]
    rw [UInt8.toNat_ofNat_of_lt' (by show _ < 256; omega), Nat.testBit_mod_two_pow]
    simp only [Bool.and_eq_true, decide_eq_true_eq]
    constructor
    · exact fun hb => ⟨Or.inr ⟨by omega, hb.1⟩, hb.2⟩
    · rintro ⟨hd | hd, hb⟩
      · omega
      · exact ⟨hd.2, hb⟩

theorem declared_declared {width : Nat} {w : List Byte} (h : (width + 7) / 8 ≤ w.length)
    (h8 : width % 8 ≠ 0) :
    (declared width w).getD (width / 8) 0 &&& UInt8.ofNat (2 ^ (width % 8) - 1) =
      (declared width w).getD (width / 8) 0 := by
  apply UInt8.toNat_inj.mp
  apply Nat.eq_of_testBit_eq
  intro j
  have hpw : 2 ^ (width % 8) ≤ 2 ^ 7 := Nat.pow_le_pow_right (by omega) (by omega)
  have h1 : (UInt8.ofNat (2 ^ (width % 8) - 1)).toNat = 2 ^ (width % 8) - 1 :=
    UInt8.toNat_ofNat_of_lt' (by show _ < 256; omega)
  rw [UInt8.toNat_and, Nat.testBit_and, h1, Nat.testBit_two_pow_sub_one]
  by_cases hj : j < width % 8
  · simp [hj]
  · by_cases hj8 : j < 8
    · rw [Bool.eq_iff_iff, getD_declared h (by omega)]
      unfold DeclaredBit
      simp [hj]
      intro hd; omega
    · have hlt : ((declared width w).getD (width / 8) 0).toNat < 2 ^ j := by
        have := ((declared width w).getD (width / 8) 0).toNat_lt
        exact lt_of_lt_of_le this (Nat.pow_le_pow_right (n := 2) (by omega) (by omega))
      rw [Nat.testBit_lt_two_pow hlt]; simp

/-- Reading a binary field. -/
theorem decode_binary_ok {O : Opts} {i : Input} (h : i.WF) {dest : Var} (hd : dest.toVarCore.WF)
    (ht : dest.info.type = .binary) (hlen : dest.info.len = (dest.info.bit_len + 7) / 8)
    {w : List Byte} {rest : List Bool} (hw : dest.info.len ≤ w.length)
    (hff : ∃ i j, j < 8 ∧ DeclaredBit dest.info.bit_len i j ∧ (w.getD i 0).toNat.testBit j = false)
    (hrem : i.rem = binField dest.info.bit_len w ++ rest) (hrest : 8 ≤ rest.length) :
    ∃ v i', i.decode_binary O dest = .ok (v, i') ∧ i'.WF ∧ i'.rem = rest ∧ i'.data = i.data ∧
      v.info = dest.info ∧ v.attrs = dest.attrs ∧ v.toVarCore.WF ∧
      v.toVarCore.view = some (.bits (declared dest.info.bit_len w)) := by
  set n := dest.info.bit_len with hn
  rw [hlen] at hw
  have hdl := length_declared hw
  obtain ⟨i', g1, g2, g3, g4⟩ := getBytes_ok h (w := w.take (n / 8))
    (last := (w.getD (n / 8) 0).toNat % 2 ^ (n % 8)) (width := n) (rest := rest)
    (by simp; omega) (Nat.mod_lt _ (by positivity))
    (by rw [hrem, binField, Wreport.bits_mod le_rfl, List.append_assoc]) hrest
  change i.getBytes n = .ok (declared n w, i') at g1
  obtain ⟨m0, a1, a2⟩ := WF_allocate hd (Or.inr ht)
  set bs := declared n w with hbs
  have hmem : (toMem bs ++ m0.drop dest.info.len).length = dest.info.len + 1 := by
    simp [toMem]; omega
  have htk : (toMem bs ++ m0.drop dest.info.len).take dest.info.len = toMem bs := by
    rw [List.take_append_of_le_length (by simp [toMem]; omega)]
    exact List.take_of_length_le (by simp [toMem]; omega)
  refine ⟨dest.putMem (toMem bs ++ m0.drop dest.info.len), i', ?_, g2, g3, g4, rfl, rfl, ?_, ?_⟩
  · unfold decode_binary
    rw [← hn, g1]
    simp only [Res.ok_bind]
    rw [if_neg]
    · have hset : dest.setc O (toMem bs ++ List.replicate (n / 8 + 1 - bs.length) none) =
          (dest.putMem (toMem bs ++ m0.drop dest.info.len), .ok ()) := by
        unfold Var.setc Var.assign_b_checked
        simp only [ht, a1, Res.ok_bind]
        rw [if_neg (by omega), memRead_of_le (by simp [toMem]; omega)]
        rw [List.take_append_of_le_length (by simp [toMem]; omega),
          List.take_of_length_le (by simp [toMem]; omega)]
        simp only [Res.ok_bind]
        rw [memWrite_of_le (by simp [toMem]; omega)]
        have e : (toMem bs).length = dest.info.len := by simp [toMem]; omega
        simp only [Res.ok_bind, e]
        unfold Var.maskLast
        by_cases h8 : dest.info.bit_len % 8 = 0
        · rw [if_pos h8]; rfl
        · rw [if_neg h8, if_neg (by omega)]
          have e1 : dest.info.len - 1 = n / 8 := by omega
          have hget : (toMem bs ++ m0.drop dest.info.len)[dest.info.len - 1]? =
              some (some (bs.getD (n / 8) 0)) := by
            rw [e1, List.getElem?_append_left (by simp [toMem]; omega)]
            simp only [toMem, List.getElem?_map, List.getD]
            rw [List.getElem?_eq_getElem (by omega)]
            rfl
          rw [hget]
          simp only [Res.ok_bind, Res.pure_def, Var.ofRes]
          rw [← hn, declared_declared hw h8]
          congr 2
          apply List.ext_getElem?
          intro k
          rw [List.getElem?_set]
          split
          · next hk =>
            subst hk
            rw [if_pos (by rw [hmem]; omega), hget]
          · rfl
      rw [hset]
      rfl
    · intro hall
      rw [List.all_eq_true] at hall
      obtain ⟨a, b, hb8, hdec, hbit⟩ := hff
      have ha : a < (n + 7) / 8 := by unfold DeclaredBit at hdec; omega
      have h2 := hall (bs.getD a 0) (by
        rw [List.getD, List.getElem?_eq_getElem (by omega)]
        exact List.getElem_mem _)
      simp only [decide_eq_true_eq] at h2
      have h4 : (255 : Byte).toNat.testBit b = true := by
        clear hdec hbit
        interval_cases b <;> decide
      have h3 := (getD_declared hw ha (j := b)).mp (by rw [← hbs, h2]; exact h4)
      rw [hbit] at h3
      exact absurd h3.2 (by simp)
  · unfold VarCore.WF Var.putMem
    simp only [ht]
    right
    refine ⟨_, rfl, hmem, fun _ => ?_⟩
    rw [htk]
    simp [toMem]
  · unfold VarCore.view Var.putMem
    simp only [ht, Bool.not_true, Bool.false_eq_true, if_false]
    rw [htk]
    simp [toMem, List.map_map, Function.comp_def]

end Input

/-! ## Numbers -/

/-- The number kept for a stored integer decodes exactly as the scaled value. -/
theorem enqd_decode {E : Env} {v : VarCore} (hm : v.info.Made E) (hn : v.info.IsNum) {i : Int}
    (hset : v.isset = true) (hc : v.cell = .word i) :
    ∃ d, v.enqd E = .ok d ∧ v.info.decode_decimal E i = .ok d := by
  obtain ⟨h1, h2, h3⟩ := hm.range hn
  have hd := enqd_num (E := E) (v := v) hn hc hset
  have he := decode_decimal_eq E v.info i (decode_decimal_scale h1)
  by_cases ht : v.info.type = .integer
  · rw [if_pos ht] at hd
    rw [if_pos (hm.2.2.1 ht)] at he
    exact ⟨_, hd, he⟩
  · rw [if_neg ht] at hd
    exact ⟨_, hd.trans he, he⟩

/-- Setting from the number decoded for an integer in range stores that
integer. -/
theorem setd_decoded {E : Env} (hE : IsRounding E.fl) (O : Opts) {v : Var} {i : Int} {d : ℚ}
    (hm : v.info.Made E) (hn : v.info.IsNum) (hd : v.info.decode_decimal E i = .ok d)
    (hr : v.info.imin ≤ i ∧ i ≤ v.info.imax) : v.setd E O (.fin d) = (v.putInt i, .ok ()) := by
  obtain ⟨h1, h2, h3⟩ := hm.range hn
  obtain ⟨l1, l2⟩ := hm.limits hn
  have hi : inInt i = true := by rw [inInt_iff] at *; omega
  rcases hn with ht | ht
  · have hsc := decode_decimal_scale h1
    have he := decode_decimal_eq E v.info i hsc
    rw [if_pos (hm.2.2.1 ht), hd] at he
    simp only [Res.ok.injEq] at he
    subst he
    have hl : E.lround (.fin (i : ℚ)) = i := by
      rw [inInt_iff] at hi
      unfold Env.lround
      simp only [lroundQ_intCast]
      rw [if_pos (by omega)]
    unfold Var.setd
    rw [ht]
    simp only
    rw [hl, wrapInt_eq hi]
    unfold Var.assign_i_checked
    rw [if_neg (by omega)]
  · have hsc := decode_decimal_scale h1
    have henc := encode_decimal_decode E hE v.info i d hi hd
    have mono : ∀ a b : Int, ∀ da db : ℚ, v.info.decode_decimal E a = .ok da →
        v.info.decode_decimal E b = .ok db → a ≤ b → da ≤ db := by
      intro a b da db ha hb hab
      rw [decode_decimal_eq E v.info a hsc] at ha
      rw [decode_decimal_eq E v.info b hsc] at hb
      simp only [Res.ok.injEq] at ha hb
      subst ha hb
      have hq : (a : ℚ) ≤ b := by exact_mod_cast hab
      split
      · exact hq
      · apply hE.mono
        unfold decimalValue
        gcongr
    have b1 := mono _ _ _ _ h1 hd hr.1
    have b2 := mono _ _ _ _ hd h2 hr.2
    unfold Var.setd
    rw [ht]
    simp only
    unfold Var.assign_d_checked
    rw [if_neg (by simp), if_neg (by simp [Dbl.lt, Dbl.gt]; exact ⟨b1, b2⟩)]
    unfold Var.putDbl
    rw [henc]
    rfl

/-- Writing a number that fits the field. -/
theorem append_var_num {E : Env} (hE : IsRounding E.fl) {o : BitOut} (ho : o.WF) {v : VarCore}
    (hm : v.info.Made E) (hn : v.info.IsNum) {i : Int} (hset : v.isset = true)
    (hc : v.cell = .word i) (hi : inInt i = true) (hb0 : 0 < v.info.bit_len)
    (hb1 : v.info.bit_len ≤ 32) {val : Nat} (hval : (val : Int) = i - v.info.bit_ref)
    (hfit : val < 2 ^ v.info.bit_len) :
    ∃ o', o.append_var E v.info v = .ok o' ∧ o'.WF ∧
      o'.bits = o.bits ++ Spec.bits v.info.bit_len val := by
  obtain ⟨d, d1, d2⟩ := enqd_decode hm hn hset hc
  have hs := encodeBinaryScaled_decode E hE v.info i d (abs_int_le hi) hm.2.1 d2
  have hpw : 2 ^ v.info.bit_len ≤ 2 ^ 32 := Nat.pow_le_pow_right (by omega) hb1
  rw [← hval] at hs
  have he := encode_binary_of_scaled (by omega) hs (by omega) (by omega)
  rw [Int.toNat_natCast] at he
  obtain ⟨o', a1, a2, a3⟩ := BitOut.add_bits_ok ho val hb0 hb1
  refine ⟨o', ?_, a2, a3⟩
  unfold BitOut.append_var
  rw [if_neg (by simp [hset])]
  rcases hn with ht | ht <;> rw [ht] <;> simp only [d1, Res.ok_bind, he, a1]

/-- Storing a bit pattern whose value is in range. -/
theorem setNumber_ok {E : Env} (hE : IsRounding E.fl) (O : Opts) {v : Var} {i : Int}
    (hm : v.info.Made E) (hn : v.info.IsNum) (hb0 : 0 < v.info.bit_len)
    {val : Nat} (hval : (val : Int) = i - v.info.bit_ref) (hv32 : val < 2 ^ 32)
    (hr : v.info.imin ≤ i ∧ i ≤ v.info.imax) :
    Input.setNumber E O v val = .ok (v.putInt i) := by
  obtain ⟨h1, -, -⟩ := hm.range hn
  obtain ⟨d, e1, e2⟩ := decode_binary_eq E hE v.info val hv32 hm.2.1 (by omega)
    (decode_decimal_scale h1)
  rw [show (val : Int) + v.info.bit_ref = i by omega] at e2
  unfold Input.setNumber
  rw [e1]
  simp only [Res.ok_bind]
  rw [setd_decoded hE O hm hn e2 hr]
  rfl

/-- Whether the pattern `val` stands for a missing value. -/
theorem isMissing_ok {E : Env} {info : Varinfo} (hb0 : 0 < info.bit_len)
    (hb1 : info.bit_len ≤ 31 ∨ (info.bit_len = 32 ∧ E.wrapv = true)) (val : Nat) :
    Input.isMissing E info val =
      .ok (!Input.neverMissing info.code && decide (val = 2 ^ info.bit_len - 1)) := by
  unfold Input.isMissing
  rw [Input.all_ones_ok hb0 hb1]
  by_cases h : Input.neverMissing info.code <;> simp [h]

end Wreport
