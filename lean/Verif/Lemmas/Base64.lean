import Verif.Lemmas.Strings
import Verif.Lemmas.Bits

/-! # Facts about base64 and escapes -/

namespace Wreport.Str

open Spec

theorem inv_base64 : ∀ v < 64, invbase64 (base64.getD v 0) = .ok v := by decide +kernel

theorem base64_ne : ∀ v < 64, base64.getD v 0 ≠ 61 := by decide +kernel

theorem inv_pad : invbase64 61 = .ok 0 := by decide +kernel

theorem and63 (n : Nat) : n &&& 63 = n % 64 := Nat.and_two_pow_sub_one_eq_mod n 6

theorem and255 (n : Nat) : n &&& 255 = n % 256 := Nat.and_two_pow_sub_one_eq_mod n 8

theorem quad_eq (enc : Nat) : quad enc =
    [base64.getD (enc / 2 ^ 18 % 64) 0, base64.getD (enc / 2 ^ 12 % 64) 0,
      base64.getD (enc / 2 ^ 6 % 64) 0, base64.getD (enc % 64) 0] := by
  simp [quad, and63, Nat.shiftRight_eq_div_pow]

theorem pack_eq {a b c : Nat} (hb : b < 256) (hc : c < 256) :
    (a <<< 16) ||| (b <<< 8) ||| c = a * 65536 + b * 256 + c := by
  have h1 : (a <<< 16) ||| (b <<< 8) = (a * 256 + b) <<< 8 := by
    rw [← Nat.shiftLeft_add_eq_or_of_lt (by rw [Nat.shiftLeft_eq]; omega)]
    simp only [Nat.shiftLeft_eq]
    omega
  rw [h1, ← Nat.shiftLeft_add_eq_or_of_lt (by omega)]
  simp only [Nat.shiftLeft_eq]
  omega

theorem triple_eq (enc : Nat) : triple enc =
    [UInt8.ofNat (enc / 65536 % 256), UInt8.ofNat (enc / 256 % 256), UInt8.ofNat (enc % 256)] := by
  have h : ∀ n : Nat, n &&& 255 = n % 256 := and255
  simp only [triple, Nat.shiftRight_eq_div_pow]
  rw [h, h, h]

theorem ofNat_byte (a : Byte) (n : Nat) (h : n = a.toNat) : UInt8.ofNat n = a := by
  subst h; simp

theorem lt256 (a : Byte) : a.toNat < 256 := a.toNat_lt

theorem decode_quad {enc : Nat} (h : enc < 2 ^ 24) (rest r : List Byte)
    (hr : decodeGroups rest = .ok r) : decodeGroups (quad enc ++ rest) = .ok (triple enc ++ r) := by
  have hs : (enc / 2 ^ 18 % 64) <<< 18 + (enc / 2 ^ 12 % 64) <<< 12 + (enc / 2 ^ 6 % 64) <<< 6 +
      enc % 64 = enc := by
    simp only [Nat.shiftLeft_eq]
    omega
  rw [quad_eq]
  simp only [List.cons_append, List.nil_append, decodeGroups]
  rw [inv_base64 _ (by omega), inv_base64 _ (by omega), inv_base64 _ (by omega),
    inv_base64 _ (by omega), hr]
  simp only [Res.ok_bind, Res.pure_def]
  rw [hs]

theorem padEnd_append (pre : List Byte) : ∀ (n i : Nat) (r : List Byte), i + n ≤ r.length →
    padEnd n i (pre ++ r) = pre ++ padEnd n i r := by
  intro n
  induction n with
  | zero => intro i r _; rfl
  | succ n ih =>
    intro i r h
    simp only [padEnd]
    rw [← ih]
    · congr 1
      rw [List.length_append, List.set_append_right _ _ (by omega)]
      congr 2
      omega
    · simp; omega

theorem length_encodeGroups : ∀ s : List Byte, s ≠ [] → 4 ≤ (encodeGroups s).length
  | [], h => absurd rfl h
  | [_], _ => by simp [encodeGroups, quad]
  | [_, _], _ => by simp [encodeGroups, quad]
  | _ :: _ :: _ :: _, _ => by simp [encodeGroups, quad]

theorem encode_cons (a b c : Byte) (rest : List Byte) :
    encode_base64 (a :: b :: c :: rest) =
      quad (a.toNat * 65536 + b.toNat * 256 + c.toNat) ++ encode_base64 rest := by
  have hl : (a :: b :: c :: rest).length % 3 = rest.length % 3 := by simp; omega
  simp only [encode_base64, hl, encodeGroups, pack_eq (lt256 b) (lt256 c)]
  split
  · rename_i h
    rw [padEnd_append]
    have := length_encodeGroups rest (by rintro rfl; simp at h)
    omega
  · rfl

theorem encode_nil : encode_base64 [] = [] := by decide +kernel

theorem encode_one (a : Byte) : encode_base64 [a] =
    [base64.getD (a.toNat * 65536 / 2 ^ 18 % 64) 0, base64.getD (a.toNat * 65536 / 2 ^ 12 % 64) 0,
      61, 61] := by
  simp [encode_base64, encodeGroups, quad_eq, padEnd, Nat.shiftLeft_eq]

theorem encode_two (a b : Byte) : encode_base64 [a, b] =
    [base64.getD ((a.toNat * 65536 + b.toNat * 256) / 2 ^ 18 % 64) 0,
      base64.getD ((a.toNat * 65536 + b.toNat * 256) / 2 ^ 12 % 64) 0,
      base64.getD ((a.toNat * 65536 + b.toNat * 256) / 2 ^ 6 % 64) 0, 61] := by
  have := pack_eq (a := a.toNat) (c := 0) (lt256 b) (by omega)
  simp only [Nat.or_zero] at this
  simp [encode_base64, encodeGroups, quad_eq, padEnd, this]

/-- Decoding the groups gives the bytes and one more for each padding character. -/
theorem decode_encode : ∀ s : List Byte, s ≠ [] → ∃ pre y k z,
    encode_base64 s = pre ++ y :: List.replicate k 61 ∧ y ≠ 61 ∧ z.length = k ∧
    decodeGroups (encode_base64 s) = .ok (s ++ z)
  | [], h => absurd rfl h
  | [a], _ => by
    have ha := lt256 a
    rw [encode_one]
    refine ⟨[_], _, 2, [0, 0], rfl, base64_ne _ (by omega), rfl, ?_⟩
    simp only [decodeGroups]
    rw [inv_base64 _ (by omega), inv_base64 _ (by omega), inv_pad]
    simp only [Res.ok_bind, Res.pure_def, triple_eq, Nat.shiftLeft_eq]
    simp only [List.append_nil, List.singleton_append]
    rw [ofNat_byte a _ (by omega), ofNat_byte 0 _ (by simp; omega), ofNat_byte 0 _ (by simp; omega)]
  | [a, b], _ => by
    have ha := lt256 a
    have hb := lt256 b
    rw [encode_two]
    refine ⟨[_, _], _, 1, [0], rfl, base64_ne _ (by omega), rfl, ?_⟩
    simp only [decodeGroups]
    rw [inv_base64 _ (by omega), inv_base64 _ (by omega), inv_base64 _ (by omega), inv_pad]
    simp only [Res.ok_bind, Res.pure_def, triple_eq, Nat.shiftLeft_eq]
    simp only [List.append_nil, List.cons_append, List.nil_append]
    rw [ofNat_byte a _ (by omega), ofNat_byte b _ (by omega), ofNat_byte 0 _ (by simp; omega)]
  | a :: b :: c :: rest, _ => by
    have ha := lt256 a
    have hb := lt256 b
    have hc := lt256 c
    have ht : triple (a.toNat * 65536 + b.toNat * 256 + c.toNat) = [a, b, c] := by
      rw [triple_eq, ofNat_byte a _ (by omega), ofNat_byte b _ (by omega), ofNat_byte c _ (by omega)]
    rw [encode_cons]
    by_cases hr : rest = []
    · subst hr
      rw [encode_nil]
      refine ⟨(quad (a.toNat * 65536 + b.toNat * 256 + c.toNat)).take 3,
        base64.getD ((a.toNat * 65536 + b.toNat * 256 + c.toNat) % 64) 0, 0, [], ?_,
        base64_ne _ (by omega), rfl, ?_⟩
      · rw [quad_eq]; rfl
      rw [decode_quad (by omega) [] [] rfl, ht]
    · obtain ⟨pre, y, k, z, h1, h2, h3, h4⟩ := decode_encode rest hr
      refine ⟨quad (a.toNat * 65536 + b.toNat * 256 + c.toNat) ++ pre, y, k, z, ?_, h2, h3, ?_⟩
      · rw [h1]; simp
      · rw [decode_quad (by omega) _ _ h4, ht]; simp

theorem unpad_ok (y : Byte) (hy : y ≠ 61) (t : List Byte) : ∀ (k : Nat) (r z : List Byte), r ≠ [] →
    z.length = k → unpad (List.replicate k 61 ++ y :: t) (r ++ z) = r := by
  intro k
  induction k with
  | zero =>
    intro r z hr hz
    have : z = [] := List.length_eq_zero_iff.1 hz
    simp [this, unpad, hy]
  | succ k ih =>
    intro r z hr hz
    rcases List.eq_nil_or_concat z with h | ⟨z', l, h⟩
    · simp [h] at hz
    · subst h
      simp only [List.concat_eq_append, List.replicate_succ, List.cons_append, unpad, if_true]
      rw [← List.append_assoc, List.dropLast_concat, if_neg (by simp [hr])]
      exact ih r z' hr (by simpa using hz)

/-! ## The encoding -/

theorem bits6 {enc v : Nat} (h : v = enc % 64) : bits 6 v = bits 6 enc := by
  rw [h]; exact bits_mod (k := 6) (le_refl _)

theorem bits24 (enc : Nat) :
    bits 6 (enc / 2 ^ 18 % 64) ++ (bits 6 (enc / 2 ^ 12 % 64) ++ (bits 6 (enc / 2 ^ 6 % 64) ++
      bits 6 (enc % 64))) = bits 24 enc := by
  rw [bits6 rfl, bits6 rfl, bits6 rfl, bits6 rfl, bits_append 6 18 enc, bits_append 6 12 enc,
    bits_append 6 6 enc]

theorem bits18 (enc : Nat) :
    bits 6 (enc / 2 ^ 18 % 64) ++ (bits 6 (enc / 2 ^ 12 % 64) ++ bits 6 (enc / 2 ^ 6 % 64)) =
      bits 18 (enc / 2 ^ 6) := by
  rw [bits6 rfl, bits6 rfl, bits6 rfl, bits_append 6 12 (enc / 2 ^ 6), bits_append 6 6 (enc / 2 ^ 6),
    Nat.div_div_eq_div_mul, Nat.div_div_eq_div_mul,
    ← Nat.pow_add, ← Nat.pow_add]

theorem bits12 (enc : Nat) :
    bits 6 (enc / 2 ^ 18 % 64) ++ bits 6 (enc / 2 ^ 12 % 64) = bits 12 (enc / 2 ^ 12) := by
  rw [bits6 rfl, bits6 rfl, bits_append 6 6 (enc / 2 ^ 12), Nat.div_div_eq_div_mul,
    ← Nat.pow_add]

theorem bits8 {n v : Nat} (h : v = n % 256) : bits 8 n = bits 8 v := by
  rw [h]; exact (bits_mod (k := 8) (le_refl _)).symm

theorem is_base64 : ∀ s : List Byte, IsBase64 base64 s (encode_base64 s)
  | [] => ⟨[], 0, 0, by simp, by omega, by omega, by simp [encode_nil], by simp [encode_nil], by simp [bytesBits]⟩
  | [a] => by
    have ha := lt256 a
    rw [encode_one]
    refine ⟨[a.toNat * 65536 / 2 ^ 18 % 64, a.toNat * 65536 / 2 ^ 12 % 64], 4, 2, ?_, by omega, by omega,
      by simp, rfl, ?_⟩
    · simp only [List.mem_cons, List.not_mem_nil, or_false]
      rintro v (rfl | rfl) <;> omega
    · simp only [List.flatMap_cons, List.flatMap_nil, List.append_nil]
      rw [bits12, bits_append 8 4, bytesBits_cons, ← bits_mod (n := 4) (k := 4) (le_refl _),
        show a.toNat * 65536 / 2 ^ 12 % 2 ^ 4 = 0 by omega, bits_zero, bits8 (v := a.toNat) (by omega)]
      simp [bytesBits]
  | [a, b] => by
    have ha := lt256 a
    have hb := lt256 b
    rw [encode_two]
    refine ⟨[(a.toNat * 65536 + b.toNat * 256) / 2 ^ 18 % 64,
      (a.toNat * 65536 + b.toNat * 256) / 2 ^ 12 % 64,
      (a.toNat * 65536 + b.toNat * 256) / 2 ^ 6 % 64], 2, 1, ?_, by omega, by omega, by simp, rfl, ?_⟩
    · simp only [List.mem_cons, List.not_mem_nil, or_false]
      rintro v (rfl | rfl | rfl) <;> omega
    · simp only [List.flatMap_cons, List.flatMap_nil, List.append_nil]
      rw [bits18, bits_append 8 10, bits_append 8 2, bytesBits_cons, bytesBits_cons,
        ← bits_mod (n := 2) (k := 2) (le_refl _),
        show (a.toNat * 65536 + b.toNat * 256) / 2 ^ 6 % 2 ^ 2 = 0 by omega, bits_zero,
        bits8 (v := a.toNat) (by omega),
        bits8 (n := (a.toNat * 65536 + b.toNat * 256) / 2 ^ 6 / 2 ^ 2) (v := b.toNat) (by omega)]
      simp [bytesBits]
  | a :: b :: c :: rest => by
    have ha := lt256 a
    have hb := lt256 b
    have hc := lt256 c
    obtain ⟨vals, z, p, h1, h2, h3, h4, h5, h6⟩ := is_base64 rest
    rw [encode_cons, quad_eq]
    generalize he : a.toNat * 65536 + b.toNat * 256 + c.toNat = enc
    refine ⟨enc / 2 ^ 18 % 64 :: enc / 2 ^ 12 % 64 :: enc / 2 ^ 6 % 64 :: enc % 64 :: vals, z, p, ?_,
      h2, h3, ?_, ?_, ?_⟩
    · simp only [List.mem_cons]
      rintro v (rfl | rfl | rfl | rfl | hv)
      · exact Nat.mod_lt _ (by omega)
      · exact Nat.mod_lt _ (by omega)
      · exact Nat.mod_lt _ (by omega)
      · exact Nat.mod_lt _ (by omega)
      · exact h1 v hv
    · simp; omega
    · rw [h5]; rfl
    · simp only [List.flatMap_cons, h6]
      rw [bytesBits_cons, bytesBits_cons, bytesBits_cons]
      have h24 := bits24 enc
      simp only [← List.append_assoc] at h24 ⊢
      rw [h24, bits_append 8 16, bits_append 8 8, bits8 (v := a.toNat) (by omega),
        bits8 (n := enc / 2 ^ 8) (v := b.toNat) (by omega),
        bits8 (n := enc) (v := c.toNat) (by omega)]
      simp

theorem flatMap_bits_inj : ∀ (a b : List Nat), (∀ v ∈ a, v < 64) → (∀ v ∈ b, v < 64) →
    a.flatMap (bits 6) = b.flatMap (bits 6) → a = b := by
  intro a
  induction a with
  | nil =>
    intro b _ _ h
    cases b with
    | nil => rfl
    | cons v b => have := congrArg List.length h; simp at this; omega
  | cons u a ih =>
    intro b ha hb h
    cases b with
    | nil => have := congrArg List.length h; simp at this
    | cons v b =>
      simp only [List.flatMap_cons] at h
      obtain ⟨h1, h2⟩ := List.append_inj h (by simp)
      rw [bits_inj (n := 6) (ha u (by simp)) (hb v (by simp)) h1,
        ih b (fun x hx => ha x (by simp [hx])) (fun x hx => hb x (by simp [hx])) h2]

theorem length_flatMap_bits (a : List Nat) : (a.flatMap (bits 6)).length = 6 * a.length := by
  induction a with
  | nil => rfl
  | cons u a ih => simp [ih]; omega

/-- There is one encoding. -/
theorem isBase64_unique {alphabet s t t' : List Byte} (h : IsBase64 alphabet s t)
    (h' : IsBase64 alphabet s t') : t = t' := by
  obtain ⟨v, z, p, h1, h2, h3, h4, h5, h6⟩ := h
  obtain ⟨v', z', p', h1', h2', h3', h4', h5', h6'⟩ := h'
  have hl := congrArg List.length h6
  have hl' := congrArg List.length h6'
  rw [length_flatMap_bits] at hl hl'
  simp at hl hl'
  have hz : z = z' := by omega
  have hv : v = v' := flatMap_bits_inj v v' h1 h1' (by rw [h6, h6', hz])
  subst hv
  have h7 := congrArg List.length h5
  have h7' := congrArg List.length h5'
  simp at h7 h7'
  have hp : p = p' := by omega
  rw [h5, h5', hp]

/-! ## Outside the table -/

theorem inv_cases (c : Byte) : (invbase64 c = .ub ∧ c = 123) ∨ (c ≠ 123 ∧ ∃ v, invbase64 c = .ok v) := by
  have h : ∀ n < 256, (invbase64 (UInt8.ofNat n) = .ub ∧ UInt8.ofNat n = 123) ∨
      (UInt8.ofNat n ≠ 123 ∧ (invbase64 (UInt8.ofNat n)).isOk = true) := by decide +kernel
  have := h c.toNat (lt256 c)
  simp only [UInt8.ofNat_toNat] at this
  rcases this with h | ⟨h1, h2⟩
  · exact .inl h
  · refine .inr ⟨h1, ?_⟩
    cases hx : invbase64 c with
    | ok v => exact ⟨v, rfl⟩
    | err e => simp [hx, Res.isOk] at h2
    | ub => simp [hx, Res.isOk] at h2

theorem groups_cases : ∀ t : List Byte,
    (decodeGroups t = .ub ∧ (123 : Byte) ∈ t) ∨ ((123 : Byte) ∉ t ∧ ∃ r, decodeGroups t = .ok r)
  | [] => .inr ⟨by simp, [], rfl⟩
  | [a] => by
    rcases inv_cases a with ⟨ha, rfl⟩ | ⟨ha, v, hv⟩
    · left; simp [decodeGroups, ha]
    · right; exact ⟨by simp [Ne.symm ha], _, by simp [decodeGroups, hv]; rfl⟩
  | [a, b] => by
    rcases inv_cases a with ⟨ha, rfl⟩ | ⟨ha, v, hv⟩
    · left; simp [decodeGroups, ha]
    rcases inv_cases b with ⟨hb, rfl⟩ | ⟨hb, w, hw⟩
    · left; simp [decodeGroups, hb, hv]
    · right; exact ⟨by simp [Ne.symm ha, Ne.symm hb], _, by simp [decodeGroups, hv, hw]; rfl⟩
  | [a, b, c] => by
    rcases inv_cases a with ⟨ha, rfl⟩ | ⟨ha, v, hv⟩
    · left; simp [decodeGroups, ha]
    rcases inv_cases b with ⟨hb, rfl⟩ | ⟨hb, w, hw⟩
    · left; simp [decodeGroups, hb, hv]
    rcases inv_cases c with ⟨hc, rfl⟩ | ⟨hc, x, hx⟩
    · left; simp [decodeGroups, hv, hw, hc]
    · right
      exact ⟨by simp [Ne.symm ha, Ne.symm hb, Ne.symm hc], _, by simp [decodeGroups, hv, hw, hx]; rfl⟩
  | a :: b :: c :: d :: rest => by
    rcases inv_cases a with ⟨ha, rfl⟩ | ⟨ha, v, hv⟩
    · left; simp [decodeGroups, ha]
    rcases inv_cases b with ⟨hb, rfl⟩ | ⟨hb, w, hw⟩
    · left; simp [decodeGroups, hb, hv]
    rcases inv_cases c with ⟨hc, rfl⟩ | ⟨hc, x, hx⟩
    · left; simp [decodeGroups, hv, hw, hc]
    rcases inv_cases d with ⟨hd, rfl⟩ | ⟨hd, y, hy⟩
    · left; simp [decodeGroups, hv, hw, hx, hd]
    rcases groups_cases rest with ⟨h1, h2⟩ | ⟨h1, r, h2⟩
    · left; simp [decodeGroups, hv, hw, hx, hy, h1, h2]
    · right
      exact ⟨by simp [Ne.symm ha, Ne.symm hb, Ne.symm hc, Ne.symm hd, h1], _,
        by simp [decodeGroups, hv, hw, hx, hy, h2]; rfl⟩

/-! ## Escapes -/

theorem strtoul_0x (l : List Byte) : (strtoul (48 :: 120 :: l)).1 = 0 := by
  have h1 : isSpace 48 = false := by decide
  have h2 : isDigit 48 = true := by decide
  have h3 : isDigit 120 = false := by decide
  simp [strtoul, h1, h2, h3, leadDigits]

theorem xdigits_hex2 (c : Byte) (t : List Byte) : xdigits (hex2 c ++ t) = hex2 c := by
  have h : ∀ n < 256, ((hex2 (UInt8.ofNat n)).takeWhile isXDigit) = hex2 (UInt8.ofNat n) := by
    decide +kernel
  have := h c.toNat (lt256 c)
  simp only [UInt8.ofNat_toNat] at this
  have h2 : (hex2 c ++ t).take 2 = hex2 c := by simp [hex2]
  rw [xdigits, h2, this]

/-- A character after escaping and unescaping. -/
def shown (c : Byte) : Byte := if isCntrl c && c != 10 && c != 9 then 0 else c

theorem decode_escape (c : Byte) (t : List Byte) :
    decode_cstring (escape c ++ t) =
      (shown c :: (decode_cstring t).1, (decode_cstring t).2 + (escape c).length) := by
  unfold escape
  split
  · rename_i h; subst h
    rw [show ([92, 110] : List Byte) ++ t = 92 :: 110 :: t from rfl, decode_cstring]
    simp [shown]
  split
  · rename_i h1 h; subst h
    rw [show ([92, 116] : List Byte) ++ t = 92 :: 116 :: t from rfl, decode_cstring]
    simp [shown]
  split
  · rename_i h1 h2 h
    have hs : shown c = 0 := by
      simp at h
      rcases h with rfl | h
      · decide
      · simp [shown, h, h1, h2]
    rw [show ([92, 120] ++ hex2 c ++ t) = 92 :: 120 :: (hex2 c ++ t) from by simp, decode_cstring]
    have hd : (hex2 c ++ t).drop 2 = t := by simp [hex2]
    have hl : (hex2 c).length = 2 := rfl
    simp [xdigits_hex2, strtoul_0x, hs, hl, hd]
  split
  · rename_i h1 h2 h3 h
    have hs : shown c = c := by
      simp at h3
      simp [shown, h3.2]
    simp at h
    rw [show ([92, c] : List Byte) ++ t = 92 :: c :: t from rfl, decode_cstring]
    rcases h with rfl | rfl <;> simp [hs]
  · rename_i h1 h2 h3 h
    have hs : shown c = c := by
      simp at h3
      simp [shown, h3.2]
    simp at h
    rw [show ([c] : List Byte) ++ t = c :: t from rfl, decode_cstring.eq_def]
    simp [h, hs]

theorem decode_encode_cstring (s t : List Byte) :
    decode_cstring (encode_cstring s ++ t) =
      (s.map shown ++ (decode_cstring t).1, (decode_cstring t).2 + (encode_cstring s).length) := by
  induction s with
  | nil => simp [encode_cstring]
  | cons c s ih =>
    have h : encode_cstring (c :: s) ++ t = escape c ++ (encode_cstring s ++ t) := by
      simp [encode_cstring]
    rw [h, decode_escape, ih]
    simp [encode_cstring]
    omega

theorem strtoul16_hex2 (c : Byte) : UInt8.ofNat (strtoul16 (hex2 c)) = c := by
  have h : ∀ n < 256, UInt8.ofNat (strtoul16 (hex2 (UInt8.ofNat n))) = UInt8.ofNat n := by decide +kernel
  have := h c.toNat (lt256 c)
  simpa using this

theorem urlSafe_percent : urlSafe 37 = false := by decide

theorem decode_encode_url (s : List Byte) : ∀ (size i : Nat), size = i + (encode_url s).length →
    decodeUrlFrom size i (encode_url s) = s := by
  induction s with
  | nil => intro size i _; simp [encode_url, decodeUrlFrom]
  | cons c s ih =>
    intro size i h
    have he : encode_url (c :: s) = (if urlSafe c then [c] else 37 :: hex2 c) ++ encode_url s := by
      simp [encode_url]
    rw [he] at h ⊢
    by_cases hc : urlSafe c = true
    · have hne : c ≠ 37 := by rintro rfl; simp [urlSafe_percent] at hc
      simp only [hc, if_true, List.singleton_append] at h ⊢
      rw [decodeUrlFrom]
      simp only [hne, if_false]
      rw [ih size (i + 1) (by rw [h]; simp; omega)]
    · simp only [hc, if_false, List.cons_append, Bool.false_eq_true] at h ⊢
      have hl : (hex2 c).length = 2 := rfl
      have hd : (hex2 c ++ encode_url s).drop 2 = encode_url s := by simp [hex2]
      have ht : (hex2 c ++ encode_url s).take 2 = hex2 c := by simp [hex2]
      simp [hl] at h
      rw [decodeUrlFrom]
      simp only [if_true]
      rw [if_neg, ht, hd, strtoul16_hex2, ih size (i + 3) (by rw [h]; omega)]
      simp only [sizeMinus2]
      rw [if_neg (by omega)]
      omega

end Wreport.Str
