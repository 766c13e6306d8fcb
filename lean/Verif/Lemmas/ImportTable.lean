import Verif.Spec.ImportTable
import Verif.Lemmas.Python
import Verif.Props.TableText

/-! # Lemmas about imported tables -/

namespace Wreport

namespace Import

open Spec

theorem plain_char (c : Char) (h : c.toNat < 128) : String.utf8EncodeChar c = [UInt8.ofNat c.toNat] := by
  have := Py.utf8_char ⟨c.toNat, h⟩
  simpa using this

theorem encode_plain {s : List Char} (h : PlainText s) : Py.encode s = plainBytes s := by
  induction s with
  | nil => rfl
  | cons c s ih =>
    have hc := h c (by simp)
    have := ih fun d hd => h d (by simp [hd])
    unfold Py.encode plainBytes at *
    rw [List.flatMap_cons, this, plain_char c (by omega)]
    rfl

theorem plainBytes_length (s : List Char) : (plainBytes s).length = s.length := by simp [plainBytes]

theorem plain_blank (n : Nat) : PlainText (List.replicate n ' ') := by
  intro c hc
  rw [List.eq_of_mem_replicate hc]
  decide

theorem field_plain {s : List Char} (n : Nat) (h : PlainText s) :
    field n s = (plainBytes s).take n ++ List.replicate (n - s.length) 32 := by
  unfold field
  rw [encode_plain]
  · simp only [plainBytes, List.map_append, List.map_replicate, List.map_take]
    rfl
  · intro c hc
    rcases List.mem_append.mp hc with hc | hc
    · exact h c (List.mem_of_mem_take hc)
    · exact plain_blank _ c hc

theorem field_length {s : List Char} (n : Nat) (h : PlainText s) : (field n s).length = n := by
  rw [field_plain n h]
  simp [plainBytes_length]
  omega

theorem plainBytes_ge {s : List Char} (h : PlainText s) : ∀ b ∈ plainBytes s, 32 ≤ b.toNat ∧ b.toNat < 127 := by
  intro b hb
  obtain ⟨c, hc, rfl⟩ := List.mem_map.mp hb
  have := h c hc
  simp only [UInt8.toNat_ofNat']
  omega

theorem field_ge {s : List Char} (n : Nat) (h : PlainText s) : ∀ b ∈ field n s, 32 ≤ b.toNat := by
  intro b hb
  rw [field_plain n h] at hb
  rcases List.mem_append.mp hb with hb | hb
  · exact (plainBytes_ge h b (List.mem_of_mem_take hb)).1
  · rw [List.eq_of_mem_replicate hb]; decide

theorem plainBytes_inj {s t : List Char} (hs : PlainText s) (ht : PlainText t)
    (h : plainBytes s = plainBytes t) : s = t := by
  induction s generalizing t with
  | nil => cases t with
    | nil => rfl
    | cons => simp [plainBytes] at h
  | cons a s ih => cases t with
    | nil => simp [plainBytes] at h
    | cons b t =>
      have ha := hs a (by simp)
      have hb := ht b (by simp)
      simp only [plainBytes, List.map_cons, List.cons.injEq] at h
      have h1 := congrArg UInt8.toNat h.1
      simp only [UInt8.toNat_ofNat'] at h1
      have : a.toNat = b.toNat := by omega
      have hab : a = b := by
        rw [← Char.ofNat_toNat a, ← Char.ofNat_toNat b, this]
      rw [hab, ih (fun c hc => hs c (by simp [hc])) (fun c hc => ht c (by simp [hc])) h.2]

theorem upper_char : ∀ n : Fin 128, (Char.ofNat n.val).toUpper.toNat < 128 ∧
    (32 ≤ n.val ∧ n.val < 127 → 32 ≤ (Char.ofNat n.val).toUpper.toNat ∧
      (Char.ofNat n.val).toUpper.toNat < 127) ∧
    UInt8.ofNat (Char.ofNat n.val).toUpper.toNat = capital (UInt8.ofNat n.val) := by
  decide +kernel

theorem upper_plain {s : List Char} (h : PlainText s) : PlainText (upper s) := by
  intro c hc
  obtain ⟨d, hd, rfl⟩ := List.mem_map.mp hc
  have hd' := h d hd
  have := (upper_char ⟨d.toNat, by omega⟩).2.1
  simp only [Char.ofNat_toNat] at this
  exact this hd'

theorem upper_bytes {s : List Char} (h : PlainText s) :
    plainBytes (upper s) = (plainBytes s).map capital := by
  unfold plainBytes upper
  rw [List.map_map, List.map_map]
  apply List.map_congr_left
  intro d hd
  have hd' := h d hd
  have := (upper_char ⟨d.toNat, by omega⟩).2.2
  simp only [Char.ofNat_toNat] at this
  exact this

theorem unit_plain {s : List Char} (h : PlainText s) : PlainText (normalise_bufr_unit s) := by
  unfold normalise_bufr_unit
  split
  · unfold PlainText; decide +kernel
  · exact upper_plain h

theorem unit_bytes {s : List Char} (h : PlainText s) :
    plainBytes (normalise_bufr_unit s) = importedUnit s := by
  have hp : PlainText "CCITT IA5".toList := by unfold PlainText; decide +kernel
  have e1 : plainBytes "CCITT IA5".toList = ascii "CCITT IA5" := by decide +kernel
  have e2 : plainBytes "CCITTIA5".toList = ascii "CCITTIA5" := by decide +kernel
  unfold normalise_bufr_unit importedUnit
  simp only
  rw [← upper_bytes h]
  by_cases hu : upper s = "CCITT IA5".toList
  · rw [if_pos hu, hu, if_pos e1, e2]
  · rw [if_neg hu, if_neg]
    intro hc
    exact hu (plainBytes_inj (upper_plain h) hp (hc.trans e1.symm))

/-! ## Numbers -/

theorem digitsValue_nat (s : List Byte) : digitsValue s = natOfDigits s := by
  rfl

theorem dec_length {i : Int} {k : Nat} (h1 : i < 10 ^ k) (h2 : -(10 : Int) ^ (k - 1) < i) (hk : 1 < k) :
    (Printer.dec i).length ≤ k := by
  unfold Printer.dec
  split
  · have h3 := (Crex.decDigits_padded (k - 1) i.natAbs (by
      have : (i.natAbs : Int) < (10 : Int) ^ (k - 1) := by omega
      exact_mod_cast this) (by omega)).1
    simp only [List.length_cons]; omega
  · exact (Crex.decDigits_padded k i.natAbs (by
      have : (i.natAbs : Int) < (10 : Int) ^ k := by omega
      exact_mod_cast this) (by omega)).1

theorem num_length {n : Nat} {i : Int} (h : (Printer.dec i).length ≤ n) : (num n i).length = n := by
  simp [num]; omega

theorem num_ge (n : Nat) (i : Int) : ∀ b ∈ num n i, 32 ≤ b.toNat := by
  intro b hb
  rcases List.mem_append.mp hb with hb | hb
  · rw [List.eq_of_mem_replicate hb]; decide
  · unfold Printer.dec at hb
    split at hb
    · rcases List.mem_cons.mp hb with rfl | hb
      · decide
      · have := (decDigits_decimal i.natAbs).2.1 b hb; omega
    · have := (decDigits_decimal i.natAbs).2.1 b hb; omega

theorem starts_num {k : Nat} {i : Int} {b : Byte} {rest : List Byte}
    (h1 : -9223372036854775808 < i) (h2 : i < 9223372036854775808) (hb : ¬ DigitText b) :
    StartsInt (List.replicate k 32 ++ (Printer.dec i ++ b :: rest)) i := by
  have hd := decDigits_decimal i.natAbs
  have key : ∀ k, StartsNumber (List.replicate k 32 ++ (Crex.decDigits i.natAbs ++ b :: rest)) i.natAbs :=
    fun k => ⟨k, _, b :: rest, rfl, hd.1, hd.2.1, by rw [← digitsValue_nat]; exact hd.2.2.1, by omega,
      by simpa using hb⟩
  unfold Printer.dec
  split
  · refine ⟨i.natAbs, .inr ⟨by omega, k, _, rfl, by simpa using key 0⟩⟩
  · exact ⟨i.natAbs, .inl ⟨by omega, key k⟩⟩

theorem num_starts {n : Nat} {i : Int} {b : Byte} {rest : List Byte}
    (h1 : -9223372036854775808 < i) (h2 : i < 9223372036854775808) (hb : ¬ DigitText b) :
    StartsInt (num n i ++ b :: rest) i := by
  unfold num
  rw [List.append_assoc]
  exact starts_num h1 h2 hb

/-! ## Lines of elements -/

theorem padded_field {s : List Char} {u rest : List Byte} (hs : PlainText s) (hu : plainBytes s = u)
    (hf : UnitFits u) : Padded (field 24 s ++ rest) 24 u := by
  have hl : u.length = s.length := by rw [← hu, plainBytes_length]
  refine ⟨hf.1, ?_, ?_⟩
  · rw [List.take_append_of_le_length (by rw [field_length 24 hs]),
      List.take_of_length_le (by rw [field_length 24 hs]), field_plain 24 hs, hu, hl,
      List.take_of_length_le (by have := hf.1; omega)]
  · intro b hb
    have hm : b ∈ u := List.mem_of_getLast? hb
    rw [← hu] at hm
    have := plainBytes_ge hs b hm
    refine ⟨fun h => hf.2 ?_, by omega⟩
    rw [hb]
    congr 1
    exact UInt8.toNat_inj.mp (by simpa using h)

theorem six_length {s : List Char} {f x y : Nat} (h : SixDigits s f x y) : s.length = 6 := by
  obtain ⟨c, d1, d2, d3, d4, d5, he, -⟩ := h.2.1
  rw [← plainBytes_length, he]; rfl

theorem field_six {s : List Char} {f x y : Nat} (h : PlainText s)
    (hd : IsDescriptorText (plainBytes s) f x y) : field 6 s = plainBytes s := by
  have hl : s.length = 6 := by
    obtain ⟨c, d1, d2, d3, d4, d5, he, -⟩ := hd
    rw [← plainBytes_length, he]; rfl
  rw [field_plain 6 h, hl, List.take_of_length_le (by rw [plainBytes_length, hl])]
  simp

/-- The part of a line up to the width in bits. -/
def bufrPart (e : BEntry) (n : List Char) : List Byte :=
  32 :: field 6 e.FXY ++ 32 :: field 64 n ++
    32 :: field 24 (normalise_bufr_unit e.BUFR_Unit) ++ 32 :: num 3 e.BUFR_Scale ++
    32 :: num 12 e.BUFR_ReferenceValue ++ 32 :: num 3 e.BUFR_DataWidth_Bits

theorem notDigit_blank : ¬ DigitText 32 := by unfold DigitText; decide

theorem bufrPart_length {e : BEntry} {r : BufrRow} {c : Option CrexRow} {n : List Char}
    (h : ElementSays e r c) (hn : PlainText n) : (bufrPart e n).length = 118 := by
  have l3 : (Printer.dec e.BUFR_Scale).length ≤ 3 := by
    have := h.scale
    exact dec_length (by norm_num; omega) (by norm_num; omega) (by omega)
  have l12 : (Printer.dec e.BUFR_ReferenceValue).length ≤ 12 := by
    have := h.ref
    exact dec_length (by norm_num; omega) (by norm_num; omega) (by omega)
  have lb : (Printer.dec e.BUFR_DataWidth_Bits).length ≤ 3 := by
    have := h.bits
    exact dec_length (by norm_num; omega) (by norm_num; omega) (by omega)
  unfold bufrPart
  simp only [List.length_append, List.length_cons, field_length _ h.code.1, field_length _ hn,
    field_length _ (unit_plain h.unit.1), num_length l3, num_length l12, num_length lb]

theorem bufrPart_written {e : BEntry} {r : BufrRow} {c : Option CrexRow} {n : List Char}
    (h : ElementSays e r c) (hn : PlainText n) (b : Byte) (rest : List Byte) (hb : ¬ DigitText b) :
    r.WrittenIn (bufrPart e n ++ b :: rest) := by
  have l3 : (Printer.dec e.BUFR_Scale).length ≤ 3 := by
    have := h.scale
    exact dec_length (by norm_num; omega) (by norm_num; omega) (by omega)
  have l12 : (Printer.dec e.BUFR_ReferenceValue).length ≤ 12 := by
    have := h.ref
    exact dec_length (by norm_num; omega) (by norm_num; omega) (by omega)
  obtain ⟨s1, s2, s3⟩ := h.scale
  obtain ⟨r1, r2, r3⟩ := h.ref
  obtain ⟨b1, b2⟩ := h.bits
  have hlen := bufrPart_length h hn
  have f1 := field_length 6 h.code.1
  have f2 := field_length 64 hn
  have f3 := field_length 24 (unit_plain h.unit.1)
  have f4 := num_length l3
  have f5 := num_length l12
  refine ⟨?_, ⟨32, plainBytes e.FXY, (32 :: field 64 n ++
    32 :: field 24 (normalise_bufr_unit e.BUFR_Unit) ++ 32 :: num 3 e.BUFR_Scale ++
    32 :: num 12 e.BUFR_ReferenceValue ++ 32 :: num 3 e.BUFR_DataWidth_Bits) ++ b :: rest, ?_,
    h.code.2.1⟩, ?_, ?_, ?_, ?_, by omega, by omega, by omega⟩
  · rw [List.length_append, hlen, List.length_cons]; omega
  · rw [bufrPart, field_six h.code.1 h.code.2.1]
    simp only [List.append_assoc, List.cons_append]
  · have : bufrPart e n ++ b :: rest = (32 :: field 6 e.FXY ++ 32 :: field 64 n ++ [32]) ++
        (field 24 (normalise_bufr_unit e.BUFR_Unit) ++ (32 :: num 3 e.BUFR_Scale ++
        32 :: num 12 e.BUFR_ReferenceValue ++ 32 :: num 3 e.BUFR_DataWidth_Bits ++ b :: rest)) := by
      simp [bufrPart]
    rw [this, List.drop_left' (by simp [f1, f2])]
    exact padded_field (unit_plain h.unit.1) ((unit_bytes h.unit.1).trans h.unit.2.1.symm) h.unit.2.2
  · have : bufrPart e n ++ b :: rest = (32 :: field 6 e.FXY ++ 32 :: field 64 n ++
        32 :: field 24 (normalise_bufr_unit e.BUFR_Unit) ++ [32]) ++ (num 3 e.BUFR_Scale ++
        32 :: (num 12 e.BUFR_ReferenceValue ++ 32 :: num 3 e.BUFR_DataWidth_Bits ++ b :: rest)) := by
      simp [bufrPart]
    rw [this, List.drop_left' (by simp [f1, f2, f3]), s1]
    exact num_starts (by omega) (by omega) notDigit_blank
  · have : bufrPart e n ++ b :: rest = (32 :: field 6 e.FXY ++ 32 :: field 64 n ++
        32 :: field 24 (normalise_bufr_unit e.BUFR_Unit) ++ 32 :: num 3 e.BUFR_Scale ++ [32]) ++
        (num 12 e.BUFR_ReferenceValue ++ 32 :: (num 3 e.BUFR_DataWidth_Bits ++ b :: rest)) := by
      simp [bufrPart]
    rw [this, List.drop_left' (by simp [f1, f2, f3, f4]), r1]
    exact num_starts (by omega) (by omega) notDigit_blank
  · have : bufrPart e n ++ b :: rest = (32 :: field 6 e.FXY ++ 32 :: field 64 n ++
        32 :: field 24 (normalise_bufr_unit e.BUFR_Unit) ++ 32 :: num 3 e.BUFR_Scale ++
        32 :: num 12 e.BUFR_ReferenceValue ++ [32]) ++ (num 3 e.BUFR_DataWidth_Bits ++ b :: rest) := by
      simp [bufrPart]
    rw [this, List.drop_left' (by simp [f1, f2, f3, f4, f5]), b1]
    exact num_starts (by omega) (by omega) hb

theorem bufrPart_ge {e : BEntry} {r : BufrRow} {c : Option CrexRow} {n : List Char}
    (h : ElementSays e r c) (hn : PlainText n) : ∀ b ∈ bufrPart e n, 32 ≤ b.toNat := by
  intro b hb
  unfold bufrPart at hb
  simp only [List.mem_append, List.mem_cons, or_assoc] at hb
  have h32 : ∀ b : Byte, b = 32 → 32 ≤ b.toNat := by rintro _ rfl; decide
  rcases hb with h' | h' | h' | h' | h' | h' | h' | h' | h' | h' | h' | h'
  all_goals first
    | exact h32 b h'
    | exact field_ge _ h.code.1 b h'
    | exact field_ge _ hn b h'
    | exact field_ge _ (unit_plain h.unit.1) b h'
    | exact num_ge _ _ b h'

/-- What is written for an element. -/
theorem bLine_says {e : BEntry} {r : BufrRow} {c : Option CrexRow} (h : ElementSays e r c) :
    ∃ line, bLine e = some line ∧ TextLine line ∧ r.WrittenIn line ∧
      (∀ d ∈ c, d.WrittenIn line) ∧ (c = none → line.length < 157) := by
  obtain ⟨n, hname, hn⟩ := h.name
  have hsel : elName e = some n := by
    unfold elName
    rcases hname with hname | ⟨h1, h2⟩
    · rw [hname]
    · rw [h1]; exact h2
  have hlen := bufrPart_length h hn
  have hge := bufrPart_ge h hn
  have nl : ¬ DigitText 10 := by unfold DigitText; decide
  have text : ∀ body : List Byte, (∀ b ∈ body, 32 ≤ b.toNat) → body.length < 199 → TextLine (body ++ [10]) := by
    intro body hb hl
    refine ⟨body, rfl, fun h => ?_, fun h => ?_, hl⟩
    · exact absurd (hb _ h) (by decide)
    · exact absurd (hb _ h) (by decide)
  cases c with
  | none =>
    refine ⟨bufrPart e n ++ [10], ?_, text _ hge (by omega), bufrPart_written h hn 10 [] nl, by simp,
      fun _ => by simp [hlen]⟩
    unfold bLine
    rw [hsel]
    rcases h.nocrex rfl with h' | h' | h'
    · rw [h']; rfl
    · rw [h']; cases e.CREX_Unit <;> rfl
    · rw [h']; cases e.CREX_Unit <;> cases e.CREX_Scale <;> rfl
  | some d =>
    obtain ⟨hx, hy, hu, ⟨u, hcu, hup, hdu⟩, hcs, s1, s2, hcl, l1⟩ := h.crex d rfl
    have c2 : (Printer.dec d.scale).length ≤ 2 :=
      dec_length (by norm_num; omega) (by norm_num; omega) (by omega)
    have c7 : (Printer.dec (d.len : Int)).length ≤ 7 :=
      dec_length (by norm_num; omega) (by norm_num; omega) (by omega)
    have g1 := field_length 24 (upper_plain hup)
    have g2 := num_length c2
    have g3 := num_length (Nat.le_trans c7 (show 7 ≤ 9 by omega))
    have hline : bLine e = some (bufrPart e n ++ 32 :: field 24 (normalise_crex_unit u) ++
        32 :: num 2 d.scale ++ 32 :: num 9 d.len ++ [10]) := by
      unfold bLine
      rw [hsel, hcu, hcs, hcl]
      rfl
    refine ⟨_, hline, text _ ?_ ?_, ?_, ?_, by simp⟩
    · intro b hb
      simp only [List.mem_append, List.mem_cons, or_assoc] at hb
      have h32 : ∀ b : Byte, b = 32 → 32 ≤ b.toNat := by rintro _ rfl; decide
      rcases hb with h' | h' | h' | h' | h' | h' | h'
      all_goals first
        | exact h32 b h'
        | exact hge b h'
        | exact field_ge _ (upper_plain hup) b h'
        | exact num_ge _ _ b h'
    · simp [hlen, g1, g2, g3, normalise_crex_unit]
    · have := bufrPart_written h hn 32 (field 24 (normalise_crex_unit u) ++
        (32 :: num 2 d.scale ++ (32 :: num 9 d.len ++ [10]))) notDigit_blank
      simpa [List.append_assoc] using this
    · intro d' hd'
      obtain rfl : d = d' := by simpa using hd'
      have hcode := (bufrPart_written h hn 32 (field 24 (normalise_crex_unit u) ++
        (32 :: num 2 d.scale ++ (32 :: num 9 d.len ++ [10]))) notDigit_blank).code
      refine ⟨by simp [hlen, g1, g2, g3, normalise_crex_unit], ?_, ?_, ?_, ?_, by omega, by omega⟩
      · rw [hx, hy]
        simpa [List.append_assoc] using hcode
      · have : bufrPart e n ++ 32 :: field 24 (normalise_crex_unit u) ++
            32 :: num 2 d.scale ++ 32 :: num 9 d.len ++ [10] = (bufrPart e n ++ [32]) ++
            (field 24 (normalise_crex_unit u) ++ (32 :: num 2 d.scale ++ 32 :: num 9 d.len ++ [10])) := by
          simp
        rw [this, List.drop_left' (by simp [hlen])]
        exact padded_field (upper_plain hup) ((upper_bytes hup).trans hdu.symm) hu
      · have : bufrPart e n ++ 32 :: field 24 (normalise_crex_unit u) ++
            32 :: num 2 d.scale ++ 32 :: num 9 d.len ++ [10] =
            (bufrPart e n ++ 32 :: field 24 (normalise_crex_unit u)) ++
            (List.replicate (1 + (2 - (Printer.dec d.scale).length)) 32 ++
              (Printer.dec d.scale ++ 32 :: (num 9 d.len ++ [10]))) := by
          simp [num, List.replicate_add]
        rw [this, List.drop_left' (by simp [hlen, g1, normalise_crex_unit])]
        exact starts_num (by omega) (by omega) notDigit_blank
      · have : bufrPart e n ++ 32 :: field 24 (normalise_crex_unit u) ++
            32 :: num 2 d.scale ++ 32 :: num 9 d.len ++ [10] =
            (bufrPart e n ++ 32 :: field 24 (normalise_crex_unit u) ++ 32 :: num 2 d.scale ++
              32 :: List.replicate 2 32) ++
            (List.replicate (7 - (Printer.dec (d.len : Int)).length) 32 ++
              (Printer.dec (d.len : Int) ++ 10 :: [])) := by
          have h9 : 9 - (Printer.dec (d.len : Int)).length = 2 + (7 - (Printer.dec (d.len : Int)).length) := by
            omega
          rw [num, num, h9, List.replicate_add]
          simp
        rw [this, List.drop_left' (by simp [hlen, g1, g2, normalise_crex_unit])]
        exact starts_num (by omega) (by omega) nl

/-! ## Order -/

theorem leText_total (s t : List Char) : leText s t = true ∨ leText t s = true := by
  induction s generalizing t with
  | nil => left; rfl
  | cons a s ih => cases t with
    | nil => right; rfl
    | cons b t =>
      simp only [leText, Bool.or_eq_true, Bool.and_eq_true, decide_eq_true_eq]
      rcases Nat.lt_trichotomy a.toNat b.toNat with h | h | h
      · exact .inl (.inl h)
      · have hab : a = b := by rw [← Char.ofNat_toNat a, ← Char.ofNat_toNat b, h]
        rcases ih t with h' | h'
        · exact .inl (.inr ⟨hab, h'⟩)
        · exact .inr (.inr ⟨hab.symm, h'⟩)
      · exact .inr (.inl h)

theorem leText_trans {s t u : List Char} (h1 : leText s t = true) (h2 : leText t u = true) :
    leText s u = true := by
  induction s generalizing t u with
  | nil => rfl
  | cons a s ih => cases t with
    | nil => simp [leText] at h1
    | cons b t => cases u with
      | nil => simp [leText] at h2
      | cons c u =>
        simp only [leText, Bool.or_eq_true, Bool.and_eq_true, decide_eq_true_eq] at h1 h2 ⊢
        rcases h1 with h1 | ⟨rfl, h1⟩
        · rcases h2 with h2 | ⟨rfl, h2⟩
          · left; omega
          · left; exact h1
        · rcases h2 with h2 | ⟨rfl, h2⟩
          · left; exact h2
          · exact .inr ⟨rfl, ih h1 h2⟩

/-- Sorting by a text. -/
theorem sorted_text {α : Type} (key : α → List Char) (l : List α) :
    (l.insertionSort fun a b => leText (key a) (key b)).Pairwise fun a b =>
      leText (key a) (key b) = true := by
  have : Std.Total (fun a b : α => leText (key a) (key b) = true) := ⟨fun a b => leText_total _ _⟩
  have : IsTrans α (fun a b : α => leText (key a) (key b) = true) := ⟨fun a b c => leText_trans⟩
  exact List.pairwise_insertionSort _ l

theorem six_chars {s : List Char} {f x y : Nat} (h : SixDigits s f x y) (hf : f < 4) :
    ∃ c0 c1 c2 c3 c4 c5 : Char, s = [c0, c1, c2, c3, c4, c5] ∧ c0.toNat = 48 + f ∧
      (∀ c ∈ [c1, c2, c3, c4, c5], 48 ≤ c.toNat ∧ c.toNat ≤ 57) ∧
      x = (c1.toNat - 48) * 10 + (c2.toNat - 48) ∧ x < 64 ∧
      y = (c3.toNat - 48) * 100 + (c4.toNat - 48) * 10 + (c5.toNat - 48) ∧ y < 256 := by
  have hl := six_length h
  obtain ⟨hp, ⟨c, d1, d2, d3, d4, d5, he, -, hd, hx, hx', hy, hy'⟩, hh⟩ := h
  match s, hl with
  | [c0, c1, c2, c3, c4, c5], _ =>
    have p0 := hp c0 (by simp)
    have p1 := hp c1 (by simp)
    have p2 := hp c2 (by simp)
    have p3 := hp c3 (by simp)
    have p4 := hp c4 (by simp)
    have p5 := hp c5 (by simp)
    simp only [plainBytes, List.map_cons, List.map_nil, List.cons.injEq, and_true] at he
    obtain ⟨-, rfl, rfl, rfl, rfl, rfl⟩ := he
    have tn : ∀ c : Char, c.toNat < 127 → (UInt8.ofNat c.toNat).toNat = c.toNat := by
      intro c hc; simp only [UInt8.toNat_ofNat']; omega
    simp only [natOfDigits, List.foldl_cons, List.foldl_nil, tn c1 p1.2, tn c2 p2.2, tn c3 p3.2,
      tn c4 p4.2, tn c5 p5.2] at hx hy
    simp only [List.mem_cons, List.not_mem_nil, or_false, forall_eq_or_imp, forall_eq, tn c1 p1.2,
      tn c2 p2.2, tn c3 p3.2, tn c4 p4.2, tn c5 p5.2] at hd
    refine ⟨c0, c1, c2, c3, c4, c5, rfl, ?_, ?_, by omega, hx', by omega, hy'⟩
    · simp only [plainBytes, List.map_cons, List.head?_cons, Option.some.injEq] at hh
      have := congrArg UInt8.toNat hh
      simp only [UInt8.toNat_ofNat'] at this
      omega
    · simpa using hd

theorem six_order {s t : List Char} {f x y x' y' : Nat} (hf : f < 4) (hs : SixDigits s f x y)
    (ht : SixDigits t f x' y') :
    (leText s t = true → descriptorCode f x y ≤ descriptorCode f x' y') ∧
    (descriptorCode f x y = descriptorCode f x' y' → s = t) := by
  obtain ⟨a0, a1, a2, a3, a4, a5, rfl, e0, ed, ex, ex', ey, ey'⟩ := six_chars hs hf
  obtain ⟨b0, b1, b2, b3, b4, b5, rfl, g0, gd, gx, gx', gy, gy'⟩ := six_chars ht hf
  simp only [List.mem_cons, List.not_mem_nil, or_false, forall_eq_or_imp, forall_eq] at ed gd
  have ceq : ∀ a b : Char, a.toNat = b.toNat → a = b := by
    intro a b h
    rw [← Char.ofNat_toNat a, ← Char.ofNat_toNat b, h]
  unfold descriptorCode
  constructor
  · intro h
    simp only [leText, Bool.or_eq_true, Bool.and_eq_true, decide_eq_true_eq] at h
    rcases h with h | ⟨rfl, h | ⟨rfl, h | ⟨rfl, h | ⟨rfl, h | ⟨rfl, h | ⟨rfl, h⟩⟩⟩⟩⟩⟩ <;> omega
  · intro h
    have h1 : x = x' := by omega
    have h2 : y = y' := by omega
    rw [ceq a0 b0 (by omega), ceq a1 b1 (by omega), ceq a2 b2 (by omega), ceq a3 b3 (by omega),
      ceq a4 b4 (by omega), ceq a5 b5 (by omega)]

end Import

end Wreport
