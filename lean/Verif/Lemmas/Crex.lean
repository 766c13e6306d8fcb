import Verif.Model.Crex
import Verif.Spec.Crex
import Verif.Lemmas.Data
import Verif.Lemmas.Decimal

/-! # CREX: fields -/

namespace Wreport.Crex

open Spec

/-! ## Formatted output -/

theorem zeroPadded_length (n k : Nat) : (zeroPadded n k).length = n := by
  induction n generalizing k with
  | zero => rfl
  | succ n ih => simp [zeroPadded, ih]

theorem zeroPadded_zero (n : Nat) : zeroPadded n 0 = List.replicate n 48 := by
  induction n with
  | zero => rfl
  | succ n ih =>
    rw [zeroPadded, show 0 / 10 = 0 from rfl, ih, List.replicate_succ']
    rfl

theorem zeroPadded_digits (n k : Nat) : ∀ b ∈ zeroPadded n k, 48 ≤ b.toNat ∧ b.toNat ≤ 57 := by
  induction n generalizing k with
  | zero => intro b hb; cases hb
  | succ n ih =>
    intro b hb
    rcases List.mem_append.mp hb with h | h
    · exact ih _ b h
    · rw [List.mem_singleton.mp h, digit_toNat (Nat.mod_lt _ (by omega))]
      have := Nat.mod_lt k (show 10 > 0 by omega)
      omega

theorem zeroPadded_value (n k : Nat) (h : k < 10 ^ n) : digitsValue (zeroPadded n k) = k := by
  induction n generalizing k with
  | zero => simp at h; subst h; rfl
  | succ n ih =>
    have h1 := ih (k / 10) (by rw [Nat.pow_succ] at h; omega)
    unfold digitsValue at h1 ⊢
    rw [zeroPadded, List.foldl_append, h1]
    simp only [List.foldl_cons, List.foldl_nil, digit_toNat (Nat.mod_lt k (show 10 > 0 by omega))]
    omega

theorem decDigits_padded (n k : Nat) (h : k < 10 ^ n) (hn : 0 < n) :
    (decDigits k).length ≤ n ∧
      List.replicate (n - (decDigits k).length) 48 ++ decDigits k = zeroPadded n k := by
  induction n generalizing k with
  | zero => omega
  | succ n ih =>
    rw [decDigits]
    split
    · next hk =>
      refine ⟨by simp, ?_⟩
      rw [zeroPadded, show k / 10 = 0 by omega, zeroPadded_zero]
      simp [digitChar]
    · next hk =>
      have hn' : 0 < n := by
        rcases Nat.eq_zero_or_pos n with rfl | h0
        · simp at h; omega
        · exact h0
      obtain ⟨h1, h2⟩ := ih (k / 10) (by rw [Nat.pow_succ] at h; omega) hn'
      refine ⟨by simp; omega, ?_⟩
      rw [zeroPadded, ← h2]
      simp [digitChar]

theorem fmtU_eq (n k : Nat) (h : k < 10 ^ n) (hn : 0 < n) : fmtU n k = zeroPadded n k :=
  (decDigits_padded n k h hn).2

theorem fmtD_eq (n : Nat) (k : Int) (h : k.natAbs < 10 ^ n) (hn : 0 < n) :
    fmtD (if k < 0 then n + 1 else n) k = crexValue n (.num k) := by
  unfold fmtD crexValue
  by_cases hk : k < 0
  · simp only [hk, if_true, Nat.add_sub_cancel, fmtU_eq n _ h hn]; rfl
  · simp only [hk, if_false, fmtU_eq n _ h hn]; rfl

/-! ## Input -/

theorem takeWhile_length_drop (p : Byte → Bool) (s : List Byte) :
    s.drop (s.takeWhile p).length = s.dropWhile p := by
  induction s with
  | nil => rfl
  | cons a s ih =>
    by_cases h : p a = true
    · simp [h, ih]
    · simp [h]

namespace In

theorem rem_length (i : In) : i.rem.length = i.data.length - i.cur := by simp [rem]

theorem peek_ok {i : In} {k : Nat} {c : Byte} (h : i.rem[k]? = some c) : i.peek k = .ok c := by
  have hl : k < i.rem.length := by
    by_contra hc
    rw [List.getElem?_eq_none (by omega)] at h
    cases h
  rw [rem_length] at hl
  unfold peek
  rw [if_pos (by omega)]
  unfold rem at h
  rw [List.getElem?_drop] at h
  rw [List.getD, h]
  rfl

theorem avail_ok {i : In} {n : Nat} (h : n ≤ i.rem.length) (hn : 0 < n) :
    i.check_available_data n = .ok () := by
  rw [rem_length] at h
  unfold check_available_data
  rw [if_neg (by omega)]

theorem eof_ok {i : In} (h : 0 < i.rem.length) : i.check_eof = .ok () := by
  rw [rem_length] at h
  unfold check_eof
  rw [if_neg (by omega)]

theorem rem_adv (i : In) (n : Nat) : (i.adv n).rem = i.rem.drop n := by
  simp [rem, adv, Nat.add_comm]

theorem rem_skip (i : In) : i.skip_spaces.rem = i.rem.dropWhile isSpace := by
  unfold skip_spaces
  rw [rem_adv, takeWhile_length_drop]

/-- Only the position and the check digits differ. -/
theorem adv_digit (i : In) (n : Nat) : (i.adv n).has_check_digit = i.has_check_digit ∧
    (i.adv n).expected_check_digit = i.expected_check_digit := ⟨rfl, rfl⟩

theorem skip_digit (i : In) : i.skip_spaces.has_check_digit = i.has_check_digit ∧
    i.skip_spaces.expected_check_digit = i.expected_check_digit := ⟨rfl, rfl⟩

end In

/-- The check digit of the next field, if check digits are in use. -/
def digitText (use : Bool) (d : Nat) : List Byte := if use then [UInt8.ofNat (48 + d)] else []

/-- The check digit after the next field. -/
def digitNext (use : Bool) (d : Nat) : Nat := if use then (d + 1) % 10 else d

theorem charSub0_digit {d : Nat} (h : d < 10) : charSub0 (UInt8.ofNat (48 + d)) = d := by
  unfold charSub0
  have := digit_toNat h
  simp only [this]
  split <;> omega

theorem checkDigit_ok {i : In} {rest : List Byte} (hd : i.expected_check_digit < 10)
    (h : i.rem = digitText i.has_check_digit i.expected_check_digit ++ rest) :
    ∃ i', i.checkDigit = .ok i' ∧ i'.rem = rest ∧ i'.has_check_digit = i.has_check_digit ∧
      i'.expected_check_digit = digitNext i.has_check_digit i.expected_check_digit := by
  unfold In.checkDigit digitText digitNext at *
  cases hc : i.has_check_digit with
  | false =>
    simp only [hc, Bool.false_eq_true, if_false, List.nil_append] at h ⊢
    exact ⟨i, rfl, h, hc, rfl⟩
  | true =>
    simp only [hc, if_true, List.cons_append, List.nil_append] at h ⊢
    rw [In.peek_ok (c := UInt8.ofNat (48 + i.expected_check_digit)) (by rw [h]; rfl), Res.ok_bind,
      charSub0_digit hd, if_neg (by simp)]
    refine ⟨_, rfl, ?_, hc, rfl⟩
    show (i.adv 1).rem = rest
    rw [In.rem_adv, h]
    rfl

/-- Reading a value from a text that starts with it. -/
theorem parse_value_ok {i : In} {len : Nat} {sg : Bool} {val rest : List Byte}
    (hd : i.expected_check_digit < 10) (hv : val ≠ [])
    (hl : val.length = if sg = true ∧ val.head? = some 45 then len + 1 else len)
    (h : i.rem = digitText i.has_check_digit i.expected_check_digit ++ (val ++ rest))
    (hr : 2 ≤ rest.length) :
    ∃ i', i.parse_value len sg = .ok (val ++ rest, In.trimmed val, i') ∧
      i'.rem = rest.dropWhile isSpace ∧ i'.has_check_digit = i.has_check_digit ∧
      i'.expected_check_digit = digitNext i.has_check_digit i.expected_check_digit := by
  obtain ⟨i1, c1, c2, c3, c4⟩ := checkDigit_ok hd h
  have hlen : len ≤ val.length := by rw [hl]; split <;> omega
  unfold In.parse_value
  rw [In.avail_ok (by rw [h]; simp only [List.length_append]; omega) (by omega), Res.ok_bind, c1,
    Res.ok_bind]
  cases val with
  | nil => exact absurd rfl hv
  | cons a t =>
    rw [In.peek_ok (c := a) (by rw [c2]; rfl), Res.ok_bind]
    have hlen' : (if (sg && decide (a = 45)) = true then len + 1 else len) = (a :: t).length := by
      rw [hl]
      by_cases h1 : sg = true <;> by_cases h2 : a = 45 <;> simp [h1, h2]
    simp only [hlen', c2, List.take_left]
    refine ⟨_, rfl, ?_, c3, c4⟩
    rw [In.rem_skip, In.rem_adv, c2, List.drop_left]

theorem takeWhile_digits {d rest : List Byte} (hd : ∀ b ∈ d, 48 ≤ b.toNat ∧ b.toNat ≤ 57)
    (hr : NoDigit rest) : (d ++ rest).takeWhile isDigit = d := by
  induction d with
  | nil =>
    cases rest with
    | nil => rfl
    | cons b t =>
      have := hr b rfl
      simp [this]
  | cons a d ih =>
    have ha := (isDigit_iff a).mpr (hd a List.mem_cons_self)
    simp only [List.cons_append, List.takeWhile_cons, ha, if_true]
    rw [ih (fun b hb => hd b (List.mem_cons_of_mem _ hb))]

theorem digit_not {a : Byte} (h : 48 ≤ a.toNat ∧ a.toNat ≤ 57) :
    isSpace a = false ∧ a ≠ 45 ∧ a ≠ 43 ∧ a ≠ 47 := by
  refine ⟨?_, ?_, ?_, ?_⟩
  · unfold isSpace
    simp only [Bool.or_eq_false_iff, Bool.and_eq_false_iff, beq_eq_false_iff_ne, decide_eq_false_iff_not]
    omega
  all_goals (rintro rfl; revert h; decide)

/-- `strtol` of a number in a field. -/
theorem strtol_ok {n : Nat} {k : Int} {rest : List Byte} (hn : 0 < n) (h : k.natAbs < 10 ^ n)
    (hk : inInt k = true) (hr : NoDigit rest) :
    strtol (crexValue n (.num k) ++ rest) = k := by
  have hz := zeroPadded_digits n k.natAbs
  have hzl := zeroPadded_length n k.natAbs
  have hv := zeroPadded_value n k.natAbs h
  unfold digitsValue at hv
  rw [inInt_iff] at hk
  unfold strtol crexValue
  by_cases hneg : k < 0
  · simp only [hneg, if_true, List.cons_append, List.nil_append]
    rw [List.dropWhile_cons_of_neg (by decide)]
    simp only [List.head?_cons, true_or, if_true, List.tail_cons]
    rw [takeWhile_digits hz hr, hv]
    omega
  · simp only [hneg, if_false, List.nil_append]
    cases hc : zeroPadded n k.natAbs with
    | nil => rw [hc] at hzl; simp at hzl; omega
    | cons a t =>
      rw [hc] at hz hv
      obtain ⟨a1, a2, a3, -⟩ := digit_not (hz a List.mem_cons_self)
      rw [List.cons_append, List.dropWhile_cons_of_neg (by simp [a1])]
      simp only [List.head?_cons, Option.some.injEq, a2, a3, or_self, if_false]
      rw [← List.cons_append, takeWhile_digits hz hr, hv]
      omega

/-! ## Single fields -/

/-- A value that fits is written as its field. -/
theorem crex_written (E : Env) {o : Out} {v : VarCore} (hv : v.WF) 
    (hf : crexFits v = true) :
    ∃ o', o.append_var E v.info v = .ok o' ∧
      o'.buf = o.buf ++ crexField (digitText o.has_check_digit o.expected_check_digit) v ∧
      o'.has_check_digit = o.has_check_digit ∧
      o'.expected_check_digit = (if v.isset then digitNext o.has_check_digit o.expected_check_digit
        else o.expected_check_digit) := by
  have hcd : ∀ o : Out, ((o.raw_append [32]).encode_check_digit).buf =
      o.buf ++ 32 :: digitText o.has_check_digit o.expected_check_digit ∧
      ((o.raw_append [32]).encode_check_digit).has_check_digit = o.has_check_digit ∧
      ((o.raw_append [32]).encode_check_digit).expected_check_digit =
        digitNext o.has_check_digit o.expected_check_digit := by
    intro o
    unfold Out.encode_check_digit digitText digitNext Out.raw_append
    cases o.has_check_digit <;> simp
  unfold Out.append_var crexField
  cases hx : v.view with
  | none =>
    have hs := unset_of_view hv hx
    simp only [hs, Bool.not_false, if_true, Bool.false_eq_true, if_false]
    exact ⟨_, rfl, rfl, rfl, rfl⟩
  | some x =>
    obtain ⟨hs, ht⟩ := view_type hx
    obtain ⟨c1, c2, c3⟩ := hcd o
    unfold crexFits at hf
    rw [hx] at hf
    simp only [hs, Bool.not_true, Bool.false_eq_true, if_false, if_true]
    cases x with
    | bits w => cases hf
    | num k =>
      simp only [crexNumFits, decide_eq_true_eq] at hf
      obtain ⟨f1, f2, f3, f4, f5⟩ := hf
      have hval := fmtD_eq v.info.len k f3 f1
      have key : ∀ o1 : Out, Out.appendNumber o1 v.info v =
          .ok (o1.raw_append (crexValue v.info.len (.num k))) := by
        intro o1
        unfold Out.appendNumber
        rw [enqi_of_view hv hx, Res.ok_bind, hval]
        unfold Out.raw_appendf
        rw [if_pos]
        unfold crexValue
        rw [List.length_append, zeroPadded_length]
        split <;> simp <;> omega
      refine ⟨((o.raw_append [32]).encode_check_digit).raw_append (crexValue v.info.len (.num k)),
        ?_, ?_, c2, c3⟩
      · rcases ht with ht | ht <;> rw [ht] <;> exact key _
      · show ((o.raw_append [32]).encode_check_digit).buf ++ _ = _
        rw [c1]
        simp
    | text t =>
      simp only at ht
      rw [ht]
      simp only [crexTextFits, Bool.and_eq_true, decide_eq_true_eq] at hf
      obtain ⟨⟨⟨f1, f2⟩, f3⟩, f4⟩ := hf
      obtain ⟨-, hnul, -, r, hc⟩ := enqc_of_view (E := E) hv hx
      have htw : (t.take v.info.len ++ List.replicate (v.info.len - t.length) 0).takeWhile
          (fun b : Byte => decide (b ≠ 0)) = t := by
        rw [List.take_of_length_le f2, List.takeWhile_append_of_pos (by
          intro b hb; simpa using hnul b hb)]
        cases v.info.len - t.length with
        | zero => simp
        | succ n => simp [List.replicate_succ]
      have key : ∀ o1 : Out, Out.appendText E o1 v.info v =
          .ok (o1.raw_append (crexValue v.info.len (.text t))) := by
        intro o1
        unfold Out.appendText
        rw [hc, Res.ok_bind, strncpy_c_str t r _ hnul, Res.ok_bind, htw]
        unfold Out.raw_appendf fmtS crexValue
        rw [List.take_of_length_le f2, if_pos]
        simp
        omega
      simp only [key]
      refine ⟨_, rfl, ?_, c2, c3⟩
      show ((o.raw_append [32]).encode_check_digit).buf ++ _ = _
      rw [c1]
      simp

theorem trimmed_text {t : List Byte} {n : Nat} {b : Byte} (h : t.getLast? = some b)
    (hb : isSpace b = false) : In.trimmed (t ++ List.replicate n 32) = t := by
  unfold In.trimmed
  rw [List.reverse_append, List.reverse_replicate, List.dropWhile_append]
  have : (List.replicate n (32 : Byte)).dropWhile isSpace = [] := by
    rw [List.dropWhile_eq_nil_iff]
    intro x hx
    rw [List.eq_of_mem_replicate hx]
    rfl
  rw [this]
  obtain ⟨s, rfl⟩ := List.getLast?_eq_some_iff.mp h
  simp [hb]

/-- The text of a field from its first character on, without the check digit. -/
def valueText (v : VarCore) : List Byte :=
  match v.view with
  | none => List.replicate v.info.len 47
  | some x => crexValue v.info.len x

/-- The field of a value that fits is read back as that value. -/
theorem crex_read (C : Ctx) {st : Decoder.St} {v : VarCore} {rest : List Byte} (hv : v.WF)
    (hd : st.tgt.input.expected_check_digit < 10) (hf : crexFits v = true)
    (h : st.tgt.input.rem = digitText st.tgt.input.has_check_digit st.tgt.input.expected_check_digit ++
      (valueText v ++ rest)) (hr : 2 ≤ rest.length) (hnd : NoDigit rest) :
    ∃ n w i', Decoder.read_variable C st v.info = .ok (n, { st with tgt := ⟨i', st.tgt.out ++ [w]⟩ }) ∧
      w.WF ∧ w.info = v.info ∧ w.toVarCore.view = v.view ∧ w.attrs = [] ∧
      (∀ k, v.view = some (.num k) → n = toU32 k) ∧ i'.rem = rest.dropWhile isSpace ∧
      i'.has_check_digit = st.tgt.input.has_check_digit ∧
      i'.expected_check_digit =
        digitNext st.tgt.input.has_check_digit st.tgt.input.expected_check_digit := by
  have hwf : ∀ {w : Var}, w.toVarCore.WF → w.attrs = [] → w.WF := fun h1 h2 =>
    ⟨h1, by rw [h2]; simp, by rw [h2]; simp⟩
  unfold valueText at h
  unfold Decoder.read_variable
  cases hx : v.view with
  | none =>
    rw [hx] at h
    unfold crexFits at hf
    rw [hx] at hf
    simp only [decide_eq_true_eq] at hf
    obtain ⟨n, hn⟩ : ∃ n, v.info.len = n + 1 := ⟨v.info.len - 1, by omega⟩
    obtain ⟨i', p1, p2, p3, p4⟩ := parse_value_ok (len := v.info.len)
        (sg := decide (v.info.type ≠ .string)) hd
      (val := List.replicate v.info.len 47) (by rw [hn]; simp [List.replicate_succ])
      (by rw [hn, List.replicate_succ]; simp) h hr
    obtain ⟨w, w1, w2, w3, w4, w5⟩ := copy_plain (hwf (WF_new v.info) rfl) rfl
    have hw : w.toVarCore.view = none := w4.trans (view_unset rfl)
    refine ⟨4294967295, w, i', ?_, w2, w3, hw, w5, (by intro k hk; cases hk), p2, p3, p4⟩
    rw [p1, Res.ok_bind]
    simp only [hn, List.replicate_succ, List.cons_append, List.headD_cons, if_true, Res.ok_bind, w1]
    rfl
  | some x =>
    obtain ⟨hs, ht⟩ := view_type hx
    rw [hx] at h
    unfold crexFits at hf
    rw [hx] at hf
    cases x with
    | bits w => cases hf
    | num k =>
      simp only [crexNumFits, decide_eq_true_eq] at hf
      obtain ⟨f1, f2, f3, f4, f5⟩ := hf
      have hin : inInt k = true := by
        obtain ⟨c, hc, hi⟩ := (WF_num ht).mp hv
        rw [view_num ht hc hs] at hx
        cases hx
        exact hi
      have hzl := zeroPadded_length v.info.len k.natAbs
      have hz := zeroPadded_digits v.info.len k.natAbs
      have hne : crexValue v.info.len (.num k) ≠ [] := by
        unfold crexValue
        intro he
        have := congrArg List.length he
        simp [zeroPadded_length] at this
        omega
      have hhead : ∀ a, (crexValue v.info.len (.num k)).head? = some a → a ≠ 47 ∧
          (a = 45 ↔ k < 0) := by
        intro a ha
        unfold crexValue at ha
        by_cases hneg : k < 0
        · simp only [hneg, if_true, List.cons_append, List.head?_cons, Option.some.injEq] at ha
          subst ha
          exact ⟨by decide, by simp [hneg]⟩
        · simp only [hneg, if_false, List.nil_append] at ha
          obtain ⟨b1, b2, b3, b4⟩ := digit_not (hz a (List.mem_of_head? ha))
          exact ⟨b4, by simp [hneg, b2]⟩
      have hty : v.info.type ≠ .string := by
        rcases ht with ht | ht <;> rw [ht] <;> decide
      obtain ⟨i', p1, p2, p3, p4⟩ := parse_value_ok (len := v.info.len)
        (sg := decide (v.info.type ≠ .string)) hd hne
        (by
          cases hc : (crexValue v.info.len (.num k)) with
          | nil => exact absurd hc hne
          | cons a t =>
            have h1 := (hhead a (by rw [hc]; rfl)).2
            have h2 : (crexValue v.info.len (.num k)).length =
                if k < 0 then v.info.len + 1 else v.info.len := by
              unfold crexValue
              rw [List.length_append, hzl]
              split <;> simp
              omega
            rw [← hc, h2]
            simp only [hty, hc, List.head?_cons, Option.some.injEq, ne_eq, not_false_eq_true, decide_true,
              true_and, h1]) h hr
      have hput : (Var.new v.info).seti C.O k = ((Var.new v.info).putInt k, .ok ()) := by
        rw [seti_num ht]
        unfold Var.assign_i_checked
        rw [if_neg (by show ¬ (k < v.info.imin ∨ v.info.imax < k); omega)]
      have hwp : ((Var.new v.info).putInt k).toVarCore.WF :=
        (WF_num (v := ((Var.new v.info).putInt k).toVarCore) ht).mpr ⟨k, rfl, hin⟩
      have hvp : ((Var.new v.info).putInt k).toVarCore.view = some (.num k) :=
        view_num (v := ((Var.new v.info).putInt k).toVarCore) ht rfl rfl
      obtain ⟨w, w1, w2, w3, w4, w5⟩ := copy_plain (hwf hwp rfl) rfl
      refine ⟨toU32 k, w, i', ?_, w2, w3, w4.trans hvp, w5, ?_, p2, p3, p4⟩
      · rw [p1, Res.ok_bind]
        have h47 : (crexValue v.info.len (.num k) ++ rest).headD 0 ≠ 47 := by
          cases hc : (crexValue v.info.len (.num k)) with
          | nil => exact absurd hc hne
          | cons a t => exact (hhead a (by rw [hc]; rfl)).1
        simp only
        rw [if_neg h47]
        unfold Decoder.setValue
        rw [if_neg hty]
        simp only [strtol_ok f1 f3 hin hnd, show wrapInt k = k from wrapInt_eq hin, hput,
          Res.ok_bind, w1]
        rfl
      · intro k' hk'
        cases hk'
        rfl
    | text t =>
      simp only at ht
      simp only [crexTextFits, Bool.and_eq_true, decide_eq_true_eq] at hf
      obtain ⟨⟨⟨f1, f2⟩, f3⟩, f4⟩ := hf
      cases hh : t.head? with
      | none => rw [hh] at f3; cases f3
      | some a =>
        rw [hh] at f3
        simp only [Bool.and_eq_true, Bool.not_eq_true', bne_iff_ne] at f3
        cases hl : t.getLast? with
        | none => rw [hl] at f4; cases f4
        | some b =>
          rw [hl] at f4
          simp only [Bool.not_eq_true'] at f4
          obtain ⟨-, hnul, -, -⟩ := enqc_of_view (E := C.E) hv hx
          have htl : (crexValue v.info.len (.text t)).length = v.info.len := by
            unfold crexValue
            simp
            omega
          cases t with
          | nil => cases hh
          | cons a' t =>
            simp only [List.head?_cons, Option.some.injEq] at hh
            subst hh
            obtain ⟨i', p1, p2, p3, p4⟩ := parse_value_ok (len := v.info.len)
              (sg := decide (v.info.type ≠ .string)) hd
              (val := crexValue v.info.len (.text (a' :: t))) (by simp [crexValue])
              (by rw [htl]; simp [ht]) h hr
            have htrim : In.trimmed (crexValue v.info.len (.text (a' :: t))) = a' :: t :=
              trimmed_text hl f4
            have htw : (a' :: t).takeWhile (fun b : Byte => decide (b ≠ 0)) = a' :: t := by
              rw [List.takeWhile_eq_self_iff]
              intro b hb
              simpa using hnul b hb
            obtain ⟨m, m1, m2, m3⟩ := assign_c_ok (v := Var.new v.info) (WF_new _) ht (a' :: t) [] hnul
              v.info.len
            rw [show (Var.new v.info).info.len = v.info.len from rfl, Nat.min_self,
              List.take_of_length_le f2] at m3
            obtain ⟨w, w1, w2, w3, w4, w5⟩ := copy_plain (v := (Var.new v.info).putMem m)
              (hwf (Var.WF_putMem_string ht m2 m3) rfl) rfl
            refine ⟨4294967295, w, i', ?_, w2, w3, w4.trans (Var.view_putMem_string ht m3), w5,
              (by intro k hk; cases hk), p2, p3, p4⟩
            rw [p1, Res.ok_bind]
            simp only
            rw [if_neg (show ¬ (crexValue v.info.len (.text (a' :: t)) ++ rest).headD 0 = 47 from f3.2)]
            unfold Decoder.setValue
            rw [if_pos ht, htrim, htw]
            simp only [List.append_nil] at m1
            have hset : (Var.new v.info).setc C.O (c_str (a' :: t)) = ((Var.new v.info).putMem m, .ok ()) := by
              unfold Var.setc
              rw [show (Var.new v.info).info.type = .string from ht]
              exact m1
            rw [hset]
            simp only [Res.ok_bind, w1]
            rfl

end Wreport.Crex
