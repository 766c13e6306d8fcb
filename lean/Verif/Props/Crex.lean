import Verif.Lemmas.Crex
import Verif.Props.Interp

/-!
# CREX: fields and the header (C49 to C52)
-/

namespace Wreport.Crex

open Wreport.Spec

/-! ## Fields -/

theorem readField (C : Ctx) {v : VarCore} {rest : List Byte} (hv : v.WF) (hf : crexFits v = true)
    (hr : 2 ≤ rest.length) (hnd : NoDigit rest) {st : Decoder.St}
    (hd : st.tgt.input.expected_check_digit < 10)
    (hc : v.isset = true ∨ st.tgt.input.has_check_digit = false)
    (h : st.tgt.input.rem = (crexField (digitText st.tgt.input.has_check_digit
      st.tgt.input.expected_check_digit) v ++ rest).dropWhile isSpace) :
    ∃ n w i', Decoder.read_variable C st v.info = .ok (n, { st with tgt := ⟨i', st.tgt.out ++ [w]⟩ }) ∧
      w.WF ∧ w.info = v.info ∧ w.toVarCore.view = v.view ∧ w.attrs = [] ∧
      (∀ k, v.view = some (.num k) → n = toU32 k) ∧ i'.rem = rest.dropWhile isSpace ∧
      i'.has_check_digit = st.tgt.input.has_check_digit ∧
      i'.expected_check_digit =
        digitNext st.tgt.input.has_check_digit st.tgt.input.expected_check_digit := by
  refine crex_read C hv hd hf ?_ hr hnd
  rw [h]
  unfold crexField valueText
  have hdig : ∀ {d : Nat}, d < 10 → isSpace (UInt8.ofNat (48 + d)) = false := fun hd =>
    (digit_not (by rw [digit_toNat hd]; omega)).1
  cases hx : v.view with
  | none =>
    have hs := unset_of_view hv hx
    rw [hs] at hc
    rcases hc with hc | hc
    · cases hc
    · unfold crexFits at hf
      rw [hx] at hf
      simp only [decide_eq_true_eq] at hf
      obtain ⟨n, hn⟩ : ∃ n, v.info.len = n + 1 := ⟨v.info.len - 1, by omega⟩
      simp only [hc, digitText, Bool.false_eq_true, if_false, List.nil_append, hn, List.replicate_succ,
        List.cons_append]
      rw [List.dropWhile_cons_of_neg (by decide)]
  | some x =>
    simp only [List.cons_append]
    rw [List.dropWhile_cons_of_pos (by decide)]
    cases hb : st.tgt.input.has_check_digit with
    | true =>
      simp only [digitText, if_true, List.cons_append, List.nil_append]
      rw [List.dropWhile_cons_of_neg (by rw [hdig hd]; decide)]
    | false =>
      simp only [digitText, Bool.false_eq_true, if_false, List.nil_append]
      unfold crexFits at hf
      rw [hx] at hf
      cases x with
      | bits w => cases hf
      | num k =>
        simp only [crexNumFits, decide_eq_true_eq] at hf
        have hzl := zeroPadded_length v.info.len k.natAbs
        have hz := zeroPadded_digits v.info.len k.natAbs
        unfold crexValue
        by_cases hk : k < 0
        · simp only [hk, if_true, List.cons_append]
          rw [List.dropWhile_cons_of_neg (by decide)]
        · simp only [hk, if_false, List.nil_append]
          cases hz' : zeroPadded v.info.len k.natAbs with
          | nil => rw [hz'] at hzl; simp at hzl; omega
          | cons a t =>
            rw [List.cons_append, List.dropWhile_cons_of_neg]
            have := (digit_not (hz a (by rw [hz']; exact List.mem_cons_self))).1
            simp [this]
      | text t =>
        simp only [crexTextFits, Bool.and_eq_true, decide_eq_true_eq] at hf
        obtain ⟨⟨-, f3⟩, -⟩ := hf
        cases t with
        | nil => cases f3
        | cons a t =>
          simp only [List.head?_cons, Bool.and_eq_true, Bool.not_eq_true'] at f3
          unfold crexValue
          simp only [List.cons_append]
          rw [List.dropWhile_cons_of_neg (by simp [f3.1])]

/-- C49 (part): a number in the range of its descriptor, with no more digits than the
field has, is written as a blank, its sign if negative and exactly as many digits as
the field has; this text, with anything after it that does not begin with a digit, is
read back as that number. Missing from the full property: fields of more than 253
characters, and data that goes on with a digit (`C49_not_digit`). -/
theorem C49_number_partial (C : Ctx) (v : VarCore) (k : Int) (hv : v.WF)
    (hk : v.view = some (.num k)) (hf : crexNumFits v.info k = true) :
    (∀ o : Out, o.has_check_digit = false → ∃ o', o.append_var C.E v.info v = .ok o' ∧
      o'.buf = o.buf ++ [32] ++ (if k < 0 then [45] else []) ++ zeroPadded v.info.len k.natAbs) ∧
    ∀ (st : Decoder.St) (rest : List Byte), st.tgt.input.has_check_digit = false →
      st.tgt.input.expected_check_digit < 10 → 2 ≤ rest.length → NoDigit rest →
      st.tgt.input.rem = (if k < 0 then [45] else []) ++ zeroPadded v.info.len k.natAbs ++ rest →
      ∃ w i', Decoder.read_variable C st v.info =
          .ok (toU32 k, { st with tgt := ⟨i', st.tgt.out ++ [w]⟩ }) ∧
        w.WF ∧ w.info = v.info ∧ w.toVarCore.view = some (.num k) ∧
        i'.rem = rest.dropWhile isSpace := by
  have hf' : crexFits v = true := by unfold crexFits; rw [hk]; exact hf
  refine ⟨fun o ho => ?_, fun st rest hc hd hr hnd h => ?_⟩
  · obtain ⟨o', h1, h2, -⟩ := crex_written C.E (o := o) hv hf'
    refine ⟨o', h1, ?_⟩
    rw [h2, ho]
    unfold crexField
    rw [hk]
    simp [digitText, crexValue]
  · obtain ⟨n, w, i', r1, r2, r3, r4, r5, r6, r7, r8, r9⟩ := crex_read C (st := st) (rest := rest) hv hd
      hf' (by rw [h, hc]; unfold valueText; rw [hk]; simp [digitText, crexValue]) hr hnd
    rw [r6 k hk] at r1
    exact ⟨w, i', r1, r2, r3, r4.trans hk, r7⟩

/-- C49: missing values are written as slashes and read back as missing. -/
theorem C49_missing (C : Ctx) (v : VarCore) (hv : v.WF) (hk : v.view = none) (hl : 0 < v.info.len) :
    (∀ o : Out, ∃ o', o.append_var C.E v.info v = .ok o' ∧
      o'.buf = o.buf ++ List.replicate v.info.len 47) ∧
    ∀ (st : Decoder.St) (rest : List Byte), st.tgt.input.has_check_digit = false →
      st.tgt.input.expected_check_digit < 10 → 2 ≤ rest.length → NoDigit rest →
      st.tgt.input.rem = List.replicate v.info.len 47 ++ rest →
      ∃ n w i', Decoder.read_variable C st v.info =
          .ok (n, { st with tgt := ⟨i', st.tgt.out ++ [w]⟩ }) ∧
        w.WF ∧ w.info = v.info ∧ w.toVarCore.view = none ∧ i'.rem = rest.dropWhile isSpace := by
  have hf' : crexFits v = true := by unfold crexFits; rw [hk]; simpa using hl
  refine ⟨fun o => ?_, fun st rest hc hd hr hnd h => ?_⟩
  · obtain ⟨o', h1, h2, -⟩ := crex_written C.E (o := o) hv hf'
    refine ⟨o', h1, ?_⟩
    rw [h2]
    unfold crexField
    rw [hk]
  · obtain ⟨n, w, i', r1, r2, r3, r4, r5, r6, r7, r8, r9⟩ := crex_read C (st := st) (rest := rest) hv hd
      hf' (by rw [h, hc]; unfold valueText; rw [hk]; simp [digitText]) hr hnd
    exact ⟨n, w, i', r1, r2, r3, r4.trans hk, r7⟩

/-- C50 (part): a text that fits its field, is not empty, does not begin with a blank
or a slash and does not end with a blank is written with blanks after it and read back
as that text, whatever follows. Missing from the full property: texts that begin with
a slash (`C50_not_slash`) and the empty text (`C50_not_empty`), for which it is false
in the code; fields of more than 254 characters. -/
theorem C50_text_partial (C : Ctx) (v : VarCore) (t : List Byte) (hv : v.WF)
    (hk : v.view = some (.text t)) (hf : crexTextFits v.info t = true) :
    (∀ o : Out, o.has_check_digit = false → ∃ o', o.append_var C.E v.info v = .ok o' ∧
      o'.buf = o.buf ++ [32] ++ t ++ List.replicate (v.info.len - t.length) 32) ∧
    ∀ (st : Decoder.St) (rest : List Byte), st.tgt.input.has_check_digit = false →
      st.tgt.input.expected_check_digit < 10 → 2 ≤ rest.length → NoDigit rest →
      st.tgt.input.rem = t ++ List.replicate (v.info.len - t.length) 32 ++ rest →
      ∃ n w i', Decoder.read_variable C st v.info =
          .ok (n, { st with tgt := ⟨i', st.tgt.out ++ [w]⟩ }) ∧
        w.WF ∧ w.info = v.info ∧ w.toVarCore.view = some (.text t) ∧
        i'.rem = rest.dropWhile isSpace := by
  have hf' : crexFits v = true := by unfold crexFits; rw [hk]; exact hf
  refine ⟨fun o ho => ?_, fun st rest hc hd hr hnd h => ?_⟩
  · obtain ⟨o', h1, h2, -⟩ := crex_written C.E (o := o) hv hf'
    refine ⟨o', h1, ?_⟩
    rw [h2, ho]
    unfold crexField
    rw [hk]
    simp [digitText, crexValue]
  · obtain ⟨n, w, i', r1, r2, r3, r4, r5, r6, r7, r8, r9⟩ := crex_read C (st := st) (rest := rest) hv hd
      hf' (by rw [h, hc]; unfold valueText; rw [hk]; simp [digitText, crexValue]) hr hnd
    exact ⟨n, w, i', r1, r2, r3, r4.trans hk, r7⟩

/-! ## Check digits -/

/-- Writing the values one after the other. -/
def writeAll (E : Env) (vs : List VarCore) (o : Out) : Res Out :=
  vs.foldlM (fun o v => o.append_var E v.info v) o

/-- Reading values one after the other. -/
def readAll (C : Ctx) (infos : List Varinfo) (st : Decoder.St) : Res Decoder.St :=
  infos.foldlM (fun st info => do let r ← Decoder.read_variable C st info; return r.2) st

theorem digitNext_true {d : Nat} (h : d < 10) :
    digitNext true d = (if d = 9 then 0 else d + 1) ∧ (if d = 9 then 0 else d + 1) < 10 := by
  unfold digitNext
  simp only [if_true]
  split <;> omega

/-- C51 (part): with check digits in use, the values that are not missing are written
with the digits `d`, `d+1`, ... 9, 0, ... before them. -/
theorem C51_written_partial (C : Ctx) (vs : List VarCore) (d : Nat) (o : Out) (hd : d < 10)
    (hv : ∀ v ∈ vs, v.WF ∧ crexFits v = true ∧ v.isset = true) (ho : o.has_check_digit = true)
    (he : o.expected_check_digit = d) :
    ∃ o', writeAll C.E vs o = .ok o' ∧ o'.buf = o.buf ++ digitFields (cycle d vs.length) vs := by
  induction vs generalizing o d with
  | nil => exact ⟨o, rfl, by simp [digitFields, cycle]⟩
  | cons v vs ih =>
    obtain ⟨h1, h2, h3⟩ := hv v (by simp)
    obtain ⟨o', a1, a2, a3, a4⟩ := crex_written C.E (o := o) h1 h2
    simp only [ho, h3, if_true, he] at a2 a3 a4
    obtain ⟨n1, n2⟩ := digitNext_true hd
    obtain ⟨o'', b1, b2⟩ := ih _ o' n2 (fun w hw => hv w (by simp [hw])) a3 (a4.trans n1)
    refine ⟨o'', ?_, ?_⟩
    · show (v :: vs).foldlM _ o = _
      rw [List.foldlM_cons, a1]
      exact b1
    · rw [b2, a2]
      simp [digitFields, cycle, digitText, List.append_assoc]

theorem digitFields_noDigit {ds : List Byte} {vs : List VarCore} {rest : List Byte}
    (hs : ∀ v ∈ vs, v.WF ∧ crexFits v = true ∧ v.isset = true) (hr : NoDigit rest) :
    NoDigit (digitFields ds vs ++ rest) := by
  cases ds with
  | nil => exact hr
  | cons d ds =>
    cases vs with
    | nil => exact hr
    | cons v vs =>
      intro b hb
      have := hs v (by simp)
      unfold digitFields crexField at hb
      cases hx : v.view with
      | none => rw [unset_of_view this.1 hx] at this; exact absurd this.2.2 (by decide)
      | some x =>
        rw [hx] at hb
        simp at hb
        subst hb
        rfl

/-- C51 (part): with check digits in use and `d` expected, values that are not missing,
with any check digits (no blanks) before them, are accepted exactly if the digits are
`d`, `d+1`, ... 9, 0, ..., and then read back. Missing from the full property: missing
values, which are written without a check digit and so are not read back
(`C51_not_missing`), and whole messages, where check digits are never written
(`C51_not_written`). -/
theorem C51_accepted_partial (C : Ctx) (vs : List VarCore) (d : Nat) (ds rest : List Byte)
    (hd : d < 10) (hl : ds.length = vs.length) (hds : ∀ b ∈ ds, isSpace b = false)
    (hv : ∀ v ∈ vs, v.WF ∧ crexFits v = true ∧ v.isset = true) (hr : 2 ≤ rest.length)
    (hnd : NoDigit rest) (st : Decoder.St) (hc : st.tgt.input.has_check_digit = true)
    (he : st.tgt.input.expected_check_digit = d)
    (hrem : st.tgt.input.rem = (digitFields ds vs ++ rest).dropWhile isSpace) :
    ((∃ st', readAll C (vs.map (·.info)) st = .ok st') ↔ ds = cycle d vs.length) ∧
    ∀ st', readAll C (vs.map (·.info)) st = .ok st' →
      ∃ out, st'.tgt.out = st.tgt.out ++ out ∧
        out.map (fun w => (w.info, w.toVarCore.view)) = vs.map (fun v => (v.info, v.view)) ∧
        st'.tgt.input.rem = rest.dropWhile isSpace := by
  induction vs generalizing d ds st with
  | nil =>
    have : ds = [] := List.length_eq_zero_iff.mp hl
    subst this
    refine ⟨⟨fun _ => rfl, fun _ => ⟨st, rfl⟩⟩, fun st' h => ?_⟩
    cases h
    exact ⟨[], by simp, rfl, by simpa [digitFields] using hrem⟩
  | cons v vs ih =>
    cases ds with
    | nil => simp at hl
    | cons c ds =>
      obtain ⟨h1, h2, h3⟩ := hv v (by simp)
      obtain ⟨n1, n2⟩ := digitNext_true hd
      have hsp : isSpace c = false := hds c (by simp)
      obtain ⟨x, hx⟩ : ∃ x, v.view = some x := by
        cases hx : v.view with
        | none => rw [unset_of_view h1 hx] at h3; cases h3
        | some x => exact ⟨x, rfl⟩
      have hrem' : st.tgt.input.rem = c :: (crexValue v.info.len x ++ (digitFields ds vs ++ rest)) := by
        rw [hrem, digitFields]
        unfold crexField
        rw [hx]
        simp only [List.cons_append, List.nil_append, List.append_assoc]
        rw [List.dropWhile_cons_of_pos (by decide), List.dropWhile_cons_of_neg (by simp [hsp])]
      have hcons : readAll C ((v :: vs).map (·.info)) st = (Decoder.read_variable C st v.info >>= fun r =>
          readAll C (vs.map (·.info)) r.2) := by
        unfold readAll
        rw [List.map_cons, List.foldlM_cons]
        cases Decoder.read_variable C st v.info <;> rfl
      by_cases hcd : c = UInt8.ofNat (48 + d)
      · obtain ⟨n, w, i', r1, r2, r3, r4, r5, r6, r7, r8, r9⟩ := readField C (st := st)
          (rest := digitFields ds vs ++ rest) h1 h2 (by rw [List.length_append]; omega)
          (digitFields_noDigit (fun w hw => hv w (by simp [hw])) hnd) (by omega) (.inl h3) (by
            rw [hc, he, hrem, digitFields, List.append_assoc, hcd]; rfl)
        rw [hc, he, n1] at r9
        obtain ⟨k1, k2⟩ := ih (if d = 9 then 0 else d + 1) ds n2 (by simpa using hl)
          (fun b hb => hds b (by simp [hb])) (fun w hw => hv w (by simp [hw]))
          { st with tgt := ⟨i', st.tgt.out ++ [w]⟩ } (r8.trans hc) r9 r7
        rw [hcons, r1, Res.ok_bind]
        refine ⟨?_, fun st' hst => ?_⟩
        · rw [k1]
          simp only [List.length_cons, cycle, hcd, List.cons.injEq, true_and]
        · obtain ⟨out, o1, o2, o3⟩ := k2 st' hst
          refine ⟨w :: out, by rw [o1]; simp, ?_, o3⟩
          rw [List.map_cons, List.map_cons, o2, r3, r4]
      · have hbad : Decoder.read_variable C st v.info = .err .parse := by
          unfold Decoder.read_variable In.parse_value
          have hlen : v.info.len ≤ (crexValue v.info.len x).length := by
            unfold crexFits at h2
            rw [hx] at h2
            cases x with
            | bits w => cases h2
            | num k => unfold crexValue; rw [List.length_append, zeroPadded_length]; omega
            | text t => unfold crexValue; simp; omega
          rw [In.avail_ok (by rw [hrem']; simp only [List.length_cons, List.length_append]; omega)
            (by omega), Res.ok_bind]
          have : st.tgt.input.checkDigit = .err .parse := by
            unfold In.checkDigit
            rw [if_pos hc, In.peek_ok (c := c) (by rw [hrem']; rfl), Res.ok_bind, if_pos]
            rw [he]
            intro heq
            apply hcd
            apply UInt8.toNat_inj.mp
            rw [digit_toNat hd]
            unfold charSub0 at heq
            have := UInt8.toNat_lt c
            split at heq <;> omega
          rw [this]
          rfl
        rw [hcons, hbad]
        refine ⟨⟨?_, ?_⟩, ?_⟩
        · rintro ⟨st', h⟩; cases h
        · intro h
          rw [List.length_cons, cycle] at h
          exact absurd (List.cons.inj h).1 hcd
        · intro st' h; cases h

/-- C51: the bulletin says whether it uses check digits, but encoding it gives the same
text either way. -/
theorem C51_not_written (C : Ctx) (depth : Nat) (h : Crex.Header) (subsets : List (List Var))
    (caches : TableCaches) (b : Bool) :
    Encoder.encode C depth { h with has_check_digit := b } subsets caches =
      Encoder.encode C depth h subsets caches := rfl

/-! ## The header -/

theorem rem_eq_nil_or (i : In) (h : i.cur ≤ i.data.length) :
    (i.rem = [] ∧ i.peek 0 = .ok 0) ∨ ∃ c t, i.rem = c :: t ∧ i.peek 0 = .ok c := by
  cases hr : i.rem with
  | nil =>
    left
    have := In.rem_length i
    rw [hr] at this
    simp at this
    refine ⟨rfl, ?_⟩
    unfold In.peek
    rw [if_neg (by omega), if_pos (by omega)]
  | cons c t => exact .inr ⟨c, t, rfl, In.peek_ok (by rw [hr]; rfl)⟩

theorem Endless.inv {s : List Byte} (h : Endless s) :
    (∀ c t, s = c :: t → c ≠ 66 ∧ c ≠ 82 ∧ c ≠ 67 ∧ c ≠ 68 ∧ c ≠ 69 ∧ c ≠ 43) ∨
    (∃ d u, s = d ++ u ∧ IsDescriptor d ∧ Endless (u.dropWhile isSpace)) ∨
    ∃ u, s = 69 :: u ∧ Endless (u.dropWhile isSpace) := by
  cases h with
  | here h => exact .inl h
  | descriptor h1 h2 => exact .inr (.inl ⟨_, _, rfl, h1, h2⟩)
  | mark h => exact .inr (.inr ⟨_, rfl, h⟩)

theorem parseDescriptor_ok {s : List Byte} (hl : s.length = 6)
    (hc : s.getD 0 0 = 66 ∨ s.getD 0 0 = 82 ∨ s.getD 0 0 = 67 ∨ s.getD 0 0 = 68) :
    (∃ code, Decoder.parseDescriptor s = .ok code) ↔ IsDescriptor s := by
  match s, hl with
  | [c, x1, x2, y1, y2, y3], _ =>
    simp only [List.getD_cons_zero] at hc
    unfold Decoder.parseDescriptor IsDescriptor
    simp only [List.drop_succ_cons, List.drop_zero, List.take_succ_cons, List.take_zero, List.all_cons,
      List.all_nil, List.getD_cons_zero, List.getD_cons_succ, Bool.and_true, List.mem_cons,
      List.not_mem_nil, or_false]
    constructor
    · rintro ⟨code, h⟩
      split at h
      · cases h
      · next h1 =>
        split at h
        · cases h
        · next h2 =>
          simp only [Bool.not_eq_true', Bool.not_eq_false, Bool.and_eq_true, Bool.or_eq_true,
            decide_eq_true_eq] at h1
          obtain ⟨a1, a2, a3, a4, a5⟩ := h1
          have d1 : isDigit x1 = true := by
            refine a1.resolve_right fun e => h2 ?_
            subst e
            rcases a2 with a2 | rfl
            · have h9 := ((isDigit_iff x2).mp a2).2
              unfold charSub0
              rw [if_pos (by decide), if_pos (by omega)]
              have h00 : (0 : UInt8).toNat = 0 := rfl
              omega
            · decide
          have d2 : isDigit x2 = true ∨ x2 = 0 ∧ 53 ≤ x1.toNat := by
            refine a2.imp_right fun e => ⟨e, ?_⟩
            subst e
            by_contra hlt
            refine h2 ?_
            unfold charSub0
            rw [if_pos (by omega), if_pos (by decide)]
            have h00 : (0 : UInt8).toNat = 0 := rfl
            omega
          refine ⟨c, x1, x2, y1, y2, y3, rfl, hc, d1, d2, ?_⟩
          rintro y (rfl | rfl | rfl)
          · exact a3
          · exact a4
          · exact a5
    · rintro ⟨c', z1, z2, w1, w2, w3, he, h1, h2, h3, h4⟩
      simp only [List.cons.injEq, and_true] at he
      obtain ⟨rfl, rfl, rfl, rfl, rfl, rfl⟩ := he
      have b1 := h4 y1 (.inl rfl)
      have b2 := h4 y2 (.inr (.inl rfl))
      have b3 := h4 y3 (.inr (.inr rfl))
      rw [if_neg (by
        have h3' : (isDigit x2 || decide (x2 = 0)) = true := by
          rcases h3 with h3 | ⟨rfl, -⟩
          · simp [h3]
          · rfl
        simp only [h2, h3', Bool.true_or, Bool.true_and]
        rcases b1 with b1 | b1 <;> rcases b2 with b2 | b2 <;> rcases b3 with b3 | b3 <;>
          simp [b1, b2, b3]), if_neg]
      · exact ⟨_, rfl⟩
      · have g1 := (isDigit_iff x1).mp h2
        unfold charSub0
        rw [if_pos (by omega)]
        rcases h3 with h3 | ⟨rfl, h5⟩
        · have g2 := (isDigit_iff x2).mp h3
          rw [if_pos (by omega)]
          omega
        · rw [if_pos (by decide)]
          have h00 : (0 : UInt8).toNat = 0 := rfl
          omega

theorem skip_cur {i : In} {n : Nat} (h : i.cur + n ≤ i.data.length) :
    (i.skip_data_and_spaces n).cur ≤ (i.skip_data_and_spaces n).data.length ∧
    (i.skip_data_and_spaces n).rem = (i.rem.drop n).dropWhile isSpace := by
  constructor
  · unfold In.skip_data_and_spaces In.skip_spaces
    have h1 := List.takeWhile_prefix (l := (i.adv n).rem) isSpace |>.length_le
    rw [In.rem_length] at h1
    simp only [In.adv] at h1 ⊢
    omega
  · unfold In.skip_data_and_spaces
    rw [In.rem_skip, In.rem_adv]

theorem descLoop_stuck {s : Decoder.DescSt} (h : Decoder.descTurn s = .again s) (fuel : Nat) :
    Decoder.descLoop fuel s = none := by
  induction fuel with
  | zero => rfl
  | succ n ih => rw [Decoder.descLoop, h]; exact ih

/-- The loop over the descriptors goes on for ever, or ends after no more turns than
there are characters. -/
theorem descLoop_cases (n : Nat) (s : Decoder.DescSt) (hn : s.1.rem.length ≤ n)
    (hcur : s.1.cur ≤ s.1.data.length) :
    (Endless s.1.rem ∧ ∀ fuel, Decoder.descLoop fuel s = none) ∨
    (¬ Endless s.1.rem ∧ ∀ fuel, n < fuel → ∃ r, Decoder.descLoop fuel s = some r) := by
  induction n generalizing s with
  | zero =>
    have hr : s.1.rem = [] := List.length_eq_zero_iff.mp (by omega)
    rcases rem_eq_nil_or s.1 hcur with ⟨-, hp⟩ | ⟨c, t, h, -⟩
    · left
      refine ⟨.here (by rw [hr]; intro c t h; cases h), descLoop_stuck ?_⟩
      unfold Decoder.descTurn
      rw [hp]
      rfl
    · rw [hr] at h; cases h
  | succ n ih =>
    -- going on from another state
    have next : ∀ s' : Decoder.DescSt, Decoder.descTurn s = .again s' →
        s'.1.cur ≤ s'.1.data.length → s'.1.rem.length ≤ n →
        (Endless s.1.rem ↔ Endless s'.1.rem) →
        (Endless s.1.rem ∧ ∀ fuel, Decoder.descLoop fuel s = none) ∨
        (¬ Endless s.1.rem ∧ ∀ fuel, n + 1 < fuel → ∃ r, Decoder.descLoop fuel s = some r) := by
      intro s' h1 h2 h3 h4
      rcases ih s' h3 h2 with ⟨k1, k2⟩ | ⟨k1, k2⟩
      · left
        refine ⟨h4.mpr k1, fun fuel => ?_⟩
        cases fuel with
        | zero => rfl
        | succ m => rw [Decoder.descLoop, h1]; exact k2 m
      · right
        refine ⟨fun h => k1 (h4.mp h), fun fuel hf => ?_⟩
        cases fuel with
        | zero => omega
        | succ m => rw [Decoder.descLoop, h1]; exact k2 m (by omega)
    have stop : ∀ r, Decoder.descTurn s = .out r → ∀ fuel, n + 1 < fuel →
        ∃ r, Decoder.descLoop fuel s = some r := by
      intro r h fuel hf
      cases fuel with
      | zero => omega
      | succ m => rw [Decoder.descLoop, h]; exact ⟨r, rfl⟩
    rcases rem_eq_nil_or s.1 hcur with ⟨hr, hp⟩ | ⟨c, t, hr, hp⟩
    · left
      refine ⟨.here (by rw [hr]; intro c t h; cases h), descLoop_stuck ?_⟩
      unfold Decoder.descTurn
      rw [hp]
      rfl
    · have hlen := In.rem_length s.1
      rw [hr, List.length_cons] at hlen
      rw [hr, List.length_cons] at hn
      by_cases hd : c = 66 ∨ c = 82 ∨ c = 67 ∨ c = 68
      · -- a descriptor
        have hturn : Decoder.descTurn s = if s.1.data.length < s.1.cur + 6 then .out (.err .parse)
            else match Decoder.parseDescriptor (s.1.rem.take 6) with
              | .ok code => .again (s.1.skip_data_and_spaces 6,
                  { s.2 with datadesc := s.2.datadesc ++ [code] })
              | .err e => .out (.err e)
              | .ub => .out .ub := by
          unfold Decoder.descTurn
          rw [hp]
          exact if_pos hd
        have hinv : Endless s.1.rem → ∃ d u, s.1.rem = d ++ u ∧ IsDescriptor d ∧
            Endless (u.dropWhile isSpace) := by
          intro h
          rcases Endless.inv h with h | h | ⟨u, h, -⟩
          · have := h c t hr
            rcases hd with hd | hd | hd | hd <;> simp [hd] at this
          · exact h
          · rw [hr] at h
            cases h
            rcases hd with hd | hd | hd | hd <;> exact absurd hd (by decide)
        by_cases h6 : s.1.data.length < s.1.cur + 6
        · right
          rw [if_pos h6] at hturn
          refine ⟨fun h => ?_, stop _ hturn⟩
          obtain ⟨d, u, h1, ⟨_, _, _, _, _, _, h2, -⟩, -⟩ := hinv h
          have := congrArg List.length h1
          rw [In.rem_length, h2, List.length_append] at this
          simp at this
          omega
        · rw [if_neg h6] at hturn
          have ht6 : (s.1.rem.take 6).length = 6 := by
            rw [List.length_take, In.rem_length]; omega
          have hc0 : (s.1.rem.take 6).getD 0 0 = c := by rw [hr]; rfl
          have hpd := parseDescriptor_ok ht6 (by rw [hc0]; exact hd)
          have hends : ∀ code, Decoder.parseDescriptor (s.1.rem.take 6) = .ok code →
              (Endless s.1.rem ↔ Endless ((s.1.rem.drop 6).dropWhile isSpace)) := by
            intro code hcode
            constructor
            · intro h
              obtain ⟨d, u, h1, ⟨_, _, _, _, _, _, h2, -⟩, h3⟩ := hinv h
              subst h2
              rw [h1]
              exact h3
            · intro h
              rw [← List.take_append_drop 6 s.1.rem]
              exact .descriptor (hpd.mp ⟨code, hcode⟩) h
          obtain ⟨k1, k2⟩ := skip_cur (i := s.1) (n := 6) (by omega)
          cases hcode : Decoder.parseDescriptor (s.1.rem.take 6) with
          | ok code =>
            rw [hcode] at hturn
            refine next _ hturn k1 ?_ ?_
            · show (s.1.skip_data_and_spaces 6).rem.length ≤ n
              rw [k2]
              have h1 := (List.dropWhile_suffix (l := s.1.rem.drop 6) isSpace).length_le
              rw [List.length_drop, In.rem_length] at h1
              omega
            · show _ ↔ Endless (s.1.skip_data_and_spaces 6).rem
              rw [k2]
              exact hends code hcode
          | err e =>
            rw [hcode] at hturn
            right
            refine ⟨fun h => ?_, stop _ hturn⟩
            obtain ⟨d, u, h1, h2, -⟩ := hinv h
            have h3 : s.1.rem.take 6 = d := by
              obtain ⟨_, _, _, _, _, _, h2, -⟩ := h2
              rw [h1, h2]
              rfl
            obtain ⟨code, h4⟩ := hpd.mpr (h3 ▸ h2)
            rw [hcode] at h4
            cases h4
          | ub =>
            rw [hcode] at hturn
            right
            refine ⟨fun h => ?_, stop _ hturn⟩
            obtain ⟨d, u, h1, h2, -⟩ := hinv h
            have h3 : s.1.rem.take 6 = d := by
              obtain ⟨_, _, _, _, _, _, h2, -⟩ := h2
              rw [h1, h2]
              rfl
            obtain ⟨code, h4⟩ := hpd.mpr (h3 ▸ h2)
            rw [hcode] at h4
            cases h4
      · by_cases h69 : c = 69
        · -- the check digit mark
          subst h69
          obtain ⟨k1, k2⟩ := skip_cur (i := ⟨s.1.data, s.1.cur, true, 1⟩) (n := 1) (by simp only; omega)
          refine next _ (by unfold Decoder.descTurn; rw [hp]; rfl) k1 ?_ ?_
          · simp only
            rw [k2]
            show ((s.1.rem.drop 1).dropWhile isSpace).length ≤ n
            have h1 := (List.dropWhile_suffix (l := s.1.rem.drop 1) isSpace).length_le
            rw [List.length_drop, In.rem_length] at h1
            omega
          · simp only
            rw [k2]
            show _ ↔ Endless ((s.1.rem.drop 1).dropWhile isSpace)
            rw [hr]
            constructor
            · intro h
              rcases Endless.inv h with h | ⟨d, u, h1, ⟨c', _, _, _, _, _, h2, h3, -⟩, -⟩ | ⟨u, h, h'⟩
              · have := h 69 t rfl
                simp at this
              · rw [h2] at h1
                cases h1
                rcases h3 with h3 | h3 | h3 | h3 <;> exact absurd h3 (by decide)
              · cases h
                exact h'
            · intro h
              exact .mark h
        · by_cases h43 : c = 43
          · -- the end
            subst h43
            right
            refine ⟨fun h => ?_, stop _ (by unfold Decoder.descTurn; rw [hp]; rfl)⟩
            rw [hr] at h
            rcases Endless.inv h with h | ⟨d, u, h1, ⟨c', _, _, _, _, _, h2, h3, -⟩, -⟩ | ⟨u, h, h'⟩
            · have := h 43 t rfl
              simp at this
            · rw [h2] at h1
              cases h1
              rcases h3 with h3 | h3 | h3 | h3 <;> exact absurd h3 (by decide)
            · cases h
          · left
            refine ⟨.here (by
              rw [hr]
              intro c' t' he
              cases he
              exact ⟨fun h => hd (.inl h), fun h => hd (.inr (.inl h)), fun h => hd (.inr (.inr (.inl h))),
                fun h => hd (.inr (.inr (.inr h))), h69, h43⟩), descLoop_stuck ?_⟩
            unfold Decoder.descTurn
            rw [hp]
            simp only
            rw [if_neg hd, if_neg h69, if_neg h43]

/-! ## Positions -/

/-- The cursor is in the text. -/
def InText (i : In) : Prop := i.cur ≤ i.data.length

/-- Reading only goes on in the same text. -/
def Onward (i j : In) : Prop := InText i → InText j ∧ i.cur ≤ j.cur ∧ j.data = i.data

theorem Onward.refl (i : In) : Onward i i := fun h => ⟨h, Nat.le_refl _, rfl⟩

theorem Onward.trans {i j k : In} (h : Onward i j) (h' : Onward j k) : Onward i k := by
  intro hi
  obtain ⟨a1, a2, a3⟩ := h hi
  obtain ⟨b1, b2, b3⟩ := h' a1
  exact ⟨b1, by omega, b3.trans a3⟩

theorem Onward.adv {i : In} {n : Nat} (h : i.cur + n ≤ i.data.length) : Onward i (i.adv n) :=
  fun _ => ⟨h, Nat.le_add_right _ _, rfl⟩

theorem Onward.skip (i : In) : Onward i i.skip_spaces := by
  intro hi
  have h1 := List.takeWhile_prefix (l := i.rem) isSpace |>.length_le
  rw [In.rem_length] at h1
  unfold InText In.skip_spaces In.adv at *
  exact ⟨by simp only; omega, by simp only; omega, by rfl⟩

theorem Onward.read_word (i : In) (n : Nat) : Onward i (i.read_word n).2 := by
  intro hi
  refine Onward.trans (Onward.adv ?_) (Onward.skip _) hi
  have h1 := List.takeWhile_prefix (l := i.rem) (fun c => !isSpace c) |>.length_le
  rw [In.rem_length] at h1
  unfold InText at hi
  rw [List.length_take]
  omega

theorem checkDigit_onward {i j : In} (h : i.checkDigit = .ok j) :
    j.data = i.data ∧ i.cur ≤ j.cur ∧ j.cur ≤ i.cur + 1 := by
  unfold In.checkDigit at h
  split at h
  · obtain ⟨c, -, h2⟩ := Res.bind_eq_ok.mp h
    split at h2
    · cases h2
    · cases h2
      simp [In.adv]
  · cases h
    simp

theorem parse_value_onward {i j : In} {len : Nat} {sg : Bool} {a b : List Byte}
    (h : i.parse_value len sg = .ok (a, b, j)) : Onward i j := by
  unfold In.parse_value at h
  obtain ⟨_, h0, h⟩ := Res.bind_eq_ok.mp h
  obtain ⟨i1, h1, h⟩ := Res.bind_eq_ok.mp h
  obtain ⟨c, h2, h⟩ := Res.bind_eq_ok.mp h
  simp only [Res.pure_def, Res.ok.injEq, Prod.mk.injEq] at h
  obtain ⟨-, -, rfl⟩ := h
  obtain ⟨d1, d2, d3⟩ := checkDigit_onward h1
  have hav : i.cur + (len + 2) ≤ i.data.length := by
    unfold In.check_available_data at h0
    split at h0
    · cases h0
    · omega
  intro hi
  have hi1 : Onward i i1 := fun _ => ⟨by unfold InText; rw [d1]; omega, d2, d1⟩
  refine (hi1.trans (Onward.trans (Onward.adv ?_) (Onward.skip _))) hi
  rw [d1]
  split <;> omega

theorem read_variable_onward {C : Ctx} {st st' : Decoder.St} {info : Varinfo} {n : Nat}
    (h : Decoder.read_variable C st info = .ok (n, st')) : Onward st.tgt.input st'.tgt.input := by
  unfold Decoder.read_variable at h
  obtain ⟨⟨a, b, j⟩, h0, h⟩ := Res.bind_eq_ok.mp h
  obtain ⟨_, h1, h⟩ := Res.bind_eq_ok.mp h
  obtain ⟨w, h2, h⟩ := Res.bind_eq_ok.mp h
  simp only [Res.pure_def, Res.ok.injEq, Prod.mk.injEq] at h
  obtain ⟨-, rfl⟩ := h
  exact parse_value_onward h0

/-- Only that reading goes on. -/
def onwardRel : Rel Decoder.Dec Decoder.Dec where
  le a b := Onward a.input b.input
  refl _ := Onward.refl _
  trans _ _ _ h h' := h.trans h'
  Q _ _ _ _ _ _ _ := False
  stable _ _ _ _ _ _ _ _ _ h := h

theorem onwardSims (C : Ctx) : onwardRel.Sims (Decoder.target C) (Decoder.target C) where
  bitmap _ _ := Rel.Sim.err rfl
  associated _ _ := Rel.Sim.err rfl
  bitmapFactor _ _ := Rel.SimV.err rfl
  significance _ _ := Rel.SimV.err rfl
  substituted _ _ := Rel.Sim.err rfl
  attr _ _ _ := Rel.Sim.err rfl
  raw _ _ := Rel.Sim.err rfl
  refval _ _ := Rel.Sim.err rfl
  element s info := by
    intro s' hs
    obtain ⟨⟨n, st⟩, h1, h2⟩ := Res.bind_eq_ok.mp hs
    cases h2
    exact ⟨read_variable_onward h1, fun F t _ hr => hr.tgt.elim⟩
  factor s info := by
    intro n s' hs
    exact ⟨read_variable_onward hs, fun F t _ hr => hr.tgt.elim⟩

theorem subsetEnd_onward {i j : In} {b : Bool} (h : Decoder.subsetEnd i = .ok (b, j)) (hi : InText i) :
    InText j ∧ i.cur < j.cur ∧ j.data = i.data := by
  unfold Decoder.subsetEnd at h
  obtain ⟨_, h0, h⟩ := Res.bind_eq_ok.mp h
  obtain ⟨c, -, h⟩ := Res.bind_eq_ok.mp h
  obtain ⟨a1, a2, a3⟩ := Onward.skip i hi
  unfold In.check_eof at h0
  split at h0
  · cases h0
  · next h1 =>
    split at h
    · cases h
    · obtain ⟨_, h2, h⟩ := Res.bind_eq_ok.mp h
      obtain ⟨c', -, h⟩ := Res.bind_eq_ok.mp h
      unfold In.check_eof at h2
      split at h2
      · cases h2
      · next h3 =>
        unfold InText at *
        simp only [In.adv] at *
        split at h
        · simp only [Res.pure_def, Res.ok.injEq, Prod.mk.injEq] at h
          obtain ⟨-, rfl⟩ := h
          simp only
          refine ⟨by omega, by omega, a3⟩
        · simp only [Res.pure_def, Res.ok.injEq, Prod.mk.injEq] at h
          obtain ⟨-, rfl⟩ := h
          simp only
          refine ⟨by omega, by omega, a3⟩

theorem decodeSubset_onward {C : Ctx} {depth : Nat} {datadesc : List Varcode} {c c' : TableCaches}
    {i j : In} {vars : List Var} {b : Bool}
    (h : Decoder.decodeSubset C depth datadesc c i = .ok (vars, c', b, j)) (hi : InText i) :
    InText j ∧ i.cur < j.cur ∧ j.data = i.data := by
  unfold Decoder.decodeSubset at h
  obtain ⟨st, h1, h⟩ := Res.bind_eq_ok.mp h
  obtain ⟨⟨b', j'⟩, h2, h⟩ := Res.bind_eq_ok.mp h
  simp only [Res.pure_def, Res.ok.injEq, Prod.mk.injEq] at h
  obtain ⟨-, -, -, rfl⟩ := h
  obtain ⟨hle, -⟩ := Interp.sim_run C (onwardSims C) depth datadesc _ st h1
  obtain ⟨a1, a2, a3⟩ := hle hi
  obtain ⟨b1, b2, b3⟩ := subsetEnd_onward h2 a1
  have a2 : i.cur ≤ st.tgt.input.cur := a2
  have a3 : st.tgt.input.data = i.data := a3
  exact ⟨b1, by omega, b3.trans a3⟩

theorem decodeSubsets_ends (C : Ctx) (depth : Nat) (datadesc : List Varcode) (fuel : Nat)
    (c : TableCaches) (i : In) (hi : InText i) (hf : i.rem.length < fuel) :
    ∃ r, Decoder.decodeSubsets C depth datadesc fuel c i = some r := by
  induction fuel generalizing c i with
  | zero => omega
  | succ n ih =>
    unfold Decoder.decodeSubsets
    cases h : Decoder.decodeSubset C depth datadesc c i with
    | err e => exact ⟨_, rfl⟩
    | ub => exact ⟨_, rfl⟩
    | ok r =>
      obtain ⟨vars, c', last, j⟩ := r
      obtain ⟨a1, a2, a3⟩ := decodeSubset_onward h hi
      simp only
      split
      · exact ⟨_, rfl⟩
      · rw [In.rem_length] at hf
        obtain ⟨r, hr⟩ := ih c' j a1 (by
          rw [In.rem_length, a3]
          unfold InText at hi a1
          rw [a3] at a1
          omega)
        rw [hr]
        exact ⟨_, rfl⟩

theorem descLoop_inText {fuel : Nat} {s s' : Decoder.DescSt} (hs : InText s.1)
    (h : Decoder.descLoop fuel s = some (.ok s')) : InText s'.1 ∧ s'.1.data = s.1.data := by
  induction fuel generalizing s with
  | zero => cases h
  | succ n ih =>
    unfold Decoder.descLoop at h
    cases hp : s.1.peek 0 with
    | err e => simp only [Decoder.descTurn, hp] at h; cases h
    | ub => simp only [Decoder.descTurn, hp] at h; cases h
    | ok c =>
      simp only [Decoder.descTurn, hp] at h
      have h1 : c ≠ 0 → s.1.cur < s.1.data.length := by
        intro hc
        unfold In.peek at hp
        split at hp
        · omega
        · split at hp
          · cases hp; exact absurd rfl hc
          · cases hp
      by_cases hd : c = 66 ∨ c = 82 ∨ c = 67 ∨ c = 68
      · rw [if_pos hd] at h
        by_cases h6 : s.1.data.length < s.1.cur + 6
        · rw [if_pos h6] at h; cases h
        · rw [if_neg h6] at h
          cases hc : Decoder.parseDescriptor (s.1.rem.take 6) with
          | err e => simp only [hc] at h; cases h
          | ub => simp only [hc] at h; cases h
          | ok code =>
            simp only [hc] at h
            exact ih (s := (s.1.skip_data_and_spaces 6, _)) (skip_cur (i := s.1) (n := 6) (by omega)).1 h
      · rw [if_neg hd] at h
        by_cases h69 : c = 69
        · rw [if_pos h69] at h
          have := h1 (by rw [h69]; decide)
          exact ih (s := (In.skip_data_and_spaces ⟨s.1.data, s.1.cur, true, 1⟩ 1, _))
            (skip_cur (i := ⟨s.1.data, s.1.cur, true, 1⟩) (n := 1) (by simp only; omega)).1 h
        · rw [if_neg h69] at h
          by_cases h43 : c = 43
          · rw [if_pos h43] at h
            simp only [Option.some.injEq] at h
            obtain ⟨_, h2, h⟩ := Res.bind_eq_ok.mp h
            obtain ⟨d, h3, h⟩ := Res.bind_eq_ok.mp h
            split at h
            · cases h
            · next h4 =>
              simp only [Res.pure_def, Res.ok.injEq] at h
              subst h
              have h5 : s.1.cur + 2 ≤ s.1.data.length := by
                unfold In.peek at h3
                split at h3
                · omega
                · split at h3
                  · cases h3; exact absurd (by decide) h4
                  · cases h3
              exact ⟨(skip_cur h5).1, rfl⟩
          · rw [if_neg h43] at h
            exact ih hs h

theorem decodeStart_inText {data : List Byte} {s : Decoder.DescSt}
    (h : Decoder.decodeStart data = .ok s) : InText s.1 ∧ s.1.data = data := by
  unfold Decoder.decodeStart at h
  obtain ⟨_, h0, h⟩ := Res.bind_eq_ok.mp h
  have h6 : (In.new data).cur + 6 ≤ (In.new data).data.length := by
    unfold In.check_available_data at h0
    split at h0
    · cases h0
    · omega
  have g1 := (skip_cur h6).1
  split at h
  · cases h
  · obtain ⟨-, -, h⟩ := Res.bind_eq_ok.mp h
    obtain ⟨c, -, h⟩ := Res.bind_eq_ok.mp h
    split at h
    · cases h
    · simp only at h
      split at h
      · cases h
      · obtain ⟨-, -, h⟩ := Res.bind_eq_ok.mp h
        obtain ⟨c, -, h⟩ := Res.bind_eq_ok.mp h
        split at h
        · cases h
        · obtain ⟨a, -, h⟩ := Res.bind_eq_ok.mp h
          obtain ⟨-, -, h⟩ := Res.bind_eq_ok.mp h
          cases h
          obtain ⟨w1, w2, w3⟩ := Onward.read_word ((In.new data).skip_data_and_spaces 6) 11 g1
          obtain ⟨v1, v2, v3⟩ := Onward.read_word _ 20 w1
          exact ⟨v1, v3.trans w3⟩

/-- C52 (part): decoding any text as a CREX message ends after no more turns of its
loops than there are characters, with a bulletin or an error, unless the list of
descriptors goes on with something that is no descriptor, check digit mark or plus
sign. In that case, missing from the full property, it never ends
(`C52_not_ending`). -/
theorem C52_ends_partial (load : Crex.Header → Res (Ctx × TableCaches)) (depth : Nat)
    (data : List Byte)
    (hs : ∀ s, Decoder.decodeStart data = .ok s → ¬ Endless s.1.rem) (fuel : Nat)
    (hf : data.length < fuel) : ∃ r, Decoder.decode load depth fuel data = some r := by
  unfold Decoder.decode Decoder.decode_header
  cases h0 : Decoder.decodeStart data with
  | err e => exact ⟨_, rfl⟩
  | ub => exact ⟨_, rfl⟩
  | ok s =>
    obtain ⟨t1, t2⟩ := decodeStart_inText h0
    simp only
    rcases descLoop_cases data.length s (by rw [In.rem_length, t2]; omega) t1 with ⟨h, -⟩ | ⟨-, h⟩
    · exact absurd h (hs s h0)
    · obtain ⟨r, hr⟩ := h fuel hf
      rw [hr]
      cases r with
      | err e => exact ⟨_, rfl⟩
      | ub => exact ⟨_, rfl⟩
      | ok r =>
        obtain ⟨i, hd⟩ := r
        obtain ⟨u1, u2⟩ := descLoop_inText t1 hr
        simp only
        cases load hd with
        | err e => exact ⟨_, rfl⟩
        | ub => exact ⟨_, rfl⟩
        | ok t =>
          simp only
          unfold Decoder.decode_data
          cases i.check_eof with
          | err e => exact ⟨_, rfl⟩
          | ub => exact ⟨_, rfl⟩
          | ok u =>
            simp only at u2 u1 ⊢
            obtain ⟨r, hr'⟩ := decodeSubsets_ends t.1 depth hd.datadesc fuel t.2 i u1
              (by rw [In.rem_length, u2, t2]; omega)
            rw [hr']
            exact ⟨_, rfl⟩

/-- C52: otherwise it never ends, whatever the number of turns. -/
theorem C52_endless (load : Crex.Header → Res (Ctx × TableCaches)) (depth : Nat) (data : List Byte)
    (s : Decoder.DescSt) (hs : Decoder.decodeStart data = .ok s) (he : Endless s.1.rem) (fuel : Nat) :
    Decoder.decode load depth fuel data = none := by
  unfold Decoder.decode Decoder.decode_header
  rw [hs]
  obtain ⟨t1, t2⟩ := decodeStart_inText hs
  rcases descLoop_cases s.1.rem.length s (Nat.le_refl _) t1 with ⟨-, h⟩ | ⟨h, -⟩
  · simp only [h fuel]
  · exact absurd he h

/-- C52 is false in the code: on this text the decoder never ends. -/
theorem C52_not_ending (load : Crex.Header → Res (Ctx × TableCaches)) (depth : Nat) :
    ∀ fuel, Decoder.decode load depth fuel (ascii "CREX++ T000103 A004 B12101 X++ 7777") = none := by
  intro fuel
  have hs : ∃ s, Decoder.decodeStart (ascii "CREX++ T000103 A004 B12101 X++ 7777") = .ok s ∧
      s.1.rem = ascii "B12101" ++ ascii " X++ 7777" := by
    refine ⟨_, rfl, ?_⟩
    decide +kernel
  obtain ⟨s, h1, h2⟩ := hs
  refine C52_endless load depth _ s h1 ?_ fuel
  rw [h2]
  refine .descriptor ⟨_, _, _, _, _, _, rfl, by decide, by decide, by decide, by decide⟩ (.here ?_)
  rw [show (ascii " X++ 7777").dropWhile isSpace = 88 :: ascii "++ 7777" from by decide +kernel]
  intro c t h
  cases h
  decide

/-- A message. -/
def sampleText : List Byte := ascii "CREX++ T000103 A004 B12101++ 27315++ 7777"

/-- What is read of it before the descriptors. -/
def sampleStart : Decoder.DescSt :=
  (⟨sampleText, 20, false, 0⟩, ⟨1, 0, 3, 0, 4, 255, 0, false, []⟩)

/-- The hypothesis of `C52_ends_partial` is met by a message. -/
example : Decoder.decodeStart sampleText = .ok sampleStart ∧ ¬ Endless sampleStart.1.rem := by
  refine ⟨by decide +kernel, fun he => ?_⟩
  rcases descLoop_cases 100 sampleStart (by decide +kernel) (by decide +kernel) with ⟨-, h⟩ | ⟨h, -⟩
  · have := h 5
    revert this
    decide +kernel
  · exact h he

/-! ## Samples -/

/-- Writing values and reading them back. -/
def writeRead (digits : Bool) (d : Nat) (vs : List Var) : Res (List (Option Value)) := do
  let o ← writeAll Env0 (vs.map (·.toVarCore)) ⟨[], digits, d⟩
  let st ← readAll sampleCtx (vs.map (·.info))
    (.new noCaches ⟨(In.skip_spaces ⟨o.buf ++ ascii "++\r\r\n", 0, digits, d⟩), []⟩)
  return st.tgt.out.map (·.toVarCore.view)

/-- A temperature. -/
def tempVar (k : Int) : Var := ((Var.new sampleTemp).seti .default k).1
/-- A station name. -/
def nameVar (t : String) : Var := ((Var.new sampleStr).sets .default (ascii t)).1

/-- The hypotheses of `C49_number_partial`, `C49_missing`, `C50_text_partial` and
`C51_accepted_partial` can be met. -/
example : (tempVar 27315).toVarCore.view = some (.num 27315) ∧ crexNumFits sampleTemp 27315 = true ∧
    (nameVar "Somewhere else").toVarCore.view = some (.text (ascii "Somewhere else")) ∧
    crexTextFits sampleStr (ascii "Somewhere else") = true ∧
    (Var.new sampleTemp).toVarCore.view = none ∧ 0 < sampleTemp.len := by
  decide +kernel

example : (tempVar 27315).toVarCore.WF ∧ (nameVar "Somewhere else").toVarCore.WF ∧
    NoDigit (ascii "++\r\r\n") :=
  ⟨⟨27315, rfl, by decide⟩,
    .inr ⟨_, rfl, by decide +kernel, fun _ => ⟨ascii "Somewhere else", by decide +kernel⟩⟩,
    fun b h => by cases h; rfl⟩

example : writeRead false 0 [tempVar 27315, Var.new sampleTemp, nameVar "Somewhere else", tempVar 0] =
    .ok [some (.num 27315), none, some (.text (ascii "Somewhere else")), some (.num 0)] := by
  decide +kernel

example : writeRead true 8 [tempVar 27315, nameVar "Somewhere else", tempVar 5] =
    .ok [some (.num 27315), some (.text (ascii "Somewhere else")), some (.num 5)] := by
  decide +kernel

/-- C49 is false in the code if the data goes on with a digit: it is taken as part of
the number. -/
theorem C49_not_digit :
    (do let r ← Decoder.read_variable sampleCtx
          (.new noCaches ⟨In.new (ascii "0027315++"), []⟩) sampleTemp
        return r.2.tgt.out.map (·.toVarCore.view)) = Res.ok [some (.num 27315)] ∧
    (ascii "0027315").take sampleTemp.len = ascii "00273" := by
  decide +kernel

/-- C50 is false in the code for texts that begin with a slash: they are read back as
missing. -/
theorem C50_not_slash : writeRead false 0 [nameVar "/AB"] = .ok [none] := by decide +kernel

/-- C50 is false in the code for the empty text: its blanks are skipped and the next
values are taken in its place. -/
theorem C50_not_empty : writeRead false 0 [nameVar "", nameVar "A", tempVar 1] = .err .parse ∧
    (nameVar "").toVarCore.view = some (.text []) := by
  decide +kernel

/-- C50 is false in the code for fields of more than 254 characters: the last of 255 is
written as a NUL, and for longer fields what is written is outside the buffer. -/
theorem C50_not_long :
    (do let o ← (Out.new []).raw_appendf (fmtS 255 (List.replicate 255 65))
        return o.buf) = Res.ok (List.replicate 254 65 ++ [0]) ∧
    fmtS 255 (List.replicate 255 65) = List.replicate 255 65 ∧
    (Out.new []).raw_appendf (fmtS 256 (List.replicate 256 65)) = .ub := by
  decide +kernel

/-- C51 is false in the code when a value is missing: it is written without check digit
and blank. -/
theorem C51_not_missing : writeRead true 1 [tempVar 5, Var.new sampleTemp, tempVar 6] = .err .parse := by
  decide +kernel

end Wreport.Crex
