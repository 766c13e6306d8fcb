import Verif.Props.Format
import Verif.Props.Scan
import Verif.Lemmas.Structure

/-!
# C80: the listing of the descriptors of a bulletin
-/

namespace Wreport

open Spec

namespace Printer

/-! ## Text without line ends -/

theorem clean_append {a b : List Byte} (ha : 10 ∉ a) (hb : 10 ∉ b) : 10 ∉ a ++ b := by
  simp [ha, hb]

theorem digitChar_clean (n : Nat) : digitChar n ≠ 10 := by
  have hd := digit_toNat (Nat.mod_lt n (show 10 > 0 by omega))
  intro h
  unfold digitChar at h
  rw [h] at hd
  change 10 = _ at hd
  omega

theorem clean_digits (c : Varcode) : 10 ∉ digits c := by
  unfold digits
  simp only [List.mem_cons, List.not_mem_nil, or_false, not_or]
  refine ⟨?_, ?_, ?_, ?_, ?_, ?_⟩ <;> exact (digitChar_clean _).symm

theorem clean_nat (n : Nat) : 10 ∉ Crex.decDigits n := by
  intro h
  have := (decDigits_decimal n).2.1 _ h
  revert this
  decide

theorem clean_dec (i : Int) : 10 ∉ dec i := by
  unfold dec
  split
  · simp only [List.mem_cons, not_or]
    exact ⟨by decide, clean_nat _⟩
  · exact clean_nat _

theorem digits_eq (c : Varcode) : digits c = sixDigits c := by
  have hf : WR_VAR_F c = c / 16384 % 4 := by
    unfold WR_VAR_F
    rw [Nat.shiftRight_eq_div_pow]
  have hx : WR_VAR_X c = c / 256 % 64 := by
    unfold WR_VAR_X
    rw [Nat.shiftRight_eq_div_pow]
  have hy : WR_VAR_Y c = c % 256 := rfl
  unfold digits sixDigits digitChar
  rw [hf, hx, hy]
  have h1 : c / 16384 % 4 % 10 = c / 16384 % 4 := by omega
  have h2 : c / 256 % 64 / 10 % 10 = c / 256 % 64 / 10 := by omega
  have h3 : c % 256 / 100 % 10 = c % 256 / 100 := by omega
  rw [h1, h2, h3]
  rfl

/-! ## Numbers in texts -/

theorem numbersFrom_space (neg : Bool) (cur : Option Nat) (a b : List Byte) :
    numbersFrom neg cur (a ++ 32 :: b) = numbersFrom neg cur a ++ numbersIn b := by
  induction a generalizing neg cur with
  | nil => simp [numbersFrom, numbersIn]
  | cons x a ih =>
    simp only [List.cons_append, numbersFrom]
    split
    · exact ih _ _
    · rw [ih, List.append_assoc]

theorem numbersIn_space (a b : List Byte) : numbersIn (a ++ 32 :: b) = numbersIn a ++ numbersIn b :=
  numbersFrom_space _ _ _ _

theorem says_of {c : Varcode} {t : List Byte} (h : WR_VAR_F c ≠ 1 ∧ WR_VAR_F c ≠ 2) : Says c t :=
  ⟨fun e => absurd e h.1, fun e => absurd e h.1, fun e => absurd e h.2, fun e => absurd e h.2⟩

theorem says_op {c : Varcode} {t : List Byte} {l : List Int} (hf : WR_VAR_F c = 2)
    (hx : WR_VAR_X c ≠ 6) (hl : ∀ m, amount c = some m → m = l) (h : numbersIn t = l) : Says c t :=
  ⟨fun e => absurd (hf.symm.trans e) (by decide), fun e => absurd (hf.symm.trans e) (by decide),
    fun _ m hm => by rw [hl m hm, h], fun _ e => absurd e hx⟩

theorem numbers_dec : (∀ x < 64, numbersIn (ascii " replicate " ++ dec (x : Nat)) = [(x : Int)]) ∧
    (∀ y < 256, numbersIn (dec (y : Nat)) = [(y : Int)] ∧
      numbersIn (dec (Interp.change y)) = [Interp.change y]) ∧
    (∀ y < 256, numbersIn (ascii "(delayed " ++ (digits (WR_VAR 0 31 y) ++ ascii ")")) =
      [31000 + (y : Int)]) := by
  decide +kernel

/-! ## What the callbacks do -/

/-- Whether a bitmap is awaited. -/
def waiting {σ : Type} (s : Interp σ) : Bool := decide (s.bitmaps.pending_definitions ≠ 0)

/-- The same state but for bitmaps and text; the text is longer by `t`. -/
structure Printed (s s' : St) (t : List Byte) : Prop where
  out : s'.tgt.out = s.tgt.out ++ t
  indent : s'.tgt.indent = s.tgt.indent
  step : s'.tgt.indent_step = s.tgt.indent_step

theorem Printed.refl (s : St) : Printed s s [] := ⟨by simp, rfl, rfl⟩

theorem Printed.trans {a b c : St} {t t' : List Byte} (h : Printed a b t) (h' : Printed b c t') :
    Printed a c (t ++ t') :=
  ⟨by rw [h'.out, h.out, List.append_assoc], h'.indent.trans h.indent, h'.step.trans h.step⟩

theorem Printed.put (s : St) (t : List Byte) : Printed s (Printer.put s t) t := ⟨rfl, rfl, rfl⟩

/-- Text about an operator is a line if the operator is accepted. -/
theorem describe_line {C : Ctx} {X : Texts} {s s1 : St} {c : Varcode} {next rest : List Varcode}
    (hf : WR_VAR_F c = 2) (h : Interp.c_modifier C (target X) s c next = .ok (rest, s1)) :
    ∃ t, describe c next = t ++ [10] ∧ 10 ∉ t ∧ Says c (ascii " " ++ t) := by
  obtain ⟨-, hd, -⟩ := numbers_dec
  have hy : WR_VAR_Y c < 256 := Nat.mod_lt _ (by decide)
  obtain ⟨hd, hd'⟩ := hd _ hy
  have hw : ∀ (a : List Byte) (i : Int) (k : List Byte), numbersIn a = [] → numbersIn (dec i) = [i] →
      a ++ 32 :: (dec i) = k → numbersIn k = [i] := by
    intro a i k h1 h2 h3
    rw [← h3, numbersIn_space, h1, h2, List.nil_append]
  unfold describe
  simp only
  have hs : ∀ a b, WR_VAR_X c = 23 ∨ WR_VAR_X c = 37 → WR_VAR_Y c ≠ 0 → WR_VAR_Y c ≠ 255 →
      (a : List Byte) = b := by
    intro a b hx h0 h255
    exfalso
    unfold Interp.c_modifier at h
    rw [if_neg (by omega), if_neg (by omega)] at h
    obtain ⟨st, hs, _⟩ := Res.bind_eq_ok.mp h
    unfold Interp.c_simple at hs
    rcases hx with hx | hx
    · simp only [hx] at hs
      unfold Interp.c23 at hs
      rw [if_neg h0, if_neg h255] at hs
      cases hs
    · simp only [hx] at hs
      unfold Interp.c37 at hs
      rw [if_neg h0, if_neg h255] at hs
      cases hs
  split
  · rename_i hx
    refine ⟨ascii "change data width to " ++ dec _, by rw [List.append_assoc]; rfl,
      clean_append (by decide) (clean_dec _), says_op (l := [Interp.change (WR_VAR_Y c)]) hf (by omega)
        (fun m hm => ?_) (hw (ascii " change data width to") _ _ (by decide +kernel) hd' rfl)⟩
    unfold amount at hm
    simp only [hx, Option.some.injEq] at hm
    rw [← hm, Interp.change]
    simp only [ne_eq, ite_not]
  · rename_i hx
    refine ⟨ascii "change data scale to " ++ dec _, by rw [List.append_assoc]; rfl,
      clean_append (by decide) (clean_dec _), says_op (l := [Interp.change (WR_VAR_Y c)]) hf (by omega)
        (fun m hm => ?_) (hw (ascii " change data scale to") _ _ (by decide +kernel) hd' rfl)⟩
    unfold amount at hm
    simp only [hx, Option.some.injEq] at hm
    rw [← hm, Interp.change]
    simp only [ne_eq, ite_not]
  · rename_i hx
    refine ⟨dec _ ++ ascii " bits of associated field", by rw [List.append_assoc]; rfl,
      clean_append (clean_dec _) (by decide), says_op (l := [(WR_VAR_Y c : Int)]) hf (by omega)
        (fun m hm => ?_) ?_⟩
    · unfold amount at hm
      simp only [hx, Option.some.injEq] at hm
      exact hm.symm
    · rw [show ascii " " ++ (dec (WR_VAR_Y c : Int) ++ ascii " bits of associated field") =
        ([] ++ 32 :: dec (WR_VAR_Y c : Int)) ++ 32 :: ascii "bits of associated field" from by
          simp [ascii], numbersIn_space, numbersIn_space, hd]
      rfl
  · rename_i hx
    refine ⟨ascii "character data", rfl, by decide, says_op (l := []) hf (by omega) (fun m hm => ?_)
      (by decide +kernel)⟩
    unfold amount at hm
    simp only [hx, Option.some.injEq] at hm
    exact hm.symm
  · rename_i hx
    have h6 : ∀ t : List Byte, (numbersIn t).getLast? = some (WR_VAR_Y c : Int) → Says c t := by
      intro t ht
      refine ⟨fun e => absurd (hf.symm.trans e) (by decide),
        fun e => absurd (hf.symm.trans e) (by decide), fun _ m hm => ?_, fun _ _ => ht⟩
      unfold amount at hm
      simp only [hx] at hm
      cases hm
    split
    · refine ⟨ascii "local descriptor (unknown) " ++ dec _ ++ ascii " bits long",
        by rw [List.append_assoc _ _ [10]]; rfl,
        clean_append (clean_append (by decide) (clean_dec _)) (by decide), h6 _ ?_⟩
      rw [show ascii " " ++ (ascii "local descriptor (unknown) " ++ dec (WR_VAR_Y c : Int) ++
          ascii " bits long") = (ascii " local descriptor (unknown)" ++ 32 :: dec (WR_VAR_Y c : Int)) ++
          32 :: ascii "bits long" from by simp [ascii], numbersIn_space, numbersIn_space, hd,
        show numbersIn (ascii "bits long") = [] by decide +kernel, List.append_nil,
        List.getLast?_append]
      rfl
    · refine ⟨ascii "local descriptor " ++ digits _ ++ ascii " " ++ dec _ ++ ascii " bits long",
        by rw [List.append_assoc _ _ [10]]; rfl,
        clean_append (clean_append (clean_append (clean_append (by decide) (clean_digits _))
          (by decide)) (clean_dec _)) (by decide), h6 _ ?_⟩
      rename_i p _
      rw [show ascii " " ++ (ascii "local descriptor " ++ digits p ++ ascii " " ++
          dec (WR_VAR_Y c : Int) ++ ascii " bits long") = (ascii " local descriptor " ++ digits p ++
          32 :: dec (WR_VAR_Y c : Int)) ++ 32 :: ascii "bits long" from by simp [ascii],
        numbersIn_space, numbersIn_space, hd,
        show numbersIn (ascii "bits long") = [] by decide +kernel, List.append_nil,
        List.getLast?_append]
      rfl
  · rename_i hx
    refine ⟨ascii "change data scale, reference value and data width by " ++ dec _,
      by rw [List.append_assoc]; rfl, clean_append (by decide) (clean_dec _),
      says_op (l := [(WR_VAR_Y c : Int)]) hf (by omega) (fun m hm => ?_)
        (hw (ascii " change data scale, reference value and data width by") _ _ (by decide +kernel)
          hd rfl)⟩
    unfold amount at hm
    simp only [hx, Option.some.injEq] at hm
    exact hm.symm
  · rename_i hx
    refine ⟨ascii "change width of string fields to " ++ dec _,
      by rw [List.append_assoc]; rfl, clean_append (by decide) (clean_dec _),
      says_op (l := [(WR_VAR_Y c : Int)]) hf (by omega) (fun m hm => ?_)
        (hw (ascii " change width of string fields to") _ _ (by decide +kernel) hd rfl)⟩
    unfold amount at hm
    simp only [hx, Option.some.injEq] at hm
    exact hm.symm
  all_goals
    rename_i hx
    have hnone : ∀ t : List Byte, numbersIn t = [] → Says c t := fun t ht =>
      says_op (l := []) hf (by omega) (fun m hm => by
        unfold amount at hm
        simp_all) ht
    try exact ⟨ascii "quality information with bitmap", rfl, by decide, hnone _ (by decide +kernel)⟩
    try exact ⟨ascii "define data present bitmap for reuse", rfl, by decide, hnone _ (by decide +kernel)⟩
  · split
    · exact ⟨ascii "substituted values bitmap", rfl, by decide, hnone _ (by decide +kernel)⟩
    split
    · exact ⟨ascii "one substituted value", rfl, by decide, hnone _ (by decide +kernel)⟩
    · rename_i hx h0 h255
      exact ⟨[], hs _ _ (.inl hx) h0 h255, by decide, hnone _ (by decide +kernel)⟩
  · split
    · exact ⟨ascii "reuse last data present bitmap", rfl, by decide, hnone _ (by decide +kernel)⟩
    split
    · exact ⟨ascii "cancel reuse of the last defined bitmap", rfl, by decide, hnone _ (by decide +kernel)⟩
    · rename_i hx h0 h255
      exact ⟨[], hs _ _ (.inr hx) h0 h255, by decide, hnone _ (by decide +kernel)⟩
  · exact ⟨ascii "(C modifier)", rfl, by decide, hnone _ (by decide +kernel)⟩

/-- What an operator does after its line is printed: a C04 operator prints the line of
the significance. -/
theorem c_modifier_printed {C : Ctx} {X : Texts} {s s1 : St} {c : Varcode}
    {next rest : List Varcode} (hf : WR_VAR_F c = 2)
    (h : Interp.c_modifier C (target X) s c next = .ok (rest, s1)) :
    (WR_VAR_X c ≠ 6 ∧ rest = next ∧ waiting s1 = awaits (waiting s) c ∧ Printed s s1 []) ∨
    (WR_VAR_X c = 4 ∧ next = WR_VAR 0 31 21 :: rest ∧ waiting s1 = waiting s ∧
      Printed s s1 (lead s (WR_VAR 0 31 21) ++ ascii " " ++ X.desc (WR_VAR 0 31 21) ++ ascii "[" ++
        X.unit (WR_VAR 0 31 21) ++ ascii "]\n")) ∨
    (WR_VAR_X c = 6 ∧ (∃ n, next = n :: rest) ∧ waiting s1 = waiting s ∧ Printed s s1 []) := by
  have hc0 : c ≠ 0 := by
    rintro rfl
    revert hf
    decide
  unfold Interp.c_modifier at h
  split at h
  · rename_i hx
    have ha : ∀ w, awaits w c = w := by
      intro w
      unfold awaits
      rw [if_neg (by omega), if_neg (by omega), if_neg (by omega)]
    unfold Interp.c04 at h
    split at h
    · cases h
    split at h
    · cases h
    split at h
    · cases h
      exact .inl ⟨by omega, rfl, (ha _).symm, by simp, rfl, rfl⟩
    · simp only [Res.bind_eq_ok] at h
      obtain ⟨p, hp, st, hs, h⟩ := h
      cases h
      refine .inr (.inl ⟨hx, ?_⟩)
      unfold Interp.c04_significance at hs
      split at hs
      · cases hs
      · rename_i hc
        obtain ⟨info, hq, hs⟩ := Res.bind_eq_ok.mp hs
        cases hs
        have hi := Sequential.query_code hq
        unfold Interp.pop at hp
        split at hp
        · cases hp
        · cases hp
          simp only [ne_eq, not_not] at hc
          refine ⟨by rw [hc], rfl, ?_, rfl, rfl⟩
          show s.tgt.out ++ _ = _
          rw [hi]
  split at h
  · rename_i hx
    unfold Interp.c06 at h
    obtain ⟨p, hp, h⟩ := Res.bind_eq_ok.mp h
    unfold Interp.pop at hp
    split at hp
    · cases hp
    cases hp
    refine .inr (.inr ⟨hx, ?_⟩)
    split at h
    · cases h
      exact ⟨⟨_, rfl⟩, rfl, .refl _⟩
    · simp only [Res.bind_eq_ok] at h
      obtain ⟨i, _, st, hs, h⟩ := h
      cases h
      refine ⟨⟨_, rfl⟩, ?_⟩
      cases i with
      | some i => cases hs; exact ⟨rfl, .refl _⟩
      | none =>
        rename_i p0 _ _
        obtain ⟨i, _, hs⟩ := Res.bind_eq_ok.mp (show ((s.caches.get_unknown C.E p0
          (WR_VAR_Y c)).2 >>= fun info => (target X).define_variable { s with
            caches := (s.caches.get_unknown C.E p0 (WR_VAR_Y c)).1 } info) = .ok _ from hs)
        cases hs
        exact ⟨rfl, by simp, rfl, rfl⟩
  · rename_i hx
    obtain ⟨st, hs, h⟩ := Res.bind_eq_ok.mp h
    cases h
    refine .inl ⟨hx, rfl, ?_⟩
    unfold Interp.c_simple at hs
    unfold awaits
    simp only at hs
    split at hs
    · rename_i hx; cases hs; simp only [hx]; exact ⟨rfl, by simp, rfl, rfl⟩
    · rename_i hx; cases hs; simp only [hx]; exact ⟨rfl, by simp, rfl, rfl⟩
    · rename_i hx; cases hs; simp only [hx]; exact ⟨rfl, by simp, rfl, rfl⟩
    · cases hs
    · rename_i hx; cases hs; simp only [hx]; exact ⟨rfl, by simp, rfl, rfl⟩
    · rename_i hx; cases hs; simp only [hx]; exact ⟨rfl, by simp, rfl, rfl⟩
    · rename_i hx
      split at hs
      · cases hs
      · cases hs
        rw [if_pos hx]
        exact ⟨by simp [waiting, hc0], by simp, rfl, rfl⟩
    · rename_i hx
      unfold Interp.c23 at hs
      split at hs
      · rename_i hy
        cases hs
        rw [if_neg (by omega), if_pos ⟨hx, hy⟩]
        exact ⟨by simp [waiting, hc0], by simp, rfl, rfl⟩
      split at hs
      · split at hs
        · cases hs
        · obtain ⟨r, _, hs⟩ := Res.bind_eq_ok.mp hs
          cases hs
      · cases hs
    · rename_i hx
      unfold Interp.c37 at hs
      split at hs
      · rename_i hy
        cases hs
        rw [if_neg (by omega), if_neg (by omega), if_pos ⟨hx, hy⟩]
        exact ⟨by simp [waiting], by simp, rfl, rfl⟩
      split at hs
      · cases hs
        rw [if_neg (by omega), if_neg (by omega), if_neg (by omega)]
        exact ⟨rfl, by simp, rfl, rfl⟩
      · cases hs
    · rename_i h22 h23 h37
      cases hs
      rw [if_neg (by intro h; exact h22 h), if_neg (by intro h; exact h23 h.1),
        if_neg (by intro h; exact h37 h.1)]
      exact ⟨rfl, by simp, rfl, rfl⟩

theorem r_bitmap_printed {C : Ctx} {X : Texts} {s s1 : St} {c d : Varcode} {g : List Varcode}
    (h : Interp.r_bitmap C (target X) s c d g = .ok s1) : Printed s s1 [] := by
  unfold Interp.r_bitmap at h
  split at h
  · cases h
  split at h
  · cases h
  simp only [Res.bind_eq_ok] at h
  obtain ⟨r, hr, st, hs, h⟩ := h
  cases h
  cases hs
  unfold Interp.bitmapSize at hr
  split at hr
  · cases hr; exact ⟨by simp, rfl, rfl⟩
  · obtain ⟨i, _, hr⟩ := Res.bind_eq_ok.mp hr
    cases hr; exact ⟨by simp, rfl, rfl⟩

/-! ## The lines printed -/

theorem _root_.Wreport.Spec.ShowsLines.append {b k : Nat} {ls ls' : List Line} {t t' : List Byte}
    (h : ShowsLines b k ls t) (h' : ShowsLines b k ls' t') : ShowsLines b k (ls ++ ls') (t ++ t') := by
  induction h with
  | nil => exact h'
  | cons ht hs _ ih =>
    rw [List.append_assoc]
    exact .cons ht hs ih

/-- Text printed at an indentation is a line. -/
theorem shows_line {b n : Nat} {s : St} {c : Varcode} {t : List Byte}
    (hi : s.tgt.indent = b + s.tgt.indent_step * n) (ht : 10 ∉ t) (hs : Says c t) :
    ShowsLines b s.tgt.indent_step [(n, c)] (lead s c ++ (t ++ [10])) := by
  have := ShowsLines.cons (indent := b) (step := s.tgt.indent_step) (l := (n, c)) ht hs .nil
  unfold lineText at this
  unfold lead
  rw [hi, digits_eq]
  simpa using this

/-- What is printed while descriptors are processed: the lines of their outline. -/
def Lists (C : Ctx) (ops : List Varcode) (s s' : St) : Prop :=
  s'.tgt.indent = s.tgt.indent ∧ s'.tgt.indent_step = s.tgt.indent_step ∧
  ∀ b n, s.tgt.indent = b + s.tgt.indent_step * n →
    ∃ ls t, Outline C.dtable.query n (waiting s) ops ls (waiting s') ∧
      s'.tgt.out = s.tgt.out ++ t ∧ ShowsLines b s.tgt.indent_step ls t

/-- Texts of the tables are on one line each. -/
def OneLine (X : Texts) : Prop :=
  (∀ c, 10 ∉ X.desc c) ∧ (∀ c, 10 ∉ X.unit c) ∧ 10 ∉ X.path

theorem waiting_false {σ : Type} {s : Interp σ} (h : s.bitmaps.pending_definitions = 0) :
    waiting s = false := by
  unfold waiting
  rw [h]
  rfl

theorem waiting_true {σ : Type} {s : Interp σ} (h : s.bitmaps.pending_definitions ≠ 0) :
    waiting s = true := by
  unfold waiting
  rw [decide_eq_true h]

/-- Descriptors printed one step to the right. -/
theorem deeper_lists {C : Ctx} {g : List Varcode} {body : St → Res St} {s s1 : St}
    (hb : ∀ a b, body a = .ok b → Lists C g a b) (h : deeper body s = .ok s1) :
    s1.tgt.indent = s.tgt.indent ∧ s1.tgt.indent_step = s.tgt.indent_step ∧
    ∀ b n, s.tgt.indent = b + s.tgt.indent_step * n →
      ∃ ls t, Outline C.dtable.query (n + 1) (waiting s) g ls (waiting s1) ∧
        s1.tgt.out = s.tgt.out ++ t ∧ ShowsLines b s.tgt.indent_step ls t := by
  obtain ⟨s0, h1, h2⟩ := Res.bind_eq_ok.mp h
  cases h2
  obtain ⟨a1, a2, a3⟩ := hb _ _ h1
  refine ⟨?_, a2, fun b n hi => ?_⟩
  · show s0.tgt.indent - s0.tgt.indent_step = _
    rw [a1, a2]
    show s.tgt.indent + s.tgt.indent_step - s.tgt.indent_step = _
    omega
  · refine a3 b (n + 1) ?_
    show s.tgt.indent + s.tgt.indent_step = b + s.tgt.indent_step * (n + 1)
    rw [hi, Nat.mul_add]
    omega

theorem lists_rule (C : Ctx) (X : Texts) (hX : OneLine X) :
    Over.Rule C (over C X) (Lists C) where
  nil s := ⟨rfl, rfl, fun b n _ => ⟨[], [], .nil, by simp, .nil⟩⟩
  element c rest s s1 s' hf h hp := by
    obtain ⟨known, _, h⟩ := Res.bind_eq_ok.mp h
    cases h
    obtain ⟨a1, a2, a3⟩ := hp
    refine ⟨a1, a2, fun b n hi => ?_⟩
    obtain ⟨ls, t, h1, h2, h3⟩ := a3 b n hi
    refine ⟨(n, c) :: ls, lead s c ++ (elementText X c known ++ [10]) ++ t, .element hf h1, ?_, ?_⟩
    · rw [h2]
      show s.tgt.out ++ _ ++ t = _
      simp only [List.append_assoc]
      rfl
    · refine (shows_line (c := c) hi ?_ (says_of (by omega))).append h3
      unfold elementText
      split
      · exact clean_append (clean_append (clean_append (clean_append (by decide) (hX.1 c))
          (by decide)) (hX.2.1 c)) (by decide)
      · exact clean_append (clean_append (by decide) hX.2.2) (by decide)
  operator c rest rest' s s1 s' hf h hp := by
    obtain ⟨u, hu, hc, hsay⟩ := describe_line hf h
    obtain ⟨a1, a2, a3⟩ := hp
    have hl : ∀ b n, s.tgt.indent = b + s.tgt.indent_step * n →
        ShowsLines b s.tgt.indent_step [(n, c)] (lead s c ++ ascii " " ++ describe c rest) := by
      intro b n hi
      rw [hu, List.append_assoc, ← List.append_assoc (ascii " ")]
      exact shows_line hi (clean_append (by decide) hc) hsay
    rcases c_modifier_printed hf h with ⟨hx, rfl, hw, hpr⟩ | ⟨hx, rfl, hw, hpr⟩ |
      ⟨hx, ⟨l, rfl⟩, hw, hpr⟩
    · have hpr' := (Printed.put s _).trans hpr
      refine ⟨a1.trans hpr'.indent, a2.trans hpr'.step, fun b n hi => ?_⟩
      obtain ⟨ls, t, h1, h2, h3⟩ := a3 b n (by rw [hpr'.indent, hpr'.step]; exact hi)
      rw [hw] at h1
      rw [hpr'.step] at h3
      refine ⟨(n, c) :: ls, _, .operator hf hx h1, ?_, (hl b n hi).append h3⟩
      rw [h2, hpr'.out]
      simp
    · have hpr' := (Printed.put s _).trans hpr
      refine ⟨a1.trans hpr'.indent, a2.trans hpr'.step, fun b n hi => ?_⟩
      obtain ⟨ls, t, h1, h2, h3⟩ := a3 b n (by rw [hpr'.indent, hpr'.step]; exact hi)
      rw [hw] at h1
      rw [hpr'.step] at h3
      have ha : awaits (waiting s) c = waiting s := by
        unfold awaits
        rw [if_neg (by omega), if_neg (by omega), if_neg (by omega)]
      have hs := (hl b n hi).append ((shows_line (c := WR_VAR 0 31 21)
        (t := elementText X (WR_VAR 0 31 21) true) hi (clean_append (clean_append
          (clean_append (clean_append (by decide) (hX.1 _)) (by decide)) (hX.2.1 _))
          (by decide)) (says_of (by decide))).append h3)
      refine ⟨(n, c) :: (n, WR_VAR 0 31 21) :: ls, _,
        .operator hf (by omega) (by rw [ha]; exact .element (by decide) h1), ?_, hs⟩
      rw [h2, hpr'.out]
      simp only [List.append_assoc, elementText, if_true]
      rfl
    · have hpr' := (Printed.put s _).trans hpr
      refine ⟨a1.trans hpr'.indent, a2.trans hpr'.step, fun b n hi => ?_⟩
      obtain ⟨ls, t, h1, h2, h3⟩ := a3 b n (by rw [hpr'.indent, hpr'.step]; exact hi)
      rw [hw] at h1
      rw [hpr'.step] at h3
      refine ⟨(n, c) :: ls, _, .localOp ⟨hf, hx⟩ h1, ?_, (hl b n hi).append h3⟩
      rw [h2, hpr'.out]
      simp
  replication c rest d ops g post body s s1 s' hf h0 hd ho hl hb h hp := by
    obtain ⟨fa, hfa, hr, _, hdl⟩ := Interp.delayedCode_split hd
    rw [ho] at hfa
    obtain ⟨a1, a2, a3⟩ := hp
    obtain ⟨b1, b2, b3⟩ := deeper_lists hb h
    refine ⟨a1.trans b1, a2.trans b2, fun b n hi => ?_⟩
    obtain ⟨ls, t, h1, h2, h3⟩ := b3 b n hi
    obtain ⟨ls', t', h1', h2', h3'⟩ := a3 b n (by rw [b1, b2]; exact hi)
    rw [show waiting (put s _) = false from waiting_false h0] at h1
    rw [b2] at h3'
    rw [waiting_false h0, hr, ho]
    refine ⟨_, lead s c ++ replicationText c d ++ (t ++ t'), .replication hf hfa hl h1 h1', ?_, ?_⟩
    · rw [h2', h2]
      show s.tgt.out ++ _ ++ t ++ t' = _
      simp only [List.append_assoc]
    · have : ∃ u, replicationText c d = u ++ [10] ∧ 10 ∉ u ∧ Says c u := by
        have hx : WR_VAR_X c < 64 := Nat.mod_lt _ (by decide)
        have hy : WR_VAR_Y c < 256 := Nat.mod_lt _ (by decide)
        obtain ⟨hn, hn', hn''⟩ := numbers_dec
        unfold replicationText
        split
        · next hy0 =>
          refine ⟨ascii " replicate " ++ dec _ ++ ascii " descriptors" ++ (ascii " " ++ dec _ ++
            ascii " times"), by simp only [List.append_assoc]; rfl,
            clean_append (clean_append (clean_append (by decide) (clean_dec _)) (by decide))
              (clean_append (clean_append (by decide) (clean_dec _)) (by decide)),
            fun _ _ => ?_, fun _ e => absurd e hy0, fun e => ?_, fun e => ?_⟩
          · rw [show ascii " replicate " ++ dec (WR_VAR_X c : Int) ++ ascii " descriptors" ++ (ascii " " ++
              dec (WR_VAR_Y c : Int) ++ ascii " times") = (((ascii " replicate " ++
                dec (WR_VAR_X c : Int)) ++ 32 :: ascii "descriptors") ++ 32 :: dec (WR_VAR_Y c : Int)) ++
                32 :: ascii "times" from by simp [ascii], numbersIn_space, numbersIn_space,
              numbersIn_space, hn _ hx, (hn' _ hy).1]
            rfl
          · omega
          · omega
        · next hy0 =>
          have hy0 : WR_VAR_Y c = 0 := by omega
          refine ⟨ascii " replicate " ++ dec _ ++ ascii " descriptors" ++ (ascii " (delayed " ++
            digits d ++ ascii ") times"), by simp only [List.append_assoc]; rfl,
            clean_append (clean_append (clean_append (by decide) (clean_dec _)) (by decide))
              (clean_append (clean_append (by decide) (clean_digits _)) (by decide)),
            fun _ e => absurd hy0 e, fun _ _ => ⟨WR_VAR_Y d, Nat.mod_lt d (show 0 < 256 by decide), ?_⟩,
            fun e => ?_, fun e => ?_⟩
          · have hdd : digits d = digits (WR_VAR 0 31 (WR_VAR_Y d)) := by
              obtain ⟨d1, d2⟩ := hdl hy0
              obtain ⟨e1, e2, e3⟩ := (by decide +kernel : ∀ y < 256, WR_VAR_F (WR_VAR 0 31 y) = 0 ∧
                WR_VAR_X (WR_VAR 0 31 y) = 31 ∧ WR_VAR_Y (WR_VAR 0 31 y) = y) (WR_VAR_Y d)
                (Nat.mod_lt d (by decide))
              unfold digits
              rw [e1, e2, e3, d1, d2]
            rw [hdd, show ascii " replicate " ++ dec (WR_VAR_X c : Int) ++ ascii " descriptors" ++
              (ascii " (delayed " ++ digits (WR_VAR 0 31 (WR_VAR_Y d)) ++ ascii ") times") =
              (((ascii " replicate " ++ dec (WR_VAR_X c : Int)) ++ 32 :: ascii "descriptors") ++
                32 :: (ascii "(delayed " ++ (digits (WR_VAR 0 31 (WR_VAR_Y d)) ++ ascii ")"))) ++
                32 :: ascii "times" from by simp [ascii], numbersIn_space, numbersIn_space,
              numbersIn_space, hn _ hx, hn'' (WR_VAR_Y d) (Nat.mod_lt d (by decide))]
            rfl
          · omega
          · omega
      obtain ⟨u, hu, hc, hsay⟩ := this
      rw [hu]
      exact (shows_line (c := c) hi hc hsay).append (h3.append h3')
  bitmap c rest d ops g post s s1 s' hf h0 hd ho hl h hp := by
    obtain ⟨fa, hfa, hr, _, _⟩ := Interp.delayedCode_split hd
    rw [ho] at hfa
    obtain ⟨hx, rfl, hw⟩ := Interp.r_bitmap_group h hl
    have hpr := r_bitmap_printed h
    obtain ⟨a1, a2, a3⟩ := hp
    refine ⟨a1.trans hpr.indent, a2.trans hpr.step, fun b n hi => ?_⟩
    obtain ⟨ls, t, h1, h2, h3⟩ := a3 b n (by rw [hpr.indent, hpr.step]; exact hi)
    rw [waiting_false hw] at h1
    rw [hpr.step] at h3
    rw [waiting_true h0, hr, ho]
    refine ⟨ls, t, .bitmap hf hfa hx h1, ?_, h3⟩
    rw [h2, hpr.out]
    simp
  sequence c rest l body s s1 s' hf hl hb h hp := by
    obtain ⟨a1, a2, a3⟩ := hp
    obtain ⟨b1, b2, b3⟩ := deeper_lists hb h
    refine ⟨a1.trans b1, a2.trans b2, fun b n hi => ?_⟩
    obtain ⟨ls, t, h1, h2, h3⟩ := b3 b n hi
    obtain ⟨ls', t', h1', h2', h3'⟩ := a3 b n (by rw [b1, b2]; exact hi)
    rw [b2] at h3'
    refine ⟨_, lead s c ++ (ascii " (group)" ++ [10]) ++ (t ++ t'), .sequence hf hl h1 h1', ?_, ?_⟩
    · rw [h2', h2]
      show s.tgt.out ++ _ ++ t ++ t' = _
      simp only [List.append_assoc]
      rfl
    · exact (shows_line (c := c) hi (by decide) (says_of (by omega))).append (h3.append h3')

end Printer

/-! ## C80 -/

/-- C80: what is printed for the descriptors of a bulletin is their outline, one line
each that tells its amounts, indented from the start by two more spaces for each level of nesting. What is
missing from the property: the replication that makes up a data present bitmap, which
`Outline` leaves out (`C80_not_bitmap`), and the descriptors for which printing gives
up (`C80_not_printed`). -/
theorem C80_outline_partial (C : Ctx) (X : Texts) (hX : Printer.OneLine X) (depth : Nat)
    (datadesc : List Varcode) (indent : Nat) (caches : TableCaches) (t : List Byte)
    (h : Printer.print_datadesc C X depth datadesc indent caches = .ok t) :
    ∃ ls w, Outline C.dtable.query 0 false datadesc ls w ∧ ShowsLines indent 2 ls t := by
  obtain ⟨st, hr, h⟩ := Res.bind_eq_ok.mp h
  cases h
  obtain ⟨_, _, h3⟩ := (Printer.lists_rule C X hX).run depth datadesc hr
  obtain ⟨ls, t, h4, h5, h6⟩ := h3 indent 0 (by simp [Interp.new])
  refine ⟨ls, _, h4, ?_⟩
  rw [h5]
  exact h6

theorem Spec.Factor.unique {c : Varcode} {f f' ops ops' : List Varcode} (h : Factor c f ops)
    (h' : Factor c f' ops') (he : f ++ ops = f' ++ ops') : f = f' ∧ ops = ops' := by
  rcases h with ⟨rfl, h⟩ | ⟨hy, d, rfl, hd⟩ <;> rcases h' with ⟨rfl, h'⟩ | ⟨hy', d', rfl, hd'⟩
  · exact ⟨rfl, he⟩
  · refine absurd hd' (h hy' d' ?_)
    rw [List.nil_append] at he
    rw [he]
    rfl
  · refine absurd hd (h' hy d ?_)
    rw [List.nil_append] at he
    rw [← he]
    rfl
  · cases he
    exact ⟨rfl, rfl⟩

/-- C80: descriptors have only one outline. -/
theorem C80_determined {D : Varcode → Res (List Varcode)} {n : Nat} {w w1 w2 : Bool}
    {ops : List Varcode} {ls1 ls2 : List Line} (h1 : Outline D n w ops ls1 w1)
    (h2 : Outline D n w ops ls2 w2) : ls1 = ls2 ∧ w1 = w2 := by
  induction h1 generalizing ls2 w2 with
  | nil => cases h2; exact ⟨rfl, rfl⟩
  | element hf _ ih =>
    cases h2 with
    | element _ h => obtain ⟨rfl, rfl⟩ := ih h; exact ⟨rfl, rfl⟩
    | operator hf' => rw [hf] at hf'; cases hf'
    | localOp hc => have := hc.1; rw [hf] at this; cases this
    | replication hf' => rw [hf] at hf'; cases hf'
    | bitmap hf' => rw [hf] at hf'; cases hf'
    | sequence hf' => rw [hf] at hf'; cases hf'
  | operator hf hx _ ih =>
    cases h2 with
    | element hf' => rw [hf] at hf'; cases hf'
    | operator _ _ h => obtain ⟨rfl, rfl⟩ := ih h; exact ⟨rfl, rfl⟩
    | localOp hc => exact absurd hc.2 hx
    | replication hf' => rw [hf] at hf'; cases hf'
    | bitmap hf' => rw [hf] at hf'; cases hf'
    | sequence hf' => rw [hf] at hf'; cases hf'
  | @localOp n w w' c l rest ls hc _ ih =>
    generalize ho : c :: l :: rest = ops at h2
    cases h2 with
    | nil => cases ho
    | element hf' => rw [← (List.cons.inj ho).1, hc.1] at hf'; cases hf'
    | operator _ hx => exact absurd ((List.cons.inj ho).1 ▸ hc.2) hx
    | localOp _ h =>
      obtain ⟨rfl, ho2⟩ := List.cons.inj ho
      obtain ⟨rfl, rfl⟩ := List.cons.inj ho2
      obtain ⟨rfl, rfl⟩ := ih h
      exact ⟨rfl, rfl⟩
    | replication hf' => rw [← (List.cons.inj ho).1, hc.1] at hf'; cases hf'
    | bitmap hf' => rw [← (List.cons.inj ho).1, hc.1] at hf'; cases hf'
    | sequence hf' => rw [← (List.cons.inj ho).1, hc.1] at hf'; cases hf'
  | @replication n w' w'' c f g rest ls ls' hf hc hg hb h ihb ih =>
    generalize ho : c :: (f ++ (g ++ rest)) = ops at h2
    cases h2 with
    | nil => cases ho
    | element hf' => cases ho; rw [hf] at hf'; cases hf'
    | operator hf' => cases ho; rw [hf] at hf'; cases hf'
    | localOp hc' => have := hc'.1; rw [← (List.cons.inj ho).1, hf] at this; cases this
    | replication _ hc' hg' hb' h' =>
      rw [List.cons.injEq] at ho
      obtain ⟨rfl, ho⟩ := ho
      obtain ⟨rfl, ho2⟩ := hc.unique hc' ho
      obtain ⟨rfl, rfl⟩ := List.append_inj ho2 (hg.trans hg'.symm)
      obtain ⟨rfl, rfl⟩ := ihb hb'
      obtain ⟨rfl, rfl⟩ := ih h'
      exact ⟨rfl, rfl⟩
    | sequence hf' => cases ho; rw [hf] at hf'; cases hf'
  | @bitmap n w' c f rest ls hf hc hx h ih =>
    generalize ho : c :: (f ++ ([WR_VAR 0 31 31] ++ rest)) = ops at h2
    cases h2 with
    | nil => cases ho
    | element hf' => cases ho; rw [hf] at hf'; cases hf'
    | operator hf' => cases ho; rw [hf] at hf'; cases hf'
    | localOp hc' => have := hc'.1; rw [← (List.cons.inj ho).1, hf] at this; cases this
    | bitmap _ hc' hx' h' =>
      rw [List.cons.injEq] at ho
      obtain ⟨rfl, ho⟩ := ho
      obtain ⟨rfl, ho2⟩ := hc.unique hc' ho
      cases List.append_cancel_left ho2
      exact ih h'
    | sequence hf' => cases ho; rw [hf] at hf'; cases hf'
  | sequence hf hl _ _ ihb ih =>
    cases h2 with
    | element hf' => rw [hf] at hf'; cases hf'
    | operator hf' => rw [hf] at hf'; cases hf'
    | localOp hc => have := hc.1; rw [hf] at this; cases this
    | replication hf' => rw [hf] at hf'; cases hf'
    | bitmap hf' => rw [hf] at hf'; cases hf'
    | sequence _ hl' hb' h' =>
      rw [hl] at hl'
      cases hl'
      obtain ⟨rfl, rfl⟩ := ihb hb'
      obtain ⟨rfl, rfl⟩ := ih h'
      exact ⟨rfl, rfl⟩

/-- Every line of an outline is a descriptor of the list or of the sequences it
mentions. -/
theorem Spec.Outline.occurs {D : Varcode → Res (List Varcode)} {n : Nat} {w w' : Bool}
    {ops : List Varcode} {ls : List Line} (h : Outline D n w ops ls w') (l : Line) (hl : l ∈ ls) :
    n ≤ l.1 ∧ Occurs D ops l.2 := by
  induction h with
  | nil => cases hl
  | element _ _ ih =>
    rcases List.mem_cons.mp hl with rfl | hl
    · exact ⟨le_refl _, .here List.mem_cons_self⟩
    · exact ⟨(ih hl).1, (ih hl).2.mono fun _ => List.mem_cons_of_mem _⟩
  | operator _ _ _ ih =>
    rcases List.mem_cons.mp hl with rfl | hl
    · exact ⟨le_refl _, .here List.mem_cons_self⟩
    · exact ⟨(ih hl).1, (ih hl).2.mono fun _ => List.mem_cons_of_mem _⟩
  | localOp _ _ ih =>
    rcases List.mem_cons.mp hl with rfl | hl
    · exact ⟨le_refl _, .here List.mem_cons_self⟩
    · exact ⟨(ih hl).1, (ih hl).2.mono fun _ h =>
        List.mem_cons_of_mem _ (List.mem_cons_of_mem _ h)⟩
  | replication _ _ _ _ _ ihb ih =>
    rcases List.mem_cons.mp hl with rfl | hl
    · exact ⟨le_refl _, .here List.mem_cons_self⟩
    · rcases List.mem_append.mp hl with hl | hl
      · exact ⟨by have := (ihb hl).1; omega, (ihb hl).2.mono fun x hx => by simp [hx]⟩
      · exact ⟨(ih hl).1, (ih hl).2.mono fun x hx => by simp [hx]⟩
  | bitmap _ _ _ _ ih =>
    exact ⟨(ih hl).1, (ih hl).2.mono fun x hx => by simp [hx]⟩
  | sequence hf hs _ _ ihb ih =>
    rcases List.mem_cons.mp hl with rfl | hl
    · exact ⟨le_refl _, .here List.mem_cons_self⟩
    · rcases List.mem_append.mp hl with hl | hl
      · exact ⟨by have := (ihb hl).1; omega, .inside List.mem_cons_self hf hs (ihb hl).2⟩
      · exact ⟨(ih hl).1, (ih hl).2.mono fun _ => List.mem_cons_of_mem _⟩

/-- C80: every line printed is about a descriptor of the bulletin or of a sequence it
mentions. -/
theorem C80_lines_partial (C : Ctx) (X : Texts) (hX : Printer.OneLine X) (depth : Nat)
    (datadesc : List Varcode) (indent : Nat) (caches : TableCaches) (t : List Byte)
    (h : Printer.print_datadesc C X depth datadesc indent caches = .ok t) :
    ∃ ls, ShowsLines indent 2 ls t ∧ ∀ l ∈ ls, Occurs C.dtable.query datadesc l.2 := by
  obtain ⟨ls, w, h1, h2⟩ := C80_outline_partial C X hX depth datadesc indent caches t h
  exact ⟨ls, h2, fun l hl => (h1.occurs l hl).2⟩

/-- C80: printing leaves the indentation as it found it. -/
theorem C80_indentation (C : Ctx) (X : Texts) (hX : Printer.OneLine X) (depth : Nat)
    (datadesc : List Varcode) (s s' : Printer.St)
    (h : (Printer.over C X).run C depth datadesc s = .ok s') :
    s'.tgt.indent = s.tgt.indent :=
  ((Printer.lists_rule C X hX).run depth datadesc h).1

/-- Texts for the sample tables. -/
def sampleTexts : Texts where
  desc := fun c => if c = WR_VAR 0 12 101 then ascii "TEMPERATURE" else ascii "OTHER"
  unit := fun c => if c = WR_VAR 0 12 101 then ascii "K" else ascii "1"
  path := ascii "B.txt"

/-- Hypotheses of C80 met by a listing of nested descriptors. -/
example : Printer.OneLine sampleTexts ∧
    Printer.print_datadesc sampleCtx sampleTexts 1
      [WR_VAR 2 1 130, WR_VAR 1 2 0, WR_VAR 0 31 1, WR_VAR 3 1 1, WR_VAR 0 63 1, WR_VAR 2 6 8,
        WR_VAR 0 63 2] 1 noCaches =
    .ok (ascii " 201130 change data width to 2\n" ++
      ascii " 102000 replicate 2 descriptors (delayed 031001) times\n" ++
      ascii "   301001 (group)\n" ++
      ascii "     012101 TEMPERATURE[K]\n" ++
      ascii "     002001 OTHER[1]\n" ++
      ascii "   063001 (missing in B table B.txt)\n" ++
      ascii " 206008 local descriptor 063002 8 bits long\n") := by
  refine ⟨⟨fun c => ?_, fun c => ?_, by decide⟩, by decide +kernel⟩
  · unfold sampleTexts
    simp only
    split <;> decide
  · unfold sampleTexts
    simp only
    split <;> decide

/-- The full C80 is false: the replication that makes up a data present bitmap has no
line. -/
theorem C80_not_bitmap :
    Printer.print_datadesc sampleCtx sampleTexts 0
      [WR_VAR 0 12 101, WR_VAR 2 22 0, WR_VAR 1 1 1, WR_VAR 0 31 31] 0 noCaches =
    .ok (ascii "012101 TEMPERATURE[K]\n222000 quality information with bitmap\n") := by
  decide +kernel

/-- The full C80 is false: printing gives up on character data and on substituted
values, though data with such descriptors can be encoded. -/
theorem C80_not_printed :
    ((unusual characters [WR_VAR 2 5 4]).isOk = true ∧
      Printer.print_datadesc sampleCtx sampleTexts 0 [WR_VAR 2 5 4] 0 noCaches =
        .err .unimplemented) ∧
    ((unusual substituted [WR_VAR 0 12 101, WR_VAR 2 23 0, WR_VAR 1 1 1, WR_VAR 0 31 31,
        WR_VAR 2 23 255]).isOk = true ∧
      Printer.print_datadesc sampleCtx sampleTexts 0 [WR_VAR 0 12 101, WR_VAR 2 23 0,
        WR_VAR 1 1 1, WR_VAR 0 31 31, WR_VAR 2 23 255] 0 noCaches = .err .consistency) := by
  decide +kernel

end Wreport
