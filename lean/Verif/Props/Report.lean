import Verif.Props.Verbose
import Verif.Props.Printer
import Verif.Props.Structure
import Verif.Spec.Verbose

/-!
# What a report of decoding tells
-/

namespace Wreport

open Spec

namespace Verbose

variable {σ α : Type}

/-- No bitmap, associated field or change of reference values is in force. -/
structure Calm (s : Interp σ) : Prop where
  bits : s.c03_refval_override_bits = 0
  field : s.associated_field.bit_count = 0
  bitmap : s.bitmaps.active = false
  pending : s.bitmaps.pending_definitions = 0

/-- Nothing that matters for `Calm` changed. -/
structure Unmoved (s s' : Interp σ) : Prop where
  bits : s'.c03_refval_override_bits = s.c03_refval_override_bits
  field : s'.associated_field = s.associated_field
  bitmaps : s'.bitmaps = s.bitmaps

/-- What a decoder adds, `H` telling what it holds, is told as `L` says. -/
structure Teller (C : Ctx) (T : Target σ) (X : Texts) (Y : Shown σ) (L : Telling α)
    (H : σ → List α → Prop) : Prop where
  query : L.query = C.dtable.query
  element : L.element = C.btable.query
  desc : L.desc = X.desc
  table : C.btable.Inv C.E
  «variable» : ∀ s i s' x cols, i.Made C.E → H s.tgt cols → T.define_variable s i = .ok s' →
    Y.last s'.tgt = .ok x →
    Unmoved s s' ∧ ∃ a, H s'.tgt (cols ++ [a]) ∧ L.code a i.code ∧ L.value a x
  factor : ∀ s i k s' cols, i.Made C.E → H s.tgt cols →
    T.define_delayed_replication_factor s i = .ok (k, s') →
    Unmoved s s' ∧ ∃ a, H s'.tgt (cols ++ [a]) ∧ L.code a i.code ∧ L.count a k

/-- Descriptors whose report is specified. -/
def Plain (c : Varcode) : Prop := WR_VAR_F c ≠ 2 ∨ Adjusts c

/-- What a part of the report adds. -/
def Tells (C : Ctx) (L : Telling α) (H : σ → List α → Prop) (ops : List Varcode) (s s' : St σ) :
    Prop :=
  (∀ c, StandsFor C.dtable ops c → Plain c) → Calm s →
  ∀ n, s.tgt.2.indent = 2 * n → s.tgt.2.indent_step = 2 → ∀ cols, H s.tgt.1 cols →
  Calm s' ∧ s'.tgt.2.indent = s.tgt.2.indent ∧ s'.tgt.2.indent_step = 2 ∧
  ∃ vs t, H s'.tgt.1 (cols ++ vs) ∧ s'.tgt.2.out = s.tgt.2.out ++ t ∧ Report L n ops vs t

theorem elementText_of {C : Ctx} {X : Texts} {c : Varcode} {i : Varinfo} {x : List Byte}
    (h : elementText C X c = .ok x) (hq : C.btable.query c = .ok i) :
    x = ascii " " ++ X.desc i ++ ascii "[" ++ i.unit ++ ascii "]\n" := by
  unfold elementText at h
  have hk : C.btable.contains c = .ok true := by
    unfold Vartable.query at hq
    obtain ⟨e, h1, h2⟩ := Res.bind_eq_ok.mp hq
    unfold Vartable.contains
    rw [h1, Res.ok_bind]
    cases e with
    | none => cases h2
    | some e => rfl
  rw [hk, Res.ok_bind, if_pos rfl, hq, Res.ok_bind] at h
  cases h
  rfl

theorem keeps_code {C : Ctx} (h : C.btable.Inv C.E) : AlterationsKeepCode C.btable := by
  intro e he a ha
  exact (alter_fields ((h.entries e he).alts a ha).2.2).1

section

variable {C : Ctx} {T : Target σ} {X : Texts} {Y : Shown σ} {L : Telling α} {H : σ → List α → Prop}

theorem element_tells (hT : Teller C T X Y L H) {s s1 : St σ} {c : Varcode}
    (hs : Calm s) {cols : List α} (hh : H s.tgt.1 cols) (h : b_variable C T X Y s c = .ok s1) :
    Calm s1 ∧ s1.tgt.2.indent = s.tgt.2.indent ∧ s1.tgt.2.indent_step = s.tgt.2.indent_step ∧
    ∃ a j x, L.code a c ∧ C.btable.query c = .ok j ∧ L.value a x ∧ H s1.tgt.1 (cols ++ [a]) ∧
      s1.tgt.2.out = s.tgt.2.out ++ elementLines s.tgt.2.indent L.desc c j x := by
  unfold b_variable at h
  obtain ⟨x, hx, h⟩ := Res.bind_eq_ok.mp h
  unfold Interp.b_variable at h
  have e1 : (put s (lead s c ++ x)).c03_refval_override_bits = 0 := hs.bits
  rw [e1, if_neg (by simp)] at h
  obtain ⟨i, hi, h⟩ := Res.bind_eq_ok.mp h
  have hcode := Sequential.get_varinfo_code (keeps_code hT.table) hi
  have hm := ((get_varinfo_has (safe := False) (l := ⟨0, 0, 0, 0⟩) hT.table False.elim
    False.elim False.elim).ok hi).made
  unfold Interp.get_varinfo at hi
  obtain ⟨j, hq, -⟩ := Res.bind_eq_ok.mp hi
  have hx := elementText_of hx hq
  unfold Interp.elementOrAttribute at h
  have e3 : (put s (lead s c ++ x)).bitmaps.active = false := hs.bitmap
  have e4 : (put s (lead s c ++ x)).associated_field.bit_count = 0 := hs.field
  rw [e3, e4, if_neg (by simp), if_neg (by simp)] at h
  replace h : call (fun t => T.define_variable t i)
    (variableText Y (put s (lead s c ++ x)).tgt.2) (put s (lead s c ++ x)) = .ok s1 := h
  unfold call at h
  obtain ⟨t, ht, h⟩ := Res.bind_eq_ok.mp h
  obtain ⟨y, hy, h⟩ := Res.bind_eq_ok.mp h
  cases h
  simp only [] at ht
  unfold variableText at hy
  obtain ⟨z, hz, hy⟩ := Res.bind_eq_ok.mp hy
  cases hy
  obtain ⟨hu, a, a1, a2, a3⟩ := hT.variable _ i t z cols hm hh ht hz
  refine ⟨⟨hu.bits.trans hs.bits, (congrArg (·.bit_count) hu.field).trans hs.field,
    (congrArg (·.active) hu.bitmaps).trans hs.bitmap,
    (congrArg (·.pending_definitions) hu.bitmaps).trans hs.pending⟩, rfl, rfl, a, j, z,
    by rw [← hcode]; exact a2, hq, a3, a1, ?_⟩
  show (s.tgt.2.out ++ (lead s c ++ x)) ++ (more _ ++ z ++ ascii "\n") = _
  unfold elementLines lead more
  rw [hx, Printer.digits_eq, hT.desc]
  simp only [List.append_assoc]
  rfl

/-- The turns of a replication. -/
theorem times_tells {g : List Varcode} {body : St σ → Res (St σ)}
    (hb : ∀ a b, body a = .ok b → Tells C L H g a b)
    (hd : ∀ c, StandsFor C.dtable g c → Plain c) (k : Nat) {s s' : St σ} (hs : Calm s) (n : Nat)
    (hn : s.tgt.2.indent = 2 * n) (h2 : s.tgt.2.indent_step = 2) {cols : List α}
    (hh : H s.tgt.1 cols) (h : Interp.times body k s = .ok s') :
    Calm s' ∧ s'.tgt.2.indent = s.tgt.2.indent ∧ s'.tgt.2.indent_step = 2 ∧
    ∃ turns : List (List α × List Byte), turns.length = k ∧
      H s'.tgt.1 (cols ++ turns.flatMap Prod.fst) ∧
      s'.tgt.2.out = s.tgt.2.out ++ turns.flatMap Prod.snd ∧
      ∀ r ∈ turns, Report L n g r.1 r.2 := by
  induction k generalizing s cols with
  | zero =>
    cases h
    exact ⟨hs, rfl, h2, [], rfl, by simpa using hh, by simp, by simp⟩
  | succ k ih =>
    obtain ⟨u, hu, h⟩ := Res.bind_eq_ok.mp h
    obtain ⟨a1, a2, a3, vs, t, a4, a5, a6⟩ := hb _ _ hu hd hs n hn h2 cols hh
    obtain ⟨b1, b2, b3, turns, b4, b5, b6, b7⟩ := ih a1 (by rw [a2, hn]) a3 a4 h
    refine ⟨b1, by rw [b2, a2], b3, (vs, t) :: turns, by simp [b4], ?_, ?_, ?_⟩
    · simpa using b5
    · rw [b6, a5]; simp
    · intro r hr
      rcases List.mem_cons.mp hr with rfl | hr
      · exact a6
      · exact b7 r hr

end

theorem simple_calm {C : Ctx} {T : Target (σ × Listing)} {s : St σ} {c : Varcode}
    {rest : List Varcode} (ha : Adjusts c) {r : List Varcode × St σ}
    (h : Interp.c_modifier C T s c rest = .ok r) :
    r.1 = rest ∧ r.2.tgt = s.tgt ∧ (Calm s → Calm r.2) := by
  unfold Interp.c_modifier at h
  have hx := ha.2
  rw [if_neg (by omega), if_neg (by omega)] at h
  obtain ⟨u, hu, h⟩ := Res.bind_eq_ok.mp h
  cases h
  unfold Interp.c_simple at hu
  rcases hx with hx | hx | hx | hx <;> simp only [hx] at hu <;> cases hu <;>
    exact ⟨rfl, rfl, fun h => ⟨h.bits, h.field, h.bitmap, h.pending⟩⟩

theorem simple_describe (C : Ctx) {c : Varcode} (rest : List Varcode) (ha : Adjusts c) :
    ∃ t, Printer.describe c rest = t ++ [10] ∧ 10 ∉ t ∧ Says c (ascii " " ++ t) := by
  have hx := ha.2
  have : ∃ r, Interp.c_modifier C (Printer.target ⟨fun _ => [], fun _ => [], []⟩)
      (Interp.new ⟨[], [], []⟩ ⟨[], 0, 0⟩) c rest = .ok r := by
    unfold Interp.c_modifier
    rw [if_neg (by omega), if_neg (by omega)]
    unfold Interp.c_simple
    rcases hx with hx | hx | hx | hx <;> simp only [hx] <;> exact ⟨_, rfl⟩
  obtain ⟨r, hr⟩ := this
  exact Printer.describe_line (rest := r.1) (s1 := r.2) ha.1 hr

theorem delayedCode_code {c d : Varcode} {rest ops : List Varcode} (hy : WR_VAR_Y c = 0)
    (h : Interp.delayedCode c rest = (d, ops)) :
    ∃ f, Factor c f ops ∧ rest = f ++ ops ∧ ((f = [] ∧ d = WR_VAR 0 31 12) ∨ f = [d]) := by
  unfold Interp.delayedCode at h
  rw [if_neg (by simpa using hy)] at h
  cases rest with
  | nil =>
    cases h
    exact ⟨[], .inl ⟨rfl, fun _ d h => by cases h⟩, rfl, .inl ⟨rfl, rfl⟩⟩
  | cons x rest =>
    simp only at h
    split at h
    · rename_i hx
      cases h
      exact ⟨[_], .inr ⟨hy, _, rfl, hx⟩, rfl, .inr rfl⟩
    · rename_i hx
      cases h
      refine ⟨[], .inl ⟨rfl, fun _ d hd => ?_⟩, rfl, .inl ⟨rfl, rfl⟩⟩
      cases hd
      exact hx

theorem dec_decimal (k : Nat) : IsDecimalNat (Printer.dec (k : Int)) k := by
  unfold Printer.dec
  rw [if_neg (by omega)]
  exact decDigits_decimal k

theorem standsFor_mono {D : DTable} {l l' : List Varcode} (h : ∀ c ∈ l, c ∈ l') {d : Varcode}
    (hd : StandsFor D l d) : StandsFor D l' d := by
  induction hd with
  | here h' => exact .here (h _ h')
  | inside _ f q m ih => exact .inside ih f q m

theorem tells_rule {C : Ctx} {T : Target σ} {X : Texts} {Y : Shown σ} {L : Telling α}
    {H : σ → List α → Prop} (hT : Teller C T X Y L H) :
    Over.Rule C (over C T X Y) (Tells C L H) where
  nil s _ hs n _ h2 cols hh := ⟨hs, rfl, h2, [], [], by simpa using hh, by simp, .nil⟩
  element c rest s s1 s' hf h1 ih hd hs n hn h2 cols hh := by
    obtain ⟨a1, a2, a3, v, j, x, a4, aj, a5, a6, a7⟩ := element_tells hT hs hh h1
    obtain ⟨b1, b2, b3, vs, t, b4, b5, b7⟩ := ih (fun d h => hd d (standsFor_mono
      (fun _ h => List.mem_cons_of_mem _ h) h)) a1 n (by rw [a2, hn]) (by rw [a3, h2]) _ a6
    refine ⟨b1, by rw [b2, a2], b3, v :: vs, elementLines (2 * n) L.desc c j x ++ t, ?_, ?_,
      .element hf a4 (by rw [hT.element]; exact aj) a5 b7⟩
    · simpa using b4
    · rw [b5, a7, hn]; simp
  operator c rest rest' s s1 s' hf h1 ih hd hs n hn h2 cols hh := by
    have ha : Adjusts c := (hd c (.here (by simp))).resolve_left (fun h => h hf)
    obtain ⟨e1, e2, e3⟩ := simple_calm ha h1
    obtain ⟨u, hu, hc, hsay⟩ := simple_describe C rest' ha
    change rest' = rest at e1
    subst e1
    have e2 : s1.tgt = (put s (lead s c ++ ascii " " ++ Printer.describe c rest')).tgt := e2
    obtain ⟨b1, b2, b3, vs, t, b4, b5, b7⟩ := ih (fun d h => hd d (standsFor_mono
      (fun _ h => List.mem_cons_of_mem _ h) h)) (e3 ⟨hs.bits, hs.field, hs.bitmap, hs.pending⟩) n
      (by rw [e2]; exact hn) (by rw [e2]; exact h2) cols (by rw [e2]; exact hh)
    refine ⟨b1, by rw [b2, e2]; rfl, b3, vs, lineText 0 2 (n, c) (ascii " " ++ u) ++ t, ?_, ?_,
      .operator ha (Printer.clean_append (by decide) hc) hsay b7⟩
    · exact b4
    · rw [b5, e2]
      show s.tgt.2.out ++ (lead s c ++ ascii " " ++ Printer.describe c rest') ++ t = _
      unfold lead lineText
      rw [hn, hu, Printer.digits_eq]
      simp
  replication c rest d ops g post body s s1 s' hf hp hd' ho hg hb h1 ih hd hs n hn h2 cols hh := by
    subst ho
    have e : (over C T X Y).r_replication body s c d =
      deeper (fun s => Interp.r_replication C (target T X Y) body s c d)
        (put s (lead s c ++ Printer.replicationText c d)) := rfl
    rw [e] at h1
    unfold deeper at h1
    obtain ⟨u, hu, h1⟩ := Res.bind_eq_ok.mp h1
    cases h1
    obtain ⟨f, hfac, hrest, -⟩ := Interp.delayedCode_split hd'
    have hdg : ∀ c, StandsFor C.dtable g c → Plain c := fun x h => hd x (standsFor_mono
      (fun y h => by rw [hrest]; simp [h]) h)
    have hdp : ∀ c, StandsFor C.dtable post c → Plain c := fun x h => hd x (standsFor_mono
      (fun y h => by rw [hrest]; simp [h]) h)
    generalize hw : indented (put s (lead s c ++ Printer.replicationText c d))
      ((put s (lead s c ++ Printer.replicationText c d)).tgt.2.indent +
        (put s (lead s c ++ Printer.replicationText c d)).tgt.2.indent_step) = w at hu
    have hwc : Calm w := by rw [← hw]; exact ⟨hs.bits, hs.field, hs.bitmap, hs.pending⟩
    have hwn : w.tgt.2.indent = 2 * (n + 1) := by
      rw [← hw]
      show s.tgt.2.indent + s.tgt.2.indent_step = _
      omega
    have hw2 : w.tgt.2.indent_step = 2 := by rw [← hw]; exact h2
    have hw1 : w.tgt.1 = s.tgt.1 := by rw [← hw]; rfl
    have hwo : w.tgt.2.out = s.tgt.2.out ++ (lead s c ++ Printer.replicationText c d) := by
      rw [← hw]; rfl
    replace hu : Interp.r_replication C (target T X Y) body w c d = .ok u := hu
    unfold Interp.r_replication at hu
    by_cases hy : WR_VAR_Y c = 0
    · rw [if_neg (by simpa using hy)] at hu
      obtain ⟨i, hq, hu⟩ := Res.bind_eq_ok.mp hu
      obtain ⟨r, hr, hu⟩ := Res.bind_eq_ok.mp hu
      obtain ⟨⟨k, r2⟩, hr', hr⟩ := Res.bind_eq_ok.mp
        (show (T.define_delayed_replication_factor (down w) i >>= fun r =>
          Res.ok (r.1, put (up r.2 w.tgt.2) (more w.tgt.2 ++ ascii "delayed replication factor: " ++
            Printer.dec r.1 ++ ascii "\n"))) = .ok r from hr)
      have hm := ((Vartable.query_has (safe := False) (l := ⟨0, 0, 0, 0⟩) (w := 0) hT.table
        False.elim).ok hq).made
      obtain ⟨⟨c3, c2, c1⟩, v, ho, hv, hk⟩ := hT.factor (down w) i k r2 cols hm (by
        show H w.tgt.1 cols
        rw [hw1]
        exact hh) hr'
      cases hr
      obtain ⟨a1, a2, a3, turns, a4, a5, a6, a7⟩ := times_tells hb hdg k
        (s := put (up r2 w.tgt.2) (more w.tgt.2 ++ ascii "delayed replication factor: " ++
            Printer.dec k ++ ascii "\n"))
        ⟨by rw [← hwc.bits]; exact c3, by rw [← hwc.field]; exact congrArg (·.bit_count) c2,
          by rw [← hwc.bitmap]; exact congrArg (·.active) c1,
          by rw [← hwc.pending]; exact congrArg (·.pending_definitions) c1⟩ (n + 1) hwn hw2 ho hu
      have hind : u.tgt.2.indent - u.tgt.2.indent_step = 2 * n := by
        rw [a2, a3]
        show w.tgt.2.indent - 2 = _
        omega
      obtain ⟨b1, b2, b3, vs, t, b4, b5, b7⟩ := ih hdp ⟨a1.bits, a1.field, a1.bitmap, a1.pending⟩ n
        hind a3 _ a5
      obtain ⟨f, hfac, hrest, hfd⟩ := delayedCode_code hy hd'
      subst a4
      have hcd : L.code v d := by rw [← Sequential.query_code hq]; exact hv
      rw [hrest]
      refine ⟨b1, ?_, b3, _, _, ?_, ?_, .delayed hf hy hfac hfd hg hcd hk (dec_decimal _)
        (dec_decimal _) a7 b7⟩
      · rw [b2, hn]; exact hind
      · simpa using b4
      · rw [b5]
        show u.tgt.2.out ++ t = _
        rw [a6]
        show w.tgt.2.out ++ (more w.tgt.2 ++ ascii "delayed replication factor: " ++
            Printer.dec turns.length ++ ascii "\n") ++ _ ++ t = _
        rw [hwo]
        unfold lead more delayedLines Printer.replicationText
        rw [hn, hwn, Printer.digits_eq, Printer.digits_eq, if_neg (by simpa using hy)]
        rw [show 2 * (n + 1) + 7 = 2 * n + 9 by omega]
        simp only [List.append_assoc]
        rfl
    · rw [if_pos hy] at hu
      obtain ⟨a1, a2, a3, turns, a4, a5, a6, a7⟩ := times_tells hb hdg _ hwc (n + 1) hwn hw2
        (by rw [hw1]; exact hh) hu
      have hind : u.tgt.2.indent - u.tgt.2.indent_step = 2 * n := by
        rw [a2, a3]
        omega
      obtain ⟨b1, b2, b3, vs, t, b4, b5, b7⟩ := ih hdp ⟨a1.bits, a1.field, a1.bitmap, a1.pending⟩ n
        hind a3 _ a5
      have hr0 : rest = g ++ post := by
        unfold Interp.delayedCode at hd'
        rw [if_pos hy] at hd'
        cases hd'
        rfl
      rw [hr0]
      refine ⟨b1, ?_, b3, _, _, ?_, ?_, .replication hf hy hg (dec_decimal _) (dec_decimal _) a4 a7 b7⟩
      · rw [b2, hn]; exact hind
      · simpa using b4
      · rw [b5]
        show u.tgt.2.out ++ t = _
        rw [a6, hwo]
        unfold lead timesLine Printer.replicationText
        rw [hn, Printer.digits_eq, if_pos hy]
        simp only [List.append_assoc]
        rfl
  bitmap c rest d ops g post s s1 s' hf hp _ _ _ _ _ hd hs := absurd hs.pending hp
  sequence c rest l body s s1 s' hf hq hb h1 ih hd hs n hn h2 cols hh := by
    have e : (over C T X Y).run_d_expansion body s c =
      deeper body (put s (lead s c ++ ascii "  (group)\n")) := rfl
    rw [e] at h1
    unfold deeper at h1
    obtain ⟨u, hu, h1⟩ := Res.bind_eq_ok.mp h1
    cases h1
    have sub : ∀ d, StandsFor C.dtable l d → Plain d := by
      intro d h
      refine hd d ?_
      induction h with
      | here h => exact .inside (.here (by simp)) hf hq h
      | inside _ f q m ih => exact .inside ih f q m
    obtain ⟨a1, a2, a3, vs, t, a4, a5, a7⟩ := hb _ _ hu sub
      ⟨hs.bits, hs.field, hs.bitmap, hs.pending⟩ (n + 1) (by
        show s.tgt.2.indent + s.tgt.2.indent_step = _
        rw [hn, h2]; ring) h2 cols hh
    have hind : u.tgt.2.indent - u.tgt.2.indent_step = s.tgt.2.indent := by
      rw [a2, a3]
      show s.tgt.2.indent + s.tgt.2.indent_step - 2 = _
      rw [h2]
      omega
    obtain ⟨b1, b2, b3, vs', t', b4, b5, b7⟩ := ih (fun d h => hd d (standsFor_mono
      (fun _ h => List.mem_cons_of_mem _ h) h))
      ⟨a1.bits, a1.field, a1.bitmap, a1.pending⟩ n (by
        show u.tgt.2.indent - u.tgt.2.indent_step = _
        rw [hind, hn]) a3 _ a4
    refine ⟨b1, ?_, b3, vs ++ vs', groupLine (2 * n) c ++ t ++ t', ?_, ?_, .sequence hf
      (by rw [hT.query]; exact hq) a7 b7⟩
    · rw [b2]; exact hind
    · simpa using b4
    · rw [b5]
      show u.tgt.2.out ++ _ = _
      rw [a5]
      show (s.tgt.2.out ++ (lead s c ++ ascii "  (group)\n")) ++ t ++ t' = _
      unfold lead groupLine
      rw [hn, Printer.digits_eq]
      simp


/-- Decoding of a subset. -/
theorem decoder_teller {C : Ctx} (X : Texts) (hF : Decoder.Fit False C) :
    Teller C (Decoder.target C) X (shown C.E)
      (.ofVars C.dtable.query C.btable.query X.desc C.E) (fun t cols => t.out = cols) where
  query := rfl
  element := rfl
  desc := rfl
  table := hF.table
  «variable» := by
    intro s i s' x cols hm hh ht hx
    replace ht : Decoder.define_variable C s i = .ok s' := ht
    unfold Decoder.define_variable at ht
    obtain ⟨r, hr, ht⟩ := Res.bind_eq_ok.mp ht
    have hv := (Decoder.value_has (l := ⟨0, 0, 0, 0⟩) (b := 0) hF (handy hm _) False.elim).ok hr
    unfold Decoder.storeCopy at ht
    obtain ⟨w, w1, w2, w3⟩ := copy_sane hv.1
    rw [w1, Res.ok_bind] at ht
    cases ht
    subst hh
    have hz : w.toVarCore.formatFile C.E (ascii "-") = .ok x := by
      simpa [shown, Decoder.store, Decoder.setInput] using hx
    exact ⟨⟨rfl, rfl, rfl⟩, w, rfl, by rw [← hv.2.1, ← w3]; exact rfl, hz⟩
  factor := by
    intro s i k s' cols hm hh h
    obtain ⟨w, h1, h⟩ := Res.bind_eq_ok.mp h
    obtain ⟨v, h2, h1⟩ := Res.bind_eq_ok.mp h1
    cases h1
    obtain ⟨k, h3, h⟩ := Res.bind_eq_ok.mp h
    cases h
    subst hh
    have hv := (Decoder.value_has (l := ⟨0, 0, 0, 0⟩) (b := 0) hF (handy hm _) False.elim).ok h2
    exact ⟨⟨rfl, rfl, rfl⟩, v.1, rfl, by rw [← hv.2.1]; exact rfl, counts_of_enqi h3⟩

theorem subsetsOf_snoc {n : Nat} {cols : List (List Var)} {ws : List Var} (hw : ws.length = n) :
    List.zipWith (fun s v => s ++ [v]) (subsetsOf n cols) ws = subsetsOf n (cols ++ [ws]) := by
  apply List.ext_getElem?
  intro j
  unfold subsetsOf
  by_cases hj : j < n
  · have : ws[j]? = some (ws[j]'(by omega)) := List.getElem?_eq_getElem (by omega)
    simp [List.getElem?_zipWith, hj, this, List.filterMap_append]
  · simp [hj]

theorem each_last {E : Env} {ss : List (List Var)} {ws : List Var} (h : ss.length = ws.length)
    {x : List Byte} (hx : each (fun s => match s.getLast? with
      | none => .ub
      | some v => v.toVarCore.formatFile E (ascii "-"))
        (List.zipWith (fun s v => s ++ [v]) ss ws) = .ok x) :
    ∃ xs, List.Forall₂ (fun (v : Var) x => v.toVarCore.formatFile E (ascii "-") = .ok x) ws xs ∧
      x = xs.flatMap (· ++ ascii " ") := by
  induction ss generalizing ws x with
  | nil =>
    cases ws with
    | nil => cases hx; exact ⟨[], .nil, rfl⟩
    | cons w ws => cases h
  | cons s ss ih =>
    cases ws with
    | nil => cases h
    | cons w ws =>
      obtain ⟨y, h1, hx⟩ := Res.bind_eq_ok.mp hx
      obtain ⟨z, h2, hx⟩ := Res.bind_eq_ok.mp hx
      cases hx
      obtain ⟨xs, i1, i2⟩ := ih (by simpa using h) h2
      simp only [List.getLast?_append, List.getLast?_singleton, Option.some_or] at h1
      exact ⟨y :: xs, .cons h1 i1, by rw [i2]; simp⟩

/-- Decoding of all the subsets at once. -/
theorem columns_teller {C : Ctx} (X : Texts) (ht : C.btable.Inv C.E) (hO : HookKeepsInfo C.O)
    (n : Nat) :
    Teller C (CDecoder.target C) X (shownAll C.E)
      (.ofColumns C.dtable.query C.btable.query X.desc C.E)
      (fun t cols => t.subsets = subsetsOf n cols ∧ ∀ vs ∈ cols, vs.length = n) where
  query := rfl
  element := rfl
  desc := rfl
  table := ht
  «variable» := by
    intro s i s' x cols hm hh h hx
    have hlen : s.tgt.subsets.length = n := by rw [hh.1]; simp [subsetsOf]
    obtain ⟨r, hr, h⟩ := Res.bind_eq_ok.mp h
    obtain ⟨ws, h1, h⟩ := Res.bind_eq_ok.mp h
    cases h
    obtain ⟨c1, c2⟩ := CDecoder.copyAll_column (CDecoder.b_value_column hO hr) h1
    rw [hlen] at c1
    refine ⟨⟨rfl, rfl, rfl⟩, ws, ⟨?_, ?_⟩, ?_, each_last (by rw [c1]; exact hlen) hx⟩
    · show List.zipWith _ s.tgt.subsets ws = _
      rw [hh.1, subsetsOf_snoc c1]
    · intro vs hv
      rcases List.mem_append.mp hv with hv | hv
      · exact hh.2 vs hv
      · rw [List.mem_singleton.mp hv, c1]
    · intro v hv
      rw [c2 v hv]
  factor := by
    intro s i k s' cols hm hh h
    have hlen : s.tgt.subsets.length = n := by rw [hh.1]; simp [subsetsOf]
    obtain ⟨⟨u, s1⟩, h1, h⟩ := Res.bind_eq_ok.mp h
    obtain ⟨k', h3, h⟩ := Res.bind_eq_ok.mp h
    cases h
    obtain ⟨v, h2, h1⟩ := Res.bind_eq_ok.mp h1
    obtain ⟨t, h4, h1⟩ := Res.bind_eq_ok.mp h1
    obtain ⟨u', h5, h1⟩ := Res.bind_eq_ok.mp h1
    cases h1
    obtain ⟨ws, h6, h4⟩ := Res.bind_eq_ok.mp h4
    cases h4
    have hpos : 0 < n := by
      rcases Nat.eq_zero_or_pos n with hn | hn
      · rw [hn] at hlen
        unfold CDecoder.lastOfFirst CDecoder.storeAll at h5
        simp only [CDecoder.setInput, List.eq_nil_of_length_eq_zero hlen, List.zipWith_nil_left] at h5
        cases h5
      · exact hn
    rw [hlen] at h6
    obtain ⟨w, hw, rfl⟩ := CDecoder.copyAll_replicate hpos h6
    have hu : u = w := by
      obtain ⟨m, rfl⟩ : ∃ m, n = m + 1 := ⟨n - 1, by omega⟩
      unfold CDecoder.lastOfFirst CDecoder.storeAll at h5
      cases hs : s.tgt.subsets with
      | nil => rw [hs] at hlen; cases hlen
      | cons a as =>
        simp only [CDecoder.setInput, hs, List.replicate_succ, List.zipWith_cons_cons,
          List.getLast?_append, List.getLast?_singleton, Option.some_or] at h5
        cases h5
        rfl
    subst hu
    refine ⟨⟨rfl, rfl, rfl⟩, List.replicate n u, ⟨?_, ?_⟩, ?_, ?_⟩
    · show List.zipWith _ s.tgt.subsets _ = _
      rw [hh.1, subsetsOf_snoc (by simp)]
    · intro vs hv
      rcases List.mem_append.mp hv with hv | hv
      · exact hh.2 vs hv
      · rw [List.mem_singleton.mp hv]; simp
    · intro y hy
      rw [List.eq_of_mem_replicate hy, hw, CDecoder.uniform_info hO h2]
    · intro y hy
      rw [List.eq_of_mem_replicate hy]
      exact counts_of_enqi h3

theorem report_subset {C : Ctx} {X : Texts} (hF : Decoder.Fit False C) {add_undef : Bool}
    {depth : Nat} {datadesc : List Varcode}
    (hd : ∀ c, StandsFor C.dtable datadesc c → WR_VAR_F c ≠ 2 ∨ Adjusts c)
    {caches : TableCaches} {i : Input} {r : (List Var × TableCaches × Input) × List Byte}
    (h : decodeSubset C X add_undef depth datadesc caches i = .ok r) :
    Report (.ofVars C.dtable.query C.btable.query X.desc C.E) 0 datadesc r.1.1 r.2 := by
  unfold decodeSubset at h
  obtain ⟨s, h1, h2⟩ := Res.bind_eq_ok.mp h
  cases h2
  obtain ⟨-, -, -, vs, t, b4, b5, b7⟩ := (tells_rule (decoder_teller X hF)).run depth
    datadesc h1 hd ⟨rfl, rfl, rfl, rfl⟩ 0 rfl rfl [] rfl
  have b4 : s.tgt.1.out = vs := b4
  have b5 : s.tgt.2.out = t := b5
  show Report _ _ _ s.tgt.1.out s.tgt.2.out
  rw [b4, b5]
  exact b7

end Verbose

/-- C89 on what is printed about uncompressed data, when the operators among the
descriptors only change how elements are written: the reports of the subsets, in order.
That of a subset has a line for each operator, replication and sequence, the factor of
each delayed replication, and two lines for each other variable, with its description,
its unit and the text of its value, in the order of the subset; what is repeated is
reported each time, one step to the right. -/
theorem C89_lines (C : Ctx) (X : Verbose.Texts) (hE : IsRounding C.E.fl)
    (ht : C.btable.Inv C.E) (hO : C.O.Sane C.E) (add_undef : Bool) (depth : Nat)
    (datadesc : List Varcode)
    (hd : ∀ c, StandsFor C.dtable datadesc c → WR_VAR_F c ≠ 2 ∨ Adjusts c) (n : Nat)
    (caches : TableCaches) (i : Input) {r : (List (List Var) × TableCaches × Input) × List Byte}
    (h : Verbose.decodeSubsets C X add_undef depth datadesc n caches i = .ok r) :
    ∃ ts : List (List Byte), r.2 = ts.flatten ∧ List.Forall₂
      (Report (.ofVars C.dtable.query C.btable.query X.desc C.E) 0 datadesc) r.1.1 ts := by
  have hF : Decoder.Fit False C := ⟨hE, ht, hO, False.elim⟩
  induction n generalizing caches i r with
  | zero => cases h; exact ⟨[], rfl, .nil⟩
  | succ n ih =>
    unfold Verbose.decodeSubsets at h
    obtain ⟨a, ha, h⟩ := Res.bind_eq_ok.mp h
    obtain ⟨b, hb, h⟩ := Res.bind_eq_ok.mp h
    cases h
    obtain ⟨ts, h1, h2⟩ := ih _ _ hb
    refine ⟨a.2 :: ts, ?_, .cons (Verbose.report_subset hF hd ha) h2⟩
    show a.2 ++ b.2 = _
    rw [h1]
    rfl

/-- C89 on what is printed about compressed data, under the same condition: one report,
that of the columns that the subsets are made of. It has a line for each operator,
replication and sequence, the factor of each delayed replication, which is that of all
subsets, and two lines for each other column, with the texts of the values of all subsets
in order. -/
theorem C89_columns (C : Ctx) (X : Verbose.Texts) (ht : C.btable.Inv C.E)
    (hO : HookKeepsInfo C.O) (add_undef : Bool) (depth : Nat) (datadesc : List Varcode)
    (hd : ∀ c, StandsFor C.dtable datadesc c → WR_VAR_F c ≠ 2 ∨ Adjusts c) (n : Nat)
    (caches : TableCaches) (i : Input) {r : (List (List Var) × TableCaches × Input) × List Byte}
    (h : Verbose.decodeCompressed C X add_undef depth datadesc n caches i = .ok r) :
    ∃ cols : List (List Var), r.1.1 = subsetsOf n cols ∧ (∀ vs ∈ cols, vs.length = n) ∧
      Report (.ofColumns C.dtable.query C.btable.query X.desc C.E) 0 datadesc cols r.2 := by
  unfold Verbose.decodeCompressed at h
  obtain ⟨s, h1, h2⟩ := Res.bind_eq_ok.mp h
  cases h2
  obtain ⟨-, -, -, vs, t, b4, b5, b7⟩ := (Verbose.tells_rule
    (Verbose.columns_teller X ht hO n)).run depth
    datadesc h1 hd ⟨rfl, rfl, rfl, rfl⟩ 0 rfl rfl [] ⟨by
      show List.replicate n [] = _
      unfold subsetsOf
      apply List.ext_getElem <;> simp, by simp⟩
  have b5 : s.tgt.2.out = t := b5
  refine ⟨vs, b4.1, b4.2, ?_⟩
  show Report _ _ _ _ s.tgt.2.out
  rw [b5]
  exact b7

/-- Descriptions for the sample tables. -/
def sampleDescs : Verbose.Texts where
  desc := fun i => if i.code = WR_VAR 0 12 101 then ascii "TEMPERATURE" else ascii "OTHER"
  path := ascii "B.txt"

/-- Hypotheses of C89 met by a sequence of which one value is missing, and its report. -/
example : Decoder.Fit False sampleCtx ∧ noCaches.Made sampleCtx.E ∧
    (do let r ← Verbose.decodeSubset sampleCtx sampleDescs false 1 [WR_VAR 3 1 1] noCaches
          (Input.new [0x6a, 0xb3, 0xff, 0xff, 0xff])
        return (r.1.1.map (fun v : Var => v.isset), r.2)) =
      .ok ([true, false], ascii "301001  (group)\n" ++
        ascii "  012101 TEMPERATURE[K]\n" ++ ascii "         273.15\n" ++
        ascii "  002001 OTHER[CODE TABLE]\n" ++ ascii "         -\n") :=
  ⟨sampleCtx_fit False, noCaches_made _, by decide +kernel⟩

/-- Hypothesis on operators of C89, met by that sequence. -/
example (c : Varcode) (h : StandsFor sampleCtx.dtable [WR_VAR 3 1 1] c) :
    WR_VAR_F c ≠ 2 ∨ Adjusts c := by
  have : c ∈ [WR_VAR 3 1 1, WR_VAR 0 12 101, WR_VAR 0 2 1] := by
    induction h with
    | here h => exact List.mem_append_left [WR_VAR 0 12 101, WR_VAR 0 2 1] h
    | inside _ f q m ih =>
      have : ∀ d ∈ [WR_VAR 3 1 1, WR_VAR 0 12 101, WR_VAR 0 2 1], WR_VAR_F d = 3 →
        sampleCtx.dtable.query d = .ok [WR_VAR 0 12 101, WR_VAR 0 2 1] := by decide +kernel
      rw [this _ ih f] at q
      cases q
      exact List.mem_cons_of_mem _ m
  have all : ∀ d ∈ [WR_VAR 3 1 1, WR_VAR 0 12 101, WR_VAR 0 2 1],
    WR_VAR_F d ≠ 2 := by decide +kernel
  exact .inl (all c this)

/-- The report of two subsets with a change of width and a delayed replication. -/
example :
    (do let r ← Verbose.decodeSubsets sampleCtx sampleDescs false 1
          [WR_VAR 2 1 129, WR_VAR 1 1 0, WR_VAR 0 31 1, WR_VAR 0 12 101] 2 noCaches
          (Input.new [0x02, 0x35, 0x59, 0x9a, 0xad, 0x00, 0x7f, 0xff, 0xe0])
        return r.2) =
      .ok (ascii "201129 change data width to 1\n" ++
        ascii "101000 replicate 1 descriptors (delayed 031001) times\n" ++
        ascii "         delayed replication factor: 2\n" ++
        ascii "  012101 TEMPERATURE[K]\n" ++ ascii "         273.15\n" ++
        ascii "  012101 TEMPERATURE[K]\n" ++ ascii "         273.16\n" ++
        ascii "201129 change data width to 1\n" ++
        ascii "101000 replicate 1 descriptors (delayed 031001) times\n" ++
        ascii "         delayed replication factor: 1\n" ++
        ascii "  012101 TEMPERATURE[K]\n" ++ ascii "         -\n") := by decide +kernel

example (c : Varcode) (h : StandsFor sampleCtx.dtable
    [WR_VAR 2 1 129, WR_VAR 1 1 0, WR_VAR 0 31 1, WR_VAR 0 12 101] c) :
    WR_VAR_F c ≠ 2 ∨ Adjusts c := by
  have : c ∈ [WR_VAR 2 1 129, WR_VAR 1 1 0, WR_VAR 0 31 1, WR_VAR 0 12 101] := by
    induction h with
    | here h => exact h
    | inside _ f q m ih =>
      have : ∀ d ∈ [WR_VAR 2 1 129, WR_VAR 1 1 0, WR_VAR 0 31 1, WR_VAR 0 12 101],
        WR_VAR_F d ≠ 3 := by decide +kernel
      exact absurd f (this _ ih)
  simp only [List.mem_cons, List.not_mem_nil, or_false] at this
  rcases this with rfl | rfl | rfl | rfl
  · exact .inr ⟨by decide, .inl (by decide)⟩
  all_goals exact .inl (by decide)

/-- The report of an attribute, given by a bitmap: it tells the variable it is about. -/
example :
    (do let r ← Verbose.decodeSubset sampleCtx sampleDescs false 1
          [WR_VAR 0 12 101, WR_VAR 2 22 0, WR_VAR 1 1 1, WR_VAR 0 31 31, WR_VAR 0 33 7] noCaches
          (Input.new [0x6a, 0xb3, 0x32, 0x00, 0x00])
        return r.2) =
      .ok (ascii "012101 TEMPERATURE[K]\n" ++ ascii "       273.15\n" ++
        ascii "222000 quality information with bitmap\n" ++
        ascii "033007 OTHER[%]\n" ++ ascii "       attribute 033007 OTHER\n" ++
        ascii "       at position 0: 012101 TEMPERATURE\n" ++ ascii "       50\n") := by decide +kernel

/-- Hypotheses of C89 on compressed data, and its report: the values of all subsets. -/
example : sampleCtx.btable.Inv sampleCtx.E ∧ HookKeepsInfo sampleCtx.O ∧
    (do let r ← Verbose.decodeCompressed sampleCtx sampleDescs false 1 [WR_VAR 0 2 1] 2 noCaches
          (Input.new [0x01, 0x40, 0x00])
        return (r.1.1.length, r.2)) =
      .ok (2, ascii "002001 OTHER[CODE TABLE]\n" ++ ascii "       0 - \n") :=
  ⟨(sampleCtx_fit False).table, nofun, by decide +kernel⟩

end Wreport
