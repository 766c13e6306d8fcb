import Verif.Lemmas.ImportTable
import Verif.Props.Tabledir

/-! # Imported tables: C113, C114, C115 -/

namespace Wreport

namespace Import

open Spec

/-! ## Loading succeeds -/

theorem decode_decimal_ok {E : Env} {info : Varinfo} (h1 : -16 ≤ info.scale) (h2 : info.scale ≤ 16)
    (v : Int) : ∃ q, info.decode_decimal E v = .ok q := by
  unfold Varinfo.decode_decimal
  split
  · unfold scales
    rw [if_pos (by omega)]
    exact ⟨_, rfl⟩
  · split
    · unfold scales
      rw [if_pos (by omega)]
      exact ⟨_, rfl⟩
    · exact ⟨_, rfl⟩

theorem compute_range_ok {E : Env} {info : Varinfo} (h1 : -16 ≤ info.scale) (h2 : info.scale ≤ 16)
    (hr : ∃ r, info.intRange E = .ok r) : ∃ v, info.compute_range E = .ok v := by
  obtain ⟨r, hr⟩ := hr
  obtain ⟨a, ha⟩ := decode_decimal_ok (E := E) h1 h2 r.1
  obtain ⟨b, hb⟩ := decode_decimal_ok (E := E) h1 h2 r.2
  unfold Varinfo.compute_range
  split
  · exact ⟨_, rfl⟩
  · exact ⟨_, rfl⟩
  · rw [hr, Res.ok_bind, ha, Res.ok_bind, hb]; exact ⟨_, rfl⟩
  · rw [hr, Res.ok_bind, ha, Res.ok_bind, hb]; exact ⟨_, rfl⟩

theorem intRange_ok {E : Env} {info : Varinfo} (hlen : info.bit_len ≠ 0 → info.len = bufrDigits info.bit_len)
    (r1 : -1073741824 ≤ info.bit_ref) (r2 : info.bit_ref ≤ 1073741824) :
    ∃ r, info.intRange E = .ok r := by
  unfold Varinfo.intRange
  split
  · exact ⟨_, rfl⟩
  · next hl =>
    have h9 : intexp10 info.len = .ok ((10 ^ info.len : Nat) : Int) := by
      unfold intexp10; rw [if_pos (by omega)]
    split
    · rw [h9]; exact ⟨_, rfl⟩
    · next hb =>
      have hbits : info.bit_len < 30 := by
        have hs := bufrDigits_spec info.bit_len
        rw [← hlen hb] at hs
        by_cases h1 : info.bit_len = 1
        · omega
        · have h2 := (hs.2 h1).1
          by_contra hc
          have h3 : 2 ^ 30 ≤ 2 ^ info.bit_len := Nat.pow_le_pow_right (by omega) (by omega)
          have h4 : 10 ^ info.len ≤ 10 ^ 9 := Nat.pow_le_pow_right (by omega) (by omega)
          norm_num at h3 h4
          omega
      have hp : 2 ^ info.bit_len ≤ 2 ^ 29 := Nat.pow_le_pow_right (by omega) (by omega)
      have hp1 : 1 ≤ 2 ^ info.bit_len := Nat.one_le_two_pow
      have hpz : ((2 ^ info.bit_len : Nat) : Int) ≤ 536870912 := by exact_mod_cast hp
      have hpz1 : (1 : Int) ≤ ((2 ^ info.bit_len : Nat) : Int) := by exact_mod_cast hp1
      have hs : ∀ i : Int, -2147483648 ≤ i → i ≤ 2147483647 → E.sint i = .ok i := by
        intro i h1 h2
        unfold Env.sint
        rw [if_pos (by simp [inInt]; omega)]
      have hbm : ∃ m, info.bitMax E = .ok m := by
        unfold Varinfo.bitMax shl1
        rw [if_pos (by omega), Res.ok_bind, hs _ (by omega) (by omega), Res.ok_bind]
        split
        · exact ⟨_, hs _ (by omega) (by omega)⟩
        · exact ⟨_, rfl⟩
      obtain ⟨m, hm⟩ := hbm
      rw [hm, Res.ok_bind, h9]
      exact ⟨_, rfl⟩

theorem bufrInfo_ok (E : Env) (code : Varcode) (unit : List Byte) {s r : Int} (n : Nat)
    (s1 : -16 ≤ s) (s2 : s ≤ 16) (r1 : -1073741824 ≤ r) (r2 : r ≤ 1073741824) :
    ∃ v, bufrInfo E code unit s r n = .ok v := by
  unfold bufrInfo
  split
  · exact ⟨_, rfl⟩
  · exact compute_range_ok s1 s2 (intRange_ok (fun _ => rfl) r1 r2)

theorem bufrEntry_eq {E : Env} {r : BufrRow} {line : List Byte} (h : r.WrittenIn line) (code : Varcode) :
    bufrEntry E code line =
      bufrInfo E code (unitName r.unit) r.scale r.ref r.bits := by
  unfold bufrEntry
  rw [readUnit_eq h.unit, Res.ok_bind, getnumber_eq h.scale, Res.ok_bind,
    getnumber_eq h.ref, Res.ok_bind, getnumber_eq h.bits, Res.ok_bind,
    toInt32_id h.scale_fits, toInt32_id h.ref_fits]
  have hb : (((r.bits : Int) % 4294967296)).toNat = r.bits := by
    have := h.bits_fits; omega
  rw [hb]

theorem crexEntry_eq {E : Env} {r : CrexRow} {line : List Byte} (h : r.WrittenIn line) (code : Varcode) :
    crexEntry E code line = crexInfo E code (unitName r.unit) r.scale r.len := by
  unfold crexEntry
  rw [readUnit_eq h.unit, Res.ok_bind, getnumber_eq h.scale, Res.ok_bind,
    getnumber_eq h.len, Res.ok_bind, toInt32_id h.scale_fits]
  have hb : (((r.len : Int) % 4294967296)).toNat = r.len := by
    have := h.len_fits; omega
  rw [hb]

theorem obtain_ok {t : Vartable} {info : Varinfo}
    (h : ∀ e ∈ t.entries.getLast?, e.varinfo.code < info.code) :
    t.obtain info = .ok ⟨t.entries ++ [⟨info, []⟩]⟩ := by
  unfold Vartable.obtain
  split
  · next e he =>
    have := h e he
    rw [if_neg (by omega)]
  · rfl

theorem load_bufr_ok (E : Env) {lines : List (List Byte)} {rows : List BufrRow}
    (h : List.Forall₂ (fun line (r : BufrRow) => r.WrittenIn line) lines rows)
    (hok : ∀ r ∈ rows, -16 ≤ r.scale ∧ r.scale ≤ 16 ∧ -1073741824 ≤ r.ref ∧ r.ref ≤ 1073741824)
    (hinc : Increasing (rows.map fun r => descriptorCode 0 r.x r.y)) (t : Vartable)
    (ht : ∀ e ∈ t.entries.getLast?, ∀ r ∈ rows, e.varinfo.code < descriptorCode 0 r.x r.y) :
    ∃ t', lines.foldlM (Vartable.addBufrLine E) t = .ok t' := by
  induction h generalizing t with
  | nil => exact ⟨t, rfl⟩
  | @cons line r lines rows hw _ ih =>
    obtain ⟨c, s, rest, hl, hs⟩ := hw.code
    obtain ⟨s1, s2, r1, r2⟩ := hok r (by simp)
    obtain ⟨v, hv⟩ := bufrInfo_ok E (descriptorCode 0 r.x r.y) (unitName r.unit) r.bits s1 s2 r1 r2
    have hv' := (bufrEntry_eq (E := E) hw _).trans hv
    have hc := (Vartable.bufrEntry_made hv').2.2
    rw [List.map_cons] at hinc
    obtain ⟨hi1, hi2⟩ := List.pairwise_cons.mp hinc
    have hadd : Vartable.addBufrLine E t line = .ok ⟨t.entries ++ [⟨v, []⟩]⟩ := by
      unfold Vartable.addBufrLine
      rw [if_neg (by have := hw.size; omega), lineCode_eq hl hs, Res.ok_bind,
        obtain_ok (fun e he => ht e he r (by simp)), Res.ok_bind, hv', Res.ok_bind,
        obtain_ok (fun e he => by rw [hc]; exact ht e he r (by simp))]
    rw [List.foldlM_cons]
    show ∃ t', (Vartable.addBufrLine E t line >>= fun u => lines.foldlM (Vartable.addBufrLine E) u) = _
    rw [hadd, Res.ok_bind]
    refine ih (fun r hr => hok r (by simp [hr])) hi2 _ ?_
    intro e he r' hr'
    rw [List.getLast?_append] at he
    obtain rfl : (⟨v, []⟩ : VartableEntry) = e := by simpa using he
    rw [hc]
    exact hi1 _ (List.mem_map.mpr ⟨r', hr', rfl⟩)

theorem load_crex_ok (E : Env) {lines : List (List Byte)} {rows : List (Option CrexRow)}
    (h : List.Forall₂ CrexLine lines rows)
    (hok : ∀ r, some r ∈ rows → -16 ≤ r.scale ∧ r.scale ≤ 16)
    (hinc : Increasing ((rows.filterMap id).map fun r => descriptorCode 0 r.x r.y)) (t : Vartable)
    (ht : ∀ e ∈ t.entries.getLast?, ∀ r, some r ∈ rows → e.varinfo.code < descriptorCode 0 r.x r.y) :
    ∃ t', lines.foldlM (Vartable.addCrexLine E) t = .ok t' := by
  induction h generalizing t with
  | nil => exact ⟨t, rfl⟩
  | @cons line r lines rows hw _ ih =>
    rw [List.foldlM_cons]
    show ∃ t', (Vartable.addCrexLine E t line >>= fun u => lines.foldlM (Vartable.addCrexLine E) u) = _
    cases r with
    | none =>
      obtain ⟨hlen, c, s, rest, y, hl, hs⟩ := hw
      have hadd : Vartable.addCrexLine E t line = .ok t := by
        unfold Vartable.addCrexLine
        have hy : y < 256 := by
          obtain ⟨_, _, _, _, _, _, -, -, -, -, -, -, hy⟩ := hs
          exact hy
        have hx : WR_VAR_X (descriptorCode 0 31 y) = 31 := by
          unfold WR_VAR_X descriptorCode
          have : (0 * 16384 + 31 * 256 + y) / 2 ^ 8 = 31 := by omega
          rw [Nat.shiftRight_eq_div_pow, this]
        rw [lineCode_eq hl hs, Res.ok_bind, if_pos hlen, if_neg (by rw [hx]; simp)]
      rw [hadd, Res.ok_bind]
      exact ih (fun r hr => hok r (by simp [hr])) hinc t fun e he r hr => ht e he r (by simp [hr])
    | some r =>
      have hw : r.WrittenIn line := hw
      obtain ⟨c, s, rest, hl, hs⟩ := hw.code
      obtain ⟨s1, s2⟩ := hok r (by simp)
      obtain ⟨v, hv⟩ : ∃ v, crexInfo E (descriptorCode 0 r.x r.y) (unitName r.unit) r.scale r.len = .ok v :=
        compute_range_ok s1 s2 (intRange_ok (fun h => absurd rfl h) (by simp [Varinfo.raw]) (by simp [Varinfo.raw]))
      have hv' := (crexEntry_eq (E := E) hw _).trans hv
      have hc := (Vartable.crexEntry_made hv').2.2
      rw [List.filterMap_cons_some (by rfl), List.map_cons] at hinc
      obtain ⟨hi1, hi2⟩ := List.pairwise_cons.mp hinc
      have hadd : Vartable.addCrexLine E t line = .ok ⟨t.entries ++ [⟨v, []⟩]⟩ := by
        unfold Vartable.addCrexLine
        rw [lineCode_eq hl hs, Res.ok_bind, if_neg (by have := hw.size; omega),
          obtain_ok (fun e he => ht e he r (by simp)), Res.ok_bind, hv', Res.ok_bind,
          obtain_ok (fun e he => by rw [hc]; exact ht e he r (by simp))]
      rw [hadd, Res.ok_bind]
      refine ih (fun r hr => hok r (by simp [hr])) hi2 _ ?_
      intro e he r' hr'
      rw [List.getLast?_append] at he
      obtain rfl : (⟨v, []⟩ : VartableEntry) = e := by simpa using he
      rw [hc]
      exact hi1 _ (List.mem_map.mpr ⟨r', by simpa using hr', rfl⟩)

/-! ## C113 -/

theorem pairwise_through {α β : Type} {R : α → β → Prop} {P : α → α → Prop} {Q : β → β → Prop}
    {l : List α} {m : List β} (h : List.Forall₂ R l m) (hp : l.Pairwise P)
    (hq : ∀ a b c d, R a b → R c d → P a c → Q b d) : m.Pairwise Q := by
  induction h with
  | nil => exact .nil
  | @cons a b l m hab hlm ih =>
    obtain ⟨h1, h2⟩ := List.pairwise_cons.mp hp
    refine List.pairwise_cons.mpr ⟨?_, ih h2⟩
    intro d hd
    clear ih h2 hp
    induction hlm with
    | nil => simp at hd
    | @cons c d' l m hcd _ ih =>
      rcases List.mem_cons.mp hd with rfl | hd
      · exact hq _ _ _ _ hab hcd (h1 c (by simp))
      · exact ih (fun x hx => h1 x (by simp [hx])) hd

theorem mapM_some {α β γ : Type} {f : α → Option β} {R : α → γ → Prop} {S : β → γ → Prop}
    {l : List α} {m : List γ} (h : List.Forall₂ R l m)
    (hf : ∀ a c, R a c → ∃ b, f a = some b ∧ S b c) :
    ∃ bs, l.mapM f = some bs ∧ List.Forall₂ S bs m := by
  induction h with
  | nil => exact ⟨[], rfl, .nil⟩
  | @cons a c l m hac _ ih =>
    obtain ⟨b, hb, hs⟩ := hf a c hac
    obtain ⟨bs, hbs, hss⟩ := ih
    refine ⟨b :: bs, ?_, .cons hs hss⟩
    rw [List.mapM_cons, hb, hbs]
    rfl

/-- What is in the files, from what was imported: lines in the order of their codes. -/
theorem bFile_says {es : List BEntry} {rows : List (BufrRow × Option CrexRow)}
    (h : List.Forall₂ (fun e (r : BufrRow × Option CrexRow) => ElementSays e r.1 r.2) es rows)
    (hd : (rows.map fun r => descriptorCode 0 r.1.x r.1.y).Nodup) :
    ∃ lines rows', bFile es = some lines.flatten ∧ rows'.Perm rows ∧
      Increasing (rows'.map fun r => descriptorCode 0 r.1.x r.1.y) ∧
      List.Forall₂ (fun line (r : BufrRow × Option CrexRow) => TextLine line ∧ r.1.WrittenIn line ∧
        (∀ d ∈ r.2, d.WrittenIn line) ∧ (r.2 = none → line.length < 157)) lines rows' ∧
      ∀ r ∈ rows', ∃ e, ElementSays e r.1 r.2 := by
  obtain ⟨rows', hr, hp⟩ := List.perm_comp_forall₂
    (List.perm_insertionSort (fun a b : BEntry => leText a.FXY b.FXY = true) es) h
  obtain ⟨lines, hl, hw⟩ := mapM_some hr fun e r hs => bLine_says hs
  refine ⟨lines, rows', ?_, hp, ?_, hw, ?_⟩
  · unfold bFile sortB
    rw [hl]
    rfl
  · have hle : rows'.Pairwise fun a b : BufrRow × Option CrexRow =>
        descriptorCode 0 a.1.x a.1.y ≤ descriptorCode 0 b.1.x b.1.y := by
      refine pairwise_through hr (sorted_text (fun e : BEntry => e.FXY) es) ?_
      intro a b c d h1 h2 h3
      exact (six_order (by omega) h1.code h2.code).1 h3
    have hnd : (rows'.map fun r : BufrRow × Option CrexRow => descriptorCode 0 r.1.x r.1.y).Nodup :=
      (hp.map _).nodup_iff.mpr hd
    have hle' : (rows'.map fun r : BufrRow × Option CrexRow => descriptorCode 0 r.1.x r.1.y).Pairwise (· ≤ ·) :=
      List.pairwise_map.mpr hle
    exact (hle'.and hnd).imp fun h => by
      have := h.1; have := h.2
      show _ < _
      omega
  · intro r hr'
    clear hl hw hp
    generalize List.insertionSort (fun a b : BEntry => leText a.FXY b.FXY = true) es = l at hr
    induction hr with
    | nil => simp at hr'
    | cons h1 _ ih =>
      rcases List.mem_cons.mp hr' with rfl | hr'
      · exact ⟨_, h1⟩
      · exact ih hr'

theorem forall₂_of_map {α β γ : Type} {R : α → γ → Prop} (f : β → γ) {l : List α} {m : List β}
    (h : List.Forall₂ (fun a b => R a (f b)) l m) : List.Forall₂ R l (m.map f) := by
  induction h with
  | nil => exact .nil
  | cons h _ ih => exact .cons h ih

/-- C113, partially: an element table made from any list of elements in plain text, with
different codes and with numbers that fit their columns, is loaded, and has exactly these
elements. Missing: other texts, see `C113_not_width`, and units that fill their column, see
`C113_not_unit`. -/
theorem C113_bufr_partial (E : Env) (es : List BEntry) (rows : List (BufrRow × Option CrexRow))
    (h : List.Forall₂ (fun e (r : BufrRow × Option CrexRow) => ElementSays e r.1 r.2) es rows)
    (hd : (rows.map fun r => descriptorCode 0 r.1.x r.1.y).Nodup) :
    ∃ data t rows', bFile es = some data ∧ Vartable.load_bufr E data = .ok t ∧
      rows'.Perm (rows.map (·.1)) ∧ Increasing (rows'.map fun r => descriptorCode 0 r.x r.y) ∧
      List.Forall₂ (fun (r : BufrRow) (e : VartableEntry) => r.Describes e.varinfo) rows' t.entries := by
  obtain ⟨lines, rows', hb, hp, hinc, hw, hs⟩ := bFile_says h hd
  have hw1 : List.Forall₂ (fun line (r : BufrRow) => TextLine line ∧ r.WrittenIn line) lines
      (rows'.map (·.1)) := forall₂_of_map (·.1) (hw.imp fun _ _ h => ⟨h.1, h.2.1⟩)
  have hinc1 : Increasing ((rows'.map (·.1)).map fun r : BufrRow => descriptorCode 0 r.x r.y) := by
    rw [List.map_map]; exact hinc
  have hload : ∃ t, Vartable.load_bufr E lines.flatten = .ok t := by
    unfold Vartable.load_bufr
    rw [fgetsLines_text (forall₂_and_left hw1).1]
    refine load_bufr_ok E (forall₂_and_left hw1).2 ?_ hinc1 ⟨[]⟩ (by simp)
    intro r hr
    obtain ⟨q, hq, rfl⟩ := List.mem_map.mp hr
    obtain ⟨e, he⟩ := hs q hq
    exact ⟨he.scale.2.1, he.scale.2.2, he.ref.2.1, he.ref.2.2⟩
  obtain ⟨t, ht⟩ := hload
  exact ⟨_, t, _, hb, ht, hp.map _, hinc1, (C88_bufr E lines _ hw1 t ht).1⟩

/-- C113, partially: the same for the columns of CREX, which only delayed replication
factors may go without. Missing: what is missing of `C113_bufr_partial`, and other elements
without these columns, see `C113_not_crex`. -/
theorem C113_crex_partial (E : Env) (es : List BEntry) (rows : List (BufrRow × Option CrexRow))
    (h : List.Forall₂ (fun e (r : BufrRow × Option CrexRow) => ElementSays e r.1 r.2) es rows)
    (hd : (rows.map fun r => descriptorCode 0 r.1.x r.1.y).Nodup)
    (hn : ∀ r ∈ rows, r.2 = none → r.1.x = 31) :
    ∃ data t rows', bFile es = some data ∧ Vartable.load_crex E data = .ok t ∧
      rows'.Perm (rows.filterMap (·.2)) ∧ Increasing (rows'.map fun r => descriptorCode 0 r.x r.y) ∧
      List.Forall₂ (fun (r : CrexRow) (e : VartableEntry) => r.Describes e.varinfo) rows' t.entries := by
  obtain ⟨lines, rows', hb, hp, hinc, hw, hs⟩ := bFile_says h hd
  have hw0 : List.Forall₂ (fun line (r : BufrRow × Option CrexRow) => TextLine line ∧
      CrexLine line r.2) lines rows' := by
    have hmem : ∀ r ∈ rows', r ∈ rows := fun r hr => hp.mem_iff.mp hr
    clear hp hinc hb hs
    induction hw with
    | nil => exact .nil
    | @cons line r lines rows' h1 _ ih =>
      refine .cons ⟨h1.1, ?_⟩ (ih fun r hr => hmem r (by simp [hr]))
      cases hx : r.2 with
      | none =>
        refine ⟨h1.2.2.2 hx, ?_⟩
        obtain ⟨c, s, rest, hl, hc⟩ := h1.2.1.code
        rw [hn r (hmem r (by simp)) hx] at hc
        exact ⟨c, s, rest, _, hl, hc⟩
      | some d => exact h1.2.2.1 d hx
  have hw1 : List.Forall₂ (fun line (r : Option CrexRow) => TextLine line ∧ CrexLine line r) lines
      (rows'.map (·.2)) := forall₂_of_map (fun r : BufrRow × Option CrexRow => r.2) hw0
  have hsame : ∀ r ∈ rows', ∀ d ∈ r.2, d.x = r.1.x ∧ d.y = r.1.y ∧ -9 ≤ d.scale ∧ d.scale ≤ 16 := by
    intro r hr d hd
    obtain ⟨e, he⟩ := hs r hr
    obtain ⟨h1, h2, -, -, -, h3, h4, -⟩ := he.crex d hd
    exact ⟨h1, h2, h3, h4⟩
  have hinc1 : Increasing (((rows'.map (·.2)).filterMap id).map fun r : CrexRow => descriptorCode 0 r.x r.y) := by
    clear hw hw0 hw1 hb hp hs
    unfold Increasing at hinc ⊢
    rw [List.pairwise_map] at hinc ⊢
    rw [List.filterMap_map, List.pairwise_filterMap]
    refine hinc.imp_of_mem ?_
    intro a b ha hb hlt c hc d hd
    obtain ⟨h1, h2, -⟩ := hsame a ha c hc
    obtain ⟨h3, h4, -⟩ := hsame b hb d hd
    rw [h1, h2, h3, h4]
    exact hlt
  have hload : ∃ t, Vartable.load_crex E lines.flatten = .ok t := by
    unfold Vartable.load_crex
    rw [fgetsLines_text (forall₂_and_left hw1).1]
    refine load_crex_ok E (forall₂_and_left hw1).2 ?_ hinc1 ⟨[]⟩ (by simp)
    intro d hd
    obtain ⟨q, hq, hd'⟩ := List.mem_map.mp hd
    have := hsame q hq d hd'
    omega
  obtain ⟨t, ht⟩ := hload
  refine ⟨_, t, _, hb, ht, ?_, hinc1, (C88_crex E lines _ hw1 t ht).1⟩
  rw [List.filterMap_map]
  exact hp.filterMap _

/-- The line for B15028 in the tables of versions 27 to 31 that are distributed with the
library, `tables/B0000000000000027000.txt` line 827. -/
def sampleMole : BEntry where
  FXY := "015028".toList
  ElementName_en := some "Mole fraction of atmospheric constituent/pollutant in dry air".toList
  ElementName_E := none
  BUFR_Unit := "‰".toList
  BUFR_Scale := 5
  BUFR_ReferenceValue := 0
  BUFR_DataWidth_Bits := 16
  CREX_Unit := some "‰".toList
  CREX_Scale := some 5
  CREX_DataWidth_Char := some 5

/-- C113 is false in the code for texts that are not plain: the columns are counted in
characters by the script and in bytes by the library. Elements with their unit in per mille
get their scale as reference value and the reference value as width, and have no bits. -/
theorem C113_not_width (E : Env) : ∃ data t, bFile [sampleMole] = some data ∧
    Vartable.load_bufr E data = .ok t ∧
    t.entries.map (fun e => (e.varinfo.code, e.varinfo.scale, e.varinfo.bit_ref, e.varinfo.bit_len)) =
      [(descriptorCode 0 15 28, 5, 5, 0)] ∧
    ¬ ∃ e ∈ t.entries, e.varinfo.bit_ref = 0 ∧ e.varinfo.bit_len = 16 := by
  obtain ⟨line, hline⟩ : ∃ line, bLine sampleMole = some line := ⟨_, rfl⟩
  have hget : line = (bLine sampleMole).getD [] := by rw [hline]; rfl
  have hb : bFile [sampleMole] = some line := by
    have : bFile [sampleMole] = some ((bLine sampleMole).getD []) := by decide +kernel
    rw [this, hget]
  have hf : fgetsLines line = [line] := by rw [hget]; decide +kernel
  have hl : ¬ line.length < 119 := by rw [hget]; decide +kernel
  have hc : lineCode line = .ok (descriptorCode 0 15 28) := by rw [hget]; decide +kernel
  obtain ⟨u, hu⟩ : ∃ u, readUnit line 73 = .ok u := by
    rw [hget]
    exact ⟨[226, 128, 176], by decide +kernel⟩
  have h1 : getnumber (line.drop 98) = .ok 5 := by rw [hget]; decide +kernel
  have h2 : getnumber (line.drop 102) = .ok 5 := by rw [hget]; decide +kernel
  have h3 : getnumber (line.drop 115) = .ok 0 := by rw [hget]; decide +kernel
  have hu' : u = [226, 128, 176] := by
    have : readUnit line 73 = .ok [226, 128, 176] := by rw [hget]; decide +kernel
    rw [this] at hu
    exact (Res.ok.inj hu).symm
  obtain ⟨v, hv⟩ := bufrInfo_ok E (descriptorCode 0 15 28) u (s := 5) (r := 5) 0 (by omega) (by omega)
    (by omega) (by omega)
  have he : bufrEntry E (descriptorCode 0 15 28) line = .ok v := by
    unfold bufrEntry
    rw [hu, Res.ok_bind, h1, Res.ok_bind, h2, Res.ok_bind, h3, Res.ok_bind]
    exact hv
  have hfields : v.code = descriptorCode 0 15 28 ∧ v.scale = 5 ∧ v.bit_ref = 5 ∧ v.bit_len = 0 := by
    unfold bufrInfo at hv
    rw [if_neg (by rw [hu']; decide +kernel)] at hv
    obtain ⟨a, b, c, d, e, f, g⟩ := compute_range_fields hv
    exact ⟨a, d, f, g⟩
  refine ⟨line, ⟨[⟨v, []⟩]⟩, hb, ?_, ?_, ?_⟩
  · unfold Vartable.load_bufr
    rw [hf, List.foldlM_cons]
    show (Vartable.addBufrLine E ⟨[]⟩ line >>= fun u => [].foldlM (Vartable.addBufrLine E) u) = _
    unfold Vartable.addBufrLine
    rw [if_neg hl, hc, Res.ok_bind, obtain_ok (by simp), Res.ok_bind, he, Res.ok_bind,
      obtain_ok (by simp), Res.ok_bind]
    rfl
  · simp [hfields]
  · simp [hfields]

/-- An element with a unit of 24 characters and without CREX columns. -/
def sampleLong : BEntry where
  FXY := "014050".toList
  ElementName_en := none
  ElementName_E := some "Emissivity".toList
  BUFR_Unit := "kg m-2 s-1 sr-1 microm-1".toList
  BUFR_Scale := 0
  BUFR_ReferenceValue := 0
  BUFR_DataWidth_Bits := 8
  CREX_Unit := none
  CREX_Scale := none
  CREX_DataWidth_Char := none

/-- C113 is false in the code for units that fill their column: the copy in the table is not
terminated. -/
theorem C113_not_unit : ∃ data, bFile [sampleLong] = some data ∧
    Vartable.load_bufr Env0 data = .ub :=
  ⟨(bFile [sampleLong]).getD [], by decide +kernel, by decide +kernel⟩

/-- C113 is false in the code for elements without CREX columns that are not replication
factors: the CREX table is refused. -/
theorem C113_not_crex : ∃ data, bFile [sampleLong] = some data ∧
    Vartable.load_crex Env0 data = .err .parse :=
  ⟨(bFile [sampleLong]).getD [], by decide +kernel, by decide +kernel⟩

/-- An element as the WMO lists it. -/
def sampleBlock : BEntry where
  FXY := "001001".toList
  ElementName_en := some "WMO block number".toList
  ElementName_E := none
  BUFR_Unit := "Numeric".toList
  BUFR_Scale := 0
  BUFR_ReferenceValue := 0
  BUFR_DataWidth_Bits := 7
  CREX_Unit := some "Numeric".toList
  CREX_Scale := some 0
  CREX_DataWidth_Char := some 2

/-- A replication factor, without CREX columns. -/
def sampleFactor : BEntry where
  FXY := "031001".toList
  ElementName_en := none
  ElementName_E := some "Delayed descriptor replication factor".toList
  BUFR_Unit := "Numeric".toList
  BUFR_Scale := 0
  BUFR_ReferenceValue := 0
  BUFR_DataWidth_Bits := 8
  CREX_Unit := none
  CREX_Scale := none
  CREX_DataWidth_Char := none

/-- They say what is expected, in whatever order. -/
theorem samples_say : List.Forall₂ (fun e (r : BufrRow × Option CrexRow) => ElementSays e r.1 r.2)
    [sampleFactor, sampleBlock]
    [(⟨31, 1, ascii "NUMERIC", 0, 0, 8⟩, none),
      (⟨1, 1, ascii "NUMERIC", 0, 0, 7⟩, some ⟨1, 1, ascii "NUMERIC", 0, 2⟩)] := by
  refine .cons ?_ (.cons ?_ .nil)
  · exact ⟨⟨by unfold PlainText; decide +kernel, ⟨48, 51, 49, 48, 48, 49, by decide +kernel⟩, by decide +kernel⟩,
      ⟨_, .inr ⟨rfl, rfl⟩, by unfold PlainText; decide +kernel⟩,
      ⟨by unfold PlainText; decide +kernel, by decide +kernel, by unfold UnitFits; decide +kernel⟩,
      by decide, by decide, by decide, by simp, fun _ => .inl rfl⟩
  · exact ⟨⟨by unfold PlainText; decide +kernel, ⟨48, 48, 49, 48, 48, 49, by decide +kernel⟩, by decide +kernel⟩,
      ⟨_, .inl rfl, by unfold PlainText; decide +kernel⟩,
      ⟨by unfold PlainText; decide +kernel, by decide +kernel, by unfold UnitFits; decide +kernel⟩,
      by decide, by decide, by decide, by
        intro d hd
        obtain rfl : _ = d := Option.some.inj hd
        exact ⟨rfl, rfl, by unfold UnitFits; decide +kernel, ⟨_, rfl, by unfold PlainText; decide +kernel,
          by decide +kernel⟩, rfl, by decide, by decide, rfl, by decide⟩, by simp⟩

/-- The elements are put in order. -/
example (E : Env) : ∃ data t rows', bFile [sampleFactor, sampleBlock] = some data ∧
    Vartable.load_bufr E data = .ok t ∧
    rows'.Perm [⟨31, 1, ascii "NUMERIC", 0, 0, 8⟩, ⟨1, 1, ascii "NUMERIC", 0, 0, 7⟩] ∧
    Increasing (rows'.map fun r => descriptorCode 0 r.x r.y) ∧
    List.Forall₂ (fun (r : BufrRow) (e : VartableEntry) => r.Describes e.varinfo) rows' t.entries :=
  C113_bufr_partial E _ _ samples_say (by decide +kernel)

/-- The factor is not in the CREX table. -/
example (E : Env) : ∃ data t rows', bFile [sampleFactor, sampleBlock] = some data ∧
    Vartable.load_crex E data = .ok t ∧ rows'.Perm [⟨1, 1, ascii "NUMERIC", 0, 2⟩] ∧
    Increasing (rows'.map fun r => descriptorCode 0 r.x r.y) ∧
    List.Forall₂ (fun (r : CrexRow) (e : VartableEntry) => r.Describes e.varinfo) rows' t.entries :=
  C113_crex_partial E _ _ samples_say (by decide +kernel) (by decide +kernel)

/-! ## C114 -/

/-- The numbers in a text of six characters. -/
def textNums (s : List Char) : Nat × Nat × Nat :=
  match plainBytes s with
  | [c, d1, d2, d3, d4, d5] => ((letterF c).getD 0, natOfDigits [d1, d2], natOfDigits [d3, d4, d5])
  | _ => (0, 0, 0)

theorem textNums_eq {s : List Char} {f x y : Nat} (h : IsDescriptorText (plainBytes s) f x y) :
    textNums s = (f, x, y) := by
  obtain ⟨c, d1, d2, d3, d4, d5, he, hf, -, hx, -, hy, -⟩ := h
  unfold textNums
  rw [he]
  simp only [hf, Option.getD_some, hx, hy]

/-- Groups hold what the pairs list under each key. -/
def Holds (d : Groups) (pairs : List (List Char × List Char)) : Prop :=
  (d.map (·.1)).Nodup ∧ (∀ e ∈ d, e.2 = (pairs.filter fun p => p.1 = e.1).map (·.2)) ∧
    ∀ k, k ∈ d.map (·.1) ↔ k ∈ pairs.map (·.1)

theorem holds_add {d : Groups} {pairs : List (List Char × List Char)} (h : Holds d pairs)
    (p : List Char × List Char) : Holds (addPair d p) (pairs ++ [p]) := by
  obtain ⟨h1, h2, h3⟩ := h
  unfold addPair
  by_cases hk : p.1 ∈ d.map (·.1)
  · rw [if_pos hk]
    have hkeys : (d.map fun e => if e.1 = p.1 then (e.1, e.2 ++ [p.2]) else e).map (·.1) = d.map (·.1) := by
      rw [List.map_map]
      apply List.map_congr_left
      intro e _
      simp only [Function.comp]
      split <;> rfl
    refine ⟨by rw [hkeys]; exact h1, ?_, ?_⟩
    · intro e' he'
      obtain ⟨e, he, rfl⟩ := List.mem_map.mp he'
      by_cases hx : e.1 = p.1
      · simp only [if_pos hx, List.filter_append, List.map_append, ← h2 e he]
        simp [hx]
      · simp only [if_neg hx, List.filter_append, List.map_append, ← h2 e he]
        simp [Ne.symm hx]
    · intro k
      rw [hkeys, h3 k]
      simp only [List.map_append, List.mem_append, List.map_cons, List.map_nil, List.mem_cons,
        List.not_mem_nil, or_false]
      constructor
      · exact .inl
      · rintro (h | rfl)
        · exact h
        · exact (h3 _).mp hk
  · rw [if_neg hk]
    have hk' : p.1 ∉ pairs.map (·.1) := fun h => hk ((h3 _).mpr h)
    refine ⟨?_, ?_, ?_⟩
    · rw [List.map_append, List.nodup_append]
      refine ⟨h1, by simp, ?_⟩
      intro a ha b hb
      obtain rfl : b = p.1 := by simpa using hb
      rintro rfl
      exact hk ha
    · intro e he
      rcases List.mem_append.mp he with he | he
      · have hx : e.1 ≠ p.1 := by
          rintro hx
          exact hk (hx ▸ List.mem_map.mpr ⟨e, he, rfl⟩)
        rw [List.filter_append, List.map_append, ← h2 e he]
        simp [Ne.symm hx]
      · obtain rfl : e = (p.1, [p.2]) := by simpa using he
        rw [List.filter_append, List.filter_eq_nil_iff.mpr]
        · simp
        · intro q hq
          simp only [decide_eq_true_eq]
          intro hx
          exact hk' (hx ▸ List.mem_map.mpr ⟨q, hq, rfl⟩)
    · intro k
      simp only [List.map_append, List.mem_append, h3 k, List.map_cons, List.map_nil]

theorem holds_fold (pairs : List (List Char × List Char)) : Holds (pairs.foldl addPair []) pairs := by
  have key : ∀ (more done : List (List Char × List Char)) (d : Groups), Holds d done →
      Holds (more.foldl addPair d) (done ++ more) := by
    intro more
    induction more with
    | nil => intro done d h; simpa using h
    | cons p more ih =>
      intro done d h
      have := ih (done ++ [p]) _ (holds_add h p)
      simpa using this
  have := key pairs [] [] ⟨by simp, by simp, by simp⟩
  simpa using this

theorem holds_group (pairs : List (List Char × List Char)) :
    Holds (groupD pairs) pairs ∧ (groupD pairs).Pairwise fun a b => leText a.1 b.1 = true := by
  have h := holds_fold pairs
  have hf : ((pairs.foldl addPair []).filter fun e => e.2 ≠ []) = pairs.foldl addPair [] := by
    rw [List.filter_eq_self]
    intro e he
    simp only [ne_eq, decide_not, Bool.not_eq_eq_eq_not, Bool.not_true, decide_eq_false_iff_not]
    intro hx
    have := h.2.1 e he
    rw [hx] at this
    have hk : e.1 ∈ pairs.map (·.1) := (h.2.2 _).mp (List.mem_map.mpr ⟨e, he, rfl⟩)
    obtain ⟨q, hq, hq'⟩ := List.mem_map.mp hk
    have hnil := List.map_eq_nil_iff.mp this.symm
    rw [List.filter_eq_nil_iff] at hnil
    exact hnil q hq (by simpa using hq')
  unfold groupD
  rw [hf]
  have hp := List.perm_insertionSort (fun a b : List Char × List (List Char) => leText a.1 b.1 = true)
    (pairs.foldl addPair [])
  refine ⟨⟨?_, ?_, ?_⟩, sorted_text (fun e : List Char × List (List Char) => e.1) _⟩
  · exact (hp.map _).nodup_iff.mpr h.1
  · intro e he
    exact h.2.1 e (hp.mem_iff.mp he)
  · intro k
    rw [← h.2.2 k]
    exact (hp.map _).mem_iff

/-- A sequence whose texts are good. -/
structure GoodSeq (e : List Char × List (List Char)) : Prop where
  key : SixDigits e.1 3 (textNums e.1).2.1 (textNums e.1).2.2
  some_member : e.2 ≠ []
  few : e.2.length < 4294967296
  members : ∀ v ∈ e.2, PlainText v ∧
    IsDescriptorText (plainBytes v) (textNums v).1 (textNums v).2.1 (textNums v).2.2

theorem text_of_ge {body : List Byte} (h : ∀ b ∈ body, 32 ≤ b.toNat) (hl : body.length < 199) :
    TextLine (body ++ [10]) := by
  refine ⟨body, rfl, fun h' => ?_, fun h' => ?_, hl⟩
  · exact absurd (h _ h') (by decide)
  · exact absurd (h _ h') (by decide)

theorem dec_nat (n : Nat) : Printer.dec (n : Int) = Crex.decDigits n := by
  unfold Printer.dec
  rw [if_neg (by omega)]
  rfl

theorem seqLines_text {e : List Char × List (List Char)} (h : GoodSeq e) :
    ∀ l ∈ seqLines e, TextLine l := by
  have h32 : ∀ b : Byte, b = 32 → 32 ≤ b.toNat := by rintro _ rfl; decide
  intro l hl
  unfold seqLines at hl
  split at hl
  · simp at hl
  · next v vals hv =>
    rcases List.mem_cons.mp hl with rfl | hl
    · have hm := h.members v (by rw [hv]; simp)
      refine text_of_ge ?_ ?_
      · intro b hb
        simp only [List.mem_append, List.mem_cons, or_assoc] at hb
        rcases hb with h' | h' | h' | h' | h' | h'
        all_goals first
          | exact h32 b h'
          | exact field_ge _ h.key.1 b h'
          | exact field_ge _ hm.1 b h'
          | exact num_ge _ _ b h'
      · have hn : (Printer.dec (e.2.length : Int)).length ≤ 10 := by
          have := h.few
          exact dec_length (by norm_num; omega) (by norm_num; omega) (by omega)
        simp only [List.length_append, List.length_cons, field_length _ h.key.1, field_length _ hm.1,
          num, List.length_replicate]
        omega
    · obtain ⟨w, hw, rfl⟩ := List.mem_map.mp hl
      have hm := h.members w (by rw [hv]; simp [hw])
      refine text_of_ge ?_ (by simp [field_length _ hm.1])
      intro b hb
      rcases List.mem_append.mp hb with hb | hb
      · exact h32 b (List.eq_of_mem_replicate hb)
      · exact field_ge _ hm.1 b hb

theorem seqLines_writes {es : Groups} (h : ∀ e ∈ es, GoodSeq e) :
    WritesSequences (es.flatMap seqLines) (es.map fun e => ((textNums e.1).2, e.2.map textNums)) := by
  induction es with
  | nil => exact .nil
  | cons e es ih =>
    have he := h e (by simp)
    have ih := ih fun e he => h e (by simp [he])
    rw [List.flatMap_cons, List.map_cons]
    obtain ⟨k, vals⟩ := e
    cases vals with
    | nil => exact absurd rfl he.some_member
    | cons v vals =>
      have hm := he.members v (by simp)
      have hdec := decDigits_decimal (v :: vals).length
      have hl := he.few
      simp only [seqLines, List.cons_append, List.map_cons]
      refine .seq _ _ _ _ _ (vals.map textNums) _ _ ⟨?_, 32, plainBytes k,
        32 :: num 2 ((v :: vals).length : Nat) ++ 32 :: field 6 v ++ [10], 0, plainBytes v, [10],
        ?_, he.key.2.1,
        ⟨1 + (2 - (Printer.dec ((v :: vals).length : Int)).length), Crex.decDigits (v :: vals).length,
          ?_, hdec.1, hdec.2.1, ?_, ?_⟩, hm.2⟩ ?_ ih
      · simp only [List.length_append, List.length_cons, field_length _ he.key.1, field_length _ hm.1,
          num, List.length_replicate]
        omega
      · rw [field_six he.key.1 he.key.2.1]
        simp
      · rw [field_six hm.1 hm.2, num, dec_nat]
        simp [List.replicate_add]
      · rw [← digitsValue_nat, hdec.2.2.1]; simp
      · simpa using hl
      · have hall : ∀ w ∈ vals, PlainText w ∧
            IsDescriptorText (plainBytes w) (textNums w).1 (textNums w).2.1 (textNums w).2.2 :=
          fun w hw => he.members w (by simp [hw])
        clear hm hdec hl he ih h
        induction vals with
        | nil => exact .nil
        | cons w vals ih =>
          obtain ⟨p, d⟩ := hall w (by simp)
          refine .cons ⟨by simp [field_length _ p], plainBytes w, [10], ?_, d⟩
            (ih fun w hw => hall w (by simp [hw]))
          show List.replicate 11 32 ++ field 6 w ++ [10] = _
          rw [field_six p d, List.append_assoc]

/-- C114: a sequence table made from any list of pairs of a sequence and one of its members
is loaded, and gives for each sequence its members in the order of the list, and nothing for
other codes. -/
theorem C114_sequences (pairs : List (List Char × List Char))
    (rows : List ((Nat × Nat) × (Nat × Nat × Nat))) (h : List.Forall₂ PairSays pairs rows)
    (hne : pairs ≠ []) (hfew : pairs.length < 4294967296) :
    ∃ t, DTable.load (dFile pairs) = .ok t ∧
      (∀ x y, (x, y) ∈ rows.map (·.1) → t.query (descriptorCode 3 x y) =
        .ok ((rows.filter fun r => r.1 = (x, y)).map fun r => descriptorCode r.2.1 r.2.2.1 r.2.2.2)) ∧
      (∀ code, (∀ r ∈ rows, descriptorCode 3 r.1.1 r.1.2 ≠ code) → t.query code = .err .notfound) := by
  have hsays : rows = pairs.map (fun p => ((textNums p.1).2, textNums p.2)) ∧
      ∀ p ∈ pairs, PairSays p ((textNums p.1).2, textNums p.2) := by
    clear hne hfew
    induction h with
    | nil => simp
    | @cons p r pairs rows h1 _ ih =>
      have e1 := textNums_eq h1.key.2.1
      have e2 := textNums_eq h1.member
      have er : r = ((textNums p.1).2, textNums p.2) := by rw [e1, e2]
      refine ⟨?_, ?_⟩
      · rw [List.map_cons, ← er, ← ih.1]
      · intro q hq
        rcases List.mem_cons.mp hq with rfl | hq
        · rw [← er]; exact h1
        · exact ih.2 q hq
  obtain ⟨rfl, hp⟩ := hsays
  obtain ⟨⟨hnd, hvals, hkeys⟩, hsorted⟩ := holds_group pairs
  have good : ∀ e ∈ groupD pairs, GoodSeq e := by
    intro e he
    have hk : e.1 ∈ pairs.map (·.1) := (hkeys _).mp (List.mem_map.mpr ⟨e, he, rfl⟩)
    obtain ⟨q, hq, hq'⟩ := List.mem_map.mp hk
    have hv := hvals e he
    refine ⟨?_, ?_, ?_, ?_⟩
    · have := (hp q hq).key
      rw [hq'] at this
      exact this
    · rw [hv]
      intro hx
      have hnil := List.map_eq_nil_iff.mp hx
      rw [List.filter_eq_nil_iff] at hnil
      exact hnil q hq (by simpa using hq')
    · rw [hv, List.length_map]
      exact Nat.lt_of_le_of_lt (List.length_filter_le _ _) hfew
    · intro v hv'
      rw [hv] at hv'
      obtain ⟨p, hp', rfl⟩ := List.mem_map.mp hv'
      have := hp p (List.mem_filter.mp hp').1
      exact ⟨this.plain, this.member⟩
  have hne' : groupD pairs ≠ [] := by
    intro hx
    obtain ⟨p, hp'⟩ := List.exists_mem_of_ne_nil _ hne
    have := (hkeys p.1).mpr (List.mem_map.mpr ⟨p, hp', rfl⟩)
    rw [hx] at this
    simp at this
  have hinc : Increasing (((groupD pairs).map fun e => ((textNums e.1).2, e.2.map textNums)).map
      fun p => descriptorCode 3 p.1.1 p.1.2) := by
    rw [List.map_map]
    unfold Increasing
    rw [List.pairwise_map]
    have hnd' : (groupD pairs).Pairwise fun a b => a.1 ≠ b.1 := List.pairwise_map.mp hnd
    refine (hsorted.and hnd').imp_of_mem ?_
    intro a b ha hb hab
    have ho := six_order (by omega) (good a ha).key (good b hb).key
    have h1 := ho.1 hab.1
    have h2 : _ ≠ _ := fun hx => hab.2 (ho.2 hx)
    exact Nat.lt_of_le_of_ne h1 h2
  obtain ⟨t, ht, hq, hn⟩ := C88_sequences ((groupD pairs).flatMap seqLines) _ (by
    intro l hl
    obtain ⟨e, he, hl⟩ := List.mem_flatMap.mp hl
    exact seqLines_text (good e he) l hl) (seqLines_writes good) (by simpa using hne') hinc
  refine ⟨t, ht, ?_, ?_⟩
  · intro x y hxy
    rw [List.map_map] at hxy
    obtain ⟨p, hp', hpe⟩ := List.mem_map.mp hxy
    simp only [Function.comp] at hpe
    obtain ⟨e, he, hek⟩ := List.mem_map.mp ((hkeys p.1).mpr (List.mem_map.mpr ⟨p, hp', rfl⟩))
    have := hq _ (List.mem_map.mpr ⟨e, he, rfl⟩)
    simp only [hek, hpe] at this
    rw [this, hvals e he, List.map_map, List.map_map, List.filter_map, List.map_map]
    congr 1
    have hfil : (pairs.filter fun q => q.1 = e.1) =
        pairs.filter ((fun r : (Nat × Nat) × (Nat × Nat × Nat) => decide (r.1 = (x, y))) ∘
          fun p => ((textNums p.1).2, textNums p.2)) := by
      apply List.filter_congr
      intro q hq'
      simp only [Function.comp, decide_eq_decide]
      rw [← hpe, hek]
      constructor
      · rintro hx; rw [hx]
      · intro hx
        refine (six_order (by omega) (hp q hq').key (hp p hp').key).2 ?_
        simp only [hx]
    rw [hfil]
    rfl
  · intro code hc
    refine hn code ?_
    intro p hp' hx
    obtain ⟨e, he, rfl⟩ := List.mem_map.mp hp'
    obtain ⟨q, hq', hqe⟩ := List.mem_map.mp ((hkeys e.1).mp (List.mem_map.mpr ⟨e, he, rfl⟩))
    refine hc _ (List.mem_map.mpr ⟨q, hq', rfl⟩) ?_
    rw [hqe]
    exact hx

/-- Members of two sequences, one after the other. -/
def samplePairs : List (List Char × List Char) :=
  [("301002".toList, "001003".toList), ("301001".toList, "001001".toList),
    ("301002".toList, "R01000".toList), ("301001".toList, "001002".toList),
    ("301002".toList, "031001".toList)]

/-- What they say. -/
theorem samplePairs_say : List.Forall₂ PairSays samplePairs
    [((1, 2), (0, 1, 3)), ((1, 1), (0, 1, 1)), ((1, 2), (1, 1, 0)), ((1, 1), (0, 1, 2)),
      ((1, 2), (0, 31, 1))] := by
  have k2 : SixDigits "301002".toList 3 1 2 :=
    ⟨by unfold PlainText; decide +kernel, ⟨51, 48, 49, 48, 48, 50, by decide +kernel⟩, by decide +kernel⟩
  have k1 : SixDigits "301001".toList 3 1 1 :=
    ⟨by unfold PlainText; decide +kernel, ⟨51, 48, 49, 48, 48, 49, by decide +kernel⟩, by decide +kernel⟩
  exact .cons ⟨k2, by unfold PlainText; decide +kernel, ⟨48, 48, 49, 48, 48, 51, by decide +kernel⟩⟩
    (.cons ⟨k1, by unfold PlainText; decide +kernel, ⟨48, 48, 49, 48, 48, 49, by decide +kernel⟩⟩
    (.cons ⟨k2, by unfold PlainText; decide +kernel, ⟨82, 48, 49, 48, 48, 48, by decide +kernel⟩⟩
    (.cons ⟨k1, by unfold PlainText; decide +kernel, ⟨48, 48, 49, 48, 48, 50, by decide +kernel⟩⟩
    (.cons ⟨k2, by unfold PlainText; decide +kernel, ⟨48, 51, 49, 48, 48, 49, by decide +kernel⟩⟩ .nil))))

/-- Each sequence gets its members. -/
example : ∃ t, DTable.load (dFile samplePairs) = .ok t ∧
    t.query (descriptorCode 3 1 2) = .ok [descriptorCode 0 1 3, descriptorCode 1 1 0, descriptorCode 0 31 1] ∧
    t.query (descriptorCode 3 1 3) = .err .notfound := by
  obtain ⟨t, h1, h2, h3⟩ := C114_sequences samplePairs _ samplePairs_say (by decide) (by decide)
  exact ⟨t, h1, h2 1 2 (by decide), h3 _ (by decide)⟩

/-! ## C115 -/

open Tabledir in
/-- C115, partially: the BUFR file made of a version without a subversion is found as the
table of the WMO with this version, and the sequence files go with the element files.
Missing: subversions, see `C115_not_subversion`, versions greater than 255, see
`C115_not_version`, and CREX files, see `C115_not_crex`. -/
theorem C115_names_partial (v : Nat) (hv : v < 256) :
    fileKind (bufrName v 0) = some (.bufr ⟨0, 0, 0, .ofNat v, 0⟩) ∧
    (∀ (k : Kind) (dir : List Byte) (v sv : Nat),
      (Table.make k dir (bufrName v sv)).dtable_pathname = join dir (bufrNameD v sv) ∧
      (Table.make k dir (crexName v sv)).dtable_pathname = join dir (crexNameD v sv)) := by
  constructor
  · have h := C62_names_partial.2.2 0 0 v 0 (by omega) (by omega) hv (by omega)
    have hz : zeros 3 v = zeroPadded 3 v := (Crex.decDigits_padded 3 v (by omega) (by omega)).2
    have : bufrName v 0 = bufrTableLongName 0 0 0 v 0 := by
      unfold bufrName bufrTableLongName
      have e1 : ascii "B0000000000000" = ascii "B00" ++ zeroPadded 3 0 ++ zeroPadded 4 0 ++ zeroPadded 4 0 := by
        decide +kernel
      have e2 : zeros 3 0 = zeroPadded 3 0 := by decide +kernel
      rw [hz, e1, e2]
    rw [this, h]
    rfl
  · intro k dir v sv
    constructor
    · have := (C62_dtable k dir (ascii "B0000000000000" ++ zeros 3 v ++ zeros 3 sv) (ascii "txt")
        (by simp [ascii]) (by decide)).2.2.2
      exact this
    · have := (C62_dtable k dir (ascii "B00" ++ zeros 2 v ++ zeros 2 sv) (ascii "txt")
        (by simp [ascii]) (by decide)).2.2.2
      exact this

open Tabledir in
/-- C115 is false in the code for subversions: a table of the WMO becomes a local table. -/
theorem C115_not_subversion : fileKind (bufrName 19 1) = some (.bufr ⟨0, 0, 0, 19, 1⟩) := by
  decide +kernel

open Tabledir in
/-- C115 is false in the code for versions greater than 255, like those of a file given with
`--btable`, whose subversion is taken for a local version. -/
theorem C115_not_version : fileKind (bufrName 300 0) = some (.bufr ⟨0, 0, 0, 44, 0⟩) := by
  decide +kernel

open Tabledir in
/-- C115 is false in the code for CREX files: the version is taken for the edition of CREX,
and the subversion for the version. -/
theorem C115_not_crex : fileKind (crexName 33 0) = some (.crex ⟨33, 0, 0, 0, 0, 0, 0⟩) := by
  decide +kernel

open Tabledir in
/-- The names of the files of version 33. -/
example : bufrName 33 0 = ascii "B0000000000000033000.txt" ∧ crexName 33 0 = ascii "B003300.txt" ∧
    (Table.make .raw (ascii "/t") (bufrName 33 0)).dtable_pathname =
      ascii "/t/D0000000000000033000.txt" := by decide +kernel

end Import

end Wreport
