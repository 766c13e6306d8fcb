import Verif.Lemmas.TableText
import Verif.Props.Tables

/-! # Text of table files: C88 -/

namespace Wreport

open Spec

theorem forall₂_and_left {α β : Type} {P : α → Prop} {R : α → β → Prop} {l : List α} {m : List β}
    (h : List.Forall₂ (fun a b => P a ∧ R a b) l m) : (∀ a ∈ l, P a) ∧ List.Forall₂ R l m := by
  induction h with
  | nil => exact ⟨by simp, .nil⟩
  | cons h _ ih =>
    refine ⟨?_, .cons h.2 ih.2⟩
    intro a ha
    rcases List.mem_cons.mp ha with rfl | ha
    · exact h.1
    · exact ih.1 a ha

theorem forall₂_through {α β γ : Type} {R : α → β → Prop} {S : α → γ → Prop} {T : β → γ → Prop}
    {l : List α} {m : List β} {n : List γ} (h : List.Forall₂ R l m) (h' : List.Forall₂ S l n)
    (hT : ∀ a b c, R a b → S a c → T b c) : List.Forall₂ T m n := by
  induction h generalizing n with
  | nil => cases h'; exact .nil
  | cons h _ ih =>
    cases h' with
    | cons h1 h2 => exact .cons (hT _ _ _ h h1) (ih h2)

/-- The elements of a BUFR table are those that the lines of its file describe, in
the same order, and the codes in the file increase. -/
theorem C88_bufr (E : Env) (lines : List (List Byte)) (rows : List BufrRow)
    (h : List.Forall₂ (fun line (r : BufrRow) => TextLine line ∧ r.WrittenIn line) lines rows)
    (t : Vartable) (ht : Vartable.load_bufr E lines.flatten = .ok t) :
    List.Forall₂ (fun (r : BufrRow) (e : VartableEntry) => r.Describes e.varinfo) rows t.entries ∧
    Increasing (rows.map fun r => descriptorCode 0 r.x r.y) := by
  obtain ⟨hlines, hrows⟩ := forall₂_and_left h
  obtain ⟨hinc, hent⟩ := C40_contents_bufr E _ t ht
  rw [fgetsLines_text hlines] at hent
  have hall : List.Forall₂ (fun (r : BufrRow) (e : VartableEntry) => r.Describes e.varinfo) rows
      t.entries := by
    refine forall₂_through hrows hent fun line r e hw ⟨h1, h2⟩ => ?_
    obtain ⟨c, s, rest, hl, hs⟩ := hw.code
    rw [lineCode_eq hl hs, Res.ok.injEq] at h1
    rw [← h1] at h2
    exact bufrEntry_describes hw h2
  refine ⟨hall, ?_⟩
  have : rows.map (fun r => descriptorCode 0 r.x r.y) = t.entries.map (·.varinfo.code) := by
    clear hinc hent ht h hrows
    generalize t.entries = es at hall
    induction hall with
    | nil => rfl
    | cons h _ ih => rw [List.map_cons, List.map_cons, ih, h.code]
  rw [this]
  exact hinc

/-- A line of a CREX table with an element, or without one: delayed replication
factors may have no CREX columns. -/
def Spec.CrexLine (line : List Byte) : Option CrexRow → Prop
  | some r => r.WrittenIn line
  | none => line.length < 157 ∧ ∃ c s rest y, line = c :: (s ++ rest) ∧ IsDescriptorText s 0 31 y

/-- The elements of a CREX table are those that the lines of its file describe, in
the same order, and the codes in the file increase. -/
theorem C88_crex (E : Env) (lines : List (List Byte)) (rows : List (Option CrexRow))
    (h : List.Forall₂ (fun line (r : Option CrexRow) => TextLine line ∧ CrexLine line r) lines rows)
    (t : Vartable) (ht : Vartable.load_crex E lines.flatten = .ok t) :
    List.Forall₂ (fun (r : CrexRow) (e : VartableEntry) => r.Describes e.varinfo)
      (rows.filterMap id) t.entries ∧
    Increasing ((rows.filterMap id).map fun r => descriptorCode 0 r.x r.y) := by
  obtain ⟨hlines, hrows⟩ := forall₂_and_left h
  obtain ⟨hinc, hent⟩ := C40_contents_crex E _ t ht
  rw [fgetsLines_text hlines] at hent
  have hrows' : List.Forall₂ (fun line (r : CrexRow) => r.WrittenIn line)
      (lines.filter fun l => 157 ≤ l.length) (rows.filterMap id) := by
    clear hinc hent ht h hlines
    induction hrows with
    | nil => exact .nil
    | @cons line r lines rows h _ ih =>
      cases r with
      | none =>
        rw [List.filter_cons_of_neg (by have := h.1; simp; omega), List.filterMap_cons_none rfl]
        exact ih
      | some r =>
        rw [List.filter_cons_of_pos (by have := h.size; simp; omega), List.filterMap_cons_some (f := id) (a := some r) (b := r) rfl]
        exact .cons h ih
  have hall : List.Forall₂ (fun (r : CrexRow) (e : VartableEntry) => r.Describes e.varinfo)
      (rows.filterMap id) t.entries := by
    refine forall₂_through hrows' hent fun line r e hw ⟨h1, h2⟩ => ?_
    obtain ⟨c, s, rest, hl, hs⟩ := hw.code
    rw [lineCode_eq hl hs, Res.ok.injEq] at h1
    rw [← h1] at h2
    exact crexEntry_describes hw h2
  refine ⟨hall, ?_⟩
  have : (rows.filterMap id).map (fun r => descriptorCode 0 r.x r.y) =
      t.entries.map (·.varinfo.code) := by
    clear hinc hent ht h hrows hrows'
    generalize rows.filterMap id = rows' at hall
    generalize t.entries = es at hall
    induction hall with
    | nil => rfl
    | cons h _ ih => rw [List.map_cons, List.map_cons, ih, h.code]
  rw [this]
  exact hinc

/-- A file that writes sequences in order of code is loaded, and the table then has
exactly these sequences. -/
theorem C88_sequences (lines : List (List Byte)) (seqs : List ((Nat × Nat) × List (Nat × Nat × Nat)))
    (hl : ∀ l ∈ lines, TextLine l) (h : WritesSequences lines seqs) (hne : seqs ≠ [])
    (hinc : Increasing (seqs.map fun p => descriptorCode 3 p.1.1 p.1.2)) :
    ∃ t, DTable.load lines.flatten = .ok t ∧
      (∀ p ∈ seqs, t.query (descriptorCode 3 p.1.1 p.1.2) =
        .ok (p.2.map fun m => descriptorCode m.1 m.2.1 m.2.2)) ∧
      (∀ code, (∀ p ∈ seqs, descriptorCode 3 p.1.1 p.1.2 ≠ code) →
        t.query code = .err .notfound) := by
  have hlists := writes_lists h
  have hlists' : Lists (fgetsLines lines.flatten) (coded seqs) := by
    rw [fgetsLines_text hl]; exact hlists
  obtain ⟨t, ht⟩ := DTable.load_ok hlists' (by simpa [coded] using hne)
  obtain ⟨tbl, h1, h2⟩ := C42_lookup_partial _ t ht
  have : tbl = coded seqs := C42_lists_unique _ _ _ h1 hlists'
  subst this
  have hmap : (coded seqs).map (·.1) = seqs.map fun p => descriptorCode 3 p.1.1 p.1.2 := by
    simp [coded]
  obtain ⟨q1, q2⟩ := h2 (by rw [hmap]; exact hinc)
  refine ⟨t, ht, fun p hp => q1 _ _ ?_, fun code hc => q2 code ?_⟩
  · exact List.mem_map.mpr ⟨p, hp, rfl⟩
  · rw [hmap, List.mem_map]
    rintro ⟨p, hp, he⟩
    exact hc p hp he

/-- A line of a table file, as in `/repo/tables`. -/
def sampleRow1 : List Byte := utf8
  " 001001 WMO BLOCK NUMBER                                                 NUMERIC                    0            0   7 NUMERIC                   0         2\n"

/-- A line with a blank after the minus sign. -/
def sampleRow2 : List Byte := utf8
  " 001041 ABSOLUTE PLATFORM VELOCITY - FIRST COMPONENT                     M/S                        5 - 1073741824  31 M/S                       5        10\n"

/-- A line with a code table. -/
def sampleRow3 : List Byte := utf8
  " 002001 TYPE OF STATION                                                  CODE TABLE 2001            0            0   2 CODE TABLE 2001           0         1\n"

/-- A number, given where it starts and ends. -/
theorem startsInt_pos {l : List Byte} (k : Nat) (ds rest : List Byte) (n : Nat)
    (h : l = List.replicate k 32 ++ (ds ++ rest) ∧ ds ≠ [] ∧
      (∀ d ∈ ds, 48 ≤ d.toNat ∧ d.toNat ≤ 57) ∧ natOfDigits ds = n ∧ n < 2 ^ 63 ∧
      ∀ b ∈ rest.head?, ¬ (48 ≤ b.toNat ∧ b.toNat ≤ 57)) : StartsInt l n :=
  ⟨n, .inl ⟨rfl, k, ds, rest, h⟩⟩

theorem sampleRow1_written : TextLine sampleRow1 ∧
    BufrRow.WrittenIn ⟨1, 1, ascii "NUMERIC", 0, 0, 7⟩ sampleRow1 :=
  ⟨⟨sampleRow1.dropLast, by decide +kernel⟩, by decide +kernel, ⟨32, ascii "001001",
    sampleRow1.drop 7, by decide +kernel, 48, 48, 49, 48, 48, 49, by decide +kernel⟩,
    by unfold Padded; decide +kernel,
    startsInt_pos 2 [48] (sampleRow1.drop 101) 0 (by decide +kernel),
    startsInt_pos 11 [48] (sampleRow1.drop 114) 0 (by decide +kernel),
    startsInt_pos 2 [55] (sampleRow1.drop 118) 7 (by decide +kernel),
    by decide, by decide, by decide⟩

theorem sampleRow2_written : TextLine sampleRow2 ∧
    BufrRow.WrittenIn ⟨1, 41, ascii "M/S", 5, -1073741824, 31⟩ sampleRow2 :=
  ⟨⟨sampleRow2.dropLast, by decide +kernel⟩, by decide +kernel, ⟨32, ascii "001041",
    sampleRow2.drop 7, by decide +kernel, 48, 48, 49, 48, 52, 49, by decide +kernel⟩,
    by unfold Padded; decide +kernel,
    startsInt_pos 2 [53] (sampleRow2.drop 101) 5 (by decide +kernel),
    ⟨1073741824, .inr ⟨rfl, 0, sampleRow2.drop 103, by decide +kernel, 1, ascii "1073741824",
      sampleRow2.drop 114, by unfold DigitText; decide +kernel⟩⟩,
    startsInt_pos 1 [51, 49] (sampleRow2.drop 118) 31 (by decide +kernel),
    by decide, by decide, by decide⟩

theorem sampleRow3_written : TextLine sampleRow3 ∧
    BufrRow.WrittenIn ⟨2, 1, ascii "CODE TABLE 2001", 0, 0, 2⟩ sampleRow3 :=
  ⟨⟨sampleRow3.dropLast, by decide +kernel⟩, by decide +kernel, ⟨32, ascii "002001",
    sampleRow3.drop 7, by decide +kernel, 48, 48, 50, 48, 48, 49, by decide +kernel⟩,
    by unfold Padded; decide +kernel,
    startsInt_pos 2 [48] (sampleRow3.drop 101) 0 (by decide +kernel),
    startsInt_pos 11 [48] (sampleRow3.drop 114) 0 (by decide +kernel),
    startsInt_pos 2 [50] (sampleRow3.drop 118) 2 (by decide +kernel),
    by decide, by decide, by decide⟩

example : List.Forall₂ (fun line (r : BufrRow) => TextLine line ∧ r.WrittenIn line)
    [sampleRow1, sampleRow2, sampleRow3]
    [⟨1, 1, ascii "NUMERIC", 0, 0, 7⟩, ⟨1, 41, ascii "M/S", 5, -1073741824, 31⟩,
      ⟨2, 1, ascii "CODE TABLE 2001", 0, 0, 2⟩] :=
  .cons sampleRow1_written (.cons sampleRow2_written (.cons sampleRow3_written .nil))

/-- The same line as a row of a CREX table. -/
example : CrexLine sampleRow3 (some ⟨2, 1, ascii "CODE TABLE 2001", 0, 1⟩) :=
  ⟨by decide +kernel, ⟨32, ascii "002001",
    sampleRow3.drop 7, by decide +kernel, 48, 48, 50, 48, 48, 49, by decide +kernel⟩,
    by unfold Padded; decide +kernel,
    startsInt_pos 2 [48] (sampleRow3.drop 146) 0 (by decide +kernel),
    startsInt_pos 6 [49] (sampleRow3.drop 156) 1 (by decide +kernel),
    by decide, by decide⟩

/-- The file of these lines is loaded. -/
example : (Vartable.load_bufr Env0 [sampleRow1, sampleRow2, sampleRow3].flatten).isOk = true := by decide +kernel

/-- Lines of a sequence table. -/
def sampleSeqLines : List (List Byte) :=
  [ascii " 300002  2 000002\n", ascii "           000003\n", ascii " 301001  1 001001\n"]

example : WritesSequences sampleSeqLines [((0, 2), [(0, 0, 2), (0, 0, 3)]), ((1, 1), [(0, 1, 1)])] ∧
    (∀ l ∈ sampleSeqLines, TextLine l) := by
  constructor
  · refine .seq _ 0 2 (0, 0, 2) [ascii "           000003\n"] [(0, 0, 3)] [ascii " 301001  1 001001\n"] _
      ⟨by decide, 32, ascii "300002", ascii "  2 000002\n", 0, ascii "000002", [10], by decide,
        ⟨51, 48, 48, 48, 48, 50, by decide⟩, ⟨2, [50], by decide, by decide,
          by unfold DigitText; decide, by decide, by decide⟩, 48, 48, 48, 48, 48, 50, by decide⟩
      (.cons ⟨by decide, ascii "000003", [10], by decide, 48, 48, 48, 48, 48, 51, by decide⟩ .nil) ?_
    exact .seq _ 1 1 (0, 1, 1) [] [] [] _
      ⟨by decide, 32, ascii "301001", ascii "  1 001001\n", 0, ascii "001001", [10], by decide,
        ⟨51, 48, 49, 48, 48, 49, by decide⟩, ⟨2, [49], by decide, by decide,
          by unfold DigitText; decide, by decide, by decide⟩, 48, 48, 49, 48, 48, 49, by decide⟩
      .nil .nil
  · intro l hl
    simp only [sampleSeqLines, List.mem_cons, List.not_mem_nil, or_false] at hl
    rcases hl with rfl | rfl | rfl
    · exact ⟨ascii " 300002  2 000002", by decide, by decide, by decide, by decide⟩
    · exact ⟨ascii "           000003", by decide, by decide, by decide, by decide⟩
    · exact ⟨ascii " 301001  1 001001", by decide, by decide, by decide, by decide⟩

end Wreport
