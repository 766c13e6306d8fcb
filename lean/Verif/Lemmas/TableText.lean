import Verif.Spec.TableText
import Verif.Lemmas.Tables
import Verif.Lemmas.Varcode

/-! # Text of table files -/

namespace Wreport

open Spec

theorem digitText_iff (b : Byte) : isDigit b = true ↔ DigitText b := isDigit_iff b

theorem digit_not_space {b : Byte} (h : DigitText b) : isSpace b = false := by
  obtain ⟨h1, h2⟩ := h
  simp [isSpace]; omega

theorem dropWhile_blanks {k : Nat} {c : Byte} {r : List Byte} (h : isSpace c = false) :
    (List.replicate k 32 ++ c :: r).dropWhile isSpace = c :: r := by
  induction k with
  | zero => simp [h]
  | succ k ih => rw [List.replicate_succ, List.cons_append, List.dropWhile_cons_of_pos (by decide), ih]

theorem leadDigits_eq {ds rest : List Byte} (hd : ∀ d ∈ ds, DigitText d)
    (hr : ∀ b ∈ rest.head?, ¬ DigitText b) (acc : Nat) :
    leadDigits acc (ds ++ rest) = ds.foldl (fun n d => n * 10 + (d.toNat - 48)) acc := by
  induction ds generalizing acc with
  | nil =>
    cases rest with
    | nil => rfl
    | cons b r =>
      have := hr b (by simp)
      rw [← digitText_iff] at this
      simp [leadDigits, this]
  | cons d ds ih =>
    have h1 := (digitText_iff d).mpr (hd d (by simp))
    rw [List.cons_append, leadDigits, if_pos h1, ih (fun x hx => hd x (by simp [hx]))]
    rfl

/-- `strtol` on a number. -/
theorem strtol_eq {l : List Byte} {n : Nat} (h : StartsNumber l n) : strtol l = n := by
  obtain ⟨k, ds, rest, rfl, hne, hd, hn, hlt, hr⟩ := h
  cases ds with
  | nil => exact absurd rfl hne
  | cons d ds =>
    have hdd := hd d (by simp)
    unfold strtol
    rw [List.cons_append, dropWhile_blanks (digit_not_space hdd)]
    have h45 : d ≠ 45 := by rintro rfl; exact absurd hdd.1 (by decide)
    have h43 : d ≠ 43 := by rintro rfl; exact absurd hdd.1 (by decide)
    simp only [if_neg h45, if_neg h43]
    have := leadDigits_eq hd hr 0
    rw [List.cons_append] at this
    rw [this]
    unfold natOfDigits at hn
    rw [hn]
    omega

theorem starts_blank {l : List Byte} {n : Nat} (h : StartsNumber l n) :
    ∃ d r, l.dropWhile isSpace = d :: r ∧ DigitText d ∧ StartsNumber (d :: r) n := by
  obtain ⟨k, ds, rest, rfl, hne, hd, hn, hlt, hr⟩ := h
  cases ds with
  | nil => exact absurd rfl hne
  | cons d ds =>
    have hdd := hd d (by simp)
    refine ⟨d, ds ++ rest, by rw [List.cons_append, dropWhile_blanks (digit_not_space hdd)], hdd,
      0, d :: ds, rest, by simp, by simp, hd, hn, hlt, hr⟩

/-- `getnumber` on a number with its sign. -/
theorem getnumber_eq {l : List Byte} {i : Int} (h : StartsInt l i) : getnumber l = .ok i := by
  obtain ⟨n, ⟨rfl, h⟩ | ⟨rfl, k, r, rfl, h⟩⟩ := h
  · obtain ⟨d, r, h1, h2, h3⟩ := starts_blank h
    unfold getnumber
    rw [h1]
    have h45 : d ≠ 45 := by rintro rfl; exact absurd h2.1 (by decide)
    simp only [if_neg h45]
    rw [strtol_eq h3]
  · unfold getnumber
    rw [dropWhile_blanks (by decide)]
    simp only [if_true]
    obtain ⟨d, r', h1, h2, h3⟩ := starts_blank h
    rw [h1, strtol_eq h3, if_neg (by omega)]

theorem lineCode_eq {line c s rest : _} {x y : Nat} (hl : line = c :: (s ++ rest))
    (hs : IsDescriptorText s 0 x y) : lineCode line = .ok (descriptorCode 0 x y) := by
  obtain ⟨f, d1, d2, d3, d4, d5, rfl, -, hd, rfl, hx, rfl, hy⟩ := hs
  subst hl
  unfold lineCode
  simp only [List.cons_append, List.nil_append, List.drop_succ_cons, List.drop_zero]
  have g1 : 48 ≤ d1.toNat ∧ d1.toNat ≤ 57 := hd d1 (by simp)
  have g2 : 48 ≤ d2.toNat ∧ d2.toNat ≤ 57 := hd d2 (by simp)
  rw [if_neg (by
    unfold charSub0
    rw [if_pos (by omega), if_pos (by omega)]
    omega), string_to_var_digits _ _ _ _ _ hd, shl_or _ _ 8 hy]
  unfold descriptorCode
  congr 1
  omega

theorem take_prefix_iff {p u : List Byte} (n : Nat) (hn : n = p.length) : u.take n = p ↔ p <+: u := by
  subst hn
  constructor
  · intro h; exact ⟨u.drop p.length, by
      have := List.take_append_drop p.length u
      rwa [h] at this⟩
  · rintro ⟨t, rfl⟩; simp

theorem normalise_eq (u : List Byte) : normalise_unit u = unitName u := by
  unfold normalise_unit unitName
  simp only [take_prefix_iff (p := ascii "CODE TABLE") 10 (by decide),
    take_prefix_iff (p := ascii "CODETABLE") 9 (by decide),
    take_prefix_iff (p := ascii "FLAG TABLE") 10 (by decide),
    take_prefix_iff (p := ascii "FLAGTABLE") 9 (by decide)]

theorem unitName_length {u : List Byte} (h : u.length < 24) : (unitName u).length < 24 := by
  unfold unitName
  split
  · decide
  split
  · decide
  · exact h

theorem dropWhile_blank_tail (k : Nat) (l : List Byte) :
    (List.replicate k 32 ++ l).dropWhile isSpace = l.dropWhile isSpace := by
  induction k with
  | zero => simp
  | succ k ih => rw [List.replicate_succ, List.cons_append, List.dropWhile_cons_of_pos (by decide), ih]

theorem readUnit_eq {line u : List Byte} {pos : Nat} (h : Padded (line.drop pos) 24 u) :
    readUnit line pos = .ok (unitName u) := by
  obtain ⟨h1, h2, h3⟩ := h
  have hu : (((line.drop pos).take 24).reverse.dropWhile isSpace).reverse = u := by
    rw [h2, List.reverse_append, List.reverse_replicate, dropWhile_blank_tail]
    cases hr : u.reverse with
    | nil =>
      have := congrArg List.reverse hr
      simpa using this.symm
    | cons b r =>
      have hl : u.getLast? = some b := by rw [← List.head?_reverse, hr]; rfl
      have hb := h3 b (by rw [hl]; rfl)
      rw [List.dropWhile_cons_of_neg (by simp [isSpace]; omega), ← hr, List.reverse_reverse]
  unfold readUnit
  simp only
  rw [hu, normalise_eq, if_pos (unitName_length h1)]

theorem toInt32_id {i : Int} (h : -2147483648 ≤ i ∧ i ≤ 2147483647) : toInt32 i = i := by
  unfold toInt32
  exact wrapInt_eq (by simp [inInt]; omega)

/-- The decimal digits that the table gives to a width. -/
theorem bufrDigits_spec (n : Nat) : (n = 1 → bufrDigits n = 1) ∧
    (n ≠ 1 → 2 ^ n ≤ 10 ^ bufrDigits n ∧
      (bufrDigits n = 0 ∨ 10 ^ (bufrDigits n - 1) < 2 ^ n)) := by
  refine ⟨fun h => by simp [bufrDigits, h], fun h => ?_⟩
  unfold bufrDigits
  rw [if_neg h]
  refine ⟨Nat.le_pow_clog (by norm_num) _, ?_⟩
  by_cases h0 : Nat.clog 10 (2 ^ n) = 0
  · exact .inl h0
  · right
    refine Nat.pow_pred_clog_lt_self (by norm_num) ?_
    rcases Nat.eq_zero_or_pos n with hn | hn
    · subst hn; simp at h0
    · exact Nat.one_lt_two_pow (by omega)

theorem bufrEntry_describes {E : Env} {r : BufrRow} {line : List Byte} (h : r.WrittenIn line)
    {v : Varinfo} (hv : bufrEntry E (descriptorCode 0 r.x r.y) line = .ok v) : r.Describes v := by
  unfold bufrEntry at hv
  rw [readUnit_eq h.unit, Res.ok_bind, getnumber_eq h.scale, Res.ok_bind, getnumber_eq h.ref,
    Res.ok_bind, getnumber_eq h.bits, Res.ok_bind, toInt32_id h.scale_fits,
    toInt32_id h.ref_fits] at hv
  have hb : (((r.bits : Int) % 4294967296)).toNat = r.bits := by
    have := h.bits_fits; omega
  rw [hb] at hv
  unfold bufrInfo at hv
  split at hv
  · next hu =>
    obtain ⟨a, b, c, d, e, f, g⟩ := compute_range_fields hv
    exact ⟨a, c, d, f, g, fun _ => ⟨b, e⟩, fun hn => absurd hu hn⟩
  · next hu =>
    obtain ⟨a, b, c, d, e, f, g⟩ := compute_range_fields hv
    refine ⟨a, c, d, f, g, fun hn => absurd hn hu, fun _ => ⟨?_, ?_⟩⟩
    · rw [b]
      simp only [Varinfo.raw, ne_eq, ite_not]
    · have := bufrDigits_spec r.bits
      have e' : v.len = bufrDigits r.bits := e
      rw [e']
      exact this

theorem crexEntry_describes {E : Env} {r : CrexRow} {line : List Byte} (h : r.WrittenIn line)
    {v : Varinfo} (hv : crexEntry E (descriptorCode 0 r.x r.y) line = .ok v) : r.Describes v := by
  unfold crexEntry at hv
  rw [readUnit_eq h.unit, Res.ok_bind, getnumber_eq h.scale, Res.ok_bind, getnumber_eq h.len,
    Res.ok_bind, toInt32_id h.scale_fits] at hv
  have hb : (((r.len : Int) % 4294967296)).toNat = r.len := by
    have := h.len_fits; omega
  rw [hb] at hv
  unfold crexInfo at hv
  obtain ⟨a, b, c, d, e, f, g⟩ := compute_range_fields hv
  refine ⟨a, c, d, e, ⟨f, g⟩, ?_⟩
  rw [b]
  simp only [Varinfo.raw, ne_eq, ite_not]

/-! ## Lines -/

theorem fgetsLoop_line (body : List Byte) (h : 10 ∉ body) (n : Nat) (acc rest : List Byte)
    (hn : body.length < n) :
    fgetsLoop n acc (body ++ 10 :: rest) =
      (acc.reverse ++ body ++ [10]) :: fgetsLoop 199 [] rest := by
  induction body generalizing n acc with
  | nil =>
    cases n with
    | zero => simp at hn
    | succ n => simp [fgetsLoop]
  | cons b body ih =>
    cases n with
    | zero => simp at hn
    | succ n =>
      simp only [List.mem_cons, not_or] at h
      rw [List.cons_append, fgetsLoop, if_neg (fun hb => h.1 hb.symm),
        ih h.2 n (b :: acc) (by simpa using hn)]
      simp

theorem fgetsLines_text {lines : List (List Byte)} (h : ∀ l ∈ lines, TextLine l) :
    fgetsLines lines.flatten = lines := by
  have key : fgetsLoop 199 [] lines.flatten = lines := by
    induction lines with
    | nil => rfl
    | cons l lines ih =>
      obtain ⟨body, hl, h10, -, hlen⟩ := h l (by simp)
      rw [List.flatten_cons, hl, List.append_assoc, List.singleton_append,
        fgetsLoop_line body h10 199 [] _ hlen, ih (fun l hl => h l (by simp [hl]))]
      simp
  unfold fgetsLines
  rw [key]
  conv_rhs => rw [← List.map_id lines]
  refine List.map_congr_left fun l hl => ?_
  obtain ⟨body, hl', -, h0, -⟩ := h l hl
  have hall : ∀ b ∈ l, (fun x : Byte => decide (x ≠ 0)) b = true := by
    intro b hb
    rw [hl'] at hb
    simp only [List.mem_append, List.mem_singleton] at hb
    rcases hb with hb | hb
    · simp only [ne_eq, decide_eq_true_eq]; rintro rfl; exact h0 hb
    · subst hb; decide
  have := List.takeWhile_append_of_pos (l₂ := []) hall
  simpa using this

/-! ## Sequences -/

theorem descriptor_first {s : List Byte} {x y : Nat} (h : IsDescriptorText s 3 x y) :
    s.getD 0 0 = 0x44 ∨ s.getD 0 0 = 0x33 := by
  obtain ⟨c, d1, d2, d3, d4, d5, rfl, hc, -⟩ := h
  simp only [List.getD_cons_zero]
  unfold letterF at hc
  split at hc <;> simp_all

theorem descriptor_length {s : List Byte} {f x y : Nat} (h : IsDescriptorText s f x y) :
    s.length = 6 := by
  obtain ⟨c, d1, d2, d3, d4, d5, rfl, -⟩ := h
  rfl

theorem descriptor_parse {s rest : List Byte} {f x y : Nat} (h : IsDescriptorText s f x y) :
    varcode_parse (s ++ rest) = .ok (descriptorCode f x y) := by
  obtain ⟨c, d1, d2, d3, d4, d5, rfl, hc, hd, rfl, hx, rfl, hy⟩ := h
  obtain ⟨hF, hf⟩ := varcodeParseF_letter c f hc
  simp only [List.cons_append, List.nil_append]
  rw [varcode_parse_digits _ _ _ _ _ _ _ hd, shl_or _ _ 8 hy, hF]
  unfold descriptorCode
  congr 1
  omega

theorem descriptor_not_space {s : List Byte} {f x y : Nat} (h : IsDescriptorText s f x y) :
    ∃ c t, s = c :: t ∧ isSpace c = false := by
  obtain ⟨c, d1, d2, d3, d4, d5, rfl, hc, -⟩ := h
  refine ⟨c, _, rfl, ?_⟩
  unfold letterF at hc
  split at hc <;> first | rfl | cases hc

/-- `strtoul` on a number followed by a blank. -/
theorem strtoul_eq {k m n : Nat} {ds r : List Byte} (hne : ds ≠ []) (hd : ∀ d ∈ ds, DigitText d)
    (hn : natOfDigits ds = n) (hlt : n < 4294967296) :
    strtoul (List.replicate k 32 ++ (ds ++ (List.replicate (m + 1) 32 ++ r))) =
      (n, List.replicate (m + 1) 32 ++ r) := by
  cases ds with
  | nil => exact absurd rfl hne
  | cons d ds =>
    have hdd := hd d (by simp)
    unfold strtoul
    rw [List.cons_append, dropWhile_blanks (digit_not_space hdd)]
    have h45 : d ≠ 45 := by rintro rfl; exact absurd hdd.1 (by decide)
    have h43 : d ≠ 43 := by rintro rfl; exact absurd hdd.1 (by decide)
    simp only [List.head?_cons, Option.some.injEq, h45, h43, or_self, if_false]
    have hall : ∀ x ∈ d :: ds, isDigit x = true := fun x hx => (digitText_iff x).mpr (hd x hx)
    have ht : (d :: (ds ++ (List.replicate (m + 1) 32 ++ r))).takeWhile isDigit = d :: ds := by
      rw [← List.cons_append, List.takeWhile_append_of_pos hall, List.replicate_succ,
        List.cons_append (as := List.replicate m 32), List.takeWhile_cons_of_neg (by decide),
        List.append_nil]
    have hdw : (d :: (ds ++ (List.replicate (m + 1) 32 ++ r))).dropWhile isDigit =
        List.replicate (m + 1) 32 ++ r := by
      rw [← List.cons_append, List.dropWhile_append_of_pos hall, List.replicate_succ,
        List.cons_append, List.dropWhile_cons_of_neg (by decide)]
    have hl : leadDigits 0 (d :: ds) = n := by
      have := leadDigits_eq (rest := []) hd (by simp) 0
      rw [List.append_nil] at this
      rw [this]; exact hn
    rw [ht, hdw, if_neg (by simp), hl, if_pos (by omega)]

theorem sequenceLine_starts {line : List Byte} {x y count : Nat} {first : Nat × Nat × Nat}
    (h : SequenceLine line x y count first) :
    StartsSequence line (descriptorCode 3 x y) count
      (descriptorCode first.1 first.2.1 first.2.2) := by
  obtain ⟨h18, c, s, r, m, t, rest, hl, hs, ⟨k, ds, hr, hne, hd, hn, hlt⟩, ht⟩ := h
  have h6 := descriptor_length hs
  have h1 : line.drop 1 = s ++ r := by rw [hl]; rfl
  have h7 : line.drop 7 = r := by
    rw [show 7 = 1 + 6 from rfl, ← List.drop_drop, h1, List.drop_left' h6]
  have hu := strtoul_eq (k := k) (m := m) (r := t ++ rest) hne hd hn hlt
  rw [← hr] at hu
  refine ⟨h18, ?_, ?_, ?_, ?_⟩
  · have := descriptor_first hs
    have hg : line.getD 1 0 = s.getD 0 0 := by
      obtain ⟨c', t', rfl, -⟩ := descriptor_not_space hs
      rw [hl]; rfl
    rw [hg]; exact this
  · rw [h1]; exact descriptor_parse hs
  · rw [h7, hu]
    exact (Nat.mod_eq_of_lt hlt).symm
  · rw [h7, hu]
    simp only
    obtain ⟨c', t', ht', hsp⟩ := descriptor_not_space ht
    have : (List.replicate (m + 1) 32 ++ (t ++ rest)).dropWhile isSpace = t ++ rest := by
      rw [ht', List.cons_append]; exact dropWhile_blanks hsp
    rw [this]
    exact descriptor_parse ht

theorem memberLine_gives {line : List Byte} {m : Nat × Nat × Nat} (h : MemberLine line m) :
    GivesMember line (descriptorCode m.1 m.2.1 m.2.2) := by
  obtain ⟨h18, t, rest, rfl, ht⟩ := h
  refine ⟨h18, ?_, ?_⟩
  · rw [List.take_left' (by simp)]
  · rw [List.drop_left' (by simp)]
    exact descriptor_parse ht

/-- Codes of sequences and members that are written by X and Y. -/
def coded (seqs : List ((Nat × Nat) × List (Nat × Nat × Nat))) : List (Varcode × List Varcode) :=
  seqs.map fun p => (descriptorCode 3 p.1.1 p.1.2,
    p.2.map fun m => descriptorCode m.1 m.2.1 m.2.2)

theorem writes_lists {lines : List (List Byte)} {seqs : List ((Nat × Nat) × List (Nat × Nat × Nat))}
    (h : WritesSequences lines seqs) : Lists lines (coded seqs) := by
  induction h with
  | nil => exact .nil
  | seq start x y first more members lines rest hs hm _ ih =>
    have hcons : coded (((x, y), first :: members) :: rest) =
        (descriptorCode 3 x y, descriptorCode first.1 first.2.1 first.2.2 ::
          members.map fun m => descriptorCode m.1 m.2.1 m.2.2) :: coded rest := by
      simp only [coded, List.map_cons]
    rw [hcons]
    refine Lists.seq start _ _ more _ lines _ ?_ ?_ ih
    · rw [List.length_map]; exact sequenceLine_starts hs
    · rw [List.forall₂_map_right_iff]
      exact hm.imp fun _ _ h => memberLine_gives h

namespace DTable

theorem members_ok {more : List (List Byte)} {members : List Varcode}
    (h : List.Forall₂ GivesMember more members) (d : DLoad) (hne : d.varcodes ≠ [])
    (hb : d.begin_ ≤ d.varcodes.length)
    (hc : lastCount d + members.length = d.check) :
    ∃ d', more.foldlM addLine d = .ok d' ∧ d'.varcodes ≠ [] ∧ lastCount d' = d'.check ∧
      d'.begin_ ≤ d'.varcodes.length := by
  induction h generalizing d with
  | nil => exact ⟨d, rfl, hne, by simpa using hc, hb⟩
  | @cons line member more members hm _ ih =>
    obtain ⟨h1, h2, h3⟩ := hm
    have hstep : addLine d line = .ok { d with varcodes := d.varcodes ++ [member] } := by
      unfold addLine
      have hg : line.getD 1 0 = 32 := by
        have := congrArg (fun l => List.getD l 1 0) h2
        simp only [List.getD_eq_getElem?_getD] at this ⊢
        rw [List.getElem?_take_of_lt (by omega)] at this
        simpa using this
      rw [if_neg (by omega), hg, if_neg (by decide), if_pos h2]
      unfold contEntry parseAt
      rw [if_neg hne, if_neg (by simp at hc; omega), h3]
      rfl
    rw [List.foldlM_cons, hstep, Res.ok_bind]
    refine ih _ (by simp) (by simp; omega) ?_
    unfold lastCount at hc ⊢
    simp only [List.length_append, List.length_cons, List.length_nil] at hc ⊢
    omega

theorem lists_ok {lines : List (List Byte)} {tbl : List (Varcode × List Varcode)}
    (h : Lists lines tbl) (d : DLoad) (hc : lastCount d = d.check)
    (hb : d.begin_ ≤ d.varcodes.length) :
    ∃ d', lines.foldlM addLine d = .ok d' ∧ lastCount d' = d'.check ∧
      (tbl ≠ [] ∨ d.varcodes ≠ [] → d'.varcodes ≠ []) := by
  induction h generalizing d with
  | nil => exact ⟨d, rfl, hc, by simp⟩
  | seq start code first more members lines rest hs hm _ ih =>
    obtain ⟨h1, h2, h3, h4, h5⟩ := hs
    have hstep : ∃ es, addLine d start = .ok ⟨d.varcodes ++ [first], es, code, d.varcodes.length,
        members.length + 1⟩ := by
      unfold addLine
      rw [if_neg (by omega), if_pos h2]
      unfold startEntry parseAt
      rw [if_neg (by omega)]
      simp only
      rw [← h4, if_neg (by omega), h3, Res.ok_bind, h5, Res.ok_bind]
      exact ⟨_, rfl⟩
    obtain ⟨es, hstep⟩ := hstep
    obtain ⟨d1, e1, e2, e3, e4⟩ := members_ok hm
      ⟨d.varcodes ++ [first], es, code, d.varcodes.length, members.length + 1⟩ (by simp) (by simp)
      (by unfold lastCount; simp; omega)
    obtain ⟨d2, f1, f2, f3⟩ := ih d1 e3 e4
    refine ⟨d2, ?_, f2, fun _ => f3 (.inr e2)⟩
    rw [List.foldlM_cons, hstep, Res.ok_bind, List.foldlM_append, e1, Res.ok_bind, f1]

/-- A file that lists sequences is loaded. -/
theorem load_ok {data : List Byte} {tbl : List (Varcode × List Varcode)}
    (h : Lists (fgetsLines data) tbl) (hne : tbl ≠ []) : ∃ t, load data = .ok t := by
  obtain ⟨d, h1, h2, h3⟩ := lists_ok h ⟨[], [], 0, 0, 0⟩ rfl (by simp)
  unfold load
  rw [h1, Res.ok_bind]
  unfold finish
  rw [if_neg (h3 (.inl hne)), if_neg (by simpa using h2)]
  exact ⟨_, rfl⟩

end DTable

end Wreport
