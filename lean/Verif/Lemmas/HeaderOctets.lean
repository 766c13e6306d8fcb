import Verif.Spec.HeaderOctets
import Verif.Lemmas.HeaderDec

/-! # Header fields by octet -/

namespace Wreport

open Spec

namespace BufrDec

theorem num_lt (data : List Byte) (s o n : Nat) : num data s o n < 256 ^ n := by
  refine lt_of_lt_of_le (ofBe_lt _) (Nat.pow_le_pow_right (by omega) ?_)
  simp

theorem read_number_num {data : List Byte} {s k n : Nat} (h : s + k + n ≤ data.length)
    (h4 : n ≤ 4) : read_number data (s + k) n = .ok (num data s (k + 1) n) :=
  read_number_ok (l := (data.drop (s + k)).take n) (m := (data.drop (s + k)).drop n)
    (List.take_append_drop _ _).symm (by simp; omega) h4

theorem num_one {data : List Byte} {s k : Nat} {b : Byte} (h : data[s + k]? = some b) :
    num data s (k + 1) 1 = b.toNat := by
  unfold num
  rw [show s + (k + 1) - 1 = s + k by omega]
  obtain ⟨hlt, rfl⟩ := List.getElem?_eq_some_iff.mp h
  rw [List.drop_eq_getElem_cons hlt, List.take_succ_cons, List.take_zero]
  simp only [ofBe, List.foldl_cons, List.foldl_nil]
  omega

theorem read_byte_num {data : List Byte} {s k : Nat} (h : s + k < data.length) :
    read_byte data (s + k) = .ok (UInt8.ofNat (num data s (k + 1) 1)) := by
  have hb := List.getElem?_eq_getElem h
  rw [num_one hb]
  simp [read_byte, Input.byteAt, hb]

theorem read_short_num {data : List Byte} {s k : Nat} (h : s + k + 2 ≤ data.length) :
    read_short data (s + k) = .ok (UInt16.ofNat (num data s (k + 1) 2)) := by
  rw [read_short, read_number_num h (by omega)]
  rfl

theorem scan_section_at {data : List Byte} {a b : Nat} (h : SectionAt data a b) :
    scan_section_length data a = .ok b := by
  have h1 := h.indicator
  have h2 := h.size
  have h3 := h.inside
  have hn := read_number_num (data := data) (s := a) (k := 0) (n := 3) (by omega) (by omega)
  have he : num data a (0 + 1) 3 = ofBe ((data.drop a).take 3) := rfl
  rw [he] at hn
  unfold scan_section_length check
  rw [if_neg (by omega), Res.ok_bind]
  rw [show a = a + 0 from rfl, hn, Res.ok_bind, if_neg (by simp only [Nat.add_zero]; omega)]
  simp only [Nat.add_zero, Res.ok_bind, Res.pure_def, ← h2]

/-- Section 1 of edition 4 as read. -/
def head4 (data : List Byte) (ed : UInt8) : Header :=
  { edition_number := ed
    master_table_number := UInt8.ofNat (num data 8 4 1)
    originating_centre := UInt16.ofNat (num data 8 5 2)
    originating_subcentre := UInt16.ofNat (num data 8 7 2)
    update_sequence_number := UInt8.ofNat (num data 8 9 1)
    data_category := UInt8.ofNat (num data 8 11 1)
    data_subcategory := UInt8.ofNat (num data 8 12 1)
    data_subcategory_local := UInt8.ofNat (num data 8 13 1)
    master_table_version_number := UInt8.ofNat (num data 8 14 1)
    master_table_version_number_local := UInt8.ofNat (num data 8 15 1)
    rep_year := UInt16.ofNat (num data 8 16 2)
    rep_month := UInt8.ofNat (num data 8 18 1)
    rep_day := UInt8.ofNat (num data 8 19 1)
    rep_hour := UInt8.ofNat (num data 8 20 1)
    rep_minute := UInt8.ofNat (num data 8 21 1)
    rep_second := UInt8.ofNat (num data 8 22 1) }

/-- Section 1 of editions 2 and 3 as read. -/
def head3 (data : List Byte) (ed : UInt8) : Header :=
  { edition_number := ed
    master_table_number := UInt8.ofNat (num data 8 4 1)
    originating_subcentre := (UInt8.ofNat (num data 8 5 1)).toUInt16
    originating_centre := (UInt8.ofNat (num data 8 6 1)).toUInt16
    update_sequence_number := UInt8.ofNat (num data 8 7 1)
    data_category := UInt8.ofNat (num data 8 9 1)
    data_subcategory := 0xff
    data_subcategory_local := UInt8.ofNat (num data 8 10 1)
    master_table_version_number := UInt8.ofNat (num data 8 11 1)
    master_table_version_number_local := UInt8.ofNat (num data 8 12 1)
    rep_year := fullYear (UInt8.ofNat (num data 8 13 1))
    rep_month := UInt8.ofNat (num data 8 14 1)
    rep_day := UInt8.ofNat (num data 8 15 1)
    rep_hour := UInt8.ofNat (num data 8 16 1)
    rep_minute := UInt8.ofNat (num data 8 17 1) }

theorem scan_other_located {data : List Byte} {s : Secs} {flag : Byte}
    (h2 : if flag.toNat.testBit 7 then SectionAt data s.s2 s.s3 else s.s3 = s.s2)
    (h3 : SectionAt data s.s3 s.s4) (h4 : SectionAt data s.s4 s.s5) :
    scan_other_sections data s.s1 s.s2 (flag &&& 0x80 != 0) = .ok s := by
  have ho : scan_optional data s.s2 (flag &&& 0x80 != 0) = .ok s.s3 := by
    rw [flag_bit]
    unfold scan_optional
    split at h2
    · next hf => rw [if_pos hf]; exact scan_section_at h2
    · next hf => rw [if_neg hf, h2]
  unfold scan_other_sections
  rw [ho, Res.ok_bind, scan_section_at h3, Res.ok_bind, scan_section_at h4, Res.ok_bind]
  rfl

theorem ofNat_num_one {data : List Byte} {s k : Nat} {b : Byte} (h : data[s + k]? = some b) :
    UInt8.ofNat (num data s (k + 1) 1) = b := by
  rw [num_one h]; simp

theorem sec1ed4_at {data : List Byte} {ed : UInt8} {s : Secs} {flag : Byte} (h1 : s.s1 = 8)
    (hl : 30 ≤ data.length) (hf : data[17]? = some flag)
    (h2 : if flag.toNat.testBit 7 then SectionAt data s.s2 s.s3 else s.s3 = s.s2)
    (h3 : SectionAt data s.s3 s.s4) (h4 : SectionAt data s.s4 s.s5) :
    decode_sec1ed4 data ed 8 s.s2 = (do
      let ol ← optLength4 s
      return (head4 data ed, s, ol)) := by
  have hsc := scan_other_located h2 h3 h4
  rw [h1] at hsc
  unfold decode_sec1ed4
  rw [read_byte_num (by omega), Res.ok_bind, read_short_num (by omega), Res.ok_bind,
    read_short_num (by omega), Res.ok_bind, read_byte_num (by omega), Res.ok_bind,
    read_byte_num (by omega), Res.ok_bind, ofNat_num_one (s := 8) (k := 9) hf, hsc, Res.ok_bind]
  cases optLength4 s with
  | err e => rfl
  | ub => rfl
  | ok ol =>
    rw [Res.ok_bind]
    rw [read_byte_num (by omega), Res.ok_bind, read_byte_num (by omega), Res.ok_bind,
      read_byte_num (by omega), Res.ok_bind, read_byte_num (by omega), Res.ok_bind,
      read_byte_num (by omega), Res.ok_bind, read_short_num (by omega), Res.ok_bind,
      read_byte_num (by omega), Res.ok_bind, read_byte_num (by omega), Res.ok_bind,
      read_byte_num (by omega), Res.ok_bind, read_byte_num (by omega), Res.ok_bind,
      read_byte_num (by omega), Res.ok_bind]
    rfl

theorem sec1ed3_at {data : List Byte} {ed : UInt8} {s : Secs} {flag : Byte} (h1 : s.s1 = 8)
    (hl : 26 ≤ data.length) (hf : data[15]? = some flag)
    (h2 : if flag.toNat.testBit 7 then SectionAt data s.s2 s.s3 else s.s3 = s.s2)
    (h3 : SectionAt data s.s3 s.s4) (h4 : SectionAt data s.s4 s.s5) :
    decode_sec1ed3 data ed 8 s.s2 = .ok (head3 data ed, s, optLength3 s) := by
  have hsc := scan_other_located h2 h3 h4
  rw [h1] at hsc
  unfold decode_sec1ed3
  rw [read_byte_num (by omega), Res.ok_bind, read_byte_num (by omega), Res.ok_bind,
    ofNat_num_one (s := 8) (k := 7) hf, hsc, Res.ok_bind]
  rw [read_byte_num (by omega), Res.ok_bind, read_byte_num (by omega), Res.ok_bind,
    read_byte_num (by omega), Res.ok_bind, read_byte_num (by omega), Res.ok_bind,
    read_byte_num (by omega), Res.ok_bind, read_byte_num (by omega), Res.ok_bind,
    read_byte_num (by omega), Res.ok_bind, read_byte_num (by omega), Res.ok_bind,
    read_byte_num (by omega), Res.ok_bind, read_byte_num (by omega), Res.ok_bind,
    read_byte_num (by omega), Res.ok_bind, read_byte_num (by omega), Res.ok_bind]
  rfl

theorem read_bytes_at {data : List Byte} {pos k : Nat} (h : pos + k ≤ data.length) :
    read_bytes data pos k = .ok ((data.drop pos).take k) := by
  have := read_bytes_ok (data := data) (pos := pos) (l := (data.drop pos).take k)
    (m := (data.drop pos).drop k) (List.take_append_drop _ _).symm
  rwa [show ((data.drop pos).take k).length = k by simp; omega] at this

theorem read_descriptors_at {data : List Byte} {s o k : Nat} (h : s + o + 2 * k ≤ data.length) :
    read_descriptors data (s + o) k =
      .ok ((List.range k).map fun i => num data s (o + 1 + 2 * i) 2) := by
  induction k generalizing o with
  | zero => rfl
  | succ k ih =>
    unfold read_descriptors
    rw [read_number_num (by omega) (by omega), Res.ok_bind, Nat.add_assoc s o 2, ih (by omega),
      Res.ok_bind, List.range_succ_eq_map, List.map_cons, List.map_map]
    refine congrArg (fun l => Res.ok (_ :: l)) (List.map_congr_left fun i _ => ?_)
    simp only [Function.comp_apply]
    congr 1
    omega

theorem descr_bit (b : UInt8) : (b &&& 0x40 != 0) = b.toNat.testBit 6 := by
  have : ∀ n < 256, (UInt8.ofNat n &&& 0x40 != 0) = (UInt8.ofNat n).toNat.testBit 6 := by
    decide +kernel
  simpa using this b.toNat b.toNat_lt

theorem toNat_num8 (data : List Byte) (s o : Nat) :
    (UInt8.ofNat (num data s o 1)).toNat = num data s o 1 := by
  have := num_lt data s o 1
  rw [UInt8.toNat_ofNat']
  exact Nat.mod_eq_of_lt (by omega)

theorem toNat_num16 (data : List Byte) (s o : Nat) :
    (UInt16.ofNat (num data s o 2)).toNat = num data s o 2 := by
  have := num_lt data s o 2
  rw [UInt16.toNat_ofNat']
  exact Nat.mod_eq_of_lt (by omega)

/-- Section 3 as read. -/
def descr (data : List Byte) (s : Secs) : Nat × Bool × List Varcode :=
  (num data s.s3 5 2, (num data s.s3 7 1).testBit 6,
    (List.range ((s.s4 - s.s3 - 7) / 2)).map fun i => num data s.s3 (8 + 2 * i) 2)

theorem sec3_at {data : List Byte} {s : Secs} (h : s.s4 ≤ data.length) :
    decode_sec3 data s = if s.s4 - s.s3 < 7 then .err .consistency
      else if s.s4 - s.s3 < 8 then .err .parse else .ok (descr data s) := by
  unfold decode_sec3
  split
  · rfl
  next h7 =>
  unfold check
  by_cases h8 : s.s4 - s.s3 < 8
  · rw [if_pos (by omega), if_pos h8]; rfl
  · rw [if_neg (by omega), if_neg h8, Res.ok_bind, read_number_num (by omega) (by omega),
      Res.ok_bind, read_byte_num (by omega), Res.ok_bind, if_neg (by omega), Res.ok_bind,
      read_descriptors_at (by omega), Res.ok_bind, descr_bit, toNat_num8]
    rfl

theorem sec2_at {data : List Byte} {s : Secs} {flag : Byte} {ol : Nat}
    (h2 : if flag.toNat.testBit 7 then SectionAt data s.s2 s.s3 else s.s3 = s.s2)
    (h3 : s.s3 ≤ data.length) :
    decode_sec2 data s ol = if ol = 0 then .ok []
      else if s.s3 - s.s2 < 3 then .err .parse
      else if s.s3 - s.s2 < 4 then .err .consistency
      else .ok ((data.drop (s.s2 + 4)).take (s.s3 - (s.s2 + 4))) := by
  unfold decode_sec2 check
  split
  · rfl
  by_cases h : s.s3 - s.s2 < 3
  · rw [if_pos (by omega), if_pos h]; rfl
  rw [if_neg (by omega), if_neg h, Res.ok_bind]
  have h2' : SectionAt data s.s2 s.s3 := by
    split at h2
    · exact h2
    · omega
  have hsz := h2'.size
  have hn := read_number_num (data := data) (s := s.s2) (k := 0) (n := 3) (by omega) (by omega)
  have he : num data s.s2 (0 + 1) 3 = ofBe ((data.drop s.s2).take 3) := rfl
  rw [he, Nat.add_zero] at hn
  have hlen : ofBe ((data.drop s.s2).take 3) = s.s3 - s.s2 := by omega
  rw [hn, hlen, Res.ok_bind, if_neg (by omega), Res.ok_bind]
  by_cases h4 : s.s3 - s.s2 < 4
  · rw [if_pos h4, if_pos h4]
  · rw [if_neg h4, if_neg h4, read_bytes_at (by omega), Nat.sub_sub]

/-- Section 1 as read. -/
def head1 (data : List Byte) (ed : UInt8) : Header :=
  if ed = 4 then head4 data ed else head3 data ed

/-- The header as read. -/
def headAt (data : List Byte) (ed : UInt8) (s : Secs) : Head :=
  { header := { head1 data ed with
      optional_section := (data.drop (s.s2 + 4)).take (s.s3 - (s.s2 + 4))
      compression := (descr data s).2.1
      datadesc := (descr data s).2.2 }
    secs := s
    expected_subsets := (descr data s).1 }

theorem Located.to_le {data : List Byte} {s : Secs}
    (hl : Located data s.s1 s.s2 s.s3 s.s4 s.s5) : s.s2 ≤ s.s3 ∧ s.s4 ≤ data.length ∧
      s.s3 ≤ data.length := by
  obtain ⟨ed, flag, -, -, h⟩ := hl.sec2
  have := hl.sec3.indicator
  have := hl.sec3.inside
  refine ⟨?_, by omega, by omega⟩
  split at h
  · have := h.size; omega
  · omega

theorem decode_header_start {data : List Byte} {s : Secs}
    (hl : Located data s.s1 s.s2 s.s3 s.s4 s.s5) :
    ∃ ed, data[7]? = some ed ∧ decode_header data = decode_sections data ed := by
  obtain ⟨ed, flag, hed, hf, h2⟩ := hl.sec2
  have h8 : 8 ≤ data.length := by
    obtain ⟨h, -⟩ := List.getElem?_eq_some_iff.mp hed; omega
  refine ⟨ed, hed, ?_⟩
  unfold decode_header check
  rw [if_neg (by omega), Res.ok_bind, read_bytes_at (by omega), Res.ok_bind]
  rw [if_neg (by simp [hl.start])]
  rw [show (7 : Nat) = 0 + 7 from rfl, read_byte_num (by omega), Res.ok_bind,
    ofNat_num_one (s := 0) (k := 7) (by simpa using hed)]
  have := hl.edition
  rw [hed] at this
  simp only [Option.some.injEq] at this
  rw [if_neg (by tauto)]

theorem decode_header_small {data : List Byte} {s : Secs}
    (hl : Located data s.s1 s.s2 s.s3 s.s4 s.s5) (hr : ¬ 8 + section1Size data ≤ data.length) :
    decode_header data = .err .parse := by
  obtain ⟨ed, hed, hd⟩ := decode_header_start hl
  rw [hd]
  unfold decode_sections
  have h1 := hl.first ▸ hl.sec1
  rw [scan_section_at h1, Res.ok_bind]
  unfold check
  unfold section1Size at hr
  rw [hed] at hr
  simp only [Option.some.injEq] at hr
  rw [if_pos (by omega)]
  rfl

theorem decode_header_at {data : List Byte} {s : Secs}
    (hl : Located data s.s1 s.s2 s.s3 s.s4 s.s5) (hr : 8 + section1Size data ≤ data.length) :
    ∃ ed, data[7]? = some ed ∧ decode_header data =
      if s.s3 = s.s2 ∨ s.s2 + 4 ≤ s.s3 then
        if s.s4 - s.s3 < 7 then .err .consistency
        else if s.s4 - s.s3 < 8 then .err .parse
        else .ok (headAt data ed s)
      else if ed = 4 ∨ s.s3 = s.s2 + 3 then .err .consistency
      else .err .parse := by
  obtain ⟨ed, hed, hd⟩ := decode_header_start hl
  refine ⟨ed, hed, ?_⟩
  rw [hd]
  obtain ⟨hle, hl4, hl3⟩ := Located.to_le hl
  obtain ⟨ed', flag, hed', hf, h2⟩ := hl.sec2
  obtain rfl : ed = ed' := by simpa using hed.symm.trans hed'
  unfold decode_sections
  rw [scan_section_at (hl.first ▸ hl.sec1), Res.ok_bind]
  unfold check
  unfold section1Size at hr
  rw [hed] at hr
  simp only [Option.some.injEq] at hr
  rw [if_neg (by omega), Res.ok_bind]
  have hs1 : decode_sec1 data ed 8 s.s2 = (if ed = 4 then (do
      let ol ← optLength4 s
      return (head4 data ed, s, ol)) else .ok (head3 data ed, s, optLength3 s)) := by
    unfold decode_sec1
    split
    · next h4 =>
      rw [if_pos h4] at hr
      rw [show flagPos ed = 17 by simp [flagPos, h4]] at hf
      exact sec1ed4_at hl.first (by omega) hf h2 hl.sec3 hl.sec4
    · next h4 =>
      rw [if_neg h4] at hr
      rw [show flagPos ed = 15 by simp [flagPos, h4]] at hf
      exact sec1ed3_at hl.first (by omega) hf h2 hl.sec3 hl.sec4
  -- the rest, for a length of the optional section
  have rest : ∀ (h : Header) (ol : Nat), h = head1 data ed →
      (s.s3 = s.s2 → ol = 0) → (s.s2 + 4 ≤ s.s3 → ol = s.s3 - s.s2 - 4) →
      (s.s2 < s.s3 → s.s3 < s.s2 + 4 → ol ≠ 0) →
      (do let optional_section ← decode_sec2 data s ol
          let t ← decode_sec3 data s
          return ({ header := { h with optional_section, compression := t.2.1, datadesc := t.2.2 },
                    secs := s, expected_subsets := t.1 } : Head)) =
      if s.s3 = s.s2 ∨ s.s2 + 4 ≤ s.s3 then
        if s.s4 - s.s3 < 7 then .err .consistency
        else if s.s4 - s.s3 < 8 then .err .parse
        else .ok (headAt data ed s)
      else if s.s3 = s.s2 + 3 then .err .consistency
      else .err .parse := by
    intro h ol hh ho1 ho2 ho3
    subst hh
    rw [sec2_at h2 hl3, sec3_at hl4]
    by_cases hc : s.s3 = s.s2 ∨ s.s2 + 4 ≤ s.s3
    · have hopt : (if ol = 0 then Res.ok []
          else if s.s3 - s.s2 < 3 then .err .parse
          else if s.s3 - s.s2 < 4 then .err .consistency
          else .ok ((data.drop (s.s2 + 4)).take (s.s3 - (s.s2 + 4)))) =
          .ok ((data.drop (s.s2 + 4)).take (s.s3 - (s.s2 + 4))) := by
        by_cases h0 : ol = 0
        · have : s.s3 - (s.s2 + 4) = 0 := by omega
          rw [if_pos h0, this, List.take_zero]
        · rw [if_neg h0, if_neg (by omega), if_neg (by omega)]
      rw [hopt, Res.ok_bind, if_pos hc]
      by_cases h7 : s.s4 - s.s3 < 7
      · rw [if_pos h7, if_pos h7]; rfl
      rw [if_neg h7, if_neg h7]
      by_cases h8 : s.s4 - s.s3 < 8
      · rw [if_pos h8, if_pos h8]; rfl
      rw [if_neg h8, if_neg h8]
      rfl
    · rw [if_neg (by omega : ¬ ol = 0), if_neg hc]
      by_cases h3 : s.s3 = s.s2 + 3
      · rw [if_neg (by omega), if_pos (by omega), if_pos h3]; rfl
      · rw [if_pos (by omega), if_neg h3]; rfl
  rw [hs1]
  by_cases h4 : ed = 4
  · rw [if_pos h4]
    unfold optLength4
    by_cases hc : s.s3 = s.s2 ∨ s.s2 + 4 ≤ s.s3
    · have hol : (if s.s3 - s.s2 = 0 then Res.ok 0
          else if 4 ≤ s.s3 - s.s2 then .ok (s.s3 - s.s2 - 4) else .err .consistency) =
          .ok (s.s3 - s.s2 - 4) := by
        by_cases h0 : s.s3 - s.s2 = 0
        · rw [if_pos h0, h0]
        · rw [if_neg h0, if_pos (by omega)]
      rw [hol, Res.ok_bind, Res.pure_def, Res.ok_bind]
      have := rest (head4 data ed) (s.s3 - s.s2 - 4) (by simp [head1, h4]) (by omega) (by omega)
        (by omega)
      rw [if_pos hc] at this ⊢
      exact this
    · rw [if_neg (by omega), if_neg (by omega), if_neg hc, if_pos (.inl h4)]
      rfl
  · rw [if_neg h4, Res.ok_bind]
    have hsmall : s.s3 - s.s2 < 256 ^ 3 := by
      split at h2
      · have h5 := h2.size
        have h6 : ofBe ((data.drop s.s2).take 3) < 256 ^ 3 := num_lt data s.s2 1 3
        omega
      · omega
    have := rest (head3 data ed) (optLength3 s) (by simp [head1, h4])
      (by unfold optLength3; intro h; rw [if_pos (by omega)])
      (by unfold optLength3; intro h; split <;> omega)
      (by unfold optLength3; intro h h'; rw [if_neg (by omega)]; omega)
    simp only [h4, false_or]
    exact this

theorem head1_ed (data : List Byte) (ed : UInt8) : (head1 data ed).edition_number = ed := by
  unfold head1
  split <;> rfl

theorem head4_sec1 (data : List Byte) (h : Header) (ed : UInt8)
    (hh : ∃ o c d, h = { head4 data ed with optional_section := o, compression := c, datadesc := d }) :
    Section1Ed4 data 8 h := by
  obtain ⟨o, c, d, rfl⟩ := hh
  constructor <;> first | exact toNat_num8 _ _ _ | exact toNat_num16 _ _ _

theorem fullYear_toNat (y : UInt8) : (fullYear y).toNat = centuryYear y.toNat := by
  have h := y.toNat_lt
  unfold fullYear centuryYear
  split <;> rw [UInt16.toNat_ofNat'] <;> omega

theorem head3_sec1 (data : List Byte) (h : Header) (ed : UInt8)
    (hh : ∃ o c d, h = { head3 data ed with optional_section := o, compression := c, datadesc := d }) :
    Section1Ed3 data 8 h := by
  obtain ⟨o, c, d, rfl⟩ := hh
  have h16 : ∀ k, (UInt8.ofNat (num data 8 k 1)).toUInt16.toNat = num data 8 k 1 := fun k => by
    rw [UInt8.toNat_toUInt16, toNat_num8]
  constructor <;> first
    | exact toNat_num8 _ _ _
    | exact h16 _
    | rfl
    | exact (fullYear_toNat _).trans (by rw [toNat_num8])

end BufrDec

end Wreport
