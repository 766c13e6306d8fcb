import Verif.Lemmas.HeaderOctets
import Verif.Props.Header

/-! # Header fields by octet: C87 -/

namespace Wreport

open Spec BufrDec

theorem headAt_spec {data : List Byte} {s : Secs} {ed : UInt8} (hed : data[7]? = some ed)
    (hl : Located data s.s1 s.s2 s.s3 s.s4 s.s5) (hr : 8 + section1Size data ≤ data.length)
    (h2 : s.s3 = s.s2 ∨ s.s2 + 4 ≤ s.s3) (h3 : s.s3 + 8 ≤ s.s4) :
    HeaderAt data s.s1 s.s2 s.s3 s.s4 s.s5 (headAt data ed s).header
      (headAt data ed s).expected_subsets where
  located := hl
  room := by rw [hl.first]; exact hr
  opt := h2
  desc := h3
  edition := by
    rw [num_one (s := 0) (k := 7) (by simpa using hed)]
    exact congrArg _ (head1_ed data ed)
  sec1 := by
    rw [hl.first, hed]
    simp only [Option.some.injEq]
    by_cases h4 : ed = 4
    · rw [if_pos h4]
      refine head4_sec1 data _ ed ⟨(data.drop (s.s2 + 4)).take (s.s3 - (s.s2 + 4)),
        (descr data s).2.1, (descr data s).2.2, ?_⟩
      simp only [headAt, head1, if_pos h4]
    · rw [if_neg h4]
      refine head3_sec1 data _ ed ⟨(data.drop (s.s2 + 4)).take (s.s3 - (s.s2 + 4)),
        (descr data s).2.1, (descr data s).2.2, ?_⟩
      simp only [headAt, head1, if_neg h4]
  optional := rfl
  subsets := rfl
  compression := rfl
  descriptors := rfl

theorem HeaderAt.unique {data : List Byte} {s1 s2 s3 s4 s5 : Nat} {h h' : Header} {n n' : Nat}
    (a : HeaderAt data s1 s2 s3 s4 s5 h n) (b : HeaderAt data s1 s2 s3 s4 s5 h' n') :
    h = h' ∧ n = n' := by
  refine ⟨?_, a.subsets.trans b.subsets.symm⟩
  have e1 := a.edition.trans b.edition.symm
  have e2 := a.optional.trans b.optional.symm
  have e3 := a.compression.trans b.compression.symm
  have e4 := a.descriptors.trans b.descriptors.symm
  have a1 := a.sec1
  have b1 := b.sec1
  cases h
  cases h'
  simp only at e1 e2 e3 e4
  subst e2 e3 e4
  by_cases h4 : data[7]? = some 4
  · rw [if_pos h4] at a1 b1
    have m1 := a1.master.trans b1.master.symm
    have m2 := a1.centre.trans b1.centre.symm
    have m3 := a1.subcentre.trans b1.subcentre.symm
    have m4 := a1.update.trans b1.update.symm
    have m5 := a1.category.trans b1.category.symm
    have m6 := a1.subcategory.trans b1.subcategory.symm
    have m7 := a1.local_subcategory.trans b1.local_subcategory.symm
    have m8 := a1.version.trans b1.version.symm
    have m9 := a1.local_version.trans b1.local_version.symm
    have m10 := a1.year.trans b1.year.symm
    have m11 := a1.month.trans b1.month.symm
    have m12 := a1.day.trans b1.day.symm
    have m13 := a1.hour.trans b1.hour.symm
    have m14 := a1.minute.trans b1.minute.symm
    have m15 := a1.second.trans b1.second.symm
    simp only [UInt8.toNat_inj, UInt16.toNat_inj] at *
    subst e1 m1 m2 m3 m4 m5 m6 m7 m8 m9 m10 m11 m12 m13 m14 m15
    rfl
  · rw [if_neg h4] at a1 b1
    have m1 := a1.master.trans b1.master.symm
    have m2 := a1.centre.trans b1.centre.symm
    have m3 := a1.subcentre.trans b1.subcentre.symm
    have m4 := a1.update.trans b1.update.symm
    have m5 := a1.category.trans b1.category.symm
    have m6 := a1.subcategory.trans b1.subcategory.symm
    have m7 := a1.local_subcategory.trans b1.local_subcategory.symm
    have m8 := a1.version.trans b1.version.symm
    have m9 := a1.local_version.trans b1.local_version.symm
    have m10 := a1.year.trans b1.year.symm
    have m11 := a1.month.trans b1.month.symm
    have m12 := a1.day.trans b1.day.symm
    have m13 := a1.hour.trans b1.hour.symm
    have m14 := a1.minute.trans b1.minute.symm
    have m15 := a1.second.trans b1.second.symm
    simp only [UInt8.toNat_inj, UInt16.toNat_inj] at *
    subst e1 m1 m2 m3 m4 m5 m6 m7 m8 m9 m10 m11 m12 m13 m14 m15
    rfl

/-- A header is decoded exactly if its sections are inside the data and long enough,
and every field is then what its octets say. -/
theorem C87_header (data : List Byte) (hd : Head) :
    decode_header data = .ok hd ↔
      HeaderAt data hd.secs.s1 hd.secs.s2 hd.secs.s3 hd.secs.s4 hd.secs.s5 hd.header
        hd.expected_subsets := by
  constructor
  · intro h
    have hl := decode_header_post data
    rw [h] at hl
    replace hl : Located data hd.secs.s1 hd.secs.s2 hd.secs.s3 hd.secs.s4 hd.secs.s5 := hl
    by_cases hr : 8 + section1Size data ≤ data.length
    · obtain ⟨ed, hed, he⟩ := decode_header_at hl hr
      rw [h] at he
      split at he
      · next h2 =>
        split at he
        · cases he
        split at he
        · cases he
        next h8 =>
        simp only [Res.ok.injEq] at he
        have := headAt_spec hed hl hr h2 (by omega)
        rw [← he] at this
        exact this
      · split at he <;> cases he
    · rw [decode_header_small hl hr] at h; cases h
  · intro h
    have hr := h.room
    rw [h.located.first] at hr
    obtain ⟨ed, hed, he⟩ := decode_header_at h.located hr
    have hd3 := h.desc
    rw [if_pos h.opt, if_neg (by omega), if_neg (by omega)] at he
    rw [he]
    obtain ⟨u1, u2⟩ := HeaderAt.unique (headAt_spec hed h.located hr h.opt h.desc) h
    obtain ⟨header, secs, n⟩ := hd
    simp only at u1 u2
    rw [← u1, ← u2]
    rfl

/-- What is refused as inconsistent: section 2 is shorter than its own header, or
else section 3 is shorter than 7 octets. Editions 2 and 3 look at section 2 only if
it has 3 octets. Anything else that is not decoded is a parse error. -/
theorem C87_refused (data : List Byte) :
    (decode_header data = .err .consistency ↔ ∃ s1 s2 s3 s4 s5, Located data s1 s2 s3 s4 s5 ∧
      s1 + section1Size data ≤ data.length ∧
      (s2 < s3 ∧ s3 < s2 + 4 ∧ (data[7]? = some 4 ∨ s3 = s2 + 3) ∨
        (s3 = s2 ∨ s2 + 4 ≤ s3) ∧ s4 < s3 + 7)) ∧
    (decode_header data = .err .parse ↔ decode_header data ≠ .err .consistency ∧
      ∀ hd, decode_header data ≠ .ok hd) := by
  have hpost := decode_header_post data
  refine ⟨⟨fun h => ?_, ?_⟩, fun h => by rw [h]; simp, fun ⟨h1, h2⟩ => ?_⟩
  · rw [h] at hpost
    rcases hpost with hp | ⟨-, s1, s2, s3, s4, s5, hl⟩
    · cases hp
    have hf := hl.first
    refine ⟨s1, s2, s3, s4, s5, hl, ?_, ?_⟩
    · rw [hf]
      by_contra hr
      have := decode_header_small (s := ⟨s1, s2, s3, s4, s5⟩) hl hr
      rw [h] at this; cases this
    · have hr : 8 + section1Size data ≤ data.length := by
        by_contra hr
        have := decode_header_small (s := ⟨s1, s2, s3, s4, s5⟩) hl hr
        rw [h] at this; cases this
      have hle := (Located.to_le (s := ⟨s1, s2, s3, s4, s5⟩) hl).1
      obtain ⟨ed, hed, he⟩ := decode_header_at (s := ⟨s1, s2, s3, s4, s5⟩) hl hr
      rw [h] at he
      simp only at he hle
      have hle4 : s3 ≤ s4 := by have := hl.sec3.size; omega
      split at he
      · next hc =>
        split at he
        · exact .inr ⟨hc, by omega⟩
        · split at he <;> cases he
      · split at he
        · next hc hc' =>
          refine .inl ⟨by omega, by omega, ?_⟩
          rw [hed]
          simpa using hc'
        · cases he
  · rintro ⟨s1, s2, s3, s4, s5, hl, hr, hc⟩
    rw [hl.first] at hr
    obtain ⟨ed, hed, he⟩ := decode_header_at (s := ⟨s1, s2, s3, s4, s5⟩) hl hr
    rw [he]
    simp only
    rcases hc with ⟨c1, c2, c3⟩ | ⟨c1, c2⟩
    · rw [hed] at c3
      simp only [Option.some.injEq] at c3
      rw [if_neg (by omega), if_pos c3]
    · rw [if_pos c1, if_pos (by omega)]
  · cases hr : decode_header data with
    | ok hd => exact absurd hr (h2 hd)
    | ub => rw [hr] at hpost; exact hpost.elim
    | err e =>
      rw [hr] at hpost h1
      rcases hpost with hp | ⟨hp, -⟩
      · rw [hp]
      · exact absurd (congrArg Res.err hp) h1

theorem num_append {data t : List Byte} {s o n : Nat} (h : s + o - 1 + n ≤ data.length) :
    num (data ++ t) s o n = num data s o n := by
  unfold num
  rw [List.drop_append_of_le_length (by omega), List.take_append_of_le_length]
  simp only [List.length_drop]
  omega

theorem Spec.SectionAt.append {data t : List Byte} {a b : Nat} (h : SectionAt data a b) :
    SectionAt (data ++ t) a b where
  indicator := by have := h.indicator; simp; omega
  inside := by have := h.inside; simp; omega
  size := by
    have h1 : num (data ++ t) a 1 3 = num data a 1 3 :=
      num_append (by have := h.indicator; omega)
    unfold num at h1
    simp only [Nat.add_sub_cancel] at h1
    rw [h1]
    exact h.size

theorem getElem?_append_some {data t : List Byte} {k : Nat} {b : Byte} (h : data[k]? = some b) :
    (data ++ t)[k]? = some b := by
  obtain ⟨hk, -⟩ := List.getElem?_eq_some_iff.mp h
  rw [List.getElem?_append_left hk, h]

/-- A decoded header stays the same whatever follows the data. -/
theorem C87_trailing (data t : List Byte) (hd : Head) (h : decode_header data = .ok hd) :
    decode_header (data ++ t) = .ok hd := by
  rw [C87_header] at h ⊢
  have hl := h.located
  obtain ⟨ed, flag, hed, hf, h2⟩ := hl.sec2
  have hed' : (data ++ t)[7]? = some ed := getElem?_append_some hed
  have h7 : (data ++ t)[7]? = data[7]? := hed'.trans hed.symm
  have hsz : section1Size (data ++ t) = section1Size data := by unfold section1Size; rw [h7]
  have hroom := h.room
  have h3 := hl.sec3.inside
  have hdesc := h.desc
  have h8 : 8 ≤ data.length := by
    obtain ⟨h, -⟩ := List.getElem?_eq_some_iff.mp hed; omega
  have hs1 := hl.first
  constructor
  · refine ⟨?_, by rw [h7]; exact hl.edition, hs1, hl.sec1.append, ⟨ed, flag, hed',
      getElem?_append_some hf, ?_⟩, hl.sec3.append, hl.sec4.append⟩
    · rw [List.take_append_of_le_length (by omega)]; exact hl.start
    · split
      · next hb => rw [if_pos hb] at h2; exact h2.append
      · next hb => rw [if_neg hb] at h2; exact h2
  · rw [hsz]; simp; omega
  · exact h.opt
  · exact h.desc
  · rw [num_append (by omega)]; exact h.edition
  · rw [h7]
    have h1 := h.sec1
    rw [hs1] at h1 ⊢
    unfold section1Size at hroom
    split
    · next h4 =>
      rw [if_pos h4] at h1 hroom
      rw [hs1] at hroom
      constructor <;> (rw [num_append (by omega)]; first
        | exact h1.master | exact h1.centre | exact h1.subcentre | exact h1.update
        | exact h1.category | exact h1.subcategory | exact h1.local_subcategory
        | exact h1.version | exact h1.local_version | exact h1.year | exact h1.month
        | exact h1.day | exact h1.hour | exact h1.minute | exact h1.second)
    · next h4 =>
      rw [if_neg h4] at h1 hroom
      rw [hs1] at hroom
      constructor <;> (try rw [num_append (by omega)]) <;> first
        | exact h1.master | exact h1.centre | exact h1.subcentre | exact h1.update
        | exact h1.category | exact h1.subcategory | exact h1.local_subcategory
        | exact h1.version | exact h1.local_version | exact h1.year | exact h1.month
        | exact h1.day | exact h1.hour | exact h1.minute | exact h1.second
  · rw [h.optional]
    have hle : hd.secs.s3 ≤ data.length := by omega
    rcases h.opt with ho | ho
    · rw [ho, Nat.sub_eq_zero_of_le (by omega), List.take_zero, List.take_zero]
    · rw [List.drop_append_of_le_length (by omega), List.take_append_of_le_length]
      simp only [List.length_drop]
      omega
  · rw [num_append (by omega)]; exact h.subsets
  · rw [num_append (by omega)]; exact h.compression
  · rw [h.descriptors]
    refine List.map_congr_left fun i hi => ?_
    rw [List.mem_range] at hi
    rw [num_append (by omega)]

/-- Sample messages are decoded; a section 3 of 6 octets is inconsistent, one of 7 a
parse error. -/
example : (decode_header sampleMsg).isOk = true ∧ (decode_header sampleMsg3).isOk = true ∧
    decode_header (sampleMsg.take 36 ++ [0, 0, 6, 0, 0, 1, 0, 0, 4, 0]) = .err .consistency ∧
    decode_header (sampleMsg.take 36 ++ [0, 0, 7, 0, 0, 1, 128, 0, 0, 4, 0]) = .err .parse := by
  decide +kernel

end Wreport
