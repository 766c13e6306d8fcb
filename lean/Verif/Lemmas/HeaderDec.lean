import Verif.Lemmas.Header

/-! # Decoding what the section encoders wrote -/

namespace Wreport

open Spec

namespace BufrDec

open BufrEnc

theorem drop_index {data l : List Byte} {pos : Nat} (h : data.drop pos = l) (k : Nat) :
    data.drop (pos + k) = l.drop k := by rw [← List.drop_drop, h]

theorem read_short_index {data l m : List Byte} {pos k : Nat} {v : UInt16} (h : data.drop pos = l)
    (hk : l.drop k = be 2 v.toNat ++ m) : read_short data (pos + k) = .ok v :=
  read_short_be ((drop_index h k).trans hk)

/-- The optional section flag as read back. -/
theorem optFlag_read (h : Header) :
    (UInt8.ofNat (optFlag h) &&& 0x80 != 0) = !h.optional_section.isEmpty := by
  unfold optFlag
  cases h.optional_section.isEmpty <;> rfl

theorem decode_sec1ed4_ok {data rest : List Byte} {h : Header} {s2 : Nat} {s : Secs} {ol : Nat}
    (hd : data.drop 8 = sec1ed4 h ++ rest)
    (hs : scan_other_sections data 8 s2 (!h.optional_section.isEmpty) = .ok s)
    (hol : optLength4 s = .ok ol) :
    decode_sec1ed4 data 4 8 s2 =
      .ok ({ h with
             edition_number := 4
             master_table_number := 0
             compression := false
             optional_section := []
             datadesc := [] }, s, ol) := by
  have r3 : read_byte data (8 + 3) = .ok 0 := read_byte_index hd rfl
  have r4 : read_short data (8 + 4) = .ok h.originating_centre := read_short_index hd rfl
  have r6 : read_short data (8 + 6) = .ok h.originating_subcentre := read_short_index hd rfl
  have r8 : read_byte data (8 + 8) = .ok h.update_sequence_number := read_byte_index hd rfl
  have r9 : read_byte data (8 + 9) = .ok (UInt8.ofNat (optFlag h)) := read_byte_index hd rfl
  have r10 : read_byte data (8 + 10) = .ok h.data_category := read_byte_index hd rfl
  have r11 : read_byte data (8 + 11) = .ok h.data_subcategory := read_byte_index hd rfl
  have r12 : read_byte data (8 + 12) = .ok h.data_subcategory_local := read_byte_index hd rfl
  have r13 : read_byte data (8 + 13) = .ok h.master_table_version_number := read_byte_index hd rfl
  have r14 : read_byte data (8 + 14) = .ok h.master_table_version_number_local :=
    read_byte_index hd rfl
  have r15 : read_short data (8 + 15) = .ok h.rep_year := read_short_index hd rfl
  have r17 : read_byte data (8 + 17) = .ok h.rep_month := read_byte_index hd rfl
  have r18 : read_byte data (8 + 18) = .ok h.rep_day := read_byte_index hd rfl
  have r19 : read_byte data (8 + 19) = .ok h.rep_hour := read_byte_index hd rfl
  have r20 : read_byte data (8 + 20) = .ok h.rep_minute := read_byte_index hd rfl
  have r21 : read_byte data (8 + 21) = .ok h.rep_second := read_byte_index hd rfl
  unfold decode_sec1ed4
  rw [r3, Res.ok_bind, r4, Res.ok_bind, r6, Res.ok_bind, r8, Res.ok_bind, r9, Res.ok_bind,
    optFlag_read, hs, Res.ok_bind, hol, Res.ok_bind, r10, Res.ok_bind, r11, Res.ok_bind, r12,
    Res.ok_bind, r13, Res.ok_bind, r14, Res.ok_bind, r15, Res.ok_bind, r17, Res.ok_bind, r18,
    Res.ok_bind, r19, Res.ok_bind, r20, Res.ok_bind, r21, Res.ok_bind]
  rfl

theorem decode_sec1ed3_ok {data rest : List Byte} {h : Header} {s2 : Nat} {s : Secs} (ed : UInt8)
    (hd : data.drop 8 = sec1ed3 h ++ rest)
    (hs : scan_other_sections data 8 s2 (!h.optional_section.isEmpty) = .ok s) :
    decode_sec1ed3 data ed 8 s2 =
      .ok ({ h with
             edition_number := ed
             data_subcategory := 0xff
             originating_centre := (UInt8.ofNat h.originating_centre.toNat).toUInt16
             originating_subcentre := (UInt8.ofNat h.originating_subcentre.toNat).toUInt16
             rep_year := fullYear (UInt8.ofNat (yearOfCentury h.rep_year.toNat))
             rep_second := 0
             compression := false
             optional_section := []
             datadesc := [] },
           s, optLength3 s) := by
  have r3 : read_byte data (8 + 3) = .ok h.master_table_number := read_byte_index hd rfl
  have r7 : read_byte data (8 + 7) = .ok (UInt8.ofNat (optFlag h)) := read_byte_index hd rfl
  have r4 : read_byte data (8 + 4) = .ok (UInt8.ofNat h.originating_subcentre.toNat) :=
    read_byte_index hd rfl
  have r5 : read_byte data (8 + 5) = .ok (UInt8.ofNat h.originating_centre.toNat) :=
    read_byte_index hd rfl
  have r6 : read_byte data (8 + 6) = .ok h.update_sequence_number := read_byte_index hd rfl
  have r8 : read_byte data (8 + 8) = .ok h.data_category := read_byte_index hd rfl
  have r9 : read_byte data (8 + 9) = .ok h.data_subcategory_local := read_byte_index hd rfl
  have r10 : read_byte data (8 + 10) = .ok h.master_table_version_number := read_byte_index hd rfl
  have r11 : read_byte data (8 + 11) = .ok h.master_table_version_number_local :=
    read_byte_index hd rfl
  have r12 : read_byte data (8 + 12) = .ok (UInt8.ofNat (yearOfCentury h.rep_year.toNat)) :=
    read_byte_index hd rfl
  have r13 : read_byte data (8 + 13) = .ok h.rep_month := read_byte_index hd rfl
  have r14 : read_byte data (8 + 14) = .ok h.rep_day := read_byte_index hd rfl
  have r15 : read_byte data (8 + 15) = .ok h.rep_hour := read_byte_index hd rfl
  have r16 : read_byte data (8 + 16) = .ok h.rep_minute := read_byte_index hd rfl
  unfold decode_sec1ed3
  rw [r3, Res.ok_bind, r7, Res.ok_bind, optFlag_read, hs, Res.ok_bind, r4, Res.ok_bind, r5,
    Res.ok_bind, r6, Res.ok_bind, r10, Res.ok_bind, r11, Res.ok_bind, r8, Res.ok_bind, r9,
    Res.ok_bind, r12, Res.ok_bind, r13, Res.ok_bind, r14, Res.ok_bind, r15, Res.ok_bind, r16,
    Res.ok_bind]
  rfl

theorem length_sec1 (h : Header) :
    (sec1 h).length = if h.edition_number = 4 then 22 else 18 := by
  unfold sec1
  split <;> simp [sec1ed4, sec1ed3]

theorem prefixed_sec1 (h : Header) : BePrefixed (sec1 h) := by
  unfold BePrefixed
  rw [length_sec1]
  unfold sec1
  split
  · exact ⟨_, rfl⟩
  · exact ⟨_, rfl⟩

theorem length_sec2 (h : Header) : (sec2 h).length = if h.optional_section = [] then 0
    else 4 + h.optional_section.length + h.optional_section.length % 2 := by
  unfold sec2
  split
  · rfl
  · simp; omega

theorem prefixed_sec2 (h : Header) : sec2 h = [] ∨ BePrefixed (sec2 h) := by
  by_cases h0 : h.optional_section = []
  · exact .inl (by simp [sec2, h0])
  · right
    unfold BePrefixed
    rw [length_sec2, if_neg h0, sec2, if_neg h0]
    exact ⟨_, rfl⟩

theorem length_descriptors (l : List Varcode) : (l.flatMap (be 2)).length = 2 * l.length := by
  induction l with
  | nil => rfl
  | cons c l ih => rw [List.flatMap_cons, List.length_append, ih]; simp; omega

theorem length_sec3 (h : Header) (n : Nat) : (sec3 h n).length = 8 + 2 * h.datadesc.length := by
  simp only [sec3, List.length_append, length_be, length_descriptors, List.length_cons,
    List.length_nil]
  omega

theorem prefixed_sec3 (h : Header) (n : Nat) : BePrefixed (sec3 h n) := by
  unfold BePrefixed
  rw [length_sec3, sec3]
  exact ⟨_, rfl⟩

theorem prefixed_sec4 (d : List Byte) : BePrefixed (be 3 (4 + d.length) ++ ([0] ++ d)) := by
  refine ⟨[0] ++ d, ?_⟩
  congr 2
  simp; omega

/-- The optional section once padded. -/
def paddedOptional (h : Header) : List Byte :=
  h.optional_section ++ List.replicate (h.optional_section.length % 2) 0

/-- What a message gives back of a header. -/
def carried (h : Header) : Header :=
  if h.edition_number = 4 then
    { h with master_table_number := 0, compression := false, optional_section := paddedOptional h }
  else
    { h with
      data_subcategory := 0xff
      originating_centre := (UInt8.ofNat h.originating_centre.toNat).toUInt16
      originating_subcentre := (UInt8.ofNat h.originating_subcentre.toNat).toUInt16
      rep_year := fullYear (UInt8.ofNat (yearOfCentury h.rep_year.toNat))
      rep_second := 0
      compression := false
      optional_section := paddedOptional h }

/-- Where sections are in a message. -/
def layout (h : Header) (n d : Nat) : Secs where
  s1 := 8
  s2 := 8 + (sec1 h).length
  s3 := 8 + (sec1 h).length + (sec2 h).length
  s4 := 8 + (sec1 h).length + (sec2 h).length + (sec3 h n).length
  s5 := 8 + (sec1 h).length + (sec2 h).length + (sec3 h n).length + (4 + d)

theorem decode_header_ok {h : Header} {n : Nat} {msg l3 d tail : List Byte} (h3 : l3.length = 3)
    (hmsg : msg = ascii "BUFR" ++ (l3 ++ ([h.edition_number] ++ (sec1 h ++ (sec2 h ++
      (sec3 h n ++ ((be 3 (4 + d.length) ++ ([0] ++ d)) ++ tail)))))))
    (hed : h.edition_number = 2 ∨ h.edition_number = 3 ∨ h.edition_number = 4)
    (hc : ∀ c ∈ h.datadesc, c < 65536) (hl2 : (sec2 h).length < 2 ^ 24)
    (hl3 : (sec3 h n).length < 2 ^ 24) (hl4 : 4 + d.length < 2 ^ 24) :
    decode_header msg = .ok ⟨carried h, layout h n d.length, n % 65536⟩ := by
  have hA : (ascii "BUFR").length = 4 := rfl
  have d0 : msg.drop 0 = ascii "BUFR" ++ (l3 ++ ([h.edition_number] ++ (sec1 h ++ (sec2 h ++
      (sec3 h n ++ ((be 3 (4 + d.length) ++ ([0] ++ d)) ++ tail)))))) := hmsg
  have d4 : msg.drop 4 = _ := drop_append_of d0 4 rfl
  have d7 : msg.drop 7 = _ := drop_append_of d4 3 h3.symm
  have d8 : msg.drop 8 = _ := drop_append_of d7 1 rfl
  have d9 := drop_append_of d8 _ rfl
  have d10 := drop_append_of d9 _ rfl
  have d11 := drop_append_of d10 _ rfl
  have hlen : msg.length = 8 + (sec1 h).length + (sec2 h).length + (sec3 h n).length +
      (4 + d.length) + tail.length := by
    rw [hmsg]; simp [hA, h3]; omega
  have hl1 := length_sec1 h
  have hl1' : (sec1 h).length < 2 ^ 24 := by rw [hl1]; split <;> norm_num
  unfold decode_header
  rw [check, if_neg (by omega), Res.ok_bind]
  have rs : read_bytes msg 0 4 = .ok (ascii "BUFR") := read_bytes_ok d0
  rw [rs, Res.ok_bind, if_neg (by simp)]
  have re : read_byte msg 7 = .ok h.edition_number := read_byte_index (pos := 7) (k := 0) d7 rfl
  rw [re, Res.ok_bind, if_neg (by tauto)]
  unfold decode_sections
  rw [scan_section_length_ok d8 (prefixed_sec1 h) hl1' (by omega), Res.ok_bind]
  rw [check, if_neg (by rw [hl1] at hlen; omega), Res.ok_bind]
  -- the other sections
  have hs3 : scan_optional msg (8 + (sec1 h).length) (!h.optional_section.isEmpty) =
      .ok (8 + (sec1 h).length + (sec2 h).length) := by
    by_cases h0 : h.optional_section = []
    · simp [h0, scan_optional, length_sec2]
    · have hp : BePrefixed (sec2 h) := by
        rcases prefixed_sec2 h with hp | hp
        · have := length_sec2 h; rw [hp, if_neg h0] at this; simp at this; omega
        · exact hp
      have h1 : h.optional_section.isEmpty = false := by simpa using h0
      rw [h1]
      simp only [Bool.not_false, scan_optional, if_true]
      exact scan_section_length_ok d9 hp hl2 (by omega)
  have hs : scan_other_sections msg 8 (8 + (sec1 h).length) (!h.optional_section.isEmpty) =
      .ok (layout h n d.length) := by
    unfold scan_other_sections
    rw [hs3, Res.ok_bind, scan_section_length_ok d10 (prefixed_sec3 h n) hl3 (by omega),
      Res.ok_bind, scan_section_length_ok d11 (prefixed_sec4 d) (by simp; omega)
        (by omega),
      Res.ok_bind]
    simp [layout]
    omega
  have hsub : (layout h n d.length).s3 - (layout h n d.length).s2 = (sec2 h).length := by
    simp [layout]
  -- section 1
  obtain ⟨ol, hol, hsec1⟩ : ∃ ol, (ol = if h.optional_section = [] then 0 else
        h.optional_section.length + h.optional_section.length % 2) ∧
      decode_sec1 msg h.edition_number 8 (8 + (sec1 h).length) =
        .ok ({ carried h with optional_section := [], compression := false, datadesc := [] },
          layout h n d.length, ol) := by
    by_cases h4 : h.edition_number = 4
    · refine ⟨(sec2 h).length - 4, ?_, ?_⟩
      · rw [length_sec2]; split <;> omega
      · unfold decode_sec1
        rw [if_pos h4, h4]
        have hd8 := d8
        rw [sec1, if_pos h4] at hd8
        have hol : optLength4 (layout h n d.length) = .ok ((sec2 h).length - 4) := by
          unfold optLength4
          rw [hsub]
          have := length_sec2 h
          split
          · next h0 => rw [h0]
          · split
            · rfl
            · split at this <;> omega
        rw [decode_sec1ed4_ok hd8 hs hol]
        simp [carried, h4]
    · refine ⟨optLength3 (layout h n d.length), ?_, ?_⟩
      · unfold optLength3
        rw [hsub, length_sec2]
        have := length_sec2 h
        split
        · rfl
        · next h0 => rw [if_neg h0] at this; rw [if_neg (by omega)]; omega
      · unfold decode_sec1
        rw [if_neg h4]
        have hd8 := d8
        rw [sec1, if_neg h4] at hd8
        rw [decode_sec1ed3_ok _ hd8 hs]
        simp [carried, h4]
  rw [hsec1, Res.ok_bind]
  -- section 2
  have hsec2 : decode_sec2 msg (layout h n d.length) ol = .ok (paddedOptional h) := by
    unfold decode_sec2
    by_cases h0 : h.optional_section = []
    · rw [if_pos (by simp [hol, h0])]; simp [paddedOptional, h0]
    · have hlen2 := length_sec2 h
      rw [if_neg h0] at hol hlen2
      have hpos : 0 < h.optional_section.length := List.length_pos_iff.mpr h0
      rw [if_neg (by omega)]
      have e2 : sec2 h = be 3 (sec2 h).length ++ ([0] ++ paddedOptional h) := by
        rw [hlen2, sec2, if_neg h0]; rfl
      have dd := d9
      rw [e2, List.append_assoc] at dd
      have hrn : read_number msg (layout h n d.length).s2 3 = .ok (sec2 h).length := by
        have := read_number_be (pos := 8 + (sec1 h).length) dd (by omega)
        rw [Nat.mod_eq_of_lt (by norm_num; omega)] at this
        exact this
      have hs2 : (layout h n d.length).s2 = 8 + (sec1 h).length := rfl
      have hs3' : (layout h n d.length).s3 = 8 + (sec1 h).length + (sec2 h).length := rfl
      rw [check, if_neg (by omega), Res.ok_bind, hrn, Res.ok_bind, check, if_neg (by omega),
        Res.ok_bind, if_neg (by omega)]
      have dd3 := drop_append_of dd 3 (by simp)
      rw [List.append_assoc] at dd3
      have dd4 := drop_append_of dd3 1 rfl
      have hl : (sec2 h).length - 4 = (paddedOptional h).length := by
        simp only [paddedOptional, List.length_append, List.length_replicate]; omega
      rw [hl, hs2]
      exact read_bytes_ok dd4
  rw [hsec2, Res.ok_bind]
  -- section 3
  have hlen3 := length_sec3 h n
  have hsec3 : decode_sec3 msg (layout h n d.length) = .ok (n % 65536, false, h.datadesc) := by
    have hs3' : (layout h n d.length).s3 = 8 + (sec1 h).length + (sec2 h).length := rfl
    have hs4' : (layout h n d.length).s4 =
      8 + (sec1 h).length + (sec2 h).length + (sec3 h n).length := rfl
    unfold decode_sec3
    have hcount : ((layout h n d.length).s4 - (layout h n d.length).s3 - 7) / 2 =
        h.datadesc.length := by omega
    rw [if_neg (by omega), check, if_neg (by omega), Res.ok_bind]
    have dd := d10
    rw [sec3, List.append_assoc] at dd
    have dd3 := drop_append_of dd 3 (by simp)
    rw [List.append_assoc] at dd3
    have dd4 := drop_append_of dd3 1 rfl
    rw [List.append_assoc] at dd4
    have dd6 := drop_append_of dd4 2 (by simp)
    rw [List.append_assoc] at dd6
    have dd7 := drop_append_of dd6 1 rfl
    rw [List.append_assoc] at dd7
    have r4 := read_number_be dd4 (by omega)
    rw [add_assoc, ← hs3'] at r4
    have r6 : read_byte msg ((layout h n d.length).s3 + 6) = .ok 128 := by
      have := read_byte_index (k := 0) dd6 rfl
      rw [← hs3'] at this
      exact this
    rw [r4, Res.ok_bind, r6, Res.ok_bind, check, hcount, if_neg (by omega), Res.ok_bind]
    have dd7' : msg.drop ((layout h n d.length).s3 + 7) = h.datadesc.flatMap (be 2) ++ _ := dd7
    rw [read_descriptors_ok dd7' hc, Res.ok_bind]
    rfl
  rw [hsec3, Res.ok_bind]
  simp only [Res.pure_def, Res.ok.injEq, Head.mk.injEq, and_true]
  unfold carried
  split <;> rfl

/-- Encoding then decoding the header. -/
theorem decode_encode {h : Header} {n : Nat} {body : BitOut → Res BitOut} (hb : Appends body)
    {msg : List Byte} (he : BufrEnc.encode h n body = .ok msg) (hl : msg.length < 2 ^ 24)
    (hc : ∀ c ∈ h.datadesc, c < 65536) :
    ∃ secs, decode_header msg = .ok ⟨carried h, secs, n % 65536⟩ := by
  obtain ⟨hed, -, -, ob, t, d, k, -, -, -, -, -, hmsg⟩ := encode_ok hb he
  have hlen := congrArg List.length hmsg
  simp only [List.length_append, length_be] at hlen
  exact ⟨_, decode_header_ok (length_be 3 msg.length) hmsg hed hc (by omega) (by omega) (by
    simp only [List.length_cons, List.length_nil] at hlen; omega)⟩

/-! ## Any input -/

theorem byteAt_post {data : List Byte} {pos : Nat} (h : pos < data.length) (Q : Err → Prop) :
    (Input.byteAt data pos).Post (fun b => data[pos]? = some (UInt8.ofNat b) ∧ b < 256) Q := by
  unfold Input.byteAt
  rw [List.getElem?_eq_getElem h]
  exact ⟨by simp, data[pos].toNat_lt⟩

theorem read_byte_post {data : List Byte} {pos : Nat} (h : pos < data.length) (Q : Err → Prop) :
    (read_byte data pos).Post (fun b => data[pos]? = some b) Q :=
  (byteAt_post h Q).bind fun _ hb => hb.1

theorem read_number_post {data : List Byte} {pos k : Nat} (h : pos + k ≤ data.length)
    (h4 : k ≤ 4) (Q : Err → Prop) :
    (read_number data pos k).Post (fun v => v = ofBe ((data.drop pos).take k)) Q := by
  have hk : k = ((data.drop pos).take k).length := by simp; omega
  rw [read_number_ok (l := (data.drop pos).take k) (m := (data.drop pos).drop k)
    (List.take_append_drop _ _).symm hk h4]
  rfl

theorem read_short_post {data : List Byte} {pos : Nat} (h : pos + 2 ≤ data.length)
    (Q : Err → Prop) : (read_short data pos).Post (fun _ => True) Q :=
  (read_number_post h (by omega) Q).bind fun _ _ => trivial

theorem check_post {pos n stop : Nat} {Q : Err → Prop} (hQ : Q .parse) :
    (check pos n stop).Post (fun _ => pos + n ≤ stop) Q := by
  unfold check
  split
  · exact hQ
  · simp only [Res.Post]; omega

theorem scan_section_length_post {data : List Byte} {a : Nat} {Q : Err → Prop} (hQ : Q .parse) :
    (scan_section_length data a).Post (fun b => SectionAt data a b) Q := by
  unfold scan_section_length
  refine (check_post hQ).bind fun _ h1 => ?_
  refine (read_number_post h1 (by omega) Q).bind fun v hv => ?_
  refine (check_post hQ).bind fun _ h2 => ?_
  exact ⟨h1, by rw [hv], h2⟩

/-- What `scan_other_sections` checks. -/
structure Scanned (data : List Byte) (s1 s2 : Nat) (opt : Bool) (s : Secs) : Prop where
  e1 : s.s1 = s1
  e2 : s.s2 = s2
  sec2 : if opt then SectionAt data s2 s.s3 else s.s3 = s2
  sec3 : SectionAt data s.s3 s.s4
  sec4 : SectionAt data s.s4 s.s5

theorem scan_other_sections_post {data : List Byte} {s1 s2 : Nat} {opt : Bool} {Q : Err → Prop}
    (hQ : Q .parse) :
    (scan_other_sections data s1 s2 opt).Post (Scanned data s1 s2 opt) Q := by
  unfold scan_other_sections
  have h3 : (scan_optional data s2 opt).Post
      (fun s3 => if opt then SectionAt data s2 s3 else s3 = s2) Q := by
    unfold scan_optional
    cases opt
    · rfl
    · exact scan_section_length_post hQ
  refine h3.bind fun s3 h3 => ?_
  refine (scan_section_length_post hQ).bind fun s4 h4 => ?_
  refine (scan_section_length_post hQ).bind fun s5 h5 => ?_
  exact ⟨rfl, rfl, h3, h4, h5⟩

theorem flag_bit (b : UInt8) : (b &&& 0x80 != 0) = b.toNat.testBit 7 := by
  have : ∀ n < 256, (UInt8.ofNat n &&& 0x80 != 0) = (UInt8.ofNat n).toNat.testBit 7 := by
    decide +kernel
  simpa using this b.toNat b.toNat_lt

/-- What section 1 gives: the flag was read and the sections were found. -/
def Sec1Ok (data : List Byte) (pos s2 : Nat) (r : Header × Secs × Nat) : Prop :=
  ∃ flag, data[pos]? = some flag ∧ Scanned data 8 s2 (flag.toNat.testBit 7) r.2.1

/-- Errors of the header decoder: parse errors, and consistency errors that are
raised only once sections were found. -/
def HeadErr (data : List Byte) (pos s2 : Nat) (e : Err) : Prop :=
  e = .parse ∨ (e = .consistency ∧ ∃ r, Sec1Ok data pos s2 r)

theorem decode_sec1ed3_post {data : List Byte} {ed : UInt8} {s2 : Nat} (hl : 26 ≤ data.length) :
    (decode_sec1ed3 data ed 8 s2).Post (Sec1Ok data 15 s2) (HeadErr data 15 s2) := by
  unfold decode_sec1ed3
  refine (read_byte_post (by omega) _).bind fun _ _ => ?_
  refine (read_byte_post (by omega) _).bind fun flag hflag => ?_
  rw [flag_bit]
  refine (scan_other_sections_post (.inl rfl)).bind fun s hs => ?_
  iterate 12 refine (read_byte_post (by omega) _).bind fun _ _ => ?_
  exact ⟨flag, hflag, hs⟩

theorem decode_sec1ed4_post {data : List Byte} {ed : UInt8} {s2 : Nat} (hl : 30 ≤ data.length) :
    (decode_sec1ed4 data ed 8 s2).Post (Sec1Ok data 17 s2) (HeadErr data 17 s2) := by
  unfold decode_sec1ed4
  refine (read_byte_post (by omega) _).bind fun _ _ => ?_
  refine (read_short_post (by omega) _).bind fun _ _ => ?_
  refine (read_short_post (by omega) _).bind fun _ _ => ?_
  refine (read_byte_post (by omega) _).bind fun _ _ => ?_
  refine (read_byte_post (by omega) _).bind fun flag hflag => ?_
  rw [flag_bit]
  refine (scan_other_sections_post (.inl rfl)).bind fun s hs => ?_
  have hol : (optLength4 s).Post (fun _ => True) (HeadErr data 17 s2) := by
    unfold optLength4
    split
    · trivial
    · split
      · trivial
      · exact .inr ⟨rfl, ⟨{}, s, 0⟩, flag, hflag, hs⟩
  refine hol.bind fun _ _ => ?_
  iterate 5 refine (read_byte_post (by omega) _).bind fun _ _ => ?_
  refine (read_short_post (by omega) _).bind fun _ _ => ?_
  iterate 5 refine (read_byte_post (by omega) _).bind fun _ _ => ?_
  exact ⟨flag, hflag, hs⟩

theorem read_bytes_post {data : List Byte} {pos k : Nat} (h : pos + k ≤ data.length)
    (Q : Err → Prop) : (read_bytes data pos k).Post (fun l => l = (data.drop pos).take k) Q := by
  have := read_bytes_ok (data := data) (pos := pos) (l := (data.drop pos).take k)
    (m := (data.drop pos).drop k) (List.take_append_drop _ _).symm
  rw [show ((data.drop pos).take k).length = k by simp; omega] at this
  rw [this]
  rfl

theorem decode_sec2_post {data : List Byte} {s : Secs} {ol : Nat} {Q : Err → Prop} (hp : Q .parse)
    (hc : Q .consistency) (h : s.s3 ≤ data.length) :
    (decode_sec2 data s ol).Post (fun _ => True) Q := by
  unfold decode_sec2
  split
  · trivial
  · refine (check_post hp).bind fun _ h1 => ?_
    refine (read_number_post (by omega) (by omega) Q).bind fun v hv => ?_
    refine (check_post hp).bind fun _ h2 => ?_
    split
    · exact hc
    · exact (read_bytes_post (by omega) Q).mono (fun _ _ => trivial) (fun _ h => h)

theorem read_descriptors_post {data : List Byte} {pos k : Nat} (h : pos + 2 * k ≤ data.length)
    (Q : Err → Prop) : (read_descriptors data pos k).Post (fun _ => True) Q := by
  induction k generalizing pos with
  | zero => trivial
  | succ k ih =>
    unfold read_descriptors
    refine (read_number_post (by omega) (by omega) Q).bind fun v hv => ?_
    refine (ih (by omega)).bind fun _ _ => ?_
    trivial

theorem decode_sec3_post {data : List Byte} {s : Secs} {Q : Err → Prop} (hp : Q .parse)
    (hc : Q .consistency) (h : s.s4 ≤ data.length) :
    (decode_sec3 data s).Post (fun _ => True) Q := by
  unfold decode_sec3
  split
  · exact hc
  · refine (check_post hp).bind fun _ h1 => ?_
    refine (read_number_post (by omega) (by omega) Q).bind fun v hv => ?_
    refine (read_byte_post (by omega) Q).bind fun _ _ => ?_
    refine (check_post hp).bind fun _ h2 => ?_
    refine (read_descriptors_post (by omega) Q).bind fun _ _ => ?_
    trivial

/-- The header decoder on any input: no undefined behaviour; it succeeds, or
raises a consistency error, only if sections are located. -/
theorem decode_header_post (data : List Byte) :
    (decode_header data).Post
      (fun r => Located data r.secs.s1 r.secs.s2 r.secs.s3 r.secs.s4 r.secs.s5)
      (fun e => e = .parse ∨ (e = .consistency ∧ ∃ s1 s2 s3 s4 s5, Located data s1 s2 s3 s4 s5)) := by
  set Q : Err → Prop := fun e => e = .parse ∨
    (e = .consistency ∧ ∃ s1 s2 s3 s4 s5, Located data s1 s2 s3 s4 s5) with hQ
  have hp : Q .parse := .inl rfl
  unfold decode_header
  refine (check_post hp).bind fun _ h8 => ?_
  refine (read_bytes_post (by omega) Q).bind fun sig hsig => ?_
  split
  · exact hp
  · next hs =>
    refine (read_byte_post (by omega) Q).bind fun ed hed => ?_
    split
    · exact hp
    · next he =>
      have hs' : data.take 4 = ascii "BUFR" := by
        rw [hsig] at hs; simpa using hs
      have hed' : data[7]? = some 2 ∨ data[7]? = some 3 ∨ data[7]? = some 4 := by
        rw [hed]; simp only [Option.some.injEq]; tauto
      unfold decode_sections
      refine (scan_section_length_post hp).bind fun s2 hs2 => ?_
      refine (check_post hp).bind fun _ hlen => ?_
      -- section 1
      have hloc : ∀ r, Sec1Ok data (flagPos ed) s2 r →
          Located data r.2.1.s1 r.2.1.s2 r.2.1.s3 r.2.1.s4 r.2.1.s5 := by
        rintro r ⟨flag, hf, hsc⟩
        exact ⟨hs', hed', hsc.e1, by rw [hsc.e1, hsc.e2]; exact hs2,
          ⟨ed, flag, hed, hf, by rw [hsc.e2]; exact hsc.sec2⟩, hsc.sec3, hsc.sec4⟩
      have h1 : (decode_sec1 data ed 8 s2).Post (Sec1Ok data (flagPos ed) s2) Q := by
        have hmono : ∀ e, HeadErr data (flagPos ed) s2 e → Q e := by
          rintro e (h | ⟨h, r, hr⟩)
          · exact .inl h
          · exact .inr ⟨h, _, _, _, _, _, hloc r hr⟩
        unfold decode_sec1
        split
        · next h4 =>
          rw [if_pos h4] at hlen
          have : flagPos ed = 17 := by simp [flagPos, h4]
          rw [this] at hmono ⊢
          exact (decode_sec1ed4_post (by omega)).mono (fun _ h => h) hmono
        · next h4 =>
          rw [if_neg h4] at hlen
          have : flagPos ed = 15 := by simp [flagPos, h4]
          rw [this] at hmono ⊢
          exact (decode_sec1ed3_post (by omega)).mono (fun _ h => h) hmono
      refine h1.bind fun r hr => ?_
      have hl := hloc r hr
      have hc : Q .consistency := .inr ⟨rfl, _, _, _, _, _, hl⟩
      have h3 : r.2.1.s3 ≤ data.length := by
        have := hl.sec3.indicator; omega
      refine (decode_sec2_post hp hc h3).bind fun _ _ => ?_
      refine (decode_sec3_post hp hc hl.sec3.inside).bind fun _ _ => ?_
      exact hl

end BufrDec

end Wreport
