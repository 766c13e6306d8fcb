import Verif.Lemmas.HeaderDec

/-! # BUFR sections: C26-C31 -/

namespace Wreport

open Spec BufrDec BufrEnc

/-- A sample header. -/
def sampleHeader : Header where
  edition_number := 4
  data_category := 1
  data_subcategory := 2
  data_subcategory_local := 3
  originating_centre := 200
  originating_subcentre := 300
  update_sequence_number := 5
  rep_year := 2026
  rep_month := 11
  rep_day := 15
  rep_hour := 3
  rep_minute := 4
  rep_second := 5
  optional_section := [1, 2]
  datadesc := [0x0101, 0xC001]

/-- A writer of data that writes five bits. -/
def sampleBody (o : BitOut) : Res BitOut := o.add_bits 19 5

theorem sampleBody_appends : Appends sampleBody := by
  intro o o' h e
  obtain ⟨-, -, w, b⟩ := BitOut.add_bits_eq_ok h e
  exact ⟨w, _, b⟩

/-- The sample message. -/
def sampleMsg : List Byte :=
  [66, 85, 70, 82, 0, 0, 58, 4, 0, 0, 22, 0, 0, 200, 1, 44, 5, 128, 1, 2, 3, 19, 0, 7, 234, 11, 15,
    3, 4, 5, 0, 0, 6, 0, 1, 2, 0, 0, 12, 0, 0, 2, 128, 1, 1, 192, 1, 0, 0, 0, 6, 0, 152, 0, 55, 55,
    55, 55]

theorem sampleMsg_encoded : encode sampleHeader 2 sampleBody = .ok sampleMsg := by decide +kernel

/-- The sample message in edition 3. -/
def sampleMsg3 : List Byte :=
  [66, 85, 70, 82, 0, 0, 54, 3, 0, 0, 18, 0, 44, 200, 5, 128, 1, 3, 19, 0, 26, 11, 15, 3, 4, 20, 0,
    0, 6, 0, 1, 2, 0, 0, 12, 0, 0, 2, 128, 1, 1, 192, 1, 0, 0, 0, 6, 0, 152, 0, 55, 55, 55, 55]

theorem sampleMsg3_encoded :
    encode { sampleHeader with edition_number := 3 } 2 sampleBody = .ok sampleMsg3 := by
  decide +kernel

/-! ## C26 -/

/-- Edition 4 carries every field at full width. The code writes the master table
number as zero, so this holds only for master table 0. -/
theorem C26_edition4_partial {h : Header} {n : Nat} {body : BitOut → Res BitOut}
    (hb : Appends body) {msg : List Byte} (he : encode h n body = .ok msg)
    (hl : msg.length < 2 ^ 24) (hc : ∀ c ∈ h.datadesc, c < 65536) (h4 : h.edition_number = 4)
    (hm : h.master_table_number = 0) :
    ∃ r, decode_header msg = .ok r ∧
      { r.header with
        optional_section := h.optional_section
        compression := h.compression
        datadesc := h.datadesc } = h := by
  obtain ⟨secs, e⟩ := decode_encode hb he hl hc
  refine ⟨_, e, ?_⟩
  simp only [carried, if_pos h4]
  rw [← hm]

example : ∃ msg, encode sampleHeader 2 sampleBody = .ok msg ∧ msg.length < 2 ^ 24 ∧
    (∀ c ∈ sampleHeader.datadesc, c < 65536) :=
  ⟨_, sampleMsg_encoded, by decide⟩

/-- The master table number is lost in edition 4. -/
theorem C26_not_master_table :
    (do
      let msg ← encode { sampleHeader with master_table_number := 10 } 2 sampleBody
      let r ← decode_header msg
      return r.header.master_table_number) = Res.ok 0 := by decide +kernel

/-- Editions 2 and 3 have one octet for the centre and the subcentre, a year of
century, and neither seconds nor an international subcategory. -/
theorem C26_edition3 {h : Header} {n : Nat} {body : BitOut → Res BitOut} (hb : Appends body)
    {msg : List Byte} (he : encode h n body = .ok msg) (hl : msg.length < 2 ^ 24)
    (hc : ∀ c ∈ h.datadesc, c < 65536) (h3 : h.edition_number = 2 ∨ h.edition_number = 3) :
    ∃ r, decode_header msg = .ok r ∧ r.header.edition_number = h.edition_number ∧
      r.header.master_table_number = h.master_table_number ∧
      r.header.data_category = h.data_category ∧
      r.header.data_subcategory_local = h.data_subcategory_local ∧
      r.header.update_sequence_number = h.update_sequence_number ∧
      r.header.master_table_version_number = h.master_table_version_number ∧
      r.header.master_table_version_number_local = h.master_table_version_number_local ∧
      r.header.rep_month = h.rep_month ∧ r.header.rep_day = h.rep_day ∧
      r.header.rep_hour = h.rep_hour ∧ r.header.rep_minute = h.rep_minute ∧
      (h.originating_centre < 256 → r.header.originating_centre = h.originating_centre) ∧
      (h.originating_subcentre < 256 →
        r.header.originating_subcentre = h.originating_subcentre) ∧
      r.header.rep_year.toNat % 100 = h.rep_year.toNat % 100 ∧
      r.header.data_subcategory = 255 ∧ r.header.rep_second = 0 := by
  obtain ⟨secs, e⟩ := decode_encode hb he hl hc
  have h4 : ¬ h.edition_number = 4 := by rcases h3 with h | h <;> rw [h] <;> decide
  have key (x : UInt16) (hx : x < 256) : (UInt8.ofNat x.toNat).toUInt16 = x := by
    have hx' : x.toNat < 256 := hx
    apply UInt16.toNat_inj.mp
    simp only [UInt8.toNat_toUInt16, UInt8.toNat_ofNat']
    omega
  refine ⟨_, e, ?_⟩
  simp only [carried, if_neg h4]
  refine ⟨trivial, trivial, trivial, trivial, trivial, trivial, trivial, trivial, trivial,
    trivial, trivial, key _, key _, ?_, trivial, trivial⟩
  unfold fullYear yearOfCentury
  split
  · next h2 => rw [h2]; simp
  · have : (UInt8.ofNat (h.rep_year.toNat % 100)).toNat = h.rep_year.toNat % 100 := by
      simp only [UInt8.toNat_ofNat']; omega
    rw [this]
    split <;> simp only [UInt16.toNat_ofNat'] <;> omega

example : ∃ msg, encode { sampleHeader with edition_number := 3 } 2 sampleBody = .ok msg ∧
    msg.length < 2 ^ 24 :=
  ⟨_, sampleMsg3_encoded, by decide⟩

/-! ## C27 -/

/-- The year survives an edition 2 or 3 message exactly when it lies in
1951..2050. -/
theorem C27_century_window {h : Header} {n : Nat} {body : BitOut → Res BitOut} (hb : Appends body)
    {msg : List Byte} (he : encode h n body = .ok msg) (hl : msg.length < 2 ^ 24)
    (hc : ∀ c ∈ h.datadesc, c < 65536) (h3 : h.edition_number = 2 ∨ h.edition_number = 3) :
    ∃ r, decode_header msg = .ok r ∧
      (r.header.rep_year = h.rep_year ↔ 1951 ≤ h.rep_year.toNat ∧ h.rep_year.toNat ≤ 2050) := by
  obtain ⟨secs, e⟩ := decode_encode hb he hl hc
  have h4 : ¬ h.edition_number = 4 := by rcases h3 with h | h <;> rw [h] <;> decide
  refine ⟨_, e, ?_⟩
  simp only [carried, if_neg h4]
  rw [← UInt16.toNat_inj]
  have hy := h.rep_year.toNat_lt
  unfold fullYear yearOfCentury
  split
  · next h2 => rw [h2]; simp
  · have : (UInt8.ofNat (h.rep_year.toNat % 100)).toNat = h.rep_year.toNat % 100 := by
      simp only [UInt8.toNat_ofNat']; omega
    rw [this]
    split <;> simp only [UInt16.toNat_ofNat'] <;> omega

/-! ## C28 -/

/-- An optional section of even length, or no optional section, comes back
unchanged. -/
theorem C28_even_partial {h : Header} {n : Nat} {body : BitOut → Res BitOut} (hb : Appends body)
    {msg : List Byte} (he : encode h n body = .ok msg) (hl : msg.length < 2 ^ 24)
    (hc : ∀ c ∈ h.datadesc, c < 65536) (hev : h.optional_section.length % 2 = 0) :
    ∃ r, decode_header msg = .ok r ∧ r.header.optional_section = h.optional_section := by
  obtain ⟨secs, e⟩ := decode_encode hb he hl hc
  refine ⟨_, e, ?_⟩
  simp only [carried]
  split <;> simp [paddedOptional, hev]

example : ∃ msg, encode sampleHeader 2 sampleBody = .ok msg ∧ msg.length < 2 ^ 24 ∧
    sampleHeader.optional_section.length % 2 = 0 :=
  ⟨_, sampleMsg_encoded, by decide⟩

/-- An optional section of odd length comes back with a NUL added. -/
theorem C28_odd {h : Header} {n : Nat} {body : BitOut → Res BitOut} (hb : Appends body)
    {msg : List Byte} (he : encode h n body = .ok msg) (hl : msg.length < 2 ^ 24)
    (hc : ∀ c ∈ h.datadesc, c < 65536) (hodd : h.optional_section.length % 2 = 1) :
    ∃ r, decode_header msg = .ok r ∧ r.header.optional_section = h.optional_section ++ [0] := by
  obtain ⟨secs, e⟩ := decode_encode hb he hl hc
  refine ⟨_, e, ?_⟩
  simp only [carried]
  split <;> simp [paddedOptional, hodd]

/-- C27 and C28 apply: a message of edition 3 with an optional section of three bytes. -/
example : ∃ msg, encode { sampleHeader with edition_number := 3, optional_section := [1, 2, 3] } 2
      sampleBody = .ok msg ∧ msg.length < 2 ^ 24 ∧ ∀ c ∈ sampleHeader.datadesc, c < 65536 := by
  have h : (encode { sampleHeader with edition_number := 3, optional_section := [1, 2, 3] } 2 sampleBody >>=
      fun m => .ok (decide (m.length < 2 ^ 24))) = Res.ok true := by decide +kernel
  obtain ⟨m, h1, h2⟩ := Res.bind_eq_ok.mp h
  exact ⟨m, h1, by simpa using h2, by decide⟩

/-- So not every optional section comes back unchanged. -/
theorem C28_not_odd :
    (do
      let msg ← encode { sampleHeader with optional_section := [7] } 2 sampleBody
      let r ← decode_header msg
      return r.header.optional_section) = Res.ok [7, 0] := by decide +kernel

/-! ## C29 -/

/-- Descriptors and number of subsets come back, in messages whose length three octets can
tell. Missing: longer lists of descriptors (`C29_not_long`). -/
theorem C29_round_trip_partial {h : Header} {n : Nat} {body : BitOut → Res BitOut} (hb : Appends body)
    {msg : List Byte} (he : encode h n body = .ok msg) (hl : msg.length < 2 ^ 24)
    (hc : ∀ c ∈ h.datadesc, c < 65536) (hn : n ≤ 65535) :
    ∃ r, decode_header msg = .ok r ∧ r.header.datadesc = h.datadesc ∧ r.expected_subsets = n ∧
      obtained r.expected_subsets = n := by
  obtain ⟨secs, e⟩ := decode_encode hb he hl hc
  obtain ⟨-, h0, -⟩ := encode_ok hb he
  refine ⟨_, e, ?_, ?_, ?_⟩
  · simp only [carried]
    split <;> rfl
  · exact Nat.mod_eq_of_lt (by omega)
  · simp only [obtained]; omega

example : ∃ msg, encode sampleHeader 2 sampleBody = .ok msg ∧ msg.length < 2 ^ 24 ∧
    (∀ c ∈ sampleHeader.datadesc, c < 65536) ∧ (2 : Nat) ≤ 65535 :=
  ⟨_, sampleMsg_encoded, by decide⟩

/-- A message that declares no subsets makes the decoder ask for 2^32 of them. -/
theorem C29_no_subsets : obtained 0 = 2 ^ 32 := by decide +kernel

/-! ## C30 -/

theorem prefixed_of_be {s : List Byte} (h : BePrefixed s) (hl : s.length < 2 ^ 24) :
    LengthPrefixed s := by
  obtain ⟨t, ht⟩ := h
  have h3 : 3 ≤ s.length := by
    have := congrArg List.length ht
    simp at this; omega
  refine ⟨h3, ?_⟩
  have e : s.take 3 = be 3 s.length := by
    conv_lhs => rw [ht]
    exact List.take_left' (by simp)
  rw [e, ofBe_be, Nat.mod_eq_of_lt (by norm_num; omega)]

/-- An encoded message shorter than 2^24 bytes describes its own structure, and
its data section holds what was written and fewer than 16 zero bits. -/
theorem C30_self_delimiting_partial {h : Header} {n : Nat} {body : BitOut → Res BitOut}
    (hb : Appends body) {msg : List Byte} (he : encode h n body = .ok msg)
    (hl : msg.length < 2 ^ 24) :
    ∃ s1 s2 s3 s4 d, Sections msg h.edition_number s1 s2 s3 s4 ∧ msg.length % 2 = 0 ∧
      (s2 = [] ↔ h.optional_section = []) ∧ s4.drop 4 = d ∧
      ∃ o o' t k, o.pbyte_len = 0 ∧ body o = .ok o' ∧ o'.bits = o.bits ++ t ∧
        bytesBits d = t ++ List.replicate k false ∧ k < 16 := by
  obtain ⟨hed, -, -, ob, t, d, k, a1, a2, a3, a4, a5, hmsg⟩ := encode_ok hb he
  have hlen := congrArg List.length hmsg
  simp only [List.length_append, length_be] at hlen
  simp only [List.length_cons, List.length_nil] at hlen
  refine ⟨sec1 h, sec2 h, sec3 h n, be 3 (4 + d.length) ++ ([0] ++ d), d, ⟨?_, ?_, ?_, ?_, ?_⟩, a5,
    ?_, ?_, _, _, t, k, rfl, a1, ?_, a3, a4⟩
  · refine ⟨be 3 msg.length, by simp, ?_, ?_⟩
    · rw [ofBe_be, Nat.mod_eq_of_lt (by norm_num; omega)]
    · conv_lhs => rw [hmsg]
      simp only [List.append_assoc]
  · exact prefixed_of_be (prefixed_sec1 h) (by omega)
  · rcases prefixed_sec2 h with h2 | h2
    · exact .inl h2
    · exact .inr (prefixed_of_be h2 (by omega))
  · exact prefixed_of_be (prefixed_sec3 h n) (by omega)
  · exact prefixed_of_be (prefixed_sec4 d) (by simp; omega)
  · rw [← List.length_eq_zero_iff, length_sec2]
    split
    · next h0 => simp [h0]
    · next h0 => simp [h0]
  · rw [be_three]; rfl
  · rw [a2, BitOut.bits_new]

example : ∃ msg, encode sampleHeader 2 sampleBody = .ok msg ∧ msg.length < 2 ^ 24 :=
  ⟨_, sampleMsg_encoded, by decide⟩

/-- The size of a message. -/
theorem length_encode {h : Header} {n : Nat} {body : BitOut → Res BitOut} (hb : Appends body)
    {msg : List Byte} (he : encode h n body = .ok msg) :
    (sec2 h).length + (sec3 h n).length ≤ msg.length ∧
      (msg.drop 4).take 3 = be 3 msg.length := by
  obtain ⟨-, -, -, ob, t, d, k, -, -, -, -, -, hmsg⟩ := encode_ok hb he
  have hlen := congrArg List.length hmsg
  simp only [List.length_append, length_be] at hlen
  refine ⟨by omega, ?_⟩
  conv_lhs => rw [hmsg]
  rw [show (4 : Nat) = (ascii "BUFR").length from rfl, List.drop_left]
  exact List.take_left' (by simp)

/-- A header whose sections are each shorter than 2^24 bytes, but not together. -/
def longHeader : Header :=
  { sampleHeader with
    optional_section := List.replicate (2 ^ 23) 0
    datadesc := List.replicate (2 ^ 22) 0 }

/-- The length of a message of 2^24 bytes or more is silently truncated, even if
each section is shorter. -/
theorem C30_not_total : ∃ msg, encode longHeader 2 sampleBody = .ok msg ∧
    (sec2 longHeader).length < 2 ^ 24 ∧ (sec3 longHeader 2).length < 2 ^ 24 ∧
    ofBe ((msg.drop 4).take 3) ≠ msg.length := by
  have ho : longHeader.optional_section.length = 2 ^ 23 := by
    simp only [longHeader, List.length_replicate]
  have hd : longHeader.datadesc.length = 2 ^ 22 := by
    simp only [longHeader, List.length_replicate]
  have ho' : longHeader.optional_section ≠ [] := by
    intro h; rw [h] at ho; simp at ho
  have hd' : longHeader.datadesc ≠ [] := by
    intro h; rw [h] at hd; simp at hd
  have h2 := length_sec2 longHeader
  rw [if_neg ho', ho] at h2
  have h3 := length_sec3 longHeader 2
  rw [hd] at h3
  obtain ⟨ob, e, w, -⟩ := BitOut.add_bits_ok (BitOut.WF_new (head longHeader 2 ++ [0, 0, 0, 0])) 19
    (n := 5) (by omega) (by omega)
  obtain ⟨msg, he⟩ := encode_isOk (h := longHeader) (n := 2) (body := sampleBody)
    (.inr (.inr rfl)) (by omega) hd' e w
  obtain ⟨hl, ht⟩ := length_encode sampleBody_appends he
  refine ⟨msg, he, by omega, by omega, ?_⟩
  rw [ht, ofBe_be]
  have := Nat.mod_lt msg.length (show 0 < 256 ^ 3 by norm_num)
  norm_num at this h2 h3 ⊢
  omega

/-! ## C31 -/

/-- A message is accepted only if its sections are contiguous and inside it and
the end marker follows section 4; the section ends returned are those. -/
theorem C31_accepted {T α : Type} (load : Header → Res T)
    (body : T → Head → Nat → Input → Res (α × Input)) (data : List Byte) {r : Head × α × List Nat}
    (h : decode load body data = .ok r) :
    ∃ s1 s2 s3 s4 s5, Located data s1 s2 s3 s4 s5 ∧ s5 + 4 ≤ data.length ∧
      (data.drop s5).take 4 = ascii "7777" ∧ r.2.2 = [s1, s2, s3, s4, s5, s5 + 4] := by
  unfold decode at h
  obtain ⟨hd, e1, h⟩ := Res.bind_eq_ok.mp h
  obtain ⟨t, e2, h⟩ := Res.bind_eq_ok.mp h
  obtain ⟨b, e3, h⟩ := Res.bind_eq_ok.mp h
  obtain ⟨e, e4, h⟩ := Res.bind_eq_ok.mp h
  simp only [Res.pure_def, Res.ok.injEq] at h
  have hl := decode_header_post data
  rw [e1] at hl
  unfold decode_end at e4
  obtain ⟨u, e5, e4⟩ := Res.bind_eq_ok.mp e4
  have h5 : hd.secs.s5 + 4 ≤ data.length := by
    have := check_post (pos := hd.secs.s5) (n := 4) (stop := data.length) (Q := fun _ => True)
      trivial
    rw [e5] at this
    exact this
  obtain ⟨sig, e6, e4⟩ := Res.bind_eq_ok.mp e4
  have h6 := read_bytes_post h5 (fun _ => True)
  rw [e6] at h6
  have h6' : sig = (data.drop hd.secs.s5).take 4 := h6
  split at e4
  · cases e4
  · next hs =>
    simp only [Res.pure_def, Res.ok.injEq] at e4
    refine ⟨_, _, _, _, _, hl, h5, ?_, ?_⟩
    · rw [← h6']; simpa using hs
    · rw [← h, ← e4]

/-- The header decoder never reads outside the message, and raises a parse error
unless all sections are inside the message. -/
theorem C31_header (data : List Byte) :
    decode_header data ≠ .ub ∧
    ((¬ ∃ s1 s2 s3 s4 s5, Located data s1 s2 s3 s4 s5) → decode_header data = .err .parse) ∧
    (∀ e, decode_header data = .err e → e = .parse ∨ e = .consistency) := by
  have hp := decode_header_post data
  cases hr : decode_header data with
  | ok r =>
    rw [hr] at hp
    refine ⟨by simp, fun hn => absurd ⟨_, _, _, _, _, hp⟩ hn, by simp⟩
  | err e =>
    rw [hr] at hp
    refine ⟨by simp, fun hn => ?_, fun e' he => ?_⟩
    · rcases hp with h | ⟨-, h⟩
      · rw [h]
      · exact absurd h hn
    · simp only [Res.err.injEq] at he
      rcases hp with h | ⟨h, -⟩
      · exact .inl (he ▸ h)
      · exact .inr (he ▸ h)
  | ub =>
    rw [hr] at hp
    exact hp.elim

/-- Once the header and the data were decoded, a parse error is raised unless the
end marker follows section 4. Missing: data whose decoding fails or reads beyond the end of the
message before the end marker is looked for (`C31_not_parse_error`). -/
theorem C31_end_marker_partial {T α : Type} (load : Header → Res T)
    (body : T → Head → Nat → Input → Res (α × Input)) (data : List Byte) {hd : Head} {t : T}
    {b : α × Input} (h1 : decode_header data = .ok hd) (h2 : load hd.header = .ok t)
    (h3 : body t hd (obtained hd.expected_subsets) (start data hd.secs) = .ok b)
    (h5 : (data.drop hd.secs.s5).take 4 ≠ ascii "7777") :
    decode load body data = .err .parse := by
  unfold decode
  rw [h1, Res.ok_bind, h2, Res.ok_bind, h3, Res.ok_bind]
  unfold decode_end
  unfold check
  split
  · rfl
  · next hc =>
    rw [Res.ok_bind]
    have h6 := read_bytes_post (data := data) (pos := hd.secs.s5) (k := 4) (by omega)
      (fun _ => False)
    cases hr : read_bytes data hd.secs.s5 4 with
    | ok sig =>
      rw [hr] at h6
      have h6' : sig = (data.drop hd.secs.s5).take 4 := h6
      rw [Res.ok_bind, if_pos (by rw [h6']; exact h5)]
      rfl
    | err e => rw [hr] at h6; exact h6.elim
    | ub => rw [hr] at h6; exact h6.elim

/-- A message with sections located, one without. -/
example : (do
      let msg ← encode sampleHeader 2 sampleBody
      let r ← decode (fun _ => .ok ()) (fun _ _ _ i => .ok ((), i)) msg
      return r.2.2) = Res.ok [8, 30, 36, 48, 54, 58] := by decide +kernel

example : (do
      let msg ← encode sampleHeader 2 sampleBody
      decode_header (msg.take 50)) = Res.err .parse := by decide +kernel

/-- Section 4 may be shorter than its own four byte header: decoding of the data
then starts inside section 5, and even after the end of the message. -/
theorem C31_short_section4 :
    (do
      let msg ← encode sampleHeader 2 sampleBody
      let r ← decode_header (msg.take 48 ++ [0, 0, 3])
      let b ← (start (msg.take 48 ++ [0, 0, 3]) r.secs).get_bits 1
      return b.1) = Res.ub := by decide +kernel

end Wreport
