import Verif.Lemmas.Reread
import Verif.Props.Data

/-!
# C83: writing back what was read
-/

namespace Wreport

open Spec BufrDec BufrEnc

/-- C83 (part): if the data of all the subsets can be written back, it is decoded; and
encoding what was decoded gives the bits that were read, one by one. `rewritableAll`
follows the decoder and asks of each field that it is one an encoder writes: without
changed reference values, attributes given twice, NULs, padding other than blanks, or
missing values in fields that cannot hold them. -/
theorem C83_round_trip_partial (C : Ctx) (hE : IsRounding C.E.fl) (add_undef : Bool) (depth : Nat)
    (datadesc : List Varcode) (n : Nat) (cd : TableCaches) (i : Input) (hi : i.WF)
    (h : rewritableAll C add_undef depth datadesc n cd i = true) :
    ∃ outs cd' i' b, Decoder.decodeSubsets C add_undef depth datadesc n cd i = .ok (outs, cd', i') ∧
      outs.length = n ∧ i'.WF ∧ i.rem = b ++ i'.rem ∧
      ∀ (ce : TableCaches) (o : BitOut), ce.unknown_table = cd.unknown_table → o.WF →
        ∃ ce' o', DDSEncoder.encodeSubsets C depth datadesc outs ce o = .ok (ce', o') ∧ o'.WF ∧
          o'.bits = o.bits ++ b := by
  obtain ⟨outs, cd', i', b, d1, d2, d3, d4, d5, d6, d7⟩ := rewritableAll_ok C hE h hi rfl rfl
  refine ⟨outs, cd', i', b, d1, d2, d3, d4, fun ce o hce ho => ?_⟩
  exact (C32_round_trip_partial C hE depth datadesc outs cd ce cd b d5 d6 d7 hce).1 o ho

/-- The edition of a header that was decoded, and its descriptors. -/
theorem decode_header_codes {data : List Byte} {hd : Head} (h : decode_header data = .ok hd) :
    (hd.header.edition_number = 2 ∨ hd.header.edition_number = 3 ∨ hd.header.edition_number = 4) ∧
    (∀ c ∈ hd.header.datadesc, c < 65536) ∧ hd.expected_subsets < 65536 := by
  have hn : ∀ pos c, read_number data pos 2 = .ok c → c < 65536 := by
    intro pos c hc
    have hb : ∀ p b, Input.byteAt data p = .ok b → b < 2 ^ 8 := by
      intro p b hb
      unfold Input.byteAt at hb
      split at hb
      · cases hb
        exact UInt8.toNat_lt _
      · split at hb
        · cases hb
          decide
        · cases hb
    unfold read_number at hc
    simp only [read_number_loop] at hc
    obtain ⟨b, h1, hc⟩ := Res.bind_eq_ok.mp hc
    obtain ⟨b', h2, hc⟩ := Res.bind_eq_ok.mp hc
    simp only [Res.ok.injEq] at hc
    have g1 := hb _ _ h1
    have g2 := hb _ _ h2
    rw [Nat.zero_shiftLeft, Nat.zero_or, Nat.mod_eq_of_lt (a := b) (by omega)] at hc
    rw [← hc]
    refine lt_of_le_of_lt (Nat.mod_le _ _) ?_
    refine Nat.or_lt_two_pow (n := 16) ?_ (by omega)
    rw [Nat.shiftLeft_eq]
    omega
  have hdesc : ∀ k pos l, read_descriptors data pos k = .ok l → ∀ c ∈ l, c < 65536 := by
    intro k
    induction k with
    | zero => intro pos l hl; cases hl; simp
    | succ k ih =>
      intro pos l hl
      unfold read_descriptors at hl
      obtain ⟨c, h1, hl⟩ := Res.bind_eq_ok.mp hl
      obtain ⟨t, h2, hl⟩ := Res.bind_eq_ok.mp hl
      cases hl
      intro x hx
      rcases List.mem_cons.mp hx with rfl | hx
      · exact hn _ _ h1
      · exact ih _ _ h2 x hx
  unfold decode_header at h
  obtain ⟨-, -, h⟩ := Res.bind_eq_ok.mp h
  obtain ⟨sig, -, h⟩ := Res.bind_eq_ok.mp h
  split at h
  · cases h
  · obtain ⟨ed, -, h⟩ := Res.bind_eq_ok.mp h
    split at h
    · cases h
    · next hed =>
      unfold decode_sections at h
      obtain ⟨s2, -, h⟩ := Res.bind_eq_ok.mp h
      obtain ⟨-, -, h⟩ := Res.bind_eq_ok.mp h
      obtain ⟨r, h1, h⟩ := Res.bind_eq_ok.mp h
      obtain ⟨os, -, h⟩ := Res.bind_eq_ok.mp h
      obtain ⟨t, h2, h⟩ := Res.bind_eq_ok.mp h
      cases h
      constructor
      · have : r.1.edition_number = ed := by
          unfold decode_sec1 at h1
          split at h1
          · unfold decode_sec1ed4 at h1
            repeat (obtain ⟨_, -, h1⟩ := Res.bind_eq_ok.mp h1)
            cases h1
            rfl
          · unfold decode_sec1ed3 at h1
            repeat (obtain ⟨_, -, h1⟩ := Res.bind_eq_ok.mp h1)
            cases h1
            rfl
        show r.1.edition_number = 2 ∨ r.1.edition_number = 3 ∨ r.1.edition_number = 4
        rw [this]
        tauto
      · unfold decode_sec3 at h2
        split at h2
        · cases h2
        · obtain ⟨-, -, h2⟩ := Res.bind_eq_ok.mp h2
          obtain ⟨n, h4, h2⟩ := Res.bind_eq_ok.mp h2
          obtain ⟨fl, -, h2⟩ := Res.bind_eq_ok.mp h2
          obtain ⟨-, -, h2⟩ := Res.bind_eq_ok.mp h2
          obtain ⟨ds, h3, h2⟩ := Res.bind_eq_ok.mp h2
          cases h2
          exact ⟨hdesc _ _ _ h3, hn _ _ h4⟩

/-- C83 (part), for messages: an uncompressed message that ends where its sections say,
whose data can be written back as in `C83_round_trip_partial`, is decoded; what was
decoded is encoded with the header read; and if that message is shorter than 2^24 bytes and
loads the same tables, it is decoded again to what was decoded before. -/
theorem C83_message_partial (load : Header → Res (Ctx × TableCaches)) (add_undef : Bool)
    (depth : Nat) (data : List Byte) (hd : Head) (C : Ctx) (cd : TableCaches) (ends : List Nat)
    (hE : IsRounding C.E.fl) (hcd : CharData C.E cd) (h1 : decode_header data = .ok hd)
    (h2 : load hd.header = .ok (C, cd)) (h3 : hd.header.compression = false)
    (h4 : hd.expected_subsets ≠ 0) (h5 : hd.header.datadesc ≠ [])
    (h6 : decode_end data hd.secs = .ok ends)
    (h : rewritableAll C add_undef depth hd.header.datadesc hd.expected_subsets cd
      (start data hd.secs) = true) :
    ∃ outs b rest msg, decodeMessage load add_undef depth data = .ok (hd, outs, ends) ∧
      (start data hd.secs).rem = b ++ rest ∧
      encodeMessage C depth hd.header outs cd = .ok msg ∧
      (msg.length < 2 ^ 24 → (∀ r, decode_header msg = .ok r → load r.header = .ok (C, cd)) →
        ∃ hd' outs' ends', decodeMessage load add_undef depth msg = .ok (hd', outs', ends') ∧
          hd'.header.datadesc = hd.header.datadesc ∧
          List.Forall₂ (List.Forall₂ Faithful) outs' outs) := by
  obtain ⟨outs, cd', i', b, d1, d2, d3, d4, d5, d6, d7⟩ := rewritableAll_ok C hE h
    ⟨by simp [start], by simp [start]⟩ rfl rfl
  obtain ⟨g1, g2, g3⟩ := decode_header_codes h1
  have hne : outs ≠ [] := fun e => h4 (by rw [← d2, e]; rfl)
  obtain ⟨msg, m1, m2⟩ := C32_message_partial C hE depth hd.header outs cd cd b d5 d6 d7 g1 hne
    (by omega) h5 g2
  refine ⟨outs, b, i'.rem, msg, ?_, d4, m1, fun hl hload => m2 hl add_undef load hload rfl rfl hcd⟩
  have hob : obtained hd.expected_subsets = hd.expected_subsets := by
    unfold obtained; omega
  unfold decodeMessage decode
  rw [h1, Res.ok_bind, h2, Res.ok_bind]
  simp only [decodeBody, h3, hob, d1, h6]
  rfl

/-! ## Samples -/

/-- Bits packed in bytes, followed by those of an end section. -/
def dataOf (l : List Bool) : Input :=
  { data := chunks (l ++ List.replicate ((8 - l.length % 8) % 8) false) ++ ascii "7777", s4_cursor := 0,
    pbyte := 0, pbyte_len := 0 }

/-- The bits written after reading one subset from others. -/
def rewritten (C : Ctx) (add_undef : Bool) (datadesc : List Varcode) (l : List Bool) :
    Res (List Bool) := do
  let r ← Decoder.decodeSubsets C add_undef 1 datadesc 1 noCaches (dataOf l)
  let o ← DDSEncoder.encodeSubsets C 1 datadesc r.1 noCaches (BitOut.new [])
  return o.2.bits

/-- Data with replication, changed widths and characters can be written back, and so
can data with attributes of each kind. -/
example : rewritableAll sampleCtx false 1 sampleDesc 1 noCaches (dataOf sampleFields) = true ∧
    rewritableAll sampleCtx true 1 attrDesc 1 noCaches (dataOf attrFields) = true := by
  decide +kernel


/-- The same bits are written. -/
example : rewritten sampleCtx false sampleDesc sampleFields = .ok sampleFields ∧
    rewritten sampleCtx true attrDesc attrFields = .ok attrFields := by decide +kernel

/-- A message with the sample, and the one written after reading it. -/
example : (do
    let msg ← encodeMessage sampleCtx 1 { sampleHeader with datadesc := attrDesc } [attrSubset] noCaches
    let hd ← decode_header msg
    let e ← decode_end msg hd.secs
    return (hd.header.compression, hd.expected_subsets, decide (hd.header.datadesc = []), e.length,
      rewritableAll sampleCtx false 1 attrDesc 1 noCaches (start msg hd.secs))) =
    .ok (false, 1, false, 6, true) := by decide +kernel

/-- C83 is false in the code for changed reference values: the reference written is that
of the first variable with the code in the subset, although it came before the
change, and the values after it are written with that. -/
theorem C83_not_reference :
    rewritten sampleCtx false
      [WR_VAR 0 5 2, WR_VAR 2 3 16, WR_VAR 0 5 2, WR_VAR 2 3 255, WR_VAR 0 5 2, WR_VAR 2 3 0]
      (bits 15 100 ++ bits 16 (2 ^ 15 + 5) ++ bits 15 5) =
    .ok (bits 15 100 ++ bits 16 (2 ^ 15 + 9000) ++ bits 15 9000) := by decide +kernel

/-- C83 is false in the code for texts padded with NULs, or with characters after one. -/
theorem C83_not_padding :
    rewritten sampleCtx false [WR_VAR 2 5 3] (bytesBits [65, 0, 66]) =
      .ok (bytesBits [65, 32, 32]) := by decide +kernel

/-- C83 is false in the code for missing texts: reading gives a missing value, writing it
shifts a 32 bit number by more than its width. -/
theorem C83_not_missing_text :
    (do
      let r ← Decoder.decodeSubsets sampleCtx false 1 [WR_VAR 0 1 19] 1 noCaches
        (dataOf (List.replicate 256 true))
      return r.1.map (List.map fun (v : Var) => v.toVarCore.view)) = .ok [[none]] ∧
    rewritten sampleCtx false [WR_VAR 0 1 19] (List.replicate 256 true) = .ub := by
  decide +kernel

/-- C83 is false in the code for attributes that are given twice to one variable: both
are written as the last. -/
theorem C83_not_twice :
    rewritten sampleCtx false
      [WR_VAR 0 12 101, WR_VAR 2 22 0, WR_VAR 1 1 1, WR_VAR 0 31 31, WR_VAR 0 33 7, WR_VAR 2 37 0,
        WR_VAR 0 33 7] (bits 16 5 ++ bits 1 0 ++ bits 7 10 ++ bits 7 30) =
    .ok (bits 16 5 ++ bits 1 0 ++ bits 7 30 ++ bits 7 30) := by decide +kernel

/-- C83 is false in the code for associated fields with a reserved meaning: their values
are not kept, and written as missing. -/
theorem C83_not_field :
    rewritten sampleCtx false [WR_VAR 2 4 2, WR_VAR 0 31 21, WR_VAR 0 12 101, WR_VAR 2 4 0]
      (bits 6 5 ++ bits 2 1 ++ bits 16 5) = .ok (bits 6 5 ++ bits 2 3 ++ bits 16 5) := by
  decide +kernel

end Wreport
