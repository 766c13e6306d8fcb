import Verif.Lemmas.CDecoderCare
import Verif.Lemmas.CrexSafe
import Verif.Lemmas.Local
import Verif.Model.Message
import Verif.Props.Data
import Verif.Props.Header

/-!
# Decoding of arbitrary data

What comes out of decoding any data whatsoever, when it may have undefined behaviour, and
what part of the data it depends on.
-/

namespace Wreport

open Spec

/-! ## A sample -/

/-- The sample elements when C01 widens by up to two bits. -/
def sampleBounds : Bounds := ⟨0, 2, 0, 256⟩

theorem sampleB_inv : sampleB.Inv Env0 := by
  have one : ∀ i : Varinfo, i.Made Env0 → i.type ≠ .binary → VartableEntry.Inv Env0 ⟨i, []⟩ :=
    fun i h1 h2 => ⟨h1, h2, by simp, by simp⟩
  refine ⟨?_, by unfold Spec.Increasing; decide +kernel⟩
  intro e he
  simp only [sampleB, List.map_cons, List.map_nil, List.mem_cons, List.not_mem_nil, or_false] at he
  rcases he with rfl | rfl | rfl | rfl | rfl | rfl | rfl | rfl | rfl
  · exact one _ sampleStr_made (by decide)
  · exact one _ sampleCode_made (by decide)
  · exact one _ sampleLat_made (by decide)
  · exact one _ sampleTemp_made (by decide)
  · exact one _ ⟨⟨Varinfo.raw (WR_VAR 0 31 1) .integer (ascii "NUMERIC") 0 3 0 8, rfl⟩, rfl, fun _ => rfl, nofun⟩
      (by decide)
  · exact one _ ⟨⟨Varinfo.raw (WR_VAR 0 31 21) .integer (ascii "CODE TABLE") 0 2 0 6, rfl⟩, rfl, fun _ => rfl,
      nofun⟩ (by decide)
  · exact one _ ⟨⟨Varinfo.raw (WR_VAR 0 31 31) .integer (ascii "FLAG TABLE") 0 1 0 1, rfl⟩, rfl, fun _ => rfl,
      nofun⟩ (by decide)
  · exact one _ ⟨⟨Varinfo.raw (WR_VAR 0 33 2) .integer (ascii "CODE TABLE") 0 1 0 2, rfl⟩, rfl, fun _ => rfl,
      nofun⟩ (by decide)
  · exact one _ ⟨⟨Varinfo.raw (WR_VAR 0 33 7) .integer (ascii "%") 0 3 0 7, rfl⟩, rfl, fun _ => rfl, nofun⟩
      (by decide)

theorem sampleCtx_fit (safe : Prop) : Decoder.Fit safe sampleCtx where
  rounding := Env0_rounding
  table := sampleB_inv
  opts := ⟨rfl, nofun, nofun⟩
  calm := fun _ => nofun

theorem noCaches_made (E : Env) : noCaches.Made E := ⟨by simp [noCaches], by simp [noCaches], by simp [noCaches]⟩

theorem sampleB_tame {c : Varcode} {i : Varinfo} (h : sampleB.query c = .ok i) :
    TameInfo Env0 sampleBounds i := by
  obtain ⟨k, e, he, rfl, -⟩ := Vartable.query_found h
  have hm := List.mem_of_getElem? he
  have all : ∀ e ∈ sampleB.entries, 0 < e.varinfo.bit_len ∧ e.varinfo.bit_len ≤ 256 ∧
      (-1000 ≤ e.varinfo.scale ∧ e.varinfo.scale ≤ 1000) ∧ |e.varinfo.bit_ref| * 10 ^ 0 < 2 ^ 30 ∧
      ((e.varinfo.type = .integer ∨ e.varinfo.type = .decimal) → e.varinfo.bit_len ≤ 29) := by
    decide +kernel
  obtain ⟨h1, h2, h3, h4, h5⟩ := all e hm
  refine ⟨h1, h2, h3, h4, fun hn => ?_⟩
  have := h5 hn
  exact ⟨by omega, .inr (by simp only [sampleBounds, Bounds.more]; omega)⟩

/-- All that `sampleDesc` stands for. -/
theorem sampleDesc_among {c : Varcode} (h : StandsFor sampleD sampleDesc c) :
    c ∈ sampleDesc ++ [WR_VAR 0 12 101, WR_VAR 0 2 1] := by
  induction h with
  | here h => exact List.mem_append_left _ h
  | inside _ f q m ih =>
    have : ∀ d ∈ sampleDesc ++ [WR_VAR 0 12 101, WR_VAR 0 2 1], WR_VAR_F d = 3 →
        sampleD.query d = .ok [WR_VAR 0 12 101, WR_VAR 0 2 1] := by decide +kernel
    rw [this _ ih f] at q
    cases q
    exact List.mem_append_right _ m

theorem sampleDesc_tame {c : Varcode} (h : StandsFor sampleD sampleDesc c) :
    Tame Env0 sampleBounds sampleB c := by
  have all : ∀ c ∈ sampleDesc ++ [WR_VAR 0 12 101, WR_VAR 0 2 1], WR_VAR_F c = 2 →
      (WR_VAR_X c = 1 ∧ (WR_VAR_Y c = 0 ∨ WR_VAR_Y c = 130)) ∨ WR_VAR_X c = 5 := by decide +kernel
  refine ⟨⟨fun i hi => sampleB_tame hi, fun f => ?_⟩, fun f => ?_⟩
  · rcases all c (sampleDesc_among h) f with ⟨h1, h2 | h2⟩ | h1
    · rw [h1, h2]; exact .inl rfl
    · rw [h1, h2]; exact .inr (by decide)
    · rw [h1]; trivial
  · rcases all c (sampleDesc_among h) f with ⟨h1, -⟩ | h1 <;> rw [h1] <;> trivial

theorem sampleDesc_nested : NestedWithin sampleD 1 sampleDesc := by
  intro c hc f seq hq
  have : ∀ d ∈ sampleDesc, WR_VAR_F d = 3 →
        sampleD.query d = .ok [WR_VAR 0 12 101, WR_VAR 0 2 1] := by decide +kernel
  rw [this c hc f] at hq
  cases hq
  intro d hd
  have : ∀ d ∈ [WR_VAR 0 12 101, WR_VAR 0 2 1], WR_VAR_F d ≠ 3 := by decide +kernel
  exact fun h => absurd h (this d hd)

/-! ## C84 -/

/-- C84 for uncompressed data: whatever the data and the descriptors, every value that
is decoded, and every attribute, has the storage its description says, a description
that the library makes, and a number in its range. -/
theorem C84_data (C : Ctx) (hE : IsRounding C.E.fl) (ht : C.btable.Inv C.E) (hO : C.O.Sane C.E)
    (add_undef : Bool) (depth : Nat) (datadesc : List Varcode) (n : Nat) (caches : TableCaches)
    (hc : caches.Made C.E) (i : Input) {r : List (List Var) × TableCaches × Input}
    (h : Decoder.decodeSubsets C add_undef depth datadesc n caches i = .ok r) :
    (∀ vs ∈ r.1, ∀ v ∈ vs, v.Sane C.E) ∧ r.2.1.Made C.E := by
  obtain ⟨K, hK⟩ := Decoder.decodeSubsets_has (safe := False) (l := ⟨0, 0, 0, 0⟩)
    ⟨hE, ht, hO, False.elim⟩ False.elim False.elim False.elim (ops := datadesc) (depth := depth)
    False.elim False.elim
  have := hK add_undef n caches i 0 hc False.elim
  rw [h] at this
  exact ⟨this.1, this.2.1⟩

/-- C84 for compressed data. -/
theorem C84_compressed (C : Ctx) (hE : IsRounding C.E.fl) (ht : C.btable.Inv C.E)
    (hO : C.O.Sane C.E) (add_undef : Bool) (depth : Nat) (datadesc : List Varcode) (n : Nat)
    (caches : TableCaches) (hc : caches.Made C.E) (i : Input)
    {r : List (List Var) × TableCaches × Input}
    (h : CDecoder.decodeSubsets C add_undef depth datadesc n caches i = .ok r) :
    (∀ vs ∈ r.1, ∀ v ∈ vs, v.Sane C.E) ∧ r.2.1.Made C.E := by
  have := CDecoder.decodeSubsets_has ⟨hE, ht, hO, False.elim⟩ add_undef depth datadesc n hc i
  rw [h] at this
  exact this

/-- C84 for whole BUFR messages, whatever their bytes. -/
theorem C84_message (load : Header → Res (Ctx × TableCaches))
    (hl : ∀ h C c, load h = .ok (C, c) →
      IsRounding C.E.fl ∧ C.btable.Inv C.E ∧ C.O.Sane C.E ∧ c.Made C.E)
    (add_undef : Bool) (depth : Nat) (data : List Byte) {r : BufrDec.Head × List (List Var) × List Nat}
    (h : decodeMessage load add_undef depth data = .ok r) :
    ∃ C c, load r.1.header = .ok (C, c) ∧ ∀ vs ∈ r.2.1, ∀ v ∈ vs, v.Sane C.E := by
  unfold decodeMessage BufrDec.decode at h
  obtain ⟨hd, -, h⟩ := Res.bind_eq_ok.mp h
  obtain ⟨⟨C, c⟩, h1, h⟩ := Res.bind_eq_ok.mp h
  obtain ⟨b, h2, h⟩ := Res.bind_eq_ok.mp h
  obtain ⟨e, -, h⟩ := Res.bind_eq_ok.mp h
  cases h
  refine ⟨C, c, h1, ?_⟩
  obtain ⟨a1, a2, a3, a4⟩ := hl _ C c h1
  unfold decodeBody at h2
  split at h2
  · obtain ⟨x, h3, h2⟩ := Res.bind_eq_ok.mp h2
    cases h2
    exact (C84_compressed C a1 a2 a3 _ _ _ _ c a4 _ h3).1
  · obtain ⟨x, h3, h2⟩ := Res.bind_eq_ok.mp h2
    cases h2
    exact (C84_data C a1 a2 a3 _ _ _ _ c a4 _ h3).1

/-- C84 for whole CREX messages, whatever their characters. -/
theorem C84_crex (load : Crex.Header → Res (Ctx × TableCaches))
    (hl : ∀ h C c, load h = .ok (C, c) →
      IsRounding C.E.fl ∧ C.btable.Inv C.E ∧ C.O.Sane C.E ∧ c.Made C.E)
    (depth fuel : Nat) (data : List Byte) {r : Crex.Header × List (List Var)}
    (h : Crex.Decoder.decode load depth fuel data = some (.ok r)) :
    ∃ C c, load r.1 = .ok (C, c) ∧ ∀ vs ∈ r.2, ∀ v ∈ vs, v.Sane C.E := by
  unfold Crex.Decoder.decode at h
  cases hh : Crex.Decoder.decode_header fuel data with
  | none => rw [hh] at h; cases h
  | some q =>
    rw [hh] at h
    cases q with
    | err e => cases h
    | ub => cases h
    | ok s =>
      obtain ⟨i, hd⟩ := s
      simp only at h
      cases hq : load hd with
      | err e => rw [hq] at h; cases h
      | ub => rw [hq] at h; cases h
      | ok t =>
        obtain ⟨C, c⟩ := t
        rw [hq] at h
        obtain ⟨a1, a2, a3, a4⟩ := hl _ C c hq
        cases hx : Crex.Decoder.decode_data C depth fuel hd.datadesc c i with
        | none => simp only [hx] at h; cases h
        | some x =>
          simp only [hx, Option.map_some, Option.some.injEq] at h
          obtain ⟨y, rfl, h⟩ := Res.bind_eq_ok.mp h
          cases h
          refine ⟨C, c, hq, ?_⟩
          exact Crex.Decoder.decode_data_has (safe := False) (l := ⟨0, 0, 0, 0⟩)
            ⟨a1, a2, a3, False.elim⟩ False.elim False.elim False.elim False.elim False.elim
            fuel c i a4 (Crex.Decoder.decode_header_inText hh) _ hx

/-- What decoding of bytes gives with the sample tables: how many values, and the
numbers. -/
def decodedNumbers (datadesc : List Varcode) (data : List Byte) : Res (List (Option Value)) := do
  let r ← Decoder.decodeSubset sampleCtx false 1 datadesc noCaches (Input.new data)
  return r.1.map fun v => v.toVarCore.view

/-- The same for two compressed subsets. -/
def decodedTogether (datadesc : List Varcode) (data : List Byte) : Res (List (List (Option Value))) := do
  let r ← CDecoder.decodeSubsets sampleCtx false 1 datadesc 2 noCaches (Input.new data)
  return r.1.map fun s => s.map fun v => v.toVarCore.view

/-- The hypotheses of C84 are met, and arbitrary bytes are decoded. -/
example : IsRounding sampleCtx.E.fl ∧ sampleCtx.btable.Inv sampleCtx.E ∧ sampleCtx.O.Sane sampleCtx.E ∧
    noCaches.Made sampleCtx.E ∧ (decodedNumbers sampleDesc
      [1, 0xff, 0xff, 0x5a, 0x5a, 0x5a, 0x5a, 0x5a, 0x5a, 0x5a, 0x5a]).isOk = true :=
  ⟨Env0_rounding, sampleB_inv, ⟨rfl, nofun, nofun⟩, noCaches_made _, by decide +kernel⟩

/-! ## C85 -/

/-- C85 for CREX messages: decoding any text without NUL characters has no undefined
behaviour, if the descriptors in it change widths and powers of ten within the bounds,
and are nested no deeper than the stack allows. Missing from the full property: texts
with NULs (`C85_not_nul`), other descriptors (`C35_not_large_increase`). -/
theorem C85_crex_partial (load : Crex.Header → Res (Ctx × TableCaches)) (depth fuel : Nat)
    (data : List Byte) (h0 : 0 ∉ data) (l : Bounds) (hl : l.Fair) (hn : ∀ h, load h ≠ .ub)
    (hh : ∀ i h C c, Crex.Decoder.decode_header fuel data = some (.ok (i, h)) → load h = .ok (C, c) →
      Decoder.Fit True C ∧ c.Made C.E ∧ Mild C.E l C.btable (WR_VAR 0 31 12) ∧
        Mild C.E l C.btable (WR_VAR 0 31 21) ∧
        (∀ c, StandsFor C.dtable h.datadesc c → Mild C.E l C.btable c) ∧
        NestedWithin C.dtable depth h.datadesc) :
    Crex.Decoder.decode load depth fuel data ≠ some .ub := by
  unfold Crex.Decoder.decode
  have h1 := Crex.Decoder.decode_header_safe h0 fuel
  cases hq : Crex.Decoder.decode_header fuel data with
  | none => simp
  | some q =>
    cases q with
    | err e => simp
    | ub => exact absurd hq h1
    | ok s =>
      obtain ⟨i, hd⟩ := s
      simp only
      cases hq' : load hd with
      | err e => simp
      | ub => exact absurd hq' (hn _)
      | ok t =>
        obtain ⟨C, c⟩ := t
        obtain ⟨a1, a2, a3, a4, a5, a6⟩ := hh i hd C c hq hq'
        simp only
        cases hx : Crex.Decoder.decode_data C depth fuel hd.datadesc c i with
        | none => simp
        | some x =>
          have := Crex.Decoder.decode_data_has (safe := True) (l := l) a1 (fun _ => hl) (fun _ => a3)
            (fun _ => a4) (fun _ => a5) (fun _ => a6) fuel c i a2
            (Crex.Decoder.decode_header_inText hq) x hx
          cases x with
          | ok y => simp
          | err e => simp
          | ub => exact (this trivial).elim

/-- A CREX message with two elements, and no end. -/
def looseCrex : List Byte := ascii "CREX++\r\r\nT000103 A001 B12101 B02001++\r\r\n27315 x"

/-- The hypotheses of C85 for CREX are met by a text that goes wrong later on. -/
example : 0 ∉ looseCrex ∧ sampleBounds.Fair ∧ (∀ i h, Crex.Decoder.decode_header 4 looseCrex = some (.ok (i, h)) →
      Decoder.Fit True sampleCtx ∧ noCaches.Made sampleCtx.E ∧
        Mild sampleCtx.E sampleBounds sampleCtx.btable (WR_VAR 0 31 12) ∧
        Mild sampleCtx.E sampleBounds sampleCtx.btable (WR_VAR 0 31 21) ∧
        (∀ c, StandsFor sampleCtx.dtable h.datadesc c → Mild sampleCtx.E sampleBounds sampleCtx.btable c) ∧
        NestedWithin sampleCtx.dtable 1 h.datadesc) ∧
    Crex.Decoder.decode (fun _ => .ok (sampleCtx, noCaches)) 1 4 looseCrex ≠ none := by
  refine ⟨by decide +kernel, ⟨by decide, by decide, by decide⟩, fun i h hh => ?_, ?_⟩
  · have hd : (Crex.Decoder.decode_header 4 looseCrex).map (fun r => r.bind fun s => .ok s.2.datadesc) =
        some (.ok [WR_VAR 0 12 101, WR_VAR 0 2 1]) := by decide +kernel
    rw [hh] at hd
    have hd : h.datadesc = [WR_VAR 0 12 101, WR_VAR 0 2 1] := by
      simpa [Res.bind] using hd
    have mild : ∀ c, WR_VAR_F c ≠ 2 → Mild sampleCtx.E sampleBounds sampleCtx.btable c :=
      fun c hc => ⟨fun _ h => sampleB_tame h, fun h => absurd h hc⟩
    have among : ∀ c, StandsFor sampleCtx.dtable h.datadesc c → c ∈ [WR_VAR 0 12 101, WR_VAR 0 2 1] := by
      intro c hc
      have all : ∀ d ∈ [WR_VAR 0 12 101, WR_VAR 0 2 1], WR_VAR_F d ≠ 3 := by decide +kernel
      induction hc with
      | here h => rwa [hd] at h
      | inside _ f _ _ ih => exact absurd f (all _ ih)
    refine ⟨sampleCtx_fit True, noCaches_made _, mild _ (by decide), mild _ (by decide), fun c hc => ?_, ?_⟩
    · have all : ∀ d ∈ [WR_VAR 0 12 101, WR_VAR 0 2 1], WR_VAR_F d ≠ 2 := by decide +kernel
      exact mild c (all c (among c hc))
    · intro c hc f
      have all : ∀ d ∈ [WR_VAR 0 12 101, WR_VAR 0 2 1], WR_VAR_F d ≠ 3 := by decide +kernel
      exact absurd f (all c (among c (.here hc)))
  · have : ((Crex.Decoder.decode (fun _ => .ok (sampleCtx, noCaches)) 1 4 looseCrex).map (fun r => r.isOk)) =
        some false := by decide +kernel
    intro h
    rw [h] at this
    cases this

/-- C85 for uncompressed BUFR data: for descriptors that ask for nothing out of the
ordinary there is a size such that decoding as many subsets from any data with that many
bits for each has no undefined behaviour. Missing from the full property: shorter data
(`C85_not_truncated`), operators that define bitmaps, and descriptors with wider fields
(`C85_not_reference`, `C85_not_field`, `C22_not_wide`). -/
theorem C85_data_partial (C : Ctx) (hF : Decoder.Fit True C) (l : Bounds) (hl : l.Fair)
    (h12 : Tame C.E l C.btable (WR_VAR 0 31 12)) (h21 : Tame C.E l C.btable (WR_VAR 0 31 21))
    (datadesc : List Varcode) (depth : Nat) (ho : ∀ c, StandsFor C.dtable datadesc c → Tame C.E l C.btable c)
    (hd : NestedWithin C.dtable depth datadesc) :
    ∃ K, ∀ (add_undef : Bool) (n : Nat) (caches : TableCaches) (i : Input), caches.Made C.E → i.WF →
      n * K ≤ i.rem.length → Decoder.decodeSubsets C add_undef depth datadesc n caches i ≠ .ub := by
  obtain ⟨K, hK⟩ := Decoder.decodeSubsets_has (safe := True) hF (fun _ => hl) (fun _ => h12)
    (fun _ => h21) (fun _ => ho) (fun _ => hd)
  refine ⟨K, fun au n caches i hc hi hb => ?_⟩
  exact Res.Has.not_ub (hK au n caches i 0 hc fun _ => ⟨hi, by omega⟩) trivial

/-- The hypotheses of C85 are met by a replicated sequence, a wider element and
characters. -/
example : Decoder.Fit True sampleCtx ∧ sampleBounds.Fair ∧
    Tame sampleCtx.E sampleBounds sampleCtx.btable (WR_VAR 0 31 12) ∧
    Tame sampleCtx.E sampleBounds sampleCtx.btable (WR_VAR 0 31 21) ∧
    (∀ c, StandsFor sampleCtx.dtable sampleDesc c → Tame sampleCtx.E sampleBounds sampleCtx.btable c) ∧
    NestedWithin sampleCtx.dtable 1 sampleDesc ∧ noCaches.Made sampleCtx.E :=
  ⟨sampleCtx_fit True, ⟨by decide, by decide, by decide⟩,
    ⟨⟨fun _ h => sampleB_tame h, fun h => absurd h (by decide)⟩, fun h => absurd h (by decide)⟩,
    ⟨⟨fun _ h => sampleB_tame h, fun h => absurd h (by decide)⟩, fun h => absurd h (by decide)⟩,
    fun _ h => sampleDesc_tame h, sampleDesc_nested, noCaches_made _⟩

/-- C85 is false in the code: the end of the data is only looked for at the start of a
field, so data that ends within one is read past its end. -/
theorem C85_not_truncated : decodedNumbers [WR_VAR 0 12 101, WR_VAR 0 12 101] [1] = .ub := by
  decide +kernel

/-- C85 is false in the code: a compressed number may say that its increments have 32
bits or more. -/
theorem C85_not_compressed : decodedTogether [WR_VAR 0 12 101]
    [0, 0, 0x80, 0, 0, 0, 0, 0, 0, 0, 0, 0] = .ub := by
  decide +kernel

/-- C85 is false in the code: reference values of more than 32 bits. -/
theorem C85_not_reference :
    decodedNumbers [WR_VAR 2 3 40, WR_VAR 0 12 101, WR_VAR 2 3 255] [0, 0, 0, 0, 0, 0, 0, 0] = .ub := by
  decide +kernel

/-- C85 is false in the code: associated fields of 32 bits. -/
theorem C85_not_field :
    decodedNumbers [WR_VAR 2 4 32, WR_VAR 0 31 21, WR_VAR 0 12 101]
      [4, 0, 0, 0, 0, 0, 0, 0, 0, 0] = .ub := by
  decide +kernel

/-- C85 is false in the code: a bitmap that marks nothing is followed as if it did. With a
mark the same descriptors are decoded. -/
theorem C85_not_bitmap :
    let desc := [WR_VAR 0 12 101, WR_VAR 2 22 0, WR_VAR 1 1 1, WR_VAR 0 31 31, WR_VAR 0 33 7]
    decodedNumbers desc [1, 2, 0xff, 0xff, 0xff] = .ub ∧
    (decodedNumbers desc [1, 2, 0x0f, 0xff, 0xff]).isOk = true := by
  decide +kernel

/-- C85 is false in the code: when a bitmap has not been followed to its end and the next one is
too long, the first is deleted twice. -/
theorem C85_not_second_bitmap :
    decodedNumbers [WR_VAR 0 12 101, WR_VAR 2 22 0, WR_VAR 1 1 1, WR_VAR 0 31 31, WR_VAR 2 22 0,
      WR_VAR 1 1 9, WR_VAR 0 31 31] [1, 2, 0x0f, 0xff, 0xff] = .ub := by
  decide +kernel

/-- C85 is false in the code: a NUL among the digits of a descriptor. -/
theorem C85_not_nul (load : Crex.Header → Res (Ctx × TableCaches)) (depth : Nat) :
    Crex.Decoder.decode load depth 2
      (ascii "CREX++\r\r\nT000103 A001 B" ++ [0] ++ ascii "1001++\r\r\n") = some .ub := by
  have : Crex.Decoder.decode_header 2
      (ascii "CREX++\r\r\nT000103 A001 B" ++ [0] ++ ascii "1001++\r\r\n") = some .ub := by decide +kernel
  unfold Crex.Decoder.decode
  rw [this]

/-! ## C86 -/

/-- C86 for uncompressed data, if the other data is longer than what was read: decoding looks
at no data beyond where it ends. Missing: other data that ends right there, with which it may
fail (`C86_not_exact`). -/
theorem C86_data_partial (C : Ctx) (add_undef : Bool) (depth : Nat) (datadesc : List Varcode) (n : Nat)
    (caches : TableCaches) (i : Input) {outs : List (List Var)} {c : TableCaches} {j : Input}
    (h : Decoder.decodeSubsets C add_undef depth datadesc n caches i = .ok (outs, c, j)) :
    j.data = i.data ∧ i.s4_cursor ≤ j.s4_cursor ∧
    ∀ p d, p <+: i.data → p <+: d → j.s4_cursor ≤ p.length ∧ j.s4_cursor < d.length →
      Decoder.decodeSubsets C add_undef depth datadesc n caches { i with data := d } =
        .ok (outs, c, { j with data := d }) := by
  obtain ⟨e1, e2, e3⟩ := Decoder.decodeSubsets_local C add_undef depth datadesc n caches i (outs, c) j
    (by simp only [h]; rfl)
  refine ⟨e1, e2, fun p d hp hd hc => ?_⟩
  obtain ⟨⟨x, y, z⟩, h1, h2⟩ := Res.bind_eq_ok.mp (e3 p d hp hd hc)
  cases h2
  exact h1

/-- C86 for compressed data, if the other data is longer than what was read. Missing: the
same. -/
theorem C86_compressed_partial (C : Ctx) (add_undef : Bool) (depth : Nat) (datadesc : List Varcode) (n : Nat)
    (caches : TableCaches) (i : Input) {outs : List (List Var)} {c : TableCaches} {j : Input}
    (h : CDecoder.decodeSubsets C add_undef depth datadesc n caches i = .ok (outs, c, j)) :
    j.data = i.data ∧ i.s4_cursor ≤ j.s4_cursor ∧
    ∀ p d, p <+: i.data → p <+: d → j.s4_cursor ≤ p.length ∧ j.s4_cursor < d.length →
      CDecoder.decodeSubsets C add_undef depth datadesc n caches { i with data := d } =
        .ok (outs, c, { j with data := d }) := by
  obtain ⟨e1, e2, e3⟩ := CDecoder.decodeSubsets_local C add_undef depth datadesc n caches i (outs, c) j
    (by simp only [h]; rfl)
  refine ⟨e1, e2, fun p d hp hd hc => ?_⟩
  obtain ⟨⟨x, y, z⟩, h1, h2⟩ := Res.bind_eq_ok.mp (e3 p d hp hd hc)
  cases h2
  exact h1

/-- Data too short for a decoder is not decoded to something else once completed: if
decoding of some data fails, or has undefined behaviour, any longer data that begins with
it and is decoded is read up to its end or beyond. -/
theorem C86_completed (C : Ctx) (add_undef : Bool) (depth : Nat) (datadesc : List Varcode) (n : Nat)
    (caches : TableCaches) (i : Input) (more : List Byte) {outs : List (List Var)} {c : TableCaches}
    {j : Input} (hf : (Decoder.decodeSubsets C add_undef depth datadesc n caches i).isOk = false)
    (h : Decoder.decodeSubsets C add_undef depth datadesc n caches { i with data := i.data ++ more } =
      .ok (outs, c, j)) : i.data.length ≤ j.s4_cursor := by
  by_contra hlt
  obtain ⟨-, -, e⟩ := C86_data_partial C add_undef depth datadesc n caches _ h
  have := e i.data i.data (List.prefix_append _ _) (List.prefix_refl _) (by omega)
  rw [this] at hf
  cases hf

/-- The hypotheses of C86 are met: three bytes are read of four. -/
example : ∃ outs c j, Decoder.decodeSubsets sampleCtx false 1 [WR_VAR 0 12 101, WR_VAR 0 2 1] 1 noCaches
    (Input.new [0x6a, 0xb3, 0x40, 0xff, 0xff]) = .ok (outs, c, j) ∧ j.s4_cursor = 3 := by
  have h : (do
      let r ← Decoder.decodeSubsets sampleCtx false 1 [WR_VAR 0 12 101, WR_VAR 0 2 1] 1 noCaches
        (Input.new [0x6a, 0xb3, 0x40, 0xff, 0xff])
      return r.2.2.s4_cursor) = Res.ok 3 := by decide +kernel
  obtain ⟨⟨o, c, j⟩, h1, h2⟩ := Res.bind_eq_ok.mp h
  simp only [Res.pure_def, Res.ok.injEq] at h2
  exact ⟨o, c, j, h1, h2⟩

/-- The values of one subset and where decoding ends. -/
def decodedUpTo (datadesc : List Varcode) (data : List Byte) :
    Res (List (List (Option Value)) × Nat) := do
  let r ← Decoder.decodeSubsets sampleCtx false 1 datadesc 1 noCaches (Input.new data)
  return (r.1.map fun s => s.map fun v => v.toVarCore.view, r.2.2.s4_cursor)

/-- C86 fails for other data that ends where decoding ended: the first four bits of a byte are
two values, and are decoded if a byte follows that is not looked at. Without it the second
value, which is in the byte already taken, is refused. -/
theorem C86_not_exact :
    decodedUpTo [WR_VAR 0 2 1, WR_VAR 0 2 1] [0x40, 0xff] = .ok ([[some (.num 1), some (.num 0)]], 1) ∧
    decodedUpTo [WR_VAR 0 2 1, WR_VAR 0 2 1] [0x40] = .err .parse := by
  decide +kernel

/-- The end of the data is not always noticed: with one byte less decoding still
succeeds, with a zero in its place. -/
theorem C86_not_last_byte :
    decodedNumbers [WR_VAR 0 12 101] [0x6a, 0xb3] = .ok [some (.num 27315)] ∧
    decodedNumbers [WR_VAR 0 12 101] [0x6a] = .ok [some (.num 27136)] := by
  decide +kernel

end Wreport
