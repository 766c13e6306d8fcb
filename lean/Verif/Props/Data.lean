import Verif.Lemmas.DataSim
import Verif.Lemmas.HeaderDec
import Verif.Model.Message
import Verif.Props.Header

/-!
# C32: the data section
-/

namespace Wreport

open Spec BufrDec BufrEnc

/-! ## One subset -/

/-- Encoding a subset that matches the descriptors writes its fields. -/
theorem encodeSubset_ok (C : Ctx) (hE : IsRounding C.E.fl) {depth : Nat} {datadesc : List Varcode}
    {S : List Var} {caches caches' ce : TableCaches} {b : List Bool} (hS : Sound C.E S)
    (hA : SoundAttrs C.E S) (hm : Matches C depth datadesc S caches b caches')
    (hu : ce.unknown_table = caches.unknown_table) {o : BitOut} (ho : o.WF) :
    ∃ ce' o', DDSEncoder.encodeSubset C depth datadesc S ce o = .ok (ce', o') ∧ o'.WF ∧
      o'.bits = o.bits ++ b ∧ ce'.unknown_table = caches'.unknown_table := by
  obtain ⟨st, h1, h2, h3, -, h4⟩ := hm
  obtain ⟨-, hsim⟩ := Interp.sim_run C (encSims C hE S hS hA o.bits) depth datadesc _ st h1
  obtain ⟨t', r1, r2⟩ := hsim st.tgt (.new ce ⟨S, 0, o⟩) trivial
    ⟨⟨rfl, rfl, rfl, rfl, rfl, rfl, rfl, rfl, rfl, hu⟩, rfl, rfl, rfl, ho,
      by simp [Interp.new, Walk.start]⟩
  obtain ⟨q0, q1, q2, q3, q4, q5⟩ := r2
  refine ⟨t'.caches, t'.tgt.ob, ?_, q4, by rw [q5, h3], by rw [q0.unknown, ← h4]⟩
  unfold DDSEncoder.encodeSubset
  rw [r1]
  rfl

/-- Once all attributes were carried, what was read shows the same. -/
theorem Partly.faithful {w : Walk} {out : List Var} (h : Partly w.carried out w.subset)
    (hc : w.allCarried = true) : List.Forall₂ Faithful out w.subset := by
  rw [List.forall₂_iff_get]
  refine ⟨h.1, fun p hp hp' => ?_⟩
  have hv : w.subset[p]? = some w.subset[p] := List.getElem?_eq_getElem hp'
  have hs := h.2 p _ _ (List.getElem?_eq_getElem hp) hv
  refine ⟨hs.wf, hs.info, hs.view, fun code => ?_⟩
  rw [List.get_eq_getElem, List.get_eq_getElem, hs.attrs]
  split
  · rfl
  · next hn =>
    symm
    unfold attrShown
    cases ha : attrOf w.subset[p] code with
    | none => rfl
    | some a =>
      exfalso
      obtain ⟨h1, h2⟩ := attrOf_some ha
      have h3 := List.find?_some ha
      simp only [decide_eq_true_eq] at h3
      unfold Walk.allCarried at hc
      rw [List.all_eq_true] at hc
      have := hc p (List.mem_range.mpr hp')
      rw [hv, Option.map_some, Option.getD_some, List.all_eq_true] at this
      have := this a h1
      rw [Bool.or_eq_true, decide_eq_true_eq] at this
      rcases this with h4 | h4
      · exact h3.2 (Option.isNone_iff_eq_none.mp h4)
      · rw [h2] at h4
        exact hn h4

/-- Decoding the fields of a subset that matches the descriptors gives its variables
with their attributes. -/
theorem decodeSubset_ok (C : Ctx) (hE : IsRounding C.E.fl) {depth : Nat} {datadesc : List Varcode}
    {S : List Var} {caches caches' cd : TableCaches} {b rest : List Bool} (hS : Sound C.E S)
    (hA : SoundAttrs C.E S) (hm : Matches C depth datadesc S caches b caches') (add_undef : Bool)
    (hu : cd.unknown_table = caches.unknown_table) (hb : cd.bitmap_table = caches.bitmap_table)
    (hcd : CharData C.E cd) {i : Input} (hi : i.WF)
    (hrem : i.rem = b ++ rest) (hrest : 8 ≤ rest.length) :
    ∃ out cd' i', Decoder.decodeSubset C add_undef depth datadesc cd i = .ok (out, cd', i') ∧
      List.Forall₂ Faithful out S ∧ i'.WF ∧ i'.rem = rest ∧ CharData C.E cd' ∧
      cd'.unknown_table = caches'.unknown_table ∧ cd'.bitmap_table = caches'.bitmap_table := by
  obtain ⟨st, h1, h2, h3, h5, h4⟩ := hm
  obtain ⟨-, hsim⟩ := Interp.sim_run C (decSims C hE S hS hA rest hrest) depth datadesc _ st h1
  obtain ⟨t', r1, r2⟩ := hsim st.tgt (Decoder.start add_undef cd i) (List.prefix_refl _)
    ⟨⟨rfl, rfl, rfl, rfl, rfl, rfl, rfl, rfl, rfl, hu⟩, rfl, hi, ⟨b, by rw [h3]; rfl, hrem⟩,
      ⟨by simp [Decoder.start, Interp.new, Walk.start],
        by simp [Decoder.start, Interp.new]⟩, by simp [Interp.new, Walk.start], hcd, hb⟩
  obtain ⟨q0, q1, q2, ⟨w, w1, w2⟩, q4, -, q6, q7⟩ := r2
  have hw : w = [] := by
    have := congrArg List.length w1
    rw [List.length_append] at this
    exact List.length_eq_zero_iff.mp (by omega)
  subst hw
  refine ⟨t'.tgt.out, t'.caches, t'.tgt.input, ?_, ?_, q2, w2, q6, by rw [q0.unknown, ← h4],
    by rw [q7, ← h4]⟩
  · unfold Decoder.decodeSubset
    rw [r1]
    rfl
  · rw [h2, List.take_length, ← q1] at q4
    rw [← q1]
    exact q4.faithful h5

/-! ## All the subsets -/

/-- C32 (part): subsets whose variables match the data descriptors (elements, fixed
and delayed replications, sequences, operators that change width, scale, reference
or character length, character data, associated fields, quality information,
statistics and substituted values given by bitmaps) and whose values fit their fields
are written as those fields, from any position of the output; and the fields, from any
position of the input, are read back as variables with the same descriptors, the same
values and the same attributes. All attributes that have a value must be among those
the descriptors write. Missing from the full property: values that do not fit or cannot
be told from missing ones (`C32_not_chars`, C19, C20, C22), reference value 0 (C38),
associated fields that C37 leaves out. -/
theorem C32_round_trip_partial (C : Ctx) (hE : IsRounding C.E.fl) (depth : Nat)
    (datadesc : List Varcode) (subsets : List (List Var)) (caches ce cd : TableCaches)
    (b : List Bool) (hS : ∀ S ∈ subsets, Sound C.E S)
    (hA : ∀ S ∈ subsets, SoundAttrs C.E S)
    (hm : MatchesAll C depth datadesc subsets caches b)
    (hue : ce.unknown_table = caches.unknown_table) :
    (∀ o : BitOut, o.WF → ∃ ce' o', DDSEncoder.encodeSubsets C depth datadesc subsets ce o =
        .ok (ce', o') ∧ o'.WF ∧ o'.bits = o.bits ++ b) ∧
    ∀ (add_undef : Bool) (i : Input) (rest : List Bool), i.WF → i.rem = b ++ rest →
      8 ≤ rest.length → cd.unknown_table = caches.unknown_table →
      cd.bitmap_table = caches.bitmap_table → CharData C.E cd →
      ∃ outs cd' i', Decoder.decodeSubsets C add_undef depth datadesc subsets.length cd i =
        .ok (outs, cd', i') ∧ List.Forall₂ (List.Forall₂ Faithful) outs subsets ∧ i'.WF ∧ i'.rem = rest := by
  induction hm generalizing ce cd with
  | nil caches =>
    exact ⟨fun o ho => ⟨ce, o, rfl, ho, by simp⟩,
      fun _ i rest hi hr _ _ _ _ => ⟨[], cd, i, rfl, .nil, hi, by simpa using hr⟩⟩
  | cons s subsets caches caches' b b' h1 h2 ih =>
    have hs := hS s (by simp)
    have ha := hA s (by simp)
    have hS' : ∀ S ∈ subsets, Sound C.E S := fun S h => hS S (by simp [h])
    have hA' : ∀ S ∈ subsets, SoundAttrs C.E S := fun S h => hA S (by simp [h])
    refine ⟨fun o ho => ?_, fun add_undef i rest hi hr hrest hud hbd hcd => ?_⟩
    · obtain ⟨ce', o', a1, a2, a3, a4⟩ := encodeSubset_ok C hE hs ha h1 hue ho
      obtain ⟨ce'', o'', e1, e2, e3⟩ := (ih ce' cd hS' hA' a4).1 o' a2
      refine ⟨ce'', o'', ?_, e2, by rw [e3, a3, List.append_assoc]⟩
      unfold DDSEncoder.encodeSubsets
      rw [a1]
      exact e1
    · rw [List.append_assoc] at hr
      obtain ⟨out, cd', i', a1, a2, a3, a4, a5, a6, a7⟩ := decodeSubset_ok C hE hs ha h1 add_undef hud hbd hcd
        hi hr (by rw [List.length_append]; omega)
      obtain ⟨outs, cd'', i'', e1, e2, e3, e4⟩ := (ih cd' cd' hS' hA' a6).2 add_undef i' rest a3 a4
        hrest a6 a7 a5
      refine ⟨out :: outs, cd'', i'', ?_, .cons a2 e2, e3, e4⟩
      show Decoder.decodeSubsets C add_undef depth datadesc (subsets.length + 1) cd i = _
      unfold Decoder.decodeSubsets
      rw [a1]
      simp only [Res.ok_bind, e1]
      rfl

/-! ## Whole messages -/

theorem message_body (C : Ctx) (hE : IsRounding C.E.fl) {depth : Nat} {datadesc : List Varcode}
    {subsets : List (List Var)} {caches : TableCaches} {b : List Bool}
    (hS : ∀ S ∈ subsets, Sound C.E S) (hA : ∀ S ∈ subsets, SoundAttrs C.E S)
    (hm : MatchesAll C depth datadesc subsets caches b) {o : BitOut}
    (ho : o.WF) :
    ∃ o', (do let r ← DDSEncoder.encodeSubsets C depth datadesc subsets caches o
              return r.2) = Res.ok o' ∧ o'.WF ∧ o'.bits = o.bits ++ b := by
  obtain ⟨ce', o', a1, a2, a3⟩ :=
    (C32_round_trip_partial C hE depth datadesc subsets caches caches caches b hS hA hm rfl).1 o ho
  exact ⟨o', by rw [a1]; rfl, a2, a3⟩

/-- C32 (part), for messages: a bulletin whose subsets match its descriptors, as in
`C32_round_trip_partial`, is encoded; and if the message is shorter than 2^24 bytes,
decoding it with the same tables gives the same variables with the same values and attributes. -/
theorem C32_message_partial (C : Ctx) (hE : IsRounding C.E.fl) (depth : Nat) (h : Header)
    (subsets : List (List Var)) (caches cd : TableCaches) (b : List Bool)
    (hS : ∀ S ∈ subsets, Sound C.E S) (hA : ∀ S ∈ subsets, SoundAttrs C.E S)
    (hm : MatchesAll C depth h.datadesc subsets caches b)
    (hed : h.edition_number = 2 ∨ h.edition_number = 3 ∨ h.edition_number = 4)
    (hn : subsets ≠ []) (hn' : subsets.length ≤ 65535) (hd : h.datadesc ≠ [])
    (hc : ∀ c ∈ h.datadesc, c < 65536) :
    ∃ msg, encodeMessage C depth h subsets caches = .ok msg ∧
      (msg.length < 2 ^ 24 → ∀ (add_undef : Bool) (load : Header → Res (Ctx × TableCaches)),
        (∀ r, decode_header msg = .ok r → load r.header = .ok (C, cd)) →
        cd.unknown_table = caches.unknown_table → cd.bitmap_table = caches.bitmap_table →
        CharData C.E cd →
        ∃ hd outs ends, decodeMessage load add_undef depth msg = .ok (hd, outs, ends) ∧
          hd.header.datadesc = h.datadesc ∧ List.Forall₂ (List.Forall₂ Faithful) outs subsets) := by
  have hn0 : subsets.length ≠ 0 := fun e => hn (List.length_eq_zero_iff.mp e)
  obtain ⟨ob0, e1, e2, -⟩ := message_body C hE hS hA hm
    (BitOut.WF_new (head h subsets.length ++ [0, 0, 0, 0]))
  obtain ⟨msg, he⟩ := encode_isOk (body := fun o => do
      let r ← DDSEncoder.encodeSubsets C depth h.datadesc subsets caches o
      return r.2) hed hn0 hd e1 e2
  refine ⟨msg, he, fun hl add_undef load hload hud hbd hcd => ?_⟩
  have happ : Appends (fun o => do
      let r ← DDSEncoder.encodeSubsets C depth h.datadesc subsets caches o
      return r.2) := by
    intro o o' ho hoo
    obtain ⟨o'', a1, a2, a3⟩ := message_body C hE hS hA hm ho
    simp only at hoo
    rw [a1] at hoo
    cases hoo
    exact ⟨a2, b, a3⟩
  obtain ⟨-, -, -, ob, t, d, k, f1, f2, f3, f4, f5, hmsg⟩ := encode_ok happ he
  rw [e1] at f1
  cases f1
  obtain ⟨o2, a1, -, a3⟩ := message_body C hE hS hA hm
    (BitOut.WF_new (head h subsets.length ++ [0, 0, 0, 0]))
  have ht : t = b := by
    rw [e1] at a1
    cases a1
    rw [f2, BitOut.bits_new] at a3
    exact List.append_cancel_left a3
  subst ht
  have hlen := congrArg List.length hmsg
  simp only [List.length_append, length_be] at hlen
  have hdec := decode_header_ok (length_be 3 msg.length) hmsg hed hc (by omega) (by omega) (by
    simp only [List.length_cons, List.length_nil] at hlen; omega)
  have hdesc : (carried h).datadesc = h.datadesc := by unfold carried; split <;> rfl
  have hcomp : (carried h).compression = false := by unfold carried; split <;> rfl
  have h4 : (ascii "BUFR").length = 4 := rfl
  -- where the data is
  have hpre : msg = (ascii "BUFR" ++ (be 3 msg.length ++ ([h.edition_number] ++ (sec1 h ++ (sec2 h ++
      (sec3 h subsets.length ++ (be 3 (4 + d.length) ++ [0]))))))) ++ (d ++ ascii "7777") := by
    conv_lhs => rw [hmsg]
    simp only [List.append_assoc]
  have hs4 : msg.drop ((layout h subsets.length d.length).s4 + 4) = d ++ ascii "7777" := by
    conv_lhs => rw [hpre]
    apply List.drop_left'
    simp only [List.length_append, length_be, h4, layout, List.length_cons, List.length_nil]
    omega
  have hs5 : msg.drop (layout h subsets.length d.length).s5 = ascii "7777" ++ [] := by
    rw [show (layout h subsets.length d.length).s5 =
      (layout h subsets.length d.length).s4 + 4 + d.length by simp [layout]; omega, List.append_nil]
    exact drop_append_of hs4 _ rfl
  -- decoding
  have hstart : (start msg (layout h subsets.length d.length)).rem =
      t ++ (List.replicate k false ++ bytesBits (ascii "7777")) := by
    unfold start Input.rem
    simp only [List.take_zero, List.nil_append]
    rw [hs4, bytesBits, List.flatMap_append, ← bytesBits, ← bytesBits, f3, List.append_assoc]
  obtain ⟨outs, cd', i', g1, g2, -, -⟩ :=
    (C32_round_trip_partial C hE depth h.datadesc subsets caches caches cd t hS hA hm rfl).2 add_undef
      (start msg (layout h subsets.length d.length)) _ ⟨by simp [start], by simp [start]⟩ hstart
      (by rw [List.length_append, show (bytesBits (ascii "7777")).length = 32 by decide]; omega)
      hud hbd hcd
  have hob : obtained (subsets.length % 65536) = subsets.length := by
    unfold obtained; omega
  have hend : ∃ e, decode_end msg (layout h subsets.length d.length) = .ok e := by
    unfold decode_end
    have hl5 := congrArg List.length hs5
    rw [List.length_drop] at hl5
    have : (ascii "7777" ++ []).length = 4 := rfl
    rw [check, if_neg (by omega), Res.ok_bind]
    have := read_bytes_ok hs5
    rw [show (ascii "7777").length = 4 from rfl] at this
    rw [this, Res.ok_bind, if_neg (by simp)]
    exact ⟨_, rfl⟩
  obtain ⟨ends, hend⟩ := hend
  refine ⟨⟨carried h, layout h subsets.length d.length, subsets.length % 65536⟩, outs, ends, ?_, hdesc,
    g2⟩
  unfold decodeMessage decode
  rw [hdec, Res.ok_bind, hload _ hdec, Res.ok_bind]
  simp only [decodeBody, hcomp, hob, hdesc, g1, hend]
  rfl

/-! ## A sample -/

/-- B12101 two bits wider. -/
def wideTemp : Varinfo := made (Varinfo.raw (WR_VAR 0 12 101) .decimal (ascii "K") 2 6 0 18)

/-- Three characters. -/
def charInfo : Varinfo :=
  match Varinfo.set_string Env0 (WR_VAR 2 5 3) 3 with
  | .ok i => i
  | _ => sampleStr

/-- A replicated sequence, a wider element and characters. -/
def sampleDesc : List Varcode :=
  [WR_VAR 1 1 0, WR_VAR 0 31 1, WR_VAR 3 1 1, WR_VAR 2 1 130, WR_VAR 0 12 101, WR_VAR 2 1 0,
    WR_VAR 2 5 3]

/-- Values for `sampleDesc`: one is missing, one needs the wider field. -/
def sampleSubset : List Var :=
  [factorVar 2, tempVar 27315, codeVar 1, tempVar 5, Var.new sampleCode,
    (Var.new wideTemp).putInt 200000, ((Var.new charInfo).sets .default (ascii "abc")).1]

/-- The fields of `sampleSubset`. -/
def sampleFields : List Bool :=
  bits 8 2 ++ bits 16 27315 ++ bits 2 1 ++ bits 16 5 ++ bits 2 3 ++ bits 18 200000 ++
    bytesBits (ascii "abc")

theorem sampleSubset_matches :
    ∃ caches', Matches sampleCtx 1 sampleDesc sampleSubset noCaches sampleFields caches' := by
  have h : (do
      let st ← Interp.run sampleCtx (Walk.target sampleCtx) 1 sampleDesc
        (.new noCaches (Walk.start sampleSubset []))
      return (st.tgt.pos, st.tgt.bits, st.tgt.allCarried)) =
        Res.ok (sampleSubset.length, sampleFields, true) := by
    decide +kernel
  obtain ⟨st, h1, h2⟩ := Res.bind_eq_ok.mp h
  simp only [Res.pure_def, Res.ok.injEq, Prod.mk.injEq] at h2
  exact ⟨_, st, h1, h2.1, h2.2.1, h2.2.2, rfl⟩

theorem sampleSubset_sound : Sound sampleCtx.E sampleSubset := by
  have h1 : sampleFactor.Made Env0 :=
    ⟨⟨Varinfo.raw (WR_VAR 0 31 1) .integer (ascii "NUMERIC") 0 3 0 8, rfl⟩, rfl, fun _ => rfl, nofun⟩
  have h2 : wideTemp.Made Env0 :=
    ⟨⟨Varinfo.raw (WR_VAR 0 12 101) .decimal (ascii "K") 2 6 0 18, rfl⟩, rfl, nofun, nofun⟩
  have h3 : charInfo.Made Env0 :=
    ⟨⟨Varinfo.raw (WR_VAR 2 5 3) .string (ascii "CCITTIA5") 0 3 0 24, rfl⟩, rfl, nofun, nofun⟩
  intro v hv
  simp only [sampleSubset, List.mem_cons, List.not_mem_nil, or_false] at hv
  rcases hv with rfl | rfl | rfl | rfl | rfl | rfl | rfl
  · exact ⟨⟨2, rfl, by decide⟩, h1⟩
  · exact ⟨⟨27315, rfl, by decide⟩, sampleTemp_made⟩
  · exact ⟨⟨1, rfl, by decide⟩, sampleCode_made⟩
  · exact ⟨⟨5, rfl, by decide⟩, sampleTemp_made⟩
  · exact ⟨⟨0, rfl, by decide⟩, sampleCode_made⟩
  · exact ⟨⟨200000, rfl, by decide⟩, h2⟩
  · exact ⟨Or.inr ⟨_, rfl, by decide +kernel, fun _ => ⟨ascii "abc", by decide +kernel⟩⟩, h3⟩

theorem sampleSubset_attrs : SoundAttrs sampleCtx.E sampleSubset := by
  intro v hv
  have h0 : ∀ v ∈ sampleSubset, v.attrs = [] := by decide +kernel
  have := h0 v hv
  exact ⟨⟨(sampleSubset_sound v hv).1, by rw [this]; simp, by rw [this]; simp⟩, by rw [this]; simp⟩

/-- The hypotheses of C32 are met by two subsets. -/
example : ∃ b, MatchesAll sampleCtx 1 sampleDesc [sampleSubset, sampleSubset] noCaches b ∧
    (∀ S ∈ [sampleSubset, sampleSubset], Sound sampleCtx.E S ∧ SoundAttrs sampleCtx.E S) ∧
    IsRounding sampleCtx.E.fl ∧ CharData sampleCtx.E noCaches := by
  obtain ⟨c, h⟩ := sampleSubset_matches
  have hc : c = noCaches := by
    obtain ⟨st, h1, -, -, -, rfl⟩ := h
    have hk : (do
      let st ← Interp.run sampleCtx (Walk.target sampleCtx) 1 sampleDesc
        (.new noCaches (Walk.start sampleSubset []))
      return (st.tgt.seen, st.caches.chardata_table, st.caches.unknown_table)) =
        Res.ok ([], [], []) := by
      decide +kernel
    rw [show Interp.run sampleCtx (Walk.target sampleCtx) 1 sampleDesc
      (.new noCaches (Walk.start sampleSubset [])) = .ok st from h1] at hk
    simp only [Res.ok_bind, Res.pure_def, Res.ok.injEq, Prod.mk.injEq] at hk
    simp only [hk.1, hk.2.1, hk.2.2]
    rfl
  subst hc
  refine ⟨_, .cons _ _ _ _ _ _ h (.cons _ _ _ _ _ _ h (.nil _)), ?_, Env0_rounding, nofun⟩
  intro S hS
  simp only [List.mem_cons, List.not_mem_nil, or_false, or_self] at hS
  rw [hS]
  exact ⟨sampleSubset_sound, sampleSubset_attrs⟩

/-! ## A sample with attributes -/

/-- A bitmap. -/
def marksVar (code : Varcode) (t : String) : Var :=
  match Varinfo.set_string Env0 code t.length with
  | .ok i => ((Var.new i).sets .default (ascii t)).1
  | _ => Var.new sampleStr

/-- A temperature and a code, the temperature with an associated field of two bits; then
confidence for both by a bitmap, and a substituted value for the temperature by
another. -/
def attrDesc : List Varcode :=
  [WR_VAR 2 4 2, WR_VAR 0 31 21, WR_VAR 0 12 101, WR_VAR 2 4 0, WR_VAR 0 2 1,
    WR_VAR 2 22 0, WR_VAR 1 1 3, WR_VAR 0 31 31, WR_VAR 0 33 7, WR_VAR 0 33 7,
    WR_VAR 2 23 0, WR_VAR 1 1 0, WR_VAR 0 31 1, WR_VAR 0 31 31, WR_VAR 2 23 255]

/-- A temperature with three attributes. -/
def attrTemp : Var :=
  (((tempVar 27315).setaMove ((Var.new sampleQuality).putInt 2)).setaMove
    ((Var.new sampleConf).putInt 80)).setaMove (tempVar 27000)

/-- Values for `attrDesc`: the code has no confidence. -/
def attrSubset : List Var :=
  [(Var.new sampleSig).putInt 1, attrTemp, codeVar 1, marksVar (WR_VAR 2 22 0) "-++",
    marksVar (WR_VAR 2 23 0) "-+-"]

/-- The fields of `attrSubset`. -/
def attrFields : List Bool :=
  bits 6 1 ++ (bits 2 2 ++ bits 16 27315) ++ bits 2 1 ++ bits 3 4 ++ bits 7 80 ++ bits 7 127 ++
    bits 8 3 ++ bits 3 5 ++ bits 16 27000

/-- The sample with attributes matches its descriptors. -/
theorem attrSubset_matches :
    ∃ caches', Matches sampleCtx 1 attrDesc attrSubset noCaches attrFields caches' := by
  have h : (do
      let st ← Interp.run sampleCtx (Walk.target sampleCtx) 1 attrDesc
        (.new noCaches (Walk.start attrSubset []))
      return (st.tgt.pos, st.tgt.bits, st.tgt.allCarried)) =
        Res.ok (attrSubset.length, attrFields, true) := by
    decide +kernel
  obtain ⟨st, h1, h2⟩ := Res.bind_eq_ok.mp h
  simp only [Res.pure_def, Res.ok.injEq, Prod.mk.injEq] at h2
  exact ⟨_, st, h1, h2.1, h2.2.1, h2.2.2, rfl⟩

/-- The descriptor of a bitmap of three marks. -/
def marksInfo (code : Varcode) : Varinfo :=
  made (Varinfo.raw code .string (ascii "CCITTIA5") 0 3 0 24)

theorem attrSubset_sound : Sound sampleCtx.E attrSubset ∧ SoundAttrs sampleCtx.E attrSubset := by
  have h1 : sampleSig.Made Env0 :=
    ⟨⟨Varinfo.raw (WR_VAR 0 31 21) .integer (ascii "CODE TABLE") 0 2 0 6, rfl⟩, rfl, fun _ => rfl, nofun⟩
  have h2 : sampleQuality.Made Env0 :=
    ⟨⟨Varinfo.raw (WR_VAR 0 33 2) .integer (ascii "CODE TABLE") 0 1 0 2, rfl⟩, rfl, fun _ => rfl, nofun⟩
  have h3 : sampleConf.Made Env0 :=
    ⟨⟨Varinfo.raw (WR_VAR 0 33 7) .integer (ascii "%") 0 3 0 7, rfl⟩, rfl, fun _ => rfl, nofun⟩
  have hm : ∀ code t, (marksVar code t).info = marksInfo code → (marksInfo code).Made Env0 →
      (marksVar code t).toVarCore.WF → (marksVar code t).attrs = [] →
      ((marksVar code t).toVarCore.WF ∧ (marksVar code t).info.Made Env0) ∧
        (marksVar code t).WF ∧ ∀ a ∈ (marksVar code t).attrs, a.info.Made Env0 := by
    intro code t e1 e2 e3 e4
    exact ⟨⟨e3, e1 ▸ e2⟩, ⟨e3, by rw [e4]; simp, by rw [e4]; simp⟩, by rw [e4]; simp⟩
  have hall : ∀ v ∈ attrSubset, (v.toVarCore.WF ∧ v.info.Made Env0) ∧ v.WF ∧
      ∀ a ∈ v.attrs, a.info.Made Env0 := by
    intro v hv
    simp only [attrSubset, List.mem_cons, List.not_mem_nil, or_false] at hv
    rcases hv with rfl | rfl | rfl | rfl | rfl
    · exact ⟨⟨⟨1, rfl, by decide⟩, h1⟩, ⟨⟨1, rfl, by decide⟩, nofun, .nil⟩, nofun⟩
    · have hattrs : attrTemp.attrs = [(tempVar 27000).toVarCore,
          ((Var.new sampleQuality).putInt 2).toVarCore,
          ((Var.new sampleConf).putInt 80).toVarCore] := by decide +kernel
      refine ⟨⟨⟨27315, rfl, by decide⟩, sampleTemp_made⟩, ⟨⟨27315, rfl, by decide⟩, ?_, ?_⟩, ?_⟩
      · rw [hattrs]
        intro a ha
        simp only [List.mem_cons, List.not_mem_nil, or_false] at ha
        rcases ha with rfl | rfl | rfl
        · exact ⟨27000, rfl, by decide⟩
        · exact ⟨2, rfl, by decide⟩
        · exact ⟨80, rfl, by decide⟩
      · rw [hattrs]
        decide +kernel
      · rw [hattrs]
        intro a ha
        simp only [List.mem_cons, List.not_mem_nil, or_false] at ha
        rcases ha with rfl | rfl | rfl
        · exact sampleTemp_made
        · exact h2
        · exact h3
    · exact ⟨⟨⟨1, rfl, by decide⟩, sampleCode_made⟩, ⟨⟨1, rfl, by decide⟩, nofun, .nil⟩, nofun⟩
    · exact hm _ _ rfl ⟨⟨Varinfo.raw _ .string (ascii "CCITTIA5") 0 3 0 24, rfl⟩, rfl, nofun, nofun⟩
        (Or.inr ⟨_, rfl, by decide +kernel, fun _ => ⟨ascii "-++", by decide +kernel⟩⟩) (by decide +kernel)
    · exact hm _ _ rfl ⟨⟨Varinfo.raw _ .string (ascii "CCITTIA5") 0 3 0 24, rfl⟩, rfl, nofun, nofun⟩
        (Or.inr ⟨_, rfl, by decide +kernel, fun _ => ⟨ascii "-+-", by decide +kernel⟩⟩) (by decide +kernel)
  exact ⟨fun v hv => (hall v hv).1, fun v hv => (hall v hv).2⟩

/-- The hypotheses of C32 are met by a subset with attributes of each kind. -/
example : ∃ b, MatchesAll sampleCtx 1 attrDesc [attrSubset] noCaches b ∧
    Sound sampleCtx.E attrSubset ∧ SoundAttrs sampleCtx.E attrSubset := by
  obtain ⟨c, h⟩ := attrSubset_matches
  exact ⟨_, .cons _ _ _ _ _ _ h (.nil _), attrSubset_sound⟩

/-- What one subset becomes after encoding and decoding. -/
def roundTrip (datadesc : List Varcode) (S : List Var) : Res (List (Option Value)) := do
  let msg ← encodeMessage sampleCtx 1 { sampleHeader with datadesc } [S] noCaches
  let r ← decodeMessage (fun _ => .ok (sampleCtx, noCaches)) false 1 msg
  return (r.2.1.headD []).map (·.toVarCore.view)

/-- The sample survives. -/
example : roundTrip sampleDesc sampleSubset = .ok (sampleSubset.map (·.toVarCore.view)) := by
  decide +kernel

/-- What one subset with attributes becomes after encoding and decoding. -/
def attrsTrip (datadesc : List Varcode) (S : List Var) :
    Res (List (Option Value × List (Varcode × Option Value))) := do
  let msg ← encodeMessage sampleCtx 1 { sampleHeader with datadesc } [S] noCaches
  let r ← decodeMessage (fun _ => .ok (sampleCtx, noCaches)) false 1 msg
  return (r.2.1.headD []).map fun v => (v.toVarCore.view, v.attrs.map fun a => (a.code, a.view))

/-- The sample with attributes survives. -/
example : attrsTrip attrDesc attrSubset = .ok [(some (.num 1), []),
    (some (.num 27315), [(WR_VAR 0 12 101, some (.num 27000)), (WR_VAR 0 33 2, some (.num 2)),
      (WR_VAR 0 33 7, some (.num 80))]),
    (some (.num 1), []), (some (.text (ascii "-++")), []), (some (.text (ascii "-+-")), [])] := by
  decide +kernel

/-- C32 fails for characters written in place that are shorter than the operator
says: they come back with blanks added. -/
theorem C32_not_chars :
    roundTrip [WR_VAR 2 5 3] [((Var.new charInfo).sets .default (ascii "ab")).1] =
      .ok [some (.text (ascii "ab "))] := by
  decide +kernel

/-- C32 fails for characters written in place that are missing: they come back as
blanks. -/
theorem C32_not_chars_missing :
    roundTrip [WR_VAR 2 5 3] [Var.new charInfo] = .ok [some (.text (ascii "   "))] := by
  decide +kernel

end Wreport
