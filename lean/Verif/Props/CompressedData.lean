import Verif.Lemmas.CompressedSim
import Verif.Props.Assoc
import Verif.Props.Data

/-!
# C66, C67: compressed data sections
-/

namespace Wreport

open Spec BufrDec BufrEnc

/-! ## C66 -/

/-- C66 (part): subsets whose variables match the data descriptors together
(elements, fixed and delayed replications, sequences, operators that change width,
scale and character length, associated fields, quality information, statistics and
substituted values given by bitmaps), written in columns with any plan, are read back
as variables with the same descriptors, the same values and the same attributes, from
any position of the input, whatever the base values, the width of the increments and
the texts used as base; exactly the columns are consumed. Missing from the full
property: fields of 32 bits (C23), binary elements, characters in place and changes of
reference, which the decoder refuses, associated fields missing in some of the subsets
or given for texts (C67). -/
theorem C66_columns_partial (C : Ctx) (hE : IsRounding C.E.fl) (depth : Nat)
    (datadesc : List Varcode) (subsets : List (List Var)) (plan : List Plan)
    (caches cd : TableCaches) (b : List Bool) (hne : subsets ≠ [])
    (hS : ∀ S ∈ subsets, Sound C.E S) (hA : ∀ S ∈ subsets, SoundAttrs C.E S)
    (hm : MatchesTogether C depth datadesc subsets plan caches b) (add_undef : Bool)
    (hu : cd.unknown_table = caches.unknown_table) (hb : cd.bitmap_table = caches.bitmap_table)
    (i : Input) (hi : i.WF) (rest : List Bool)
    (hrem : i.rem = b ++ rest) (hrest : 8 ≤ rest.length) :
    ∃ outs cd' i', CDecoder.decodeSubsets C add_undef depth datadesc subsets.length cd i =
      .ok (outs, cd', i') ∧ List.Forall₂ (List.Forall₂ Faithful) outs subsets ∧ i'.WF ∧
      i'.rem = rest := by
  obtain ⟨st, h1, h2, h3, h4⟩ := hm
  obtain ⟨-, hsim⟩ := Interp.sim_run C (compSims C hE subsets hne hS hA rest hrest) depth datadesc _ st
    h1
  have h0 : PartlyAll [] 0 (List.replicate subsets.length []) subsets := by
    unfold PartlyAll
    clear h1 h2 hS hA hne hsim
    induction subsets with
    | nil => exact .nil
    | cons s ss ih =>
      rw [List.length_cons, List.replicate_succ]
      exact .cons ⟨by simp, by simp⟩ ih
  obtain ⟨t', r1, r2⟩ := hsim st.tgt (CDecoder.start add_undef cd subsets.length i) (List.prefix_refl _)
    ⟨⟨rfl, rfl, rfl, rfl, rfl, rfl, rfl, rfl, rfl, hu⟩, rfl, hi, ⟨b, by rw [h3]; rfl, hrem⟩, h0,
      by simp [Interp.new, Walks.start], hb⟩
  obtain ⟨-, q1, q2, ⟨w, w1, w2⟩, q4, -, -⟩ := r2
  have hw : w = [] := by
    have := congrArg List.length w1
    rw [List.length_append] at this
    exact List.length_eq_zero_iff.mp (by omega)
  subst hw
  refine ⟨t'.tgt.subsets, t'.caches, t'.tgt.input, ?_, ?_, q2, w2⟩
  · unfold CDecoder.decodeSubsets
    rw [r1]
    rfl
  · unfold Walks.allCarried at h4
    rw [q1, List.all_eq_true] at h4
    clear h1 hsim r1 h0 hS hA hne q1
    unfold PartlyAll at q4
    generalize t'.tgt.subsets = outs at q4
    induction q4 with
    | nil => exact .nil
    | cons k1 _ ih =>
      refine .cons ?_ (ih (fun s hs => h2 s (by simp [hs])) fun s hs => h4 s (by simp [hs]))
      rw [h2 _ (List.mem_cons_self ..), List.take_length] at k1
      exact k1.faithful (w := ⟨_, 0, [], st.tgt.carried, []⟩) (h4 _ (List.mem_cons_self ..))

/-- C66 (part), for messages: if the flag of a message says that its data is
compressed and its data section holds the columns of some subsets, the message is
decoded as those subsets. Missing as in `C66_columns_partial`. -/
theorem C66_message_partial (C : Ctx) (hE : IsRounding C.E.fl) (depth : Nat)
    (subsets : List (List Var)) (plan : List Plan) (caches cd : TableCaches) (b : List Bool)
    (hne : subsets ≠ []) (hS : ∀ S ∈ subsets, Sound C.E S)
    (hA : ∀ S ∈ subsets, SoundAttrs C.E S) (add_undef : Bool)
    (load : Header → Res (Ctx × TableCaches)) (msg : List Byte) (hd : Head) (ends : List Nat)
    (hm : MatchesTogether C depth hd.header.datadesc subsets plan caches b)
    (hhd : decode_header msg = .ok hd) (hc : hd.header.compression = true)
    (hn : hd.expected_subsets = subsets.length) (hn' : subsets.length ≤ 65535)
    (hload : load hd.header = .ok (C, cd)) (hu : cd.unknown_table = caches.unknown_table)
    (hb : cd.bitmap_table = caches.bitmap_table)
    (rest : List Bool) (hrem : (start msg hd.secs).rem = b ++ rest) (hrest : 8 ≤ rest.length)
    (hend : decode_end msg hd.secs = .ok ends) :
    ∃ outs, decodeMessage load add_undef depth msg = .ok (hd, outs, ends) ∧
      List.Forall₂ (List.Forall₂ Faithful) outs subsets := by
  obtain ⟨outs, cd', i', g1, g2, -⟩ := C66_columns_partial C hE depth hd.header.datadesc subsets plan
    caches cd b hne hS hA hm add_undef hu hb (start msg hd.secs) ⟨by simp [start], by simp [start]⟩ rest
    hrem hrest
  have hpos : subsets.length ≠ 0 := fun e => hne (List.length_eq_zero_iff.mp e)
  have hob : obtained hd.expected_subsets = subsets.length := by
    unfold obtained; omega
  refine ⟨outs, ?_, g2⟩
  unfold decodeMessage decode
  rw [hhd, Res.ok_bind, hload, Res.ok_bind]
  simp only [decodeBody, hc, if_true, hob, g1, Res.ok_bind, hend]
  rfl

theorem Faithful.both {a b v : Var} (h : Faithful a v) (h' : Faithful b v) :
    a.info = b.info ∧ a.toVarCore.view = b.toVarCore.view ∧
      ∀ code, attrShown a code = attrShown b code :=
  ⟨h.2.1.trans h'.2.1.symm, h.2.2.1.trans h'.2.2.1.symm,
    fun c => (h.2.2.2 c).trans (h'.2.2.2 c).symm⟩

theorem forall₂_both {α β : Type} {R : α → β → Prop} {Q : α → α → Prop}
    (h : ∀ a b v, R a v → R b v → Q a b) {as bs : List α} {vs : List β}
    (h1 : List.Forall₂ R as vs) (h2 : List.Forall₂ R bs vs) : List.Forall₂ Q as bs := by
  induction h1 generalizing bs with
  | nil => cases h2; exact .nil
  | cons k1 _ ih =>
    cases h2 with
    | cons l1 l2 => exact .cons (h _ _ _ k1 l1) (ih l2)

/-- C66 (part): the same subsets written in columns and one after the other are
decoded alike: the same descriptors, values and attributes. Missing as in
`C66_columns_partial`. -/
theorem C66_same_partial (C : Ctx) (hE : IsRounding C.E.fl) (depth : Nat)
    (datadesc : List Varcode) (subsets : List (List Var)) (plan : List Plan)
    (caches : TableCaches) (b b' : List Bool) (hne : subsets ≠ [])
    (hS : ∀ S ∈ subsets, Sound C.E S) (hA : ∀ S ∈ subsets, SoundAttrs C.E S)
    (hcd : CharData C.E caches)
    (hm : MatchesTogether C depth datadesc subsets plan caches b)
    (hm' : MatchesAll C depth datadesc subsets caches b') (add_undef : Bool)
    (i i' : Input) (hi : i.WF) (hi' : i'.WF) (rest rest' : List Bool)
    (hrem : i.rem = b ++ rest) (hrem' : i'.rem = b' ++ rest')
    (hrest : 8 ≤ rest.length) (hrest' : 8 ≤ rest'.length) :
    ∃ outs outs' r r', CDecoder.decodeSubsets C add_undef depth datadesc subsets.length caches i =
        .ok (outs, r) ∧
      Decoder.decodeSubsets C add_undef depth datadesc subsets.length caches i' = .ok (outs', r') ∧
      List.Forall₂ (List.Forall₂ fun x y => x.info = y.info ∧ x.toVarCore.view = y.toVarCore.view ∧
        ∀ code, attrShown x code = attrShown y code) outs outs' := by
  obtain ⟨outs, cd', j, g1, g2, -⟩ := C66_columns_partial C hE depth datadesc subsets plan caches caches
    b hne hS hA hm add_undef rfl rfl i hi rest hrem hrest
  obtain ⟨outs', cd'', j', k1, k2, -⟩ := (C32_round_trip_partial C hE depth datadesc subsets caches caches
    caches b' hS hA hm' rfl).2 add_undef i' rest' hi' hrem' hrest' rfl rfl hcd
  refine ⟨outs, outs', _, _, g1, k1, forall₂_both ?_ g2 k2⟩
  intro _ _ _ h h'
  refine forall₂_both ?_ h h'
  intro _ _ _ f f'
  exact Faithful.both f f'

/-! ### A sample -/

/-- A name. -/
def nameVar (s : List Byte) : Var := ((Var.new sampleStr).sets .default s).1

/-- Replicated elements, a wider element and a name. -/
def columnDesc : List Varcode :=
  [WR_VAR 1 1 0, WR_VAR 0 31 1, WR_VAR 3 1 1, WR_VAR 2 1 130, WR_VAR 0 12 101, WR_VAR 2 1 0,
    WR_VAR 0 1 19]

/-- Three subsets for `columnDesc`. -/
def columnSubsets : List (List Var) :=
  [[factorVar 2, tempVar 27315, codeVar 1, tempVar 5, Var.new sampleCode,
      (Var.new wideTemp).putInt 200000, nameVar (ascii "Bologna")],
    [factorVar 2, tempVar 27400, codeVar 1, Var.new sampleTemp, codeVar 0,
      (Var.new wideTemp).putInt 100000, nameVar (ascii "Parma")],
    [factorVar 2, Var.new sampleTemp, codeVar 1, tempVar 7, Var.new sampleCode,
      (Var.new wideTemp).putInt 100001, Var.new sampleStr]]

/-- A way to write them. -/
def columnPlan : List Plan :=
  [.same, .increments 27315 7, .same, .increments 5 2, .increments 0 1, .increments 100000 17,
    .texts (List.replicate 32 0) 7]

/-- The columns of `columnSubsets`. -/
def columnBits : List Bool :=
  bits 8 2 ++ bits 6 0 ++
  bits 16 27315 ++ bits 6 7 ++ bits 7 0 ++ bits 7 85 ++ bits 7 127 ++
  bits 2 1 ++ bits 6 0 ++
  bits 16 5 ++ bits 6 2 ++ bits 2 0 ++ bits 2 3 ++ bits 2 2 ++
  bits 2 0 ++ bits 6 1 ++ bits 1 1 ++ bits 1 0 ++ bits 1 1 ++
  bits 18 100000 ++ bits 6 17 ++ bits 17 100000 ++ bits 17 0 ++ bits 17 1 ++
  bytesBits (List.replicate 32 0) ++ bits 6 7 ++ bytesBits (ascii "Bologna") ++
    bytesBits (ascii "Parma  ") ++ List.replicate 56 true

theorem columnSubsets_match :
    MatchesTogether sampleCtx 1 columnDesc columnSubsets columnPlan noCaches columnBits := by
  have h : (do
      let st ← Interp.run sampleCtx (Walks.target sampleCtx) 1 columnDesc
        (.new noCaches (.start columnSubsets columnPlan []))
      return (st.tgt.pos, st.tgt.bits, st.tgt.allCarried)) = Res.ok (7, columnBits, true) := by
    decide +kernel
  obtain ⟨st, h1, h2⟩ := Res.bind_eq_ok.mp h
  simp only [Res.pure_def, Res.ok.injEq, Prod.mk.injEq] at h2
  refine ⟨st, h1, ?_, h2.2⟩
  rw [h2.1]
  intro s hs
  simp only [columnSubsets, List.mem_cons, List.not_mem_nil, or_false] at hs
  rcases hs with rfl | rfl | rfl <;> rfl

theorem columnSubsets_sound : ∀ S ∈ columnSubsets, Sound sampleCtx.E S := by
  have h1 : sampleFactor.Made Env0 :=
    ⟨⟨Varinfo.raw (WR_VAR 0 31 1) .integer (ascii "NUMERIC") 0 3 0 8, rfl⟩, rfl, fun _ => rfl, nofun⟩
  have h2 : wideTemp.Made Env0 :=
    ⟨⟨Varinfo.raw (WR_VAR 0 12 101) .decimal (ascii "K") 2 6 0 18, rfl⟩, rfl, nofun, nofun⟩
  have hs : ∀ v ∈ [nameVar (ascii "Bologna"), nameVar (ascii "Parma")], v.toVarCore.WF := by
    intro v hv
    simp only [List.mem_cons, List.not_mem_nil, or_false] at hv
    rcases hv with rfl | rfl
    · exact Or.inr ⟨_, rfl, by decide +kernel, fun _ => ⟨ascii "Bologna", by decide +kernel⟩⟩
    · exact Or.inr ⟨_, rfl, by decide +kernel, fun _ => ⟨ascii "Parma", by decide +kernel⟩⟩
  intro S hS v hv
  simp only [columnSubsets, List.mem_cons, List.not_mem_nil, or_false] at hS
  rcases hS with rfl | rfl | rfl <;>
    (simp only [List.mem_cons, List.not_mem_nil, or_false] at hv;
     rcases hv with rfl | rfl | rfl | rfl | rfl | rfl | rfl) <;>
    first
      | exact ⟨⟨_, rfl, by decide⟩, h1⟩
      | exact ⟨⟨_, rfl, by decide⟩, sampleTemp_made⟩
      | exact ⟨⟨_, rfl, by decide⟩, sampleCode_made⟩
      | exact ⟨⟨_, rfl, by decide⟩, h2⟩
      | exact ⟨hs _ (List.mem_cons_self ..), sampleStr_made⟩
      | exact ⟨hs _ (List.mem_cons_of_mem _ (List.mem_cons_self ..)), sampleStr_made⟩
      | exact ⟨WF_new _, sampleStr_made⟩

theorem columnSubsets_attrs : ∀ S ∈ columnSubsets, SoundAttrs sampleCtx.E S := by
  have h : ∀ S ∈ columnSubsets, ∀ v ∈ S, v.attrs = [] := by decide +kernel
  intro S hS v hv
  have e := h S hS v hv
  exact ⟨⟨(columnSubsets_sound S hS v hv).1, by rw [e]; simp, by rw [e]; simp⟩, by rw [e]; simp⟩

/-- The hypotheses of C66 are met. -/
example : MatchesTogether sampleCtx 1 columnDesc columnSubsets columnPlan noCaches columnBits ∧
    columnSubsets ≠ [] ∧ (∀ S ∈ columnSubsets, Sound sampleCtx.E S ∧ SoundAttrs sampleCtx.E S) ∧
    IsRounding sampleCtx.E.fl :=
  ⟨columnSubsets_match, nofun, fun S h => ⟨columnSubsets_sound S h, columnSubsets_attrs S h⟩,
    Env0_rounding⟩

/-- A message with `columnBits` and the flag for compressed data. -/
def columnMessage : Res (List Byte) := do
  let msg ← BufrEnc.encode { sampleHeader with datadesc := columnDesc } 3 fun o =>
    columnBits.foldlM (fun o (x : Bool) => o.add_bits (if x then 1 else 0) 1) o
  let hd ← decode_header msg
  return msg.set (hd.secs.s3 + 6) (0x40 ||| 0x80)

/-- What the message decodes to. -/
def columnDecoded : Res (Bool × Nat × List (List (Option Value))) := do
  let msg ← columnMessage
  let r ← decodeMessage (fun _ => .ok (sampleCtx, noCaches)) false 1 msg
  return (r.1.header.compression, r.1.expected_subsets, r.2.1.map (·.map (·.toVarCore.view)))

example : columnDecoded = .ok (true, 3, columnSubsets.map (·.map (·.toVarCore.view))) := by
  decide +kernel

/-! ### A sample with attributes -/

/-- Another subset for `attrDesc`: other values, no confidence for the temperature. -/
def attrTemp2 : Var :=
  ((tempVar 27320).setaMove ((Var.new sampleQuality).putInt 0)).setaMove (tempVar 27010)

def attrSubset2 : List Var :=
  [(Var.new sampleSig).putInt 1, attrTemp2, (codeVar 0).setaMove ((Var.new sampleConf).putInt 70),
    marksVar (WR_VAR 2 22 0) "-++", marksVar (WR_VAR 2 23 0) "-+-"]

/-- A way to write both. -/
def attrPlan : List Plan :=
  [.same, .increments 0 2, .increments 27315 4, .increments 0 2, .increments 80 1,
    .increments 70 3, .increments 27000 5]

/-- The columns of the two subsets. -/
def attrColumns : List Bool :=
  bits 6 1 ++ bits 6 0 ++
  (bits 2 0 ++ bits 6 2 ++ bits 2 2 ++ bits 2 0) ++
  (bits 16 27315 ++ bits 6 4 ++ bits 4 0 ++ bits 4 5) ++
  (bits 2 0 ++ bits 6 2 ++ bits 2 1 ++ bits 2 0) ++
  (bits 1 1 ++ bits 6 0 ++ bits 1 0 ++ bits 6 0 ++ bits 1 0 ++ bits 6 0) ++
  (bits 7 80 ++ bits 6 1 ++ bits 1 0 ++ bits 1 1) ++
  (bits 7 70 ++ bits 6 3 ++ bits 3 7 ++ bits 3 0) ++
  (bits 8 3 ++ bits 6 0) ++
  (bits 1 1 ++ bits 6 0 ++ bits 1 0 ++ bits 6 0 ++ bits 1 1 ++ bits 6 0) ++
  (bits 16 27000 ++ bits 6 5 ++ bits 5 0 ++ bits 5 10)

theorem attrSubsets_match :
    MatchesTogether sampleCtx 1 attrDesc [attrSubset, attrSubset2] attrPlan noCaches attrColumns := by
  have h : (do
      let st ← Interp.run sampleCtx (Walks.target sampleCtx) 1 attrDesc
        (.new noCaches (.start [attrSubset, attrSubset2] attrPlan []))
      return (st.tgt.pos, st.tgt.bits, st.tgt.allCarried)) = Res.ok (5, attrColumns, true) := by
    decide +kernel
  obtain ⟨st, h1, h2⟩ := Res.bind_eq_ok.mp h
  simp only [Res.pure_def, Res.ok.injEq, Prod.mk.injEq] at h2
  refine ⟨st, h1, ?_, h2.2⟩
  rw [h2.1]
  intro s hs
  simp only [List.mem_cons, List.not_mem_nil, or_false] at hs
  rcases hs with rfl | rfl <;> rfl

theorem attrSubset2_sound : Sound sampleCtx.E attrSubset2 ∧ SoundAttrs sampleCtx.E attrSubset2 := by
  have h2 : sampleQuality.Made Env0 :=
    ⟨⟨Varinfo.raw (WR_VAR 0 33 2) .integer (ascii "CODE TABLE") 0 1 0 2, rfl⟩, rfl, fun _ => rfl, nofun⟩
  have h3 : sampleConf.Made Env0 :=
    ⟨⟨Varinfo.raw (WR_VAR 0 33 7) .integer (ascii "%") 0 3 0 7, rfl⟩, rfl, fun _ => rfl, nofun⟩
  obtain ⟨g1, g2⟩ := attrSubset_sound
  have hall : ∀ v ∈ attrSubset2, (v.toVarCore.WF ∧ v.info.Made Env0) ∧ v.WF ∧
      ∀ a ∈ v.attrs, a.info.Made Env0 := by
    intro v hv
    simp only [attrSubset2, List.mem_cons, List.not_mem_nil, or_false] at hv
    rcases hv with rfl | rfl | rfl | rfl | rfl
    · exact ⟨g1 _ (by simp [attrSubset]), g2 _ (by simp [attrSubset])⟩
    · have hattrs : attrTemp2.attrs = [(tempVar 27010).toVarCore,
          ((Var.new sampleQuality).putInt 0).toVarCore] := by decide +kernel
      refine ⟨⟨⟨27320, rfl, by decide⟩, sampleTemp_made⟩, ⟨⟨27320, rfl, by decide⟩, ?_, ?_⟩, ?_⟩
      · rw [hattrs]
        intro a ha
        simp only [List.mem_cons, List.not_mem_nil, or_false] at ha
        rcases ha with rfl | rfl
        · exact ⟨27010, rfl, by decide⟩
        · exact ⟨0, rfl, by decide⟩
      · rw [hattrs]
        decide +kernel
      · rw [hattrs]
        intro a ha
        simp only [List.mem_cons, List.not_mem_nil, or_false] at ha
        rcases ha with rfl | rfl
        · exact sampleTemp_made
        · exact h2
    · have hattrs : ((codeVar 0).setaMove ((Var.new sampleConf).putInt 70)).attrs =
          [((Var.new sampleConf).putInt 70).toVarCore] := by decide +kernel
      refine ⟨⟨⟨0, rfl, by decide⟩, sampleCode_made⟩, ⟨⟨0, rfl, by decide⟩, ?_, ?_⟩, ?_⟩
      · rw [hattrs]
        intro a ha
        rw [List.mem_singleton.mp ha]
        exact ⟨70, rfl, by decide⟩
      · rw [hattrs]
        decide +kernel
      · rw [hattrs]
        intro a ha
        rw [List.mem_singleton.mp ha]
        exact h3
    · exact ⟨g1 _ (by simp [attrSubset]), g2 _ (by simp [attrSubset])⟩
    · exact ⟨g1 _ (by simp [attrSubset]), g2 _ (by simp [attrSubset])⟩
  exact ⟨fun v hv => (hall v hv).1, fun v hv => (hall v hv).2⟩

/-- The hypotheses of C66 are met by two subsets with attributes of each kind. -/
example : MatchesTogether sampleCtx 1 attrDesc [attrSubset, attrSubset2] attrPlan noCaches attrColumns ∧
    ∀ S ∈ [attrSubset, attrSubset2], Sound sampleCtx.E S ∧ SoundAttrs sampleCtx.E S := by
  refine ⟨attrSubsets_match, fun S hS => ?_⟩
  simp only [List.mem_cons, List.not_mem_nil, or_false] at hS
  rcases hS with rfl | rfl
  · exact attrSubset_sound
  · exact attrSubset2_sound

theorem bind_isOk {α β : Type} {x : Res α} {f : α → Res β} (h : x.isOk = false) :
    (x >>= f).isOk = false := by
  cases x with
  | ok _ => cases h
  | err _ => rfl
  | ub => rfl

/-- C66 fails for characters in place: compressed data with them is always refused. -/
theorem C66_not_chars (C : Ctx) (add_undef : Bool) (depth n y : Nat) (rest : List Varcode)
    (cd : TableCaches) (i : Input) (hy : y < 256) :
    (CDecoder.decodeSubsets C add_undef depth (WR_VAR 2 5 y :: rest) n cd i).isOk = false := by
  have hf : ∀ y < 256, WR_VAR_F (WR_VAR 2 5 y) = 2 ∧ WR_VAR_X (WR_VAR 2 5 y) = 5 := by
    decide +kernel
  obtain ⟨h2, h5⟩ := hf y hy
  unfold CDecoder.decodeSubsets
  refine bind_isOk ?_
  rw [Interp.run_operator h2]
  refine bind_isOk ?_
  simp only [Interp.c_modifier, h5, Interp.c_simple]
  refine bind_isOk ?_
  show (CDecoder.define_raw_character_data C _ _).isOk = false
  unfold CDecoder.define_raw_character_data
  cases ((CDecoder.start add_undef cd n i).caches.get_chardata C.E (WR_VAR 2 5 y)
    (WR_VAR_Y (WR_VAR 2 5 y))).2 <;> rfl

/-- C66 fails for changes of reference: compressed data with them is always refused. -/
theorem C66_not_references (C : Ctx) (add_undef : Bool) (depth n y : Nat) (code : Varcode)
    (rest : List Varcode) (cd : TableCaches) (i : Input) (hy : 0 < y ∧ y < 255)
    (hc : WR_VAR_F code = 0) :
    (CDecoder.decodeSubsets C add_undef depth (WR_VAR 2 3 y :: code :: rest) n cd i).isOk = false := by
  have hf : ∀ y < 256, WR_VAR_F (WR_VAR 2 3 y) = 2 ∧ WR_VAR_X (WR_VAR 2 3 y) = 3 ∧
      WR_VAR_Y (WR_VAR 2 3 y) = y := by
    decide +kernel
  obtain ⟨h2, h3, hY⟩ := hf y (by omega)
  unfold CDecoder.decodeSubsets
  refine bind_isOk ?_
  rw [Interp.run_operator h2]
  simp only [Interp.c_modifier, h3, Interp.c_simple, hY, Res.ok_bind, Res.pure_def]
  rw [if_neg (by omega), if_neg (by omega), if_neg (by omega)]
  simp only [Res.ok_bind]
  rw [Interp.run_element hc]
  refine bind_isOk ?_
  unfold Interp.b_variable
  simp only
  rw [if_pos (by omega)]
  rfl

/-! ## C67 -/

/-- The value of an associated field of a variable in a subset: the element for its
significance, set to it. -/
def HasField (q : Varcode) (value : Nat) (v : Var) : Prop :=
  ∃ a, v.enqa q = some a ∧ a.view = some (.num value)

theorem ReadWith.field {info ainfo : Varinfo} {x : Option Value} {k : Nat} {w : Var}
    (h : ReadWith info ainfo x k w) (hn : ainfo.IsNum) : HasField ainfo.code k w ∧ w.attrs.length = 1 := by
  refine ⟨⟨(numAttr ainfo k).toVarCore, ?_, view_num hn rfl rfl⟩, by rw [h.attrs]; rfl⟩
  have : (numAttr ainfo k).toVarCore.code = ainfo.code := rfl
  unfold Var.enqa
  rw [h.attrs]
  simp [Var.enqaList, this]

/-- C67 (part): compressed numbers with associated fields, none of which is missing:
each subset gets its own number and, as the attribute for the significance, its own
associated field. Missing from the full property: missing associated fields, which
leave the attribute of the subset before (`C67_not_missing`) or are not recognised
(`C67_not_all_ones`), texts, whose associated fields are not read (`C67_not_text`),
significance 21 and the reserved ones (C37). -/
theorem C67_values_partial (C : Ctx) (hE : IsRounding C.E.fl) (f : AssociatedField) (q : Varcode)
    (ainfo info : Varinfo) (hq : qualityCode f.significance = some q) (h21 : f.significance ≠ 21)
    (hb : C.btable.query q = .ok ainfo) (hc : ainfo.code = q) (hna : ainfo.IsNum)
    (h0 : 0 < f.bit_count) (h1 : f.bit_count ≤ 31)
    (hm : info.Made C.E) (hn : info.IsNum) (hw : OnesOk C.E info.bit_len)
    (abase awidth base dwidth : Nat) (xs : List (Option Nat × Nat))
    (hab : abase < 2 ^ f.bit_count - 1) (haw : awidth ≤ 32)
    (hk : ∀ x ∈ xs, abase ≤ x.2 ∧ x.2 - abase < 2 ^ awidth ∧ x.2 < 2 ^ f.bit_count - 1 ∧
      ainfo.imin ≤ (x.2 : Int) ∧ (x.2 : Int) ≤ ainfo.imax)
    (hd : OnesOk C.E dwidth) (hb' : base < 2 ^ info.bit_len - 1)
    (hincs : ∀ k, some k ∈ xs.map (·.1) → k < 2 ^ dwidth - 1 ∧ base + k < 2 ^ info.bit_len - 1 ∧
      info.imin ≤ (base + k : Nat) + info.bit_ref ∧ (base + k : Nat) + info.bit_ref ≤ info.imax)
    (i : Input) (hi : i.WF) (rest : List Bool) (hrest : 8 ≤ rest.length)
    (hrem : i.rem = bits f.bit_count abase ++ (bits 6 awidth ++
      ((xs.flatMap fun x => bits awidth (x.2 - abase)) ++
        (compressedNumbers info.bit_len base dwidth (xs.map (·.1)) ++ rest)))) :
    ∃ vs i', i.decode_compressed_number_af C info f xs.length = .ok (vs, i') ∧ i'.WF ∧
      i'.rem = rest ∧
      vs.map (fun v => (v.info, v.toVarCore.view)) =
        (compressedValues base info.bit_ref (xs.map (·.1))).map (fun x => (info, x)) ∧
      List.Forall₂ (fun v x => HasField q x.2 v ∧ v.attrs.length = 1) vs xs := by
  have hp : 2 ^ f.bit_count ≤ 2 ^ 31 := Nat.pow_le_pow_right (by omega) h1
  obtain ⟨i1, g1, g2, g3, -⟩ := Input.get_bits_ok hi (n := f.bit_count) (v := abase) (by omega)
    (by omega) hrem (by simp; omega)
  obtain ⟨i2, k1, k2, k3, -⟩ := Input.get_bits_ok g2 (n := 6) (v := awidth) (by omega) (by omega) g3
    (by simp; omega)
  obtain ⟨i3, l1, l2, l3⟩ := AssociatedField.fieldLoop_ok hq h21 hb hna h0 h1 haw
    (ks := xs.map (·.2)) (base := abase) (by
      intro k hk'
      obtain ⟨x, hx, rfl⟩ := List.mem_map.mp hk'
      exact hk x hx) k2
    (rest := compressedNumbers info.bit_len base dwidth (xs.map (·.1)) ++ rest)
    (by simp; omega) (by rw [k3, List.flatMap_map])
  unfold compressedNumbers at l3
  simp only [List.append_assoc] at l3
  obtain ⟨i4, m1, m2, m3, -⟩ := decode_compressed_base_ok l2 hw (base := base) (dwidth := dwidth)
    (by omega) (by have := hd.le; omega) (by omega) l3 (by simp; omega)
  obtain ⟨vs, i5, n1, n2, n3, n4⟩ := fieldDiffLoop_ok hE hm hn hw hd (by omega) hc xs hincs m2 hrest m3
    (var := Var.new info) rfl (WF_new _) (.inl rfl)
  refine ⟨vs, i5, ?_, n2, n3, ?_, n4.imp fun v x h => hc ▸ h.field hna⟩
  swap
  · clear l1 hk hincs hrem k3 g3 l3 m3 n1
    induction n4 with
    | nil => rfl
    | @cons v x vs xs h1 _ ih =>
      simp only [List.map_cons, compressedValues] at ih ⊢
      rw [ih, h1.info, h1.view]
      obtain ⟨_ | k, _⟩ := x <;> rfl
  rw [List.length_map, List.map_map] at l1
  unfold Input.decode_compressed_number_af Input.decode_compressed_number_attrs
  simp only [g1, Res.ok_bind, k1, Input.all_ones_ok h0 (.inl h1),
    if_neg (show ¬ abase = 2 ^ f.bit_count - 1 by omega), l1, m1]
  rw [decide_eq_false (by omega), if_neg (by simp), if_neg (by have := hd.1; omega)]
  exact n1

/-- C67 (part): one number for all the subsets, each with its associated field. -/
theorem C67_same_partial (C : Ctx) (hE : IsRounding C.E.fl) (f : AssociatedField) (q : Varcode)
    (ainfo info : Varinfo) (hq : qualityCode f.significance = some q) (h21 : f.significance ≠ 21)
    (hb : C.btable.query q = .ok ainfo) (hc : ainfo.code = q) (hna : ainfo.IsNum)
    (h0 : 0 < f.bit_count) (h1 : f.bit_count ≤ 31)
    (hm : info.Made C.E) (hn : info.IsNum) (hw : OnesOk C.E info.bit_len)
    (abase awidth base : Nat) (xs : List Nat)
    (hab : abase < 2 ^ f.bit_count - 1) (haw : awidth ≤ 32)
    (hk : ∀ x ∈ xs, abase ≤ x ∧ x - abase < 2 ^ awidth ∧ x < 2 ^ f.bit_count - 1 ∧
      ainfo.imin ≤ (x : Int) ∧ (x : Int) ≤ ainfo.imax)
    (hb' : base < 2 ^ info.bit_len - 1)
    (hv : info.imin ≤ base + info.bit_ref ∧ base + info.bit_ref ≤ info.imax)
    (i : Input) (hi : i.WF) (rest : List Bool) (hrest : 8 ≤ rest.length)
    (hrem : i.rem = bits f.bit_count abase ++ (bits 6 awidth ++
      ((xs.flatMap fun x => bits awidth (x - abase)) ++
        (bits info.bit_len base ++ (bits 6 0 ++ rest))))) :
    ∃ vs i', i.decode_compressed_number_af C info f xs.length = .ok (vs, i') ∧ i'.WF ∧
      i'.rem = rest ∧
      List.Forall₂ (fun v x => v.info = info ∧ v.toVarCore.view = some (.num (base + info.bit_ref)) ∧
        HasField q x v ∧ v.attrs.length = 1) vs xs := by
  have hp : 2 ^ f.bit_count ≤ 2 ^ 31 := Nat.pow_le_pow_right (by omega) h1
  have hpw : 2 ^ info.bit_len ≤ 2 ^ 32 := Nat.pow_le_pow_right (by omega) hw.le
  obtain ⟨i1, g1, g2, g3, -⟩ := Input.get_bits_ok hi (n := f.bit_count) (v := abase) (by omega)
    (by omega) hrem (by simp; omega)
  obtain ⟨i2, k1, k2, k3, -⟩ := Input.get_bits_ok g2 (n := 6) (v := awidth) (by omega) (by omega) g3
    (by simp; omega)
  obtain ⟨i3, l1, l2, l3⟩ := AssociatedField.fieldLoop_ok hq h21 hb hna h0 h1 haw
    (base := abase) hk k2 (rest := bits info.bit_len base ++ (bits 6 0 ++ rest))
    (by simp; omega) k3
  obtain ⟨i4, m1, m2, m3, -⟩ := decode_compressed_base_ok l2 hw (base := base) (dwidth := 0)
    (by omega) (by omega) (by omega) l3 (by omega)
  have hset := setNumber_ok hE C.O (v := Var.new info) (i := base + info.bit_ref) hm hn hw.1
    (val := base) (show _ = _ - info.bit_ref by omega) (by omega) hv
  refine ⟨xs.map fun x : Nat => Input.addAttr ((Var.new info).putInt (base + info.bit_ref))
    (some ((Var.new ainfo).putInt (x : Int))), i4, ?_, m2, m3, ?_⟩
  · unfold Input.decode_compressed_number_af Input.decode_compressed_number_attrs
    simp only [g1, Res.ok_bind, k1, Input.all_ones_ok h0 (.inl h1),
      if_neg (show ¬ abase = 2 ^ f.bit_count - 1 by omega), l1, m1]
    rw [decide_eq_false (by omega), if_neg (by simp), if_pos trivial, hset]
    simp only [Res.ok_bind, Res.pure_def, List.map_map]
    rfl
  · rw [List.forall₂_map_left_iff]
    refine List.forall₂_same.mpr fun x _ => ⟨rfl, ?_, ?_⟩
    · exact view_num (v := ((Var.new info).putInt (base + info.bit_ref)).toVarCore) hn rfl rfl
    · have hr : ReadWith info ainfo _ x (Input.addAttr ((Var.new info).putInt (base + info.bit_ref))
          (some (numAttr ainfo x))) := ⟨rfl, WF_newInt hn (by
            obtain ⟨l1, l2⟩ := hm.limits hn
            rw [inInt_iff] at *; omega), rfl, attrs_addAttr hc x (.inl rfl)⟩
      exact hc ▸ hr.field hna

/-- C67 (part): an associated field missing in all the subsets leaves the numbers
without attributes, as if there were no associated field. -/
theorem C67_missing_partial (C : Ctx) (f : AssociatedField) (info : Varinfo)
    (h0 : 0 < f.bit_count) (h1 : f.bit_count ≤ 31) (subsets : Nat)
    (i : Input) (hi : i.WF) (rest : List Bool) (hrest : 8 ≤ rest.length)
    (hrem : i.rem = missingField f.bit_count ++ (bits 6 0 ++ rest)) :
    ∃ j : Input, j.WF ∧ j.rem = rest ∧ i.decode_compressed_number_af C info f subsets =
      j.decode_compressed_number C.E C.O info subsets := by
  have hp : 2 ^ f.bit_count ≤ 2 ^ 31 := Nat.pow_le_pow_right (by omega) h1
  have hpos : 0 < 2 ^ f.bit_count := by positivity
  obtain ⟨i1, g1, g2, g3, -⟩ := Input.get_bits_ok hi (n := f.bit_count) (v := 2 ^ f.bit_count - 1)
    (by omega) (by omega) (by rw [hrem, bits_ones]; rfl) (by simp; omega)
  obtain ⟨i2, k1, k2, k3, -⟩ := Input.get_bits_ok g2 (n := 6) (v := 0) (by omega) (by omega) g3
    (by omega)
  refine ⟨i2, k2, k3, ?_⟩
  unfold Input.decode_compressed_number_af
  simp only [g1, Res.ok_bind, k1, Input.all_ones_ok h0 (.inl h1), if_true]

/-- Hypotheses of C67 met with significance 8, two bits and two subsets. -/
example : qualityCode 8 = some (WR_VAR 0 33 2) ∧
    sampleCtx.btable.query (WR_VAR 0 33 2) = .ok sampleQuality ∧ sampleQuality.IsNum ∧
    (∀ x ∈ [(some 3, 1), ((none : Option Nat), 0)], 0 ≤ x.2 ∧ x.2 - 0 < 2 ^ 1 ∧ x.2 < 2 ^ 2 - 1 ∧
      sampleQuality.imin ≤ (x.2 : Int) ∧ (x.2 : Int) ≤ sampleQuality.imax) ∧
    sampleTemp.IsNum ∧ 27315 < 2 ^ sampleTemp.bit_len - 1 := by
  refine ⟨rfl, by decide +kernel, .inl rfl, ?_, .inr rfl, by decide⟩
  intro x hx
  simp only [List.mem_cons, List.not_mem_nil, or_false] at hx
  rcases hx with rfl | rfl <;> decide +kernel

/-- Bits as bytes, padded with zeros. -/
def packed : Nat → List Bool → List Byte
  | 0, _ => []
  | n + 1, b => UInt8.ofNat (((b ++ List.replicate 8 false).take 8).foldl
      (fun a x => 2 * a + x.toNat) 0) :: packed n (b.drop 8)

/-- Values and attributes of compressed temperatures with associated fields of
significance 8. -/
def fieldColumn (bit_count subsets : Nat) (info : Varinfo) (b : List Bool) :
    Res (List (Option Value × List (Varcode × Option Value))) := do
  let st : CDecoder.St := { CDecoder.start false noCaches subsets
      { data := packed 60 b, s4_cursor := 0, pbyte := 0, pbyte_len := 0 } with
    associated_field := ⟨true, bit_count, 8⟩ }
  let r ← CDecoder.decode_b_value_af sampleCtx st info
  return r.1.map fun v => (v.toVarCore.view, v.attrs.map fun a => (a.code, a.view))

/-- C67 fails when an associated field is missing: the second subset, whose
associated field has all bits set, gets the attribute of the first one. -/
theorem C67_not_missing :
    fieldColumn 2 2 sampleTemp (bits 2 0 ++ bits 6 2 ++ bits 2 1 ++ bits 2 3 ++
        bits 16 27315 ++ bits 6 4 ++ bits 4 0 ++ bits 4 1) =
      .ok [(some (.num 27315), [(WR_VAR 0 33 2, some (.num 1))]),
        (some (.num 27316), [(WR_VAR 0 33 2, some (.num 1))])] ∧
    -- alone, the second subset has no attribute
    fieldColumn 2 1 sampleTemp (bits 2 0 ++ bits 6 2 ++ bits 2 3 ++
        bits 16 27315 ++ bits 6 4 ++ bits 4 1) = .ok [(some (.num 27316), [])] :=
  ⟨by decide +kernel, by decide +kernel⟩

/-- C67 fails for the increments of associated fields: one with all bits set, which
says that the value is missing, is added to the base. -/
theorem C67_not_all_ones :
    fieldColumn 3 2 sampleTemp (bits 3 0 ++ bits 6 1 ++ bits 1 0 ++ bits 1 1 ++
        bits 16 27315 ++ bits 6 4 ++ bits 4 0 ++ bits 4 1) =
      .ok [(some (.num 27315), [(WR_VAR 0 33 2, some (.num 0))]),
        (some (.num 27316), [(WR_VAR 0 33 2, some (.num 1))])] := by
  decide +kernel

/-- C67 fails for texts: their associated fields are not read, and their bits are
taken as part of the text. -/
theorem C67_not_text :
    fieldColumn 8 1 sampleStr (bits 8 1 ++ bits 6 0 ++
      bytesBits (ascii "Bologna" ++ List.replicate 25 32) ++ bits 6 0) ≠
    fieldColumn 8 1 sampleStr (bytesBits (ascii "Bologna" ++ List.replicate 25 32) ++ bits 6 0) ∧
    fieldColumn 8 1 sampleStr (bytesBits (ascii "Bologna" ++ List.replicate 25 32) ++ bits 6 0) =
      .ok [(some (.text (ascii "Bologna")), [])] :=
  ⟨by decide +kernel, by decide +kernel⟩

end Wreport
