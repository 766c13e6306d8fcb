import Verif.Spec.Operators
import Verif.Props.Interp
import Verif.Props.Tables

/-!
# Properties of descriptor processing: operators
-/

namespace Wreport

open Spec

/-! ## C35 -/

theorem lastOperand_append (x : Nat) (ops : List Varcode) (c : Varcode) :
    lastOperand x (ops ++ [c]) = if WR_VAR_X c = x then WR_VAR_Y c else lastOperand x ops := by
  unfold lastOperand
  rw [List.filter_append]
  by_cases h : WR_VAR_X c = x
  · simp [h]
  · simp [h]

theorem complete_modifies {ops : List Varcode} (h : ∀ c ∈ ops, Modifies c) : Complete ops := by
  induction ops with
  | nil => exact .nil
  | cons c ops ih =>
    have hc := h c (by simp)
    refine .operator c ops hc.1 ?_ (ih fun x hx => h x (by simp [hx]))
    unfold TakesOperand
    have := hc.2
    omega

/-- C35: operators for width, scale, increase and character length are independent
of each other and each replaces the previous one of its kind; nothing else
changes. -/
theorem C35_last_wins {σ : Type} (C : Ctx) (T : Target σ) (d : Nat) (ops : List Varcode)
    (h : ∀ c ∈ ops, Modifies c) (caches : TableCaches) (tgt : σ)
    (overrides : List (Varcode × Nat)) :
    Interp.run C T d ops { Interp.new caches tgt with c03_refval_overrides := overrides } =
      .ok { Interp.new caches tgt with
        c03_refval_overrides := overrides
        c_width_change := added (lastOperand 1 ops)
        c_scale_change := added (lastOperand 2 ops)
        c_scale_ref_width_increase := lastOperand 7 ops
        c_string_len_override := lastOperand 8 ops } := by
  induction ops using List.reverseRecOn with
  | nil => rw [Interp.run_nil]; rfl
  | append_singleton ops c ih =>
    have ho : ∀ x ∈ ops, Modifies x := fun x hx => h x (by simp [hx])
    have hc := h c (by simp)
    rw [Interp.run_append (complete_modifies ho), ih ho, Res.ok_bind, Interp.run_operator hc.1]
    simp only [lastOperand_append]
    have hch : ∀ y, Interp.change y = added y := by
      intro y
      unfold Interp.change added
      by_cases hy : y = 0 <;> simp [hy]
    rcases hc.2 with hx | hx | hx | hx <;>
      simp [Interp.c_modifier, Interp.c_simple, hx, hch]

theorem sint_id {E : Env} {i : Int} (h : inInt i = true) : E.sint i = .ok i := by
  unfold Env.sint
  rw [if_pos h]

theorem WR_VAR_Y_lt (c : Varcode) : WR_VAR_Y c < 256 := by
  unfold WR_VAR_Y
  omega

theorem lastOperand_lt (x : Nat) (ops : List Varcode) : lastOperand x ops < 256 := by
  unfold lastOperand
  cases (ops.filter fun c => WR_VAR_X c = x).getLast? with
  | none => simp
  | some c => exact WR_VAR_Y_lt c

/-- The answer of a table is about the entry found by `query`. -/
theorem answers_query {E : Env} {t : Vartable} (ht : t.Reachable E) {q : Request} {k : Nat}
    {v peek : Varinfo} (h : t.answer E q = .ok (k, v)) (hq : t.query q.code = .ok peek) :
    q.Answers peek v := by
  obtain ⟨e, he, hc, ha⟩ := C41_exact E t ht q k v h
  rcases C40_lookup E t ht q.code with ⟨f, _, _, hf, _, hu⟩ | ⟨hn, _⟩
  · rw [hq] at hf
    cases hf
    rw [← hu e he hc]
    exact ha
  · exact absurd hc (hn e he)

theorem entry_query {E : Env} {t : Vartable} (ht : t.Reachable E) {code : Varcode}
    {peek : Varinfo} (hq : t.query code = .ok peek) :
    ∃ e ∈ t.entries, e.varinfo.code = code ∧ e.varinfo = peek := by
  rcases C40_lookup E t ht code with ⟨f, hf, hc, hq', _⟩ | ⟨_, hq', _⟩
  · rw [hq] at hq'
    cases hq'
    exact ⟨f, hf, hc, rfl⟩
  · rw [hq] at hq'; cases hq'

theorem getD_map_in {f : Nat → Int} (hf : ∀ n, inInt (f n) = true) (o : Option Nat) {r : Int}
    (hr : inInt r = true) : inInt ((o.map f).getD r) = true := by
  cases o with
  | none => exact hr
  | some n => exact hf n

/-- Bounds within which the sums of `get_varinfo` are sums of integers. -/
structure Varinfo.Modest (peek : Varinfo) (ops : List Varcode) : Prop where
  scale : -1000000 ≤ peek.scale ∧ peek.scale ≤ 1000000
  width : peek.bit_len ≤ 1000000
  ref : inInt (peek.bit_ref * 10 ^ lastOperand 7 ops) = true

/-- The request made to the table for a number. -/
theorem get_varinfo_request {σ : Type} (C : Ctx) (hb : C.btable.Reachable C.E)
    (ops : List Varcode) (caches : TableCaches) (tgt : σ)
    (overrides : List (Varcode × Nat)) (code : Varcode) (peek : Varinfo)
    (hq : C.btable.query code = .ok peek)
    (hn : peek.type = .integer ∨ peek.type = .decimal) (hm : peek.Modest ops)
    (h10 : lastOperand 7 ops < 10) (hw : 0 ≤ effWidth ops peek.bit_len) :
    Interp.get_varinfo C ({ Interp.new caches tgt with
        c03_refval_overrides := overrides
        c_width_change := added (lastOperand 1 ops)
        c_scale_change := added (lastOperand 2 ops)
        c_scale_ref_width_increase := lastOperand 7 ops
        c_string_len_override := lastOperand 8 ops } : Interp σ) code =
      C.btable.answer C.E ⟨code, effScale ops peek.scale, (effWidth ops peek.bit_len).toNat,
        effRef ops peek.bit_ref ((overrides.lookup code).map ofU32)⟩ >>= fun r => .ok r.2 := by
  have l1 := lastOperand_lt 1 ops
  have l2 := lastOperand_lt 2 ops
  have a1 : -128 ≤ added (lastOperand 1 ops) ∧ added (lastOperand 1 ops) ≤ 128 := by
    unfold added; split <;> omega
  have a2 : -128 ≤ added (lastOperand 2 ops) ∧ added (lastOperand 2 ops) ≤ 128 := by
    unfold added; split <;> omega
  have hs := hm.scale
  have hwd := hm.width
  have hr := hm.ref
  unfold Interp.get_varinfo
  rw [hq, Res.ok_bind]
  split
  · rename_i hu
    simp only [Interp.unmodified, Bool.and_eq_true, decide_eq_true_eq, List.isEmpty_iff] at hu
    obtain ⟨⟨⟨⟨u1, u2⟩, u3⟩, u4⟩, u5⟩ := hu
    obtain ⟨e, he, hc, hp⟩ := entry_query hb hq
    have u4' : lastOperand 7 ops = 0 := by exact_mod_cast u4
    have es : effScale ops peek.scale = peek.scale := by unfold effScale; rw [u1, u4']; simp
    have ew : effWidth ops peek.bit_len = peek.bit_len := by unfold effWidth; rw [u2, u4']; simp
    have er : effRef ops peek.bit_ref ((overrides.lookup code).map ofU32) = peek.bit_ref := by
      unfold effRef; rw [u5, u4']; simp
    rw [es, ew, er]
    obtain ⟨i, hi⟩ := List.mem_iff_getElem?.mp he
    have hqe := Vartable.query_entry_found hb.inv.sorted hi
    rw [hc] at hqe
    have hg : e.get_alteration peek.scale ((peek.bit_len : Int)).toNat peek.bit_ref =
        some (0, e.varinfo) := by
      unfold VartableEntry.get_alteration
      rw [if_pos]
      rw [hp, matchesAlt_iff, Int.toNat_natCast]
      rfl
    unfold Vartable.answer Vartable.query_altered
    simp only [hqe, hg, Res.ok_bind, hp, Res.pure_def]
  · have hns : ¬ (peek.type = .string ∧ (lastOperand 8 ops : Int) ≠ 0) := by
      rintro ⟨h, _⟩
      rcases hn with hn | hn <;> rw [hn] at h <;> cases h
    have e1 : C.E.sint (peek.scale + added (lastOperand 2 ops)) =
        .ok (peek.scale + added (lastOperand 2 ops)) := sint_id (by simp [inInt]; omega)
    have hwr : wrapInt (peek.bit_len : Int) = peek.bit_len := wrapInt_eq (by simp [inInt]; omega)
    have e2 : C.E.sint ((peek.bit_len : Int) + added (lastOperand 1 ops)) =
        .ok ((peek.bit_len : Int) + added (lastOperand 1 ops)) := sint_id (by simp [inInt]; omega)
    have e3 : C.E.sint (peek.scale + added (lastOperand 2 ops) + (lastOperand 7 ops : Int)) =
        .ok (effScale ops peek.scale) := by
      rw [sint_id (by simp [inInt]; omega)]; unfold effScale; rfl
    have hd : (10 * (lastOperand 7 ops : Int) + 2) / 3 = (((10 * lastOperand 7 ops + 2) / 3 : Nat) : Int) := by
      omega
    have e4 : C.E.sint ((peek.bit_len : Int) + added (lastOperand 1 ops) +
        (10 * (lastOperand 7 ops : Int) + 2) / 3) = .ok (effWidth ops peek.bit_len) := by
      rw [sint_id (by simp [inInt]; omega), hd]; unfold effWidth; rfl
    have e5 : ∀ st : Interp σ, st.c_scale_ref_width_increase = (lastOperand 7 ops : Int) →
        Interp.increasedRef C.E st peek = .ok (peek.bit_ref * 10 ^ lastOperand 7 ops) := by
      intro st h7
      unfold Interp.increasedRef
      rw [h7]
      split
      · rename_i h0
        have : lastOperand 7 ops = 0 := by exact_mod_cast h0
        rw [this]; simp
      · rw [if_pos (by omega), Int.toNat_natCast, sint_id hr]
    have hwb : effWidth ops peek.bit_len < 4294967296 := by unfold effWidth; omega
    have e6 : toU32 (effWidth ops peek.bit_len) = (effWidth ops peek.bit_len).toNat := by
      unfold toU32; rw [Int.emod_eq_of_lt hw hwb]
    simp only [Interp.changedWidth, if_neg hns, e1, hwr, e2, e3, e4, Res.ok_bind, e6]
    rw [e5 _ rfl, Res.ok_bind]
    unfold Vartable.answer effRef Interp.overriddenRef
    simp only [Res.pure_def]

/-- C35: with operators in effect, a number has the table's scale, width and
reference changed as the manual says, for every list of operators and every element
of any table in use. What is missing from the property: the manual exempts code
tables and flag tables (`C35_not_code_table`) and character elements
(`C35_not_string`); increases by ten or more are not handled
(`C35_not_large_increase`); replaced reference values are never restored
(`C35_not_cancel_reference`). -/
theorem C35_effective_partial {σ : Type} (C : Ctx) (T : Target σ) (hb : C.btable.Reachable C.E)
    (d : Nat) (ops : List Varcode) (h : ∀ c ∈ ops, Modifies c) (caches : TableCaches) (tgt : σ)
    (overrides : List (Varcode × Nat)) (code : Varcode) (peek : Varinfo)
    (hq : C.btable.query code = .ok peek)
    (hn : peek.type = .integer ∨ peek.type = .decimal) (hm : peek.Modest ops)
    (h10 : lastOperand 7 ops < 10) (hs : -16 ≤ effScale ops peek.scale ∧ effScale ops peek.scale ≤ 16)
    (hw : 1 ≤ effWidth ops peek.bit_len ∧ effWidth ops peek.bit_len ≤ 32)
    (hr : C.E.wrapv = true ∨ 30 ≤ effWidth ops peek.bit_len ∨
      2 ^ (effWidth ops peek.bit_len).toNat +
        effRef ops peek.bit_ref ((overrides.lookup code).map ofU32) ≤ 2147483647) :
    ∃ st info, Interp.run C T d ops
        { Interp.new caches tgt with c03_refval_overrides := overrides } = .ok st ∧
      Interp.get_varinfo C st code = .ok info ∧
      info.code = code ∧ info.unit = peek.unit ∧
      info.scale = effScale ops peek.scale ∧
      (info.bit_len : Int) = effWidth ops peek.bit_len ∧
      info.bit_ref = effRef ops peek.bit_ref ((overrides.lookup code).map ofU32) := by
  have hin : inInt (effRef ops peek.bit_ref ((overrides.lookup code).map ofU32)) = true := by
    unfold effRef
    exact getD_map_in (fun n => wrapInt_in _) _ hm.ref
  obtain ⟨e, he, hc, hp⟩ := entry_query hb hq
  obtain ⟨k, v, hv⟩ := C41_supported_partial C.E C.btable hb
    ⟨code, effScale ops peek.scale, (effWidth ops peek.bit_len).toNat,
      effRef ops peek.bit_ref ((overrides.lookup code).map ofU32)⟩ hin e he hc
    (.inr ⟨hs.1, hs.2, by simp only; omega, by simp only; omega,
      hr.imp_right (Or.imp_left fun h => by simp only; omega)⟩)
  have ha := answers_query hb hv hq
  refine ⟨_, v, C35_last_wins C T d ops h caches tgt overrides, ?_, ha.code, ha.unit, ha.scale, ?_, ha.bit_ref⟩
  · rw [get_varinfo_request C hb ops caches tgt overrides code peek hq hn hm h10 (by omega), hv]
    rfl
  · rw [ha.bit_len]
    simp only
    omega

/-- C35: changes that the tables do not support are refused. -/
theorem C35_refused_partial {σ : Type} (C : Ctx) (T : Target σ) (hb : C.btable.Reachable C.E)
    (d : Nat) (ops : List Varcode) (h : ∀ c ∈ ops, Modifies c) (caches : TableCaches) (tgt : σ)
    (overrides : List (Varcode × Nat)) (code : Varcode) (peek : Varinfo)
    (hq : C.btable.query code = .ok peek)
    (hn : peek.type = .integer ∨ peek.type = .decimal) (hm : peek.Modest ops)
    (h10 : lastOperand 7 ops < 10) (hw : 0 ≤ effWidth ops peek.bit_len)
    (ho : effScale ops peek.scale < -16 ∨ 16 < effScale ops peek.scale ∨
      32 < effWidth ops peek.bit_len ∨ effWidth ops peek.bit_len = 0)
    (hch : effScale ops peek.scale ≠ peek.scale ∨ effWidth ops peek.bit_len ≠ peek.bit_len) :
    ∃ st, Interp.run C T d ops
        { Interp.new caches tgt with c03_refval_overrides := overrides } = .ok st ∧
      Interp.get_varinfo C st code = .err .consistency := by
  refine ⟨_, C35_last_wins C T d ops h caches tgt overrides, ?_⟩
  obtain ⟨e, he, hc, hp⟩ := entry_query hb hq
  rw [get_varinfo_request C hb ops caches tgt overrides code peek hq hn hm h10 hw]
  rw [((C41_unsupported C.E C.btable hb
    ⟨code, effScale ops peek.scale, (effWidth ops peek.bit_len).toNat,
      effRef ops peek.bit_ref ((overrides.lookup code).map ofU32)⟩).2 e he hc (by rw [hp]; exact hn)
    (by simp only; omega) (by
      rw [hp]
      intro heq
      simp only [Prod.mk.injEq] at heq
      rcases hch with hch | hch
      · exact hch heq.1.symm
      · exact hch (by rw [heq.2.1]; omega))).1]
  rfl

/-- C35: cancelling the operators restores the table's metadata, whatever came
before, for elements of any type. -/
theorem C35_cancel {σ : Type} (C : Ctx) (T : Target σ) (d : Nat) (ops : List Varcode)
    (h : ∀ c ∈ ops, Modifies c) (hx : ∀ x ∈ [1, 2, 7, 8], lastOperand x ops = 0)
    (caches : TableCaches) (tgt : σ) (code : Varcode) :
    ∃ st, Interp.run C T d ops (Interp.new caches tgt) = .ok st ∧
      Interp.get_varinfo C st code = C.btable.query code := by
  refine ⟨_, C35_last_wins C T d ops h caches tgt [], ?_⟩
  have h1 := hx 1 (by simp)
  have h2 := hx 2 (by simp)
  have h7 := hx 7 (by simp)
  have h8 := hx 8 (by simp)
  simp only [Interp.get_varinfo, Interp.unmodified, h1, h2, h7, h8, added, Interp.new]
  cases C.btable.query code <;> rfl

/-- C35: a character element gets the length the operator says. -/
theorem C35_string_length_partial {σ : Type} (C : Ctx) (T : Target σ)
    (hb : C.btable.Reachable C.E) (d : Nat) (ops : List Varcode) (h : ∀ c ∈ ops, Modifies c)
    (hx : ∀ x ∈ [1, 2, 7], lastOperand x ops = 0) (h8 : lastOperand 8 ops ≠ 0)
    (caches : TableCaches) (tgt : σ) (code : Varcode) (peek : Varinfo)
    (hq : C.btable.query code = .ok peek) (hn : peek.type = .string)
    (hs : inInt peek.scale = true) (hr : inInt peek.bit_ref = true) :
    ∃ st info, Interp.run C T d ops (Interp.new caches tgt) = .ok st ∧
      Interp.get_varinfo C st code = .ok info ∧ info.code = code ∧ info.unit = peek.unit ∧
      info.type = .string ∧ info.bit_len = 8 * lastOperand 8 ops ∧ info.scale = peek.scale ∧
      info.bit_ref = peek.bit_ref := by
  obtain ⟨e, he, hc, hp⟩ := entry_query hb hq
  obtain ⟨k, v, hv⟩ := C41_supported_partial C.E C.btable hb
    ⟨code, peek.scale, 8 * lastOperand 8 ops, peek.bit_ref⟩ hr e he hc (.inl (by rw [hp]; exact hn))
  have ha := answers_query hb hv hq
  have l8 := lastOperand_lt 8 ops
  refine ⟨_, v, C35_last_wins C T d ops h caches tgt [], ?_, ha.code, ha.unit, ha.string.mpr hn,
    ha.bit_len, ha.scale, ha.bit_ref⟩
  have h1 := hx 1 (by simp)
  have h2 := hx 2 (by simp)
  have h7 := hx 7 (by simp)
  have h8' : ((lastOperand 8 ops : Nat) : Int) ≠ 0 := by exact_mod_cast h8
  have e1 : C.E.sint peek.scale = .ok peek.scale := sint_id hs
  have e2 : C.E.sint ((lastOperand 8 ops : Int) * 8) = .ok ((lastOperand 8 ops : Int) * 8) :=
    sint_id (by simp [inInt]; omega)
  have e3 : toU32 ((lastOperand 8 ops : Int) * 8) = 8 * lastOperand 8 ops := by
    unfold toU32; omega
  unfold Vartable.answer at hv
  simp only at hv
  simp [Interp.get_varinfo, hq, Interp.unmodified, h1, h2, h7, h8, added,
    Interp.changedWidth, hn, e1, e2, e3, Interp.increasedRef, Interp.overriddenRef, hv]

/-- C35: between a reference operator and 2 03 255 the elements are new reference
values, given to the target in order with the width of the operator; after it they are
elements again. -/
theorem C35_reference_group {σ : Type} (C : Ctx) (T : Target σ)
    (hT : ∀ st c st', T.define_c03_refval_override st c = .ok st' →
      st'.c03_refval_override_bits = st.c03_refval_override_bits)
    (d : Nat) (op : Varcode) (hF : WR_VAR_F op = 2) (hX : WR_VAR_X op = 3)
    (hy : WR_VAR_Y op ≠ 0 ∧ WR_VAR_Y op ≠ 255) (codes post : List Varcode)
    (h : ∀ c ∈ codes, WR_VAR_F c = 0) (st : Interp σ) :
    Interp.run C T d (op :: (codes ++ WR_VAR 2 3 255 :: post)) st = (do
      let st' ← codes.foldlM T.define_c03_refval_override
        { st with c03_refval_override_bits := WR_VAR_Y op }
      Interp.run C T d post { st' with c03_refval_override_bits := 0 }) := by
  rw [Interp.run_operator hF]
  simp only [Interp.c_modifier, Interp.c_simple, hX, if_neg hy.2, Res.ok_bind, Res.pure_def]
  norm_num
  generalize hs : ({ st with c03_refval_override_bits := WR_VAR_Y op } : Interp σ) = s
  have hb : s.c03_refval_override_bits = WR_VAR_Y op := by rw [← hs]
  clear hs
  induction codes generalizing s with
  | nil =>
    rw [List.nil_append, Interp.run_operator (by decide)]
    rfl
  | cons c codes ih =>
    rw [List.cons_append, Interp.run_element (h c (by simp)), List.foldlM_cons]
    unfold Interp.b_variable
    rw [if_pos (by omega)]
    cases hc : T.define_c03_refval_override s c with
    | ok s' =>
      simp only [Res.ok_bind]
      exact ih (fun c hc => h c (by simp [hc])) s' ((hT _ _ _ hc).trans hb)
    | err e => rfl
    | ub => rfl

/-- Hypotheses of `C35_reference_group` met by encoder and decoder. -/
example (C : Ctx) : (∀ st c st', (DDSEncoder.target C).define_c03_refval_override st c = .ok st' →
      st'.c03_refval_override_bits = st.c03_refval_override_bits) ∧
    (∀ st c st', (Decoder.target C).define_c03_refval_override st c = .ok st' →
      st'.c03_refval_override_bits = st.c03_refval_override_bits) ∧
    WR_VAR_F (WR_VAR 2 3 15) = 2 ∧ WR_VAR_X (WR_VAR 2 3 15) = 3 ∧ WR_VAR_Y (WR_VAR 2 3 15) = 15 := by
  refine ⟨fun st c st' h => ?_, fun st c st' h => ?_, by decide, by decide, by decide⟩
  · simp only [DDSEncoder.target, DDSEncoder.define_c03_refval_override] at h
    obtain ⟨r, -, h⟩ := Res.bind_eq_ok.mp h
    obtain ⟨o, -, h⟩ := Res.bind_eq_ok.mp h
    cases h
    rfl
  · simp only [Decoder.target, Decoder.define_c03_refval_override] at h
    obtain ⟨r, -, h⟩ := Res.bind_eq_ok.mp h
    cases h
    rfl

/-- Metadata used for an element after some operators. -/
def infoAfter (ops : List Varcode) (code : Varcode) : Res Varinfo := do
  let st ← Interp.run sampleCtx (DDSEncoder.target sampleCtx) 0 ops (encStart [])
  Interp.get_varinfo sampleCtx st code

/-- Width and scale of an outcome. -/
def widthScale (r : Res Varinfo) : Res (Nat × Int) := do
  let i ← r
  return (i.bit_len, i.scale)

/-- The manual exempts code tables from 2 01 and 2 02; the code widens them. -/
theorem C35_not_code_table :
    sampleCode.unit = ascii "CODE TABLE" ∧ sampleCode.bit_len = 2 ∧
    widthScale (infoAfter [WR_VAR 2 1 130] (WR_VAR 0 2 1)) = .ok (4, 0) ∧
    widthScale (infoAfter [WR_VAR 2 2 130] (WR_VAR 0 2 1)) = .ok (2, 2) := by
  decide +kernel

/-- The manual exempts character elements from 2 01; the code widens them, here by
a quarter of a character. -/
theorem C35_not_string :
    sampleStr.type = .string ∧ sampleStr.bit_len = 256 ∧
    widthScale (infoAfter [WR_VAR 2 1 130] (WR_VAR 0 1 19)) = .ok (258, 0) := by
  decide +kernel

/-- An increase by ten or more reads past the end of the table of powers of ten. -/
theorem C35_not_large_increase : infoAfter [WR_VAR 2 7 10] (WR_VAR 0 12 101) = .ub := by
  decide +kernel

/-- Reference values replaced by 2 03 stay replaced: nothing in the list of
operators restores them, not 2 03 000 either. -/
theorem C35_not_cancel_reference {σ : Type} (C : Ctx) (T : Target σ) (d : Nat) (y : Nat)
    (hy : y < 256) (st : Interp σ) :
    ∃ st', Interp.run C T d [WR_VAR 2 3 y] st = .ok st' ∧
      st'.c03_refval_overrides = st.c03_refval_overrides := by
  have hf : ∀ y < 256, WR_VAR_F (WR_VAR 2 3 y) = 2 ∧ WR_VAR_X (WR_VAR 2 3 y) = 3 := by
    decide +kernel
  obtain ⟨h2, h3⟩ := hf y hy
  rw [Interp.run_operator h2]
  simp [Interp.c_modifier, h3, Interp.c_simple]

theorem sampleB_modest :
    sampleTemp.Modest [WR_VAR 2 1 130, WR_VAR 2 7 2, WR_VAR 2 1 129] :=
  ⟨by decide +kernel, by decide +kernel, by decide +kernel⟩

/-- The loaded table of two elements with default options. -/
def loadedCtx : Ctx := ⟨Env0, .default, sampleTable, sampleD⟩

/-- Hypotheses of C35 met by operators of which one is replaced. -/
example : loadedCtx.btable.Reachable loadedCtx.E ∧
    (∀ c ∈ [WR_VAR 2 1 130, WR_VAR 2 7 2, WR_VAR 2 1 129], Modifies c) ∧
    loadedCtx.btable.query (WR_VAR 0 12 101) = .ok sampleTemp ∧
    effScale [WR_VAR 2 1 130, WR_VAR 2 7 2, WR_VAR 2 1 129] sampleTemp.scale = 4 ∧
    effWidth [WR_VAR 2 1 130, WR_VAR 2 7 2, WR_VAR 2 1 129] sampleTemp.bit_len = 24 ∧
    lastOperand 7 [WR_VAR 2 1 130, WR_VAR 2 7 2, WR_VAR 2 1 129] < 10 :=
  ⟨sampleTable_reachable, by decide, by decide +kernel, by decide +kernel, by decide +kernel,
    by decide +kernel⟩

/-- Hypotheses of the cancellation met after a change. -/
example : (∀ c ∈ [WR_VAR 2 1 130, WR_VAR 2 1 0], Modifies c) ∧
    ∀ x ∈ [1, 2, 7, 8], lastOperand x [WR_VAR 2 1 130, WR_VAR 2 1 0] = 0 := by
  decide

/-- A character element shortened to four characters. -/
example : widthScale (infoAfter [WR_VAR 2 8 4] (WR_VAR 0 1 19)) = .ok (32, 0) := by
  decide +kernel

end Wreport
