import Verif.Lemmas.Bits
import Verif.Lemmas.Interp
import Verif.Props.Samples

/-!
# Properties of descriptor processing: sequences and replications
-/

namespace Wreport

open Spec

/-! ## Sample tables -/

/-- B31001, delayed replication factor, 8 bits. -/
def sampleFactor : Varinfo := made (Varinfo.raw (WR_VAR 0 31 1) .integer (ascii "NUMERIC") 0 3 0 8)

/-- B31021, associated field significance, 6 bits. -/
def sampleSig : Varinfo :=
  made (Varinfo.raw (WR_VAR 0 31 21) .integer (ascii "CODE TABLE") 0 2 0 6)

/-- B31031, data present indicator, 1 bit. -/
def samplePresent : Varinfo :=
  made (Varinfo.raw (WR_VAR 0 31 31) .integer (ascii "FLAG TABLE") 0 1 0 1)

/-- B33002, quality information, 2 bits. -/
def sampleQuality : Varinfo :=
  made (Varinfo.raw (WR_VAR 0 33 2) .integer (ascii "CODE TABLE") 0 1 0 2)

/-- B33007, per cent confidence, 7 bits. -/
def sampleConf : Varinfo := made (Varinfo.raw (WR_VAR 0 33 7) .integer (ascii "%") 0 3 0 7)

/-- A table of elements. -/
def sampleB : Vartable :=
  ⟨[sampleStr, sampleCode, sampleLat, sampleTemp, sampleFactor, sampleSig, samplePresent,
    sampleQuality, sampleConf].map fun i => ⟨i, []⟩⟩

/-- A table of sequences: D01001 is two elements, D01002 is a data present
indicator, D01003 ends in an operator without its operand, D01004 contains
itself. -/
def sampleD : DTable where
  varcodes := [WR_VAR 0 12 101, WR_VAR 0 2 1, WR_VAR 0 31 31, WR_VAR 2 6 2, WR_VAR 3 1 4]
  entries := [⟨WR_VAR 3 1 1, 0, 2⟩, ⟨WR_VAR 3 1 2, 2, 3⟩, ⟨WR_VAR 3 1 3, 3, 4⟩,
    ⟨WR_VAR 3 1 4, 4, 5⟩]

/-- The tables with default options. -/
def sampleCtx : Ctx := ⟨Env0, .default, sampleB, sampleD⟩

/-- No stored metadata. -/
def noCaches : TableCaches := ⟨[], [], []⟩

/-- A temperature in hundredths of a kelvin. -/
def tempVar (n : Int) : Var := (Var.new sampleTemp).putInt n

/-- A type of station. -/
def codeVar (n : Int) : Var := (Var.new sampleCode).putInt n

/-- A replication factor. -/
def factorVar (n : Int) : Var := (Var.new sampleFactor).putInt n

/-- An encoder at the start of a subset. -/
def encStart (vars : List Var) : Interp (Enc BitOut) := .new noCaches ⟨vars, 0, .new []⟩

/-- Bits written when processing descriptors succeeds. -/
def written (depth : Nat) (ops : List Varcode) (vars : List Var) : Res (List Bool) := do
  let st ← Interp.run sampleCtx (DDSEncoder.target sampleCtx) depth ops (encStart vars)
  return st.tgt.ob.bits

/-! ## C33 -/

/-- C33: processing a list gives the same result as processing it with a sequence
descriptor replaced by its definition, for every target: an outcome other than
running out of stack (or other undefined behaviour) with the sequence is the
outcome without, and conversely given room for one more level of nesting. What is
missing from the property: `Unfolds` asks that the definition has its operands and
replicated descriptors, that the sequence is not itself the operand or factor of
what precedes it, and that the replacement does not produce a group which is the
data present indicator alone; see `C33_not_bitmap_group` and
`C33_not_open_definition`. -/
theorem C33_sequence_partial {σ : Type} (C : Ctx) (T : Target σ) (a b : List Varcode)
    (h : Unfolds C.dtable.query a b) (d : Nat) (st : Interp σ) :
    Refines (Interp.run C T d a st) (Interp.run C T d b st) ∧
      Refines (Interp.run C T d b st) (Interp.run C T (d + 1) a st) :=
  Interp.unfolds_run h d st

/-- C33: more stack never changes an outcome. -/
theorem C33_stack {σ : Type} (C : Ctx) (T : Target σ) (ops : List Varcode) (d d' : Nat)
    (h : d ≤ d') (st : Interp σ) :
    Refines (Interp.run C T d ops st) (Interp.run C T d' ops st) :=
  Interp.run_mono h ops st

/-- Hypothesis of C33 met inside a delayed replication after an operator. -/
example : Unfolds sampleCtx.dtable.query
    [WR_VAR 2 1 130, WR_VAR 1 1 0, WR_VAR 0 31 1, WR_VAR 3 1 1, WR_VAR 0 2 1]
    [WR_VAR 2 1 130, WR_VAR 1 2 0, WR_VAR 0 31 1, WR_VAR 0 12 101, WR_VAR 0 2 1, WR_VAR 0 2 1] :=
  .after [WR_VAR 2 1 130] _ _ (.operator _ _ (by decide) (by decide) .nil)
    (.delayed _ _ _ [WR_VAR 3 1 1] [WR_VAR 0 12 101, WR_VAR 0 2 1] [WR_VAR 0 2 1] (by decide)
      (by decide) (by decide) (by decide) (by decide) (by decide) (by decide) (by decide)
      (.here _ [WR_VAR 0 12 101, WR_VAR 0 2 1] [] (by decide) (by decide +kernel)
        (.element _ _ (by decide) (.element _ _ (by decide) .nil))))

/-- Both succeed there and write the same bits. -/
example :
    written 1 [WR_VAR 1 1 0, WR_VAR 0 31 1, WR_VAR 3 1 1]
      [factorVar 2, tempVar 27315, codeVar 1, tempVar 5, codeVar 0] =
    written 0 [WR_VAR 1 2 0, WR_VAR 0 31 1, WR_VAR 0 12 101, WR_VAR 0 2 1]
      [factorVar 2, tempVar 27315, codeVar 1, tempVar 5, codeVar 0] ∧
    (written 1 [WR_VAR 1 1 0, WR_VAR 0 31 1, WR_VAR 3 1 1]
      [factorVar 2, tempVar 27315, codeVar 1, tempVar 5, codeVar 0]).isOk = true := by
  decide +kernel

/-- What an encoder says when asked for a bitmap of two bits. -/
def bitmapOutcome (ops : List Varcode) : Res Nat := do
  let bm ← (noCaches.get_bitmap Env0 (WR_VAR 2 22 0) (ascii "+-")).2
  let v ← Var.newStr .default bm (ascii "+-")
  let st ← Interp.run sampleCtx (DDSEncoder.target sampleCtx) 5 ops
    (encStart [tempVar 1, codeVar 1, v])
  return st.tgt.current_var

/-- The full C33 is false: a bitmap whose only descriptor is written as a sequence
is refused, though it is accepted with the definition in its place. -/
theorem C33_not_bitmap_group :
    sampleCtx.dtable.query (WR_VAR 3 1 2) = .ok [WR_VAR 0 31 31] ∧
    bitmapOutcome [WR_VAR 0 12 101, WR_VAR 0 2 1, WR_VAR 2 22 0, WR_VAR 1 1 2, WR_VAR 3 1 2] =
      .err .consistency ∧
    bitmapOutcome [WR_VAR 0 12 101, WR_VAR 0 2 1, WR_VAR 2 22 0, WR_VAR 1 1 2, WR_VAR 0 31 31] =
      .ok 3 := by
  decide +kernel

/-- The full C33 is false: a definition that ends in an operator whose operand
comes after the sequence is refused, though it is accepted written out. -/
theorem C33_not_open_definition :
    sampleCtx.dtable.query (WR_VAR 3 1 3) = .ok [WR_VAR 2 6 2] ∧
    written 5 [WR_VAR 3 1 3, WR_VAR 0 2 1] [codeVar 1] = .err .consistency ∧
    written 5 [WR_VAR 2 6 2, WR_VAR 0 2 1] [codeVar 1] = .ok [false, true] := by
  decide +kernel

/-- A sequence that contains itself overflows the stack, whatever its size. -/
theorem C33_not_bounded (d : Nat) (st : Interp (Enc BitOut)) :
    Interp.run sampleCtx (DDSEncoder.target sampleCtx) d [WR_VAR 3 1 4] st = .ub := by
  induction d generalizing st with
  | zero =>
    rw [Interp.run_sequence (by decide)]
    have : sampleCtx.dtable.query (WR_VAR 3 1 4) = .ok [WR_VAR 3 1 4] := by decide +kernel
    rw [this]
    rfl
  | succ d ih =>
    rw [Interp.run_sequence (by decide)]
    have : sampleCtx.dtable.query (WR_VAR 3 1 4) = .ok [WR_VAR 3 1 4] := by decide +kernel
    rw [this]
    simp only [Res.ok_bind, Interp.below, ih, Res.ub_bind]

/-! ## C34 -/

/-- C34: a fixed replication is its group written out as many times, for every
target. A replication that follows an operator which announces a bitmap is not a
replication but the definition of the bitmap. What is missing from the property:
groups that end in an operator without its operand, see `C34_not_open_group`. -/
theorem C34_fixed_partial {σ : Type} (C : Ctx) (T : Target σ) (c : Varcode) (g post : List Varcode)
    (d : Nat) (st : Interp σ) (hf : WR_VAR_F c = 1) (hy : WR_VAR_Y c ≠ 0)
    (hl : g.length = WR_VAR_X c) (hg : Complete g) (hp : st.bitmaps.pending_definitions = 0) :
    Interp.run C T d (c :: (g ++ post)) st =
      Interp.run C T d (copies (WR_VAR_Y c) g ++ post) st := by
  rw [Interp.run_group hf (Interp.delayedCode_fixed hy _) hl,
    Interp.run_append (Interp.complete_copies hg _)]
  simp only [Interp.bitmapOrRepeat, hp, ne_eq, not_true_eq_false, if_false, Interp.r_replication,
    hy, not_false_eq_true, if_true, Interp.times_copies hg]

/-- C34: a delayed replication is the factor, then its group written out as many
times as the factor says, for every target. -/
theorem C34_delayed_partial {σ : Type} (C : Ctx) (T : Target σ) (c f : Varcode) (g post : List Varcode)
    (d : Nat) (st : Interp σ) (hf : WR_VAR_F c = 1) (hy : WR_VAR_Y c = 0) (hff : IsFactor f)
    (hl : g.length = WR_VAR_X c) (hg : Complete g) (hp : st.bitmaps.pending_definitions = 0) :
    Interp.run C T d (c :: f :: (g ++ post)) st = (do
      let info ← C.btable.query f
      let r ← T.define_delayed_replication_factor st info
      Interp.run C T d (copies r.1 g ++ post) r.2) := by
  rw [Interp.run_group hf (Interp.delayedCode_factor hy hff _) hl]
  simp only [Interp.bitmapOrRepeat, hp, ne_eq, not_true_eq_false, if_false, Interp.r_replication,
    hy, Interp.times_copies hg, bind_assoc, Interp.run_append (Interp.complete_copies hg _)]

/-- An element met while no operator is active. -/
theorem run_plain {σ : Type} {C : Ctx} {T : Target σ} {d : Nat} {f : Varcode} {info : Varinfo}
    {st : Interp σ} (hff : IsFactor f) (hq : C.btable.query f = .ok info)
    (hu : st.unmodified = true) (h3 : st.c03_refval_override_bits = 0)
    (h4 : st.associated_field.bit_count = 0) (rest : List Varcode) :
    Interp.run C T d (f :: rest) st = T.define_variable st info >>= Interp.run C T d rest := by
  rw [Interp.run_element hff.1]
  have hx : WR_VAR_X f ≠ 33 := by rw [hff.2]; decide
  simp [Interp.b_variable, h3, Interp.get_varinfo, hq, hu, Interp.elementOrAttribute, hx, h4]

/-- C34: when encoding with no operator active, a delayed replication is the factor
as an element, then as many copies of the group as its value. -/
theorem C34_delayed_encode_partial (C : Ctx) (c f : Varcode) (g post : List Varcode) (d : Nat)
    (st : Interp (Enc BitOut)) (info : Varinfo) (v : Var) (n : Int)
    (hf : WR_VAR_F c = 1) (hy : WR_VAR_Y c = 0) (hff : IsFactor f)
    (hl : g.length = WR_VAR_X c) (hg : Complete g) (hp : st.bitmaps.pending_definitions = 0)
    (hq : C.btable.query f = .ok info) (hu : st.unmodified = true)
    (h3 : st.c03_refval_override_bits = 0) (h4 : st.associated_field.bit_count = 0)
    (hv : st.tgt.subset[st.tgt.current_var]? = some v) (hn : v.toVarCore.enqi = .ok n) :
    Interp.run C (DDSEncoder.target C) d (c :: f :: (g ++ post)) st =
      Interp.run C (DDSEncoder.target C) d (f :: (copies (toU32 n) g ++ post)) st := by
  rw [C34_delayed_partial C _ c f g post d st hf hy hff hl hg hp, hq, run_plain hff hq hu h3 h4]
  simp only [Res.ok_bind, DDSEncoder.target, Enc.define_delayed_replication_factor,
    Enc.define_variable, Enc.get_var, Enc.get_var_at, hv, hn, bind_assoc, Res.pure_def]

/-- Numbers decoded into a fresh variable, when no function is registered for
values out of range. -/
theorem decode_number_fresh {E : Env} {O : Opts} (ho : O.hook = none) {i i' : Input}
    {info : Varinfo} (ht : info.type = .integer ∨ info.type = .decimal) {v : Var}
    (h : i.decode_number E O (Var.new info) = .ok (v, i')) :
    v = Var.new info ∨ ∃ n, v = (Var.new info).putInt n := by
  unfold Input.decode_number at h
  simp only [Res.bind_eq_ok] at h
  obtain ⟨r, _, m, _, w, hw, h⟩ := h
  cases h
  unfold Input.setNumberOrMissing at hw
  split at hw
  · cases hw; exact .inl rfl
  · unfold Input.setNumber at hw
    simp only [Res.bind_eq_ok] at hw
    obtain ⟨x, _, u, hu, hw⟩ := hw
    cases hw
    have hput : ∀ val, ((Var.new info).putDbl E val).2 = .ok () →
        ∃ n, ((Var.new info).putDbl E val).1 = (Var.new info).putInt n := by
      intro val hv
      unfold Var.putDbl at hv ⊢
      cases he : (Var.new info).info.encode_decimal E val with
      | ok n => exact ⟨n, rfl⟩
      | err e => rw [he] at hv; simp [Var.ofRes] at hv
      | ub => rw [he] at hv; simp [Var.ofRes] at hv
    rcases ht with ht | ht
    · have e : (Var.new info).setd E O (.fin x) =
          (Var.new info).assign_i_checked O (wrapInt (E.lround (.fin x))) := by
        unfold Var.setd
        have : (Var.new info).info.type = .integer := ht
        rw [this]
      rw [e] at hu ⊢
      unfold Var.assign_i_checked at hu ⊢
      rw [ho] at hu ⊢
      split at hu
      · rename_i hr
        rw [if_pos hr]
        split at hu
        · rename_i hs
          rw [if_pos hs]; exact .inl rfl
        · rename_i hs
          rw [if_neg hs]
          split at hu
          · rename_i hc
            rw [if_pos hc]; exact .inr ⟨_, rfl⟩
          · cases hu
      · rename_i hr
        rw [if_neg hr]; exact .inr ⟨_, rfl⟩
    · have e : (Var.new info).setd E O (.fin x) = (Var.new info).assign_d_checked E O (.fin x) := by
        unfold Var.setd
        have : (Var.new info).info.type = .decimal := ht
        rw [this]
      rw [e] at hu ⊢
      unfold Var.assign_d_checked at hu ⊢
      rw [ho] at hu ⊢
      rw [if_neg (by simp)] at hu ⊢
      split at hu
      · rename_i hr
        rw [if_pos hr]
        split at hu
        · rename_i hs
          rw [if_pos hs]; exact .inl rfl
        · rename_i hs
          rw [if_neg hs]
          split at hu
          · rename_i hc
            rw [if_pos hc]; exact .inr (hput _ hu)
          · cases hu
      · rename_i hr
        rw [if_neg hr]; exact .inr (hput _ hu)

/-- C34: when decoding with no operator active, a delayed replication is the factor
as an element, then as many copies of the group as its value. -/
theorem C34_delayed_decode_partial (C : Ctx) (c f : Varcode) (g post : List Varcode) (d : Nat)
    (st : Interp Dec) (info : Varinfo) (v : Var) (i : Input) (n : Int)
    (hf : WR_VAR_F c = 1) (hy : WR_VAR_Y c = 0) (hff : IsFactor f)
    (hl : g.length = WR_VAR_X c) (hg : Complete g) (hp : st.bitmaps.pending_definitions = 0)
    (hq : C.btable.query f = .ok info) (hu : st.unmodified = true)
    (h3 : st.c03_refval_override_bits = 0) (h4 : st.associated_field.bit_count = 0)
    (ho : C.O.hook = none) (ht : info.type = .integer ∨ info.type = .decimal)
    (hv : Decoder.decode_uniform_b_value C st.tgt.input info = .ok (v, i))
    (hn : v.toVarCore.enqi = .ok n) :
    Interp.run C (Decoder.target C) d (c :: f :: (g ++ post)) st =
      Interp.run C (Decoder.target C) d (f :: (copies (toU32 n) g ++ post)) st := by
  rw [C34_delayed_partial C _ c f g post d st hf hy hff hl hg hp, hq, run_plain hff hq hu h3 h4]
  have hd : st.tgt.input.decode_number C.E C.O (Var.new info) = .ok (v, i) := by
    unfold Decoder.decode_uniform_b_value at hv
    rcases ht with ht | ht <;> rw [ht] at hv <;> exact hv
  have hc : v.copy = .ok v := by
    rcases decode_number_fresh ho ht hd with rfl | ⟨k, rfl⟩
    · simp [Var.new, VarCore.enqi] at hn
    · rcases ht with ht | ht <;>
        simp [Var.copy, Var.copy_value, Var.putInt, Var.new, ht, Var.setattrs, Var.copyAttrs]
  simp only [Res.ok_bind, Decoder.target, Decoder.define_delayed_replication_factor,
    Decoder.decode_and_add_to_all, Decoder.define_variable, Decoder.storeCopy, hv, hn, hc,
    Res.pure_def]

/-- The full C34 is false: a group that ends in an operator whose operand comes
after the group is refused, though it is accepted written out once. -/
theorem C34_not_open_group :
    written 0 [WR_VAR 1 1 1, WR_VAR 2 6 2, WR_VAR 0 2 1] [codeVar 1] = .err .consistency ∧
    written 0 (copies 1 [WR_VAR 2 6 2] ++ [WR_VAR 0 2 1]) [codeVar 1] = .ok [false, true] := by
  decide +kernel

/-- Hypotheses of C34 met by a group which contains a replication. -/
example : WR_VAR_F (WR_VAR 1 3 2) = 1 ∧ WR_VAR_Y (WR_VAR 1 3 2) ≠ 0 ∧
    [WR_VAR 1 1 2, WR_VAR 0 2 1, WR_VAR 0 12 101].length = WR_VAR_X (WR_VAR 1 3 2) ∧
    Complete [WR_VAR 1 1 2, WR_VAR 0 2 1, WR_VAR 0 12 101] :=
  ⟨by decide, by decide, by decide,
    .fixed (WR_VAR 1 1 2) [WR_VAR 0 2 1] [WR_VAR 0 12 101] (by decide) (by decide) (by decide)
      (.element _ _ (by decide) .nil)⟩

/-- The group is encoded twice: six values are written. -/
example : written 0 [WR_VAR 1 3 2, WR_VAR 1 1 2, WR_VAR 0 2 1, WR_VAR 0 12 101]
      [codeVar 1, codeVar 2, tempVar 7, codeVar 0, codeVar 1, tempVar 9] =
    written 0 [WR_VAR 0 2 1, WR_VAR 0 2 1, WR_VAR 0 12 101, WR_VAR 0 2 1, WR_VAR 0 2 1,
        WR_VAR 0 12 101]
      [codeVar 1, codeVar 2, tempVar 7, codeVar 0, codeVar 1, tempVar 9] ∧
    (written 0 [WR_VAR 1 3 2, WR_VAR 1 1 2, WR_VAR 0 2 1, WR_VAR 0 12 101]
      [codeVar 1, codeVar 2, tempVar 7, codeVar 0, codeVar 1, tempVar 9]).isOk = true := by
  decide +kernel

/-- The hypotheses of the encoding and decoding cases are met at the start of a
subset. -/
example : (encStart [factorVar 2]).unmodified = true ∧
    (encStart [factorVar 2]).c03_refval_override_bits = 0 ∧
    (encStart [factorVar 2]).associated_field.bit_count = 0 ∧
    (encStart [factorVar 2]).bitmaps.pending_definitions = 0 ∧
    (encStart [factorVar 2]).tgt.subset[(encStart [factorVar 2]).tgt.current_var]? =
      some (factorVar 2) ∧
    (factorVar 2).toVarCore.enqi = .ok 2 ∧ IsFactor (WR_VAR 0 31 1) ∧
    sampleCtx.btable.query (WR_VAR 0 31 1) = .ok sampleFactor := by
  decide +kernel

end Wreport
