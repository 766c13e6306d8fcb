import Verif.Props.Samples
import Verif.Lemmas.VarNum

/-!
# C06, C07, C08, C09: setting numeric variables
-/

namespace Wreport

open Spec

/-! ## C06 -/

/-- C06 (part): whatever sequence of set operations is applied to a numeric
variable, with whatever options, it ends up unset or holding an integer inside
the range its descriptor declares, and its descriptor has not changed. Missing
from the full property: clamping with descriptors whose range is empty, for which
it fails (`C06_not_empty_range`). -/
theorem C06_in_range_partial (E : Env) (hE : IsRounding E.fl) (v v' : Var)
    (ops : List (Opts × SetOp)) (h : NumInv E v) (hO : ∀ o ∈ ops, o.1.Good E)
    (hr : ∀ o ∈ ops, o.1.clamp = true → v.info.imin ≤ v.info.imax)
    (hrun : SetOp.run E v ops = .ok v') :
    v'.info = v.info ∧
      (v'.isset = false ∨ ∃ i, v'.enqi = .ok i ∧ v.info.imin ≤ i ∧ i ≤ v.info.imax) := by
  have key : NumInv E v' ∧ v'.info = v.info := by
    induction ops generalizing v with
    | nil =>
      simp only [SetOp.run, Res.ok.injEq] at hrun
      subst hrun
      exact ⟨h, rfl⟩
    | cons o ops ih =>
      obtain ⟨O, op⟩ := o
      obtain ⟨i1, i2⟩ := SetOp.apply_inv hE op h (hO (O, op) (by simp)) (hr (O, op) (by simp))
      rw [SetOp.run] at hrun
      split at hrun
      · cases hrun
      · next w r hne hap =>
        rw [hap] at i1 i2
        simp only at i1 i2
        obtain ⟨j1, j2⟩ := ih w i1 (fun o ho => hO o (List.mem_cons_of_mem _ ho))
          (fun o ho => by rw [i2]; exact hr o (List.mem_cons_of_mem _ ho)) hrun
        exact ⟨j1, j2.trans i2⟩
  refine ⟨key.2, ?_⟩
  obtain ⟨i, hc, -, hv⟩ := key.1.value
  cases hs : v'.isset with
  | false => exact Or.inl rfl
  | true =>
    right
    have := hv hs
    rw [key.2] at this
    exact ⟨i, enqi_num (v := v'.toVarCore) key.1.num hc hs, this.1, this.2⟩

example : NumInv Env0 (Var.new sampleTemp) ∧ sampleTemp.imin ≤ sampleTemp.imax ∧
    Opts.default.Good Env0 :=
  ⟨⟨sampleTemp_made, Or.inr rfl, 0, rfl, rfl, nofun⟩, by decide, nofun⟩

/-- C06: no sequence of set operations on a numeric variable with sane arguments
leads to undefined behaviour. -/
theorem C06_no_undefined_behaviour (E : Env) (hE : IsRounding E.fl)
    (hconv : ∀ a b d, E.conv a b d ≠ .ub) (v : Var) (ops : List (Opts × SetOp))
    (h : NumInv E v) (hO : ∀ o ∈ ops, o.1.Good E ∧ o.1.Safe ∧ o.2.Good E)
    (hr : ∀ o ∈ ops, o.1.clamp = true → v.info.imin ≤ v.info.imax) :
    SetOp.run E v ops ≠ .ub := by
  induction ops generalizing v with
  | nil => simp [SetOp.run]
  | cons o ops ih =>
    obtain ⟨O, op⟩ := o
    obtain ⟨g1, g2, g3⟩ := hO (O, op) (by simp)
    obtain ⟨i1, i2⟩ := SetOp.apply_inv hE op h g1 (hr (O, op) (by simp))
    have hs := SetOp.apply_safe hE hconv op h.made h.num g2 g3
    rw [SetOp.run]
    split
    · next hap => rw [hap] at hs; exact absurd rfl hs
    · next w r hne hap =>
      rw [hap] at i1 i2
      exact ih w i1 (fun o ho => hO o (List.mem_cons_of_mem _ ho))
        (fun o ho => by rw [i2]; exact hr o (List.mem_cons_of_mem _ ho))

example : ∀ a b d, Env0.conv a b d ≠ .ub := by
  intro a b d
  simp only [Env0]
  split <;> simp

/-- A descriptor with an empty range: no decimal digits. -/
def sampleEmpty : Varinfo := made (Varinfo.raw (WR_VAR 0 1 3) .integer (ascii "NUMERIC") 0 0 0 8)

/-- C06 fails for an empty range when clamping is enabled: the variable becomes
set to a value that is not in the range. -/
theorem C06_not_empty_range :
    sampleEmpty.Made Env0 ∧
    ((Var.new sampleEmpty).seti { Opts.default with clamp := true } 5).1.enqi = .ok (-1) ∧
      ¬ (sampleEmpty.imin ≤ -1) := by
  refine ⟨⟨⟨Varinfo.raw (WR_VAR 0 1 3) .integer (ascii "NUMERIC") 0 0 0 8, rfl⟩, rfl,
    fun _ => rfl, nofun⟩, by decide, by decide⟩

/-! ## C07 -/

/-- C07: in-range integers are stored unchanged under every option. -/
theorem C07_seti_in_range (O : Opts) (v : Var) (val : Int) (hn : v.info.IsNum)
    (h : v.info.imin ≤ val ∧ val ≤ v.info.imax) :
    (v.seti O val).2 = .ok () ∧ (v.seti O val).1.enqi = .ok val ∧
      (v.seti O val).1.attrs = v.attrs := by
  rw [seti_num hn]
  unfold Var.assign_i_checked
  rw [if_neg (by omega)]
  exact ⟨rfl, enqi_putInt hn val, rfl⟩

/-- C07: out-of-range integers under every option. Silent errors win over
clamping, clamping over the hook, the hook over the error. -/
theorem C07_seti_out_of_range (O : Opts) (v : Var) (val : Int) (hn : v.info.IsNum)
    (h : val < v.info.imin ∨ v.info.imax < val) :
    (O.silent = true → (v.seti O val).2 = .ok () ∧ (v.seti O val).1.isset = false) ∧
    (O.silent = false → O.clamp = true → (v.seti O val).2 = .ok () ∧
      (v.seti O val).1.enqi = .ok (if val < v.info.imin then v.info.imin else v.info.imax)) ∧
    (∀ hk, O.silent = false → O.clamp = false → O.hook = some hk →
      v.seti O val = hk.int v val) ∧
    (O.silent = false → O.clamp = false → O.hook = none →
      (v.seti O val).2 = .err .domain ∧ (v.seti O val).1.isset = false) := by
  rw [seti_num hn]
  unfold Var.assign_i_checked
  rw [if_pos h]
  refine ⟨?_, ?_, ?_, ?_⟩
  · intro h1; simp [h1, Var.unset]
  · intro h1 h2
    simp only [h1, h2, Bool.false_eq_true, if_false, if_true]
    exact ⟨trivial, enqi_putInt hn _⟩
  · intro hk h1 h2 h3; simp [h1, h2, h3]
  · intro h1 h2 h3; simp [h1, h2, h3, Var.unset]

/-- C07: a number inside the range of a decimal descriptor is stored under every
option, as the integer chosen by the decimal conversion (see C04), which is in
range. -/
theorem C07_setd_in_range (E : Env) (hE : IsRounding E.fl) (O : Opts) (v : Var) (val : Dbl)
    (hm : v.info.Made E) (ht : v.info.type = .decimal) (hnan : val ≠ .nan)
    (h1 : val.lt v.info.dmin = false) (h2 : val.gt v.info.dmax = false) :
    (v.setd E O val).2 = .ok () ∧
      ∃ i, v.info.encode_decimal E val = .ok i ∧ (v.setd E O val).1.enqi = .ok i ∧
        v.info.imin ≤ i ∧ i ≤ v.info.imax := by
  obtain ⟨q, i, -, he, hp, b1, b2⟩ := putDbl_in_range hE hm (Or.inr ht) hnan h1 h2
  have : v.setd E O val = (v.putInt i, .ok ()) := by
    unfold Var.setd
    rw [ht]
    simp only
    unfold Var.assign_d_checked
    rw [if_neg hnan, if_neg (by simp [h1, h2]), hp]
  rw [this]
  exact ⟨rfl, i, he, enqi_putInt (Or.inr ht) i, b1, b2⟩

/-- C07: numbers outside the range of a decimal descriptor (infinities included)
under every option. -/
theorem C07_setd_out_of_range (E : Env) (hE : IsRounding E.fl) (O : Opts) (v : Var) (val : Dbl)
    (hm : v.info.Made E) (ht : v.info.type = .decimal) (hnan : val ≠ .nan)
    (h : val.lt v.info.dmin = true ∨ val.gt v.info.dmax = true) :
    (O.silent = true → (v.setd E O val).2 = .ok () ∧ (v.setd E O val).1.isset = false) ∧
    (O.silent = false → O.clamp = true → (v.setd E O val).2 = .ok () ∧
      (v.setd E O val).1.enqi =
        .ok (if val.lt v.info.dmin then v.info.imin else v.info.imax)) ∧
    (∀ hk, O.silent = false → O.clamp = false → O.hook = some hk →
      v.setd E O val = hk.double v val) ∧
    (O.silent = false → O.clamp = false → O.hook = none →
      (v.setd E O val).2 = .err .domain ∧ (v.setd E O val).1.isset = false) := by
  obtain ⟨d1, d2, -⟩ := hm.range (Or.inr ht)
  obtain ⟨l1, l2⟩ := hm.limits (Or.inr ht)
  have hset : v.setd E O val = v.assign_d_checked E O val := by
    unfold Var.setd; rw [ht]
  rw [hset]
  unfold Var.assign_d_checked
  rw [if_neg hnan, if_pos h]
  refine ⟨?_, ?_, ?_, ?_⟩
  · intro h1; simp [h1, Var.unset]
  · intro h1 h2
    simp only [h1, h2, Bool.false_eq_true, if_false, if_true]
    split
    · rw [putDbl_limit hE l1 d1]; exact ⟨rfl, enqi_putInt (Or.inr ht) _⟩
    · rw [putDbl_limit hE l2 d2]; exact ⟨rfl, enqi_putInt (Or.inr ht) _⟩
  · intro hk h1 h2 h3; simp [h1, h2, h3]
  · intro h1 h2 h3; simp [h1, h2, h3, Var.unset]

/-- C07: NaN on a decimal descriptor. There is no nearest end of the range, so
clamping plays no part. -/
theorem C07_setd_nan (E : Env) (O : Opts) (v : Var) (ht : v.info.type = .decimal) :
    (O.silent = true → (v.setd E O .nan).2 = .ok () ∧ (v.setd E O .nan).1.isset = false) ∧
    (∀ hk, O.silent = false → O.hook = some hk → v.setd E O .nan = hk.double v .nan) ∧
    (O.silent = false → O.hook = none →
      (v.setd E O .nan).2 = .err .domain ∧ (v.setd E O .nan).1.isset = false) := by
  have hset : v.setd E O .nan = v.assign_d_checked E O .nan := by
    unfold Var.setd; rw [ht]
  rw [hset]
  unfold Var.assign_d_checked
  rw [if_pos rfl]
  refine ⟨?_, ?_, ?_⟩
  · intro h1; simp [h1, Var.unset]
  · intro hk h1 h2; simp [h1, h2]
  · intro h1 h2; simp [h1, h2, Var.unset]

/-- C07 (part): on an integer descriptor a number whose nearest integer is a
32-bit integer is treated like that integer. Missing: other numbers, for which
the property fails (`C07_not_setd_integer`). -/
theorem C07_setd_integer_partial (E : Env) (O : Opts) (v : Var) (q : ℚ)
    (ht : v.info.type = .integer) (h : inInt (lroundQ q) = true) :
    v.setd E O (.fin q) = v.seti O (lroundQ q) := by
  rw [seti_num (Or.inl ht)]
  unfold Var.setd
  rw [ht]
  simp only
  have hl : E.lround (.fin q) = lroundQ q := by
    rw [inInt_iff] at h
    unfold Env.lround
    simp only
    rw [if_pos (by omega)]
  rw [hl, wrapInt_eq h]

example : inInt (lroundQ (5 / 2)) = true := by
  have : lroundQ (5 / 2) = 3 := by norm_num [lroundQ]
  rw [this]; decide

/-- C07 fails on integer descriptors: with default options, setting 2^32 on a
descriptor whose range is 0..2 raises no error and stores zero. -/
theorem C07_not_setd_integer :
    ((Var.new sampleCode).setd Env0 .default (.fin (2 ^ 32))).2 = .ok () ∧
      ((Var.new sampleCode).setd Env0 .default (.fin (2 ^ 32))).1.enqi = .ok 0 := by
  have h : ((Var.new sampleCode).setd Env0 .default (.fin (2 ^ 32))) =
      ((Var.new sampleCode).putInt 0, .ok ()) := by
    unfold Var.setd
    simp only [show (Var.new sampleCode).info.type = .integer from rfl]
    have : Env0.lround (.fin (2 ^ 32)) = 2 ^ 32 := by
      have h32 : lroundQ (2 ^ 32) = 2 ^ 32 := by
        have := lroundQ_intCast (2 ^ 32)
        push_cast at this
        norm_num
        exact this
      unfold Env.lround
      simp only [h32]
      decide
    rw [this]
    decide
  rw [h]
  exact ⟨rfl, rfl⟩

/-- C07 fails on integer descriptors: with default options, NaN raises no error
and stores whatever `lround` happens to return. -/
theorem C07_not_setd_integer_nan (E : Env) (hl : E.lroundOut = 0) :
    ((Var.new sampleCode).setd E .default .nan).2 = .ok () ∧
      ((Var.new sampleCode).setd E .default .nan).1.enqi = .ok 0 := by
  have h : ((Var.new sampleCode).setd E .default .nan) =
      ((Var.new sampleCode).putInt 0, .ok ()) := by
    unfold Var.setd
    simp only [show (Var.new sampleCode).info.type = .integer from rfl, Env.lround, hl]
    decide
  rw [h]
  exact ⟨rfl, rfl⟩

example : sampleTemp.Made Env0 ∧ sampleTemp.type = .decimal ∧
    Dbl.pinf.gt sampleTemp.dmax = true := ⟨sampleTemp_made, rfl, rfl⟩

example : sampleCode.IsNum ∧ sampleCode.imin ≤ 2 ∧ 2 ≤ sampleCode.imax ∧ sampleCode.imax < 3 :=
  ⟨Or.inl rfl, by decide, by decide, by decide⟩

/-! ## C08 -/

/-- C08: the text of a set numeric variable is the canonical decimal form of its
stored integer; it is what both text accessors return. -/
theorem C08_text_is_decimal (E : Env) (v : Var) (i : Int) (hn : v.info.IsNum)
    (hset : v.isset = true) (hc : v.cell = .word i) (hi : inInt i = true)
    (hmin : i ≠ -2147483648) :
    ∃ s, v.enqs E = .ok s ∧ IsDecimalInt s i ∧ ∃ m, v.enqc E = .ok m ∧ cstr m = .ok s := by
  obtain ⟨s, h1, h2, m, h3⟩ := int32_to_stdstr_ok E hi (Or.inl hmin)
  refine ⟨s, ?_, h2, c_str s ++ m, ?_, ?_⟩
  · have := enqs_num (E := E) (v := v.toVarCore) hn hc hset
    rw [this, h1]
  · unfold VarCore.enqc
    rcases hn with h | h <;> simp [h, hc, hset, h3]
  · exact cstr_c_str s m (strToInt32_decimal h2 hi).2.2

/-- C08: setting a variable of the same descriptor from the text restores the
value, under every option and with both text setters. -/
theorem C08_text_roundtrip (E : Env) (O : Opts) (v w : Var) (i : Int)
    (hm : v.info.Made E) (hn : v.info.IsNum) (hset : v.isset = true) (hc : v.cell = .word i)
    (hr : v.info.imin ≤ i ∧ i ≤ v.info.imax) (hmin : i ≠ -2147483648) (hw : w.info = v.info) :
    ∃ s m, v.enqs E = .ok s ∧ v.enqc E = .ok m ∧
      (w.sets O s).2 = .ok () ∧ (w.sets O s).1.enqi = .ok i ∧
      (w.setc O m).2 = .ok () ∧ (w.setc O m).1.enqi = .ok i := by
  obtain ⟨l1, l2⟩ := hm.limits hn
  have hi : inInt i = true := by rw [inInt_iff] at *; omega
  obtain ⟨s, h1, h2, m, h3, h4⟩ := C08_text_is_decimal E v i hn hset hc hi hmin
  obtain ⟨p1, p2, p3⟩ := strToInt32_decimal h2 hi
  have hnw : w.info.IsNum := by rw [hw]; exact hn
  have key : w.setNumText O s = (w.putInt i, .ok ()) := by
    unfold Var.setNumText
    rw [p1, p2]
    simp only [Bool.not_true, Bool.false_eq_true, if_false]
    unfold Var.assign_i_checked
    rw [if_neg (by rw [hw]; omega)]
  have e1 : w.sets O s = (w.putInt i, .ok ()) := by
    rw [← key]
    unfold Var.sets
    rw [takeWhile_nulFree p3]
    rcases hnw with h | h <;> rw [h]
  have e2 : w.setc O m = (w.putInt i, .ok ()) := by
    rw [← key]
    unfold Var.setc
    rw [h4]
    rcases hnw with h | h <;> rw [h]
  refine ⟨s, m, h1, h3, ?_⟩
  rw [e1, e2]
  exact ⟨rfl, enqi_putInt hnw i, rfl, enqi_putInt hnw i⟩

example : sampleLat.Made Env0 ∧ sampleLat.IsNum ∧ sampleLat.imin ≤ -4500 ∧
    -4500 ≤ sampleLat.imax ∧ inInt (-4500) = true := by
  refine ⟨sampleLat_made, Or.inr rfl, ?_⟩
  decide

example : IsDecimalInt (ascii "-4500") (-4500) :=
  ⟨ascii "4500", by decide, by decide, by decide, by decide, by decide⟩

/-- The excluded value: the text of the most negative integer is computed by
negating it, which overflows. -/
theorem C08_min_undefined : int32_to_stdstr Env0 (-2147483648) = .ub := by decide

/-- Text is read modulo 2^32: not every decimal text is either stored as written
or refused. -/
theorem C08_not_long_text_rejected :
    ((Var.new sampleCode).sets .default (ascii "4294967297")).2 = .ok () ∧
      ((Var.new sampleCode).sets .default (ascii "4294967297")).1.enqi = .ok 1 := by decide

/-! ## C09 -/

/-- C09: on a decimal descriptor, a number is either stored as the nearest scaled
integer (up to the rounding of one multiplication), or it is NaN or outside the
range and handled as such (`C07_setd_out_of_range`, `C07_setd_nan`). -/
theorem C09_decimal (E : Env) (hE : IsRounding E.fl) (O : Opts) (v : Var) (val : Dbl)
    (hm : v.info.Made E) (ht : v.info.type = .decimal) :
    (val = .nan ∨ val.lt v.info.dmin = true ∨ val.gt v.info.dmax = true) ∨
    (∃ q i, val = .fin q ∧ (v.setd E O val).2 = .ok () ∧ (v.setd E O val).1.enqi = .ok i ∧
      |q * (10 : ℚ) ^ v.info.scale - i| ≤ 1 / 2 + |q * (10 : ℚ) ^ v.info.scale| / 2 ^ 53) := by
  by_cases h0 : val = .nan
  · exact Or.inl (Or.inl h0)
  cases h1 : val.lt v.info.dmin with
  | true => exact Or.inl (Or.inr (Or.inl rfl))
  | false =>
    cases h2 : val.gt v.info.dmax with
    | true => exact Or.inl (Or.inr (Or.inr rfl))
    | false =>
      right
      obtain ⟨r1, i, r2, r3, -⟩ := C07_setd_in_range E hE O v val hm ht h0 h1 h2
      cases val with
      | nan => exact absurd rfl h0
      | pinf => simp [Dbl.gt] at h2
      | ninf => simp [Dbl.lt] at h1
      | fin q => exact ⟨q, i, rfl, r1, r3, encode_decimal_near hE r2⟩

/-- C09 (part): on an integer descriptor, a number whose nearest integer is a
32-bit integer in range is stored as that integer; if the nearest integer is out
of range it is refused with default options. Missing: numbers beyond 32 bits, for
which it fails (`C09_not_integer`). -/
theorem C09_integer_partial (E : Env) (v : Var) (q : ℚ) (ht : v.info.type = .integer)
    (h : inInt (lroundQ q) = true) :
    ((v.setd E .default (.fin q)).2 = .err .domain ∧
      (lroundQ q < v.info.imin ∨ v.info.imax < lroundQ q)) ∨
    (∃ i : Int, (v.setd E .default (.fin q)).2 = .ok () ∧
      (v.setd E .default (.fin q)).1.enqi = .ok i ∧ |q - i| ≤ 1 / 2) := by
  rw [C07_setd_integer_partial E _ v q ht h]
  by_cases hr : lroundQ q < v.info.imin ∨ v.info.imax < lroundQ q
  · left
    exact ⟨((C07_seti_out_of_range .default v _ (Or.inl ht) hr).2.2.2 rfl rfl rfl).1, hr⟩
  · right
    obtain ⟨r1, r2, -⟩ := C07_seti_in_range .default v (lroundQ q) (Or.inl ht) (by omega)
    exact ⟨_, r1, r2, lroundQ_near q⟩

/-- C09 applies: a temperature, and a number halfway between two integers. -/
example : sampleTemp.Made Env0 ∧ sampleTemp.type = .decimal ∧ sampleCode.type = .integer ∧
    inInt (lroundQ (3 / 2)) = true := by
  refine ⟨sampleTemp_made, rfl, rfl, ?_⟩
  have : lroundQ (3 / 2) = 2 := by norm_num [lroundQ]
  rw [this]; decide

/-- C09 fails on integer descriptors: 2^32, far outside the range 0..2, is stored
as the in-range value zero. -/
theorem C09_not_integer :
    ((Var.new sampleCode).setd Env0 .default (.fin (2 ^ 32))).2 = .ok () ∧
      ((Var.new sampleCode).setd Env0 .default (.fin (2 ^ 32))).1.enqi = .ok 0 :=
  C07_not_setd_integer

end Wreport
