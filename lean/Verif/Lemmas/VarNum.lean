import Verif.Lemmas.Var

namespace Wreport

open Spec

/-- A numeric variable that is unset or in range. -/
structure NumInv (E : Env) (v : Var) : Prop where
  made : v.info.Made E
  num : v.info.IsNum
  value : ∃ i, v.cell = .word i ∧ inInt i = true ∧
    (v.isset = true → v.info.imin ≤ i ∧ i ≤ v.info.imax)

/-- A hook that only leaves numeric variables unset or in range. -/
structure Hook.Good (E : Env) (h : Hook) : Prop where
  int : ∀ v i, NumInv E v → NumInv E (h.int v i).1 ∧ (h.int v i).1.info = v.info
  double : ∀ v d, NumInv E v → NumInv E (h.double v d).1 ∧ (h.double v d).1.info = v.info

/-- A hook without undefined behaviour of its own. -/
def Hook.Safe (h : Hook) : Prop := (∀ v i, (h.int v i).2 ≠ .ub) ∧ (∀ v d, (h.double v d).2 ≠ .ub)

/-- Options whose hook, if any, is good. -/
def Opts.Good (E : Env) (O : Opts) : Prop := ∀ h, O.hook = some h → h.Good E

def Opts.Safe (O : Opts) : Prop := ∀ h, O.hook = some h → h.Safe

theorem NumInv.unset {E : Env} {v : Var} (h : NumInv E v) : NumInv E v.unset where
  made := h.made
  num := h.num
  value := by
    obtain ⟨i, h1, h2, -⟩ := h.value
    exact ⟨i, h1, h2, by simp [Var.unset]⟩

theorem NumInv.putInt {E : Env} {v : Var} (h : NumInv E v) {i : Int}
    (hi : v.info.imin ≤ i ∧ i ≤ v.info.imax) : NumInv E (v.putInt i) where
  made := h.made
  num := h.num
  value := by
    obtain ⟨l1, l2⟩ := h.made.limits h.num
    refine ⟨i, rfl, ?_, fun _ => hi⟩
    rw [inInt_iff] at *; omega

theorem assign_i_inv {E : Env} {O : Opts} {v : Var} {val : Int} (h : NumInv E v)
    (hO : O.Good E) (hr : O.clamp = true → v.info.imin ≤ v.info.imax) :
    NumInv E (v.assign_i_checked O val).1 ∧ (v.assign_i_checked O val).1.info = v.info := by
  unfold Var.assign_i_checked
  split
  · split
    · exact ⟨h.unset, rfl⟩
    · split
      · next hc =>
        have := hr hc
        refine ⟨h.putInt ?_, rfl⟩
        split <;> omega
      · split
        · next hk heq => exact (hO hk heq).int v val h
        · exact ⟨h.unset, rfl⟩
  · refine ⟨h.putInt ?_, rfl⟩
    omega

theorem assign_i_safe {O : Opts} {v : Var} {val : Int} (hO : O.Safe) :
    (v.assign_i_checked O val).2 ≠ .ub := by
  unfold Var.assign_i_checked
  split
  · split
    · simp
    · split
      · simp
      · split
        · next hk heq => exact (hO hk heq).1 v val
        · simp
  · simp

/-- Storing a number that is neither NaN nor out of range. -/
theorem putDbl_in_range {E : Env} (hE : IsRounding E.fl) {v : Var} (hm : v.info.Made E)
    (hn : v.info.IsNum) {val : Dbl} (h1 : val ≠ .nan) (h2 : val.lt v.info.dmin = false)
    (h3 : val.gt v.info.dmax = false) :
    ∃ q i, val = .fin q ∧ v.info.encode_decimal E val = .ok i ∧
      v.putDbl E val = (v.putInt i, .ok ()) ∧ v.info.imin ≤ i ∧ i ≤ v.info.imax := by
  obtain ⟨d1, d2, -⟩ := hm.range hn
  obtain ⟨l1, l2⟩ := hm.limits hn
  cases val with
  | nan => exact absurd rfl h1
  | pinf => simp [Dbl.gt] at h3
  | ninf => simp [Dbl.lt] at h2
  | fin q =>
    simp only [Dbl.lt, Dbl.gt, decide_eq_false_iff_not, not_lt] at h2 h3
    obtain ⟨i, he, b1, b2⟩ := encode_decimal_between hE l1 l2 d1 d2 h2 h3
    refine ⟨q, i, rfl, he, ?_, b1, b2⟩
    unfold Var.putDbl
    rw [he]
    rfl

theorem putDbl_limit {E : Env} (hE : IsRounding E.fl) {v : Var} {i : Int} {d : ℚ}
    (hi : inInt i = true) (h : v.info.decode_decimal E i = .ok d) :
    v.putDbl E (.fin d) = (v.putInt i, .ok ()) := by
  unfold Var.putDbl
  rw [encode_decimal_decode E hE v.info i d hi h]
  rfl

theorem assign_d_inv {E : Env} (hE : IsRounding E.fl) {O : Opts} {v : Var} {val : Dbl}
    (h : NumInv E v) (hO : O.Good E) (hr : O.clamp = true → v.info.imin ≤ v.info.imax) :
    NumInv E (v.assign_d_checked E O val).1 ∧ (v.assign_d_checked E O val).1.info = v.info := by
  obtain ⟨d1, d2, -⟩ := h.made.range h.num
  obtain ⟨l1, l2⟩ := h.made.limits h.num
  unfold Var.assign_d_checked
  split
  · split
    · exact ⟨h.unset, rfl⟩
    · split
      · next hk heq => exact (hO hk heq).double v _ h
      · exact ⟨h.unset, rfl⟩
  · next hnan =>
    split
    · split
      · exact ⟨h.unset, rfl⟩
      · split
        · next hc =>
          have := hr hc
          split
          · rw [putDbl_limit hE l1 d1]; exact ⟨h.putInt ⟨le_refl _, this⟩, rfl⟩
          · rw [putDbl_limit hE l2 d2]; exact ⟨h.putInt ⟨this, le_refl _⟩, rfl⟩
        · split
          · next hk heq => exact (hO hk heq).double v val h
          · exact ⟨h.unset, rfl⟩
    · next hrange =>
      simp only [not_or, Bool.not_eq_true] at hrange
      obtain ⟨q, i, -, -, he, b1, b2⟩ := putDbl_in_range hE h.made h.num hnan hrange.1 hrange.2
      rw [he]
      exact ⟨h.putInt ⟨b1, b2⟩, rfl⟩

theorem assign_d_safe {E : Env} (hE : IsRounding E.fl) {O : Opts} {v : Var} {val : Dbl}
    (hm : v.info.Made E) (hn : v.info.IsNum) (hO : O.Safe) :
    (v.assign_d_checked E O val).2 ≠ .ub := by
  obtain ⟨d1, d2, -⟩ := hm.range hn
  obtain ⟨l1, l2⟩ := hm.limits hn
  unfold Var.assign_d_checked
  split
  · split
    · simp
    · split
      · next hk heq => exact (hO hk heq).2 v _
      · simp
  · next hnan =>
    split
    · split
      · simp
      · split
        · split
          · rw [putDbl_limit hE l1 d1]; simp
          · rw [putDbl_limit hE l2 d2]; simp
        · split
          · next hk heq => exact (hO hk heq).2 v val
          · simp
    · next hrange =>
      simp only [not_or, Bool.not_eq_true] at hrange
      obtain ⟨q, i, -, -, he, b1, b2⟩ := putDbl_in_range hE hm hn hnan hrange.1 hrange.2
      rw [he]; simp

theorem seti_num {O : Opts} {v : Var} (h : v.info.IsNum) (val : Int) :
    v.seti O val = v.assign_i_checked O val := by
  unfold Var.seti; rcases h with h | h <;> rw [h]

theorem setd_inv {E : Env} (hE : IsRounding E.fl) {O : Opts} {v : Var} {val : Dbl}
    (h : NumInv E v) (hO : O.Good E) (hr : O.clamp = true → v.info.imin ≤ v.info.imax) :
    NumInv E (v.setd E O val).1 ∧ (v.setd E O val).1.info = v.info := by
  unfold Var.setd
  rcases h.num with ht | ht <;> rw [ht] <;> simp only
  · exact assign_i_inv h hO hr
  · exact assign_d_inv hE h hO hr

theorem setd_safe {E : Env} (hE : IsRounding E.fl) {O : Opts} {v : Var} {val : Dbl}
    (hm : v.info.Made E) (hn : v.info.IsNum) (hO : O.Safe) : (v.setd E O val).2 ≠ .ub := by
  unfold Var.setd
  rcases hn with ht | ht <;> rw [ht] <;> simp only
  · exact assign_i_safe hO
  · exact assign_d_safe hE hm (Or.inr ht) hO

theorem setNumText_inv {E : Env} {O : Opts} {v : Var} {s : List Byte}
    (h : NumInv E v) (hO : O.Good E) (hr : O.clamp = true → v.info.imin ≤ v.info.imax) :
    NumInv E (v.setNumText O s).1 ∧ (v.setNumText O s).1.info = v.info := by
  unfold Var.setNumText
  split
  · exact ⟨h.unset, rfl⟩
  · exact assign_i_inv h hO hr

theorem setNumText_safe {O : Opts} {v : Var} {s : List Byte} (hO : O.Safe) :
    (v.setNumText O s).2 ≠ .ub := by
  unfold Var.setNumText
  split
  · simp
  · exact assign_i_safe hO

/-- The operations that set a variable. -/
inductive SetOp where
  | seti (i : Int)
  | setd (d : Dbl)
  | setc (m : Mem)
  | sets (s : List Byte)
  | setf (s : Option (List Byte))
  | setval (src : VarCore)
  | unset

/-- Performing an operation. -/
def SetOp.apply (E : Env) (O : Opts) (v : Var) : SetOp → Var × Res Unit
  | .seti i => v.seti O i
  | .setd d => v.setd E O d
  | .setc m => v.setc O m
  | .sets s => v.sets O s
  | .setf s => v.setf E O s
  | .setval src => v.setval E O src
  | .unset => (v.unset, .ok ())

/-- Performing operations one after the other, each with the options then in
force, going on after exceptions but not after undefined behaviour. -/
def SetOp.run (E : Env) : Var → List (Opts × SetOp) → Res Var
  | v, [] => .ok v
  | v, (O, op) :: ops =>
    match op.apply E O v with
    | (_, .ub) => .ub
    | (v', _) => SetOp.run E v' ops

theorem SetOp.apply_inv {E : Env} (hE : IsRounding E.fl) {O : Opts} {v : Var} (op : SetOp)
    (h : NumInv E v) (hO : O.Good E) (hr : O.clamp = true → v.info.imin ≤ v.info.imax) :
    NumInv E (op.apply E O v).1 ∧ (op.apply E O v).1.info = v.info := by
  cases op with
  | seti i => rw [SetOp.apply, seti_num h.num]; exact assign_i_inv h hO hr
  | setd d => exact setd_inv hE h hO hr
  | setc m =>
    rw [SetOp.apply]
    unfold Var.setc
    rcases h.num with ht | ht <;> rw [ht] <;> simp only <;> split <;>
      first | exact setNumText_inv h hO hr | exact ⟨h, rfl⟩
  | sets s =>
    rw [SetOp.apply]
    unfold Var.sets
    rcases h.num with ht | ht <;> rw [ht] <;> simp only <;> exact setNumText_inv h hO hr
  | setf s =>
    rw [SetOp.apply]
    unfold Var.setf
    split
    · exact ⟨h.unset, rfl⟩
    · exact ⟨h.unset, rfl⟩
    · have := setd_inv (val := E.strtod (‹List Byte›)) hE h hO hr
      rcases h.num with ht | ht <;> rw [ht] <;> simp only <;> exact setd_inv hE h hO hr
  | setval src =>
    rw [SetOp.apply]
    unfold Var.setval
    split
    · exact ⟨h.unset, rfl⟩
    · rcases h.num with ht | ht <;> rw [ht] <;> simp only <;> split <;>
        first | exact setd_inv hE h hO hr | exact ⟨h, rfl⟩
  | unset => exact ⟨h.unset, rfl⟩

/-- Arguments without undefined behaviour of their own: terminated strings,
well-formed source variables. -/
def SetOp.Good (E : Env) : SetOp → Prop
  | .setc m => ∃ s, cstr m = .ok s
  | .setval src => src.WF ∧ src.info.Made E
  | _ => True

theorem enqd_safe {E : Env} {v : VarCore} (hw : v.WF) (hm : v.info.Made E) :
    v.enqd E ≠ .ub := by
  unfold VarCore.enqd
  split
  · simp
  · cases ht : v.info.type with
    | string => simp
    | binary => simp
    | integer =>
      obtain ⟨i, hc, -⟩ := (WF_num (Or.inl ht)).mp hw
      simp [hc]
    | decimal =>
      obtain ⟨i, hc, -⟩ := (WF_num (Or.inr ht)).mp hw
      obtain ⟨d1, -⟩ := hm.range (Or.inr ht)
      simp only [hc]
      rw [decode_decimal_eq E v.info i (decode_decimal_scale d1)]
      simp

theorem SetOp.apply_safe {E : Env} (hE : IsRounding E.fl) (hconv : ∀ a b d, E.conv a b d ≠ .ub)
    {O : Opts} {v : Var} (op : SetOp) (hm : v.info.Made E) (hn : v.info.IsNum) (hO : O.Safe)
    (hop : op.Good E) : (op.apply E O v).2 ≠ .ub := by
  cases op with
  | seti i => rw [SetOp.apply, seti_num hn]; exact assign_i_safe hO
  | setd d => exact setd_safe hE hm hn hO
  | setc m =>
    obtain ⟨s, hs⟩ := hop
    rw [SetOp.apply]
    unfold Var.setc
    rcases hn with ht | ht <;> rw [ht] <;> simp only [hs] <;> exact setNumText_safe hO
  | sets s =>
    rw [SetOp.apply]
    unfold Var.sets
    rcases hn with ht | ht <;> rw [ht] <;> simp only <;> exact setNumText_safe hO
  | setf s =>
    rw [SetOp.apply]
    unfold Var.setf
    split
    · simp
    · simp
    · have hn' := hn
      rcases hn with ht | ht <;> rw [ht] <;> simp only <;> exact setd_safe hE hm hn' hO
  | setval src =>
    obtain ⟨hw, hsm⟩ := hop
    rw [SetOp.apply]
    unfold Var.setval
    have he := enqd_safe hw hsm
    split
    · simp
    · have key : (do let d ← src.enqd E; E.conv src.info.unit v.info.unit (.fin d)) ≠ .ub := by
        cases hd : src.enqd E with
        | ub => exact absurd hd he
        | err e => simp
        | ok d => simp only [Res.ok_bind]; exact hconv _ _ _
      have hn' := hn
      rcases hn with ht | ht <;> rw [ht] <;> simp only <;> split <;>
        first
        | exact setd_safe hE hm hn' hO
        | (next heq => exact absurd heq key)
        | simp
  | unset => simp [SetOp.apply]

end Wreport
