import Verif.Props.Bulletin
import Verif.Props.VarNum
import Verif.Props.VarText

/-!
# Filling a subset: theorems
-/

namespace Wreport

open Spec

/-! ## C68 -/

/-- A request to add a variable to a subset. -/
inductive StoreOp where
  | copy (v : Var)
  | int (code : Varcode) (val : Int)
  | double (code : Varcode) (val : Dbl)
  /-- A text, and what follows it in memory. -/
  | text (code : Varcode) (s : List Byte) (r : Mem)
  | undef (code : Varcode)
  | undefInfo (info : Varinfo)

/-- Carrying out a request. -/
def StoreOp.apply (E : Env) (O : Opts) (t : Tables) (s : Subset) : StoreOp → Res Subset
  | .copy v => s.store_variable v
  | .int c i => Subset.store_variable_i O t s c i
  | .double c d => Subset.store_variable_d E O t s c d
  | .text c x r => Subset.store_variable_c O t s c (c_str x ++ r)
  | .undef c => Subset.store_variable_undef t s c
  | .undefInfo i => .ok (s.store_variable_undef_info i)

/-- Carrying out requests in turn. -/
def StoreOp.run (E : Env) (O : Opts) (t : Tables) : Subset → List StoreOp → Res Subset
  | s, [] => .ok s
  | s, op :: ops => op.apply E O t s >>= fun s => StoreOp.run E O t s ops

/-- Requests for elements of the table, with values that fit them. -/
def StoreOp.Fits (E : Env) (t : Tables) : StoreOp → Prop
  | .copy v => v.WF
  | .int c i => ∃ info, t.query c = .ok info ∧ info.IsNum ∧ info.imin ≤ i ∧ i ≤ info.imax
  | .double c d => ∃ info, t.query c = .ok info ∧ info.Made E ∧ info.type = .decimal ∧ d ≠ .nan ∧
      d.lt info.dmin = false ∧ d.gt info.dmax = false
  | .text c x _ => ∃ info, t.query c = .ok info ∧ info.type = .string ∧ NulFree x
  | .undef c => ∃ info, t.query c = .ok info
  | .undefInfo _ => True

/-- The variable that a request asks for. -/
def StoreOp.Asks (t : Tables) (v : Var) : StoreOp → Prop
  | .copy w => v.info = w.info ∧ v.toVarCore.view = w.toVarCore.view ∧
      v.attrs.map (fun a => (a.info, a.isset, a.view)) = w.attrs.map (fun a => (a.info, a.isset, a.view))
  | .int c i => t.query c = .ok v.info ∧ v.toVarCore.view = some (.num i) ∧ v.attrs = []
  | .double c d => t.query c = .ok v.info ∧ v.attrs = [] ∧ ∃ q i, d = .fin q ∧
      v.toVarCore.view = some (.num i) ∧
      |q * (10 : ℚ) ^ v.info.scale - i| ≤ 1 / 2 + |q * (10 : ℚ) ^ v.info.scale| / 2 ^ 53
  | .text c x _ => t.query c = .ok v.info ∧ v.toVarCore.view = some (.text (x.take v.info.len)) ∧
      v.attrs = []
  | .undef c => t.query c = .ok v.info ∧ v.toVarCore.view = none ∧ v.attrs = []
  | .undefInfo info => v.info = info ∧ v.toVarCore.view = none ∧ v.attrs = []

theorem StoreOp.apply_ok {E : Env} (hE : IsRounding E.fl) (O : Opts) (t : Tables) (s : Subset)
    (op : StoreOp) (h : op.Fits E t) : ∃ v, op.apply E O t s = .ok (s ++ [v]) ∧ op.Asks t v := by
  cases op with
  | copy v =>
    obtain ⟨w, h1, -, h2, -, h3, h4⟩ := copy_ok h
    refine ⟨w, ?_, h2, h3, h4⟩
    simp only [StoreOp.apply, Subset.store_variable, h1, Res.ok_bind, Res.pure_def]
  | int c i =>
    obtain ⟨info, h1, h2, h3, h4⟩ := h
    have hs : (Var.new info).seti O i = ((Var.new info).putInt i, .ok ()) := by
      rw [seti_num (show (Var.new info).info.IsNum from h2)]
      unfold Var.assign_i_checked
      exact if_neg (show ¬ (i < info.imin ∨ info.imax < i) by omega)
    refine ⟨(Var.new info).putInt i, ?_, h1, view_num h2 rfl rfl, rfl⟩
    simp only [StoreOp.apply, Subset.store_variable_i, Var.newInt, h1, hs, Res.ok_bind, Res.pure_def]
  | double c d =>
    obtain ⟨info, h1, h2, h3, h4, h5, h6⟩ := h
    obtain ⟨q, i, e, he, hp, -, -⟩ := putDbl_in_range hE (v := Var.new info) h2 (.inr h3) h4 h5 h6
    have hs : (Var.new info).setd E O d = ((Var.new info).putInt i, .ok ()) := by
      unfold Var.setd
      rw [show (Var.new info).info.type = .decimal from h3]
      simp only
      unfold Var.assign_d_checked
      rw [if_neg h4, if_neg (by simp [Var.new, h5, h6]), hp]
    subst e
    refine ⟨(Var.new info).putInt i, ?_, h1, rfl, q, i, rfl, view_num (.inr h3) rfl rfl,
      encode_decimal_near hE he⟩
    simp only [StoreOp.apply, Subset.store_variable_d, Subset.newD, h1, hs, Res.ok_bind, Res.pure_def]
  | text c x r =>
    obtain ⟨info, h1, h2, h3⟩ := h
    obtain ⟨m, g1, g2, g3⟩ := assign_c_ok (v := Var.new info) (WF_new info) h2 x r h3 info.len
    have hs : (Var.new info).setc O (c_str x ++ r) = ((Var.new info).putMem m, .ok ()) := by
      unfold Var.setc
      rw [show (Var.new info).info.type = .string from h2]
      exact g1
    refine ⟨(Var.new info).putMem m, ?_, h1, ?_, rfl⟩
    · simp only [StoreOp.apply, Subset.store_variable_c, Subset.newC, h1, hs, Res.ok_bind, Res.pure_def]
    · rw [show min info.len (Var.new info).info.len = info.len from Nat.min_self _] at g3
      exact Var.view_putMem_string h2 g3
  | undef c =>
    obtain ⟨info, h1⟩ := h
    refine ⟨Var.new info, ?_, h1, view_unset rfl, rfl⟩
    simp only [StoreOp.apply, Subset.store_variable_undef, h1, Res.ok_bind, Res.pure_def]
  | undefInfo info => exact ⟨Var.new info, rfl, rfl, view_unset rfl, rfl⟩

/-- C68 (part): after any requests that fit the table, the subset has its old variables
and then, in order, exactly one variable for each request, with the element, the value
and the attributes asked for. Missing: values that do not fit (C07), doubles for integer
elements (C09) and the values of variables of another element (C53). -/
theorem C68_history_partial (E : Env) (hE : IsRounding E.fl) (O : Opts) (t : Tables) (s : Subset)
    (ops : List StoreOp) (h : ∀ op ∈ ops, op.Fits E t) :
    ∃ vs, StoreOp.run E O t s ops = .ok (s ++ vs) ∧ List.Forall₂ (fun v op => op.Asks t v) vs ops := by
  induction ops generalizing s with
  | nil => exact ⟨[], by simp [StoreOp.run], .nil⟩
  | cons op ops ih =>
    obtain ⟨v, h1, h2⟩ := StoreOp.apply_ok hE O t s op (h op (by simp))
    obtain ⟨vs, h3, h4⟩ := ih (s ++ [v]) (fun o ho => h o (by simp [ho]))
    refine ⟨v :: vs, ?_, .cons h2 h4⟩
    rw [StoreOp.run, h1, Res.ok_bind, h3]
    simp

/-- C68: an element that the table does not have is refused, by every request that names
one. -/
theorem C68_unknown (E : Env) (O : Opts) (t : Tables) (s : Subset) (c : Varcode) (e : Err)
    (h : t.query c = .err e) (i : Int) (d : Dbl) (x : List Byte) (r : Mem) :
    (StoreOp.int c i).apply E O t s = .err e ∧ (StoreOp.double c d).apply E O t s = .err e ∧
      (StoreOp.text c x r).apply E O t s = .err e ∧ (StoreOp.undef c).apply E O t s = .err e := by
  simp only [StoreOp.apply, Subset.store_variable_i, Subset.store_variable_d,
    Subset.store_variable_c, Subset.store_variable_undef, h, Res.err_bind, and_self]

/-- C68 on numbers outside the range of their element, without a hook for them: they are
stored as undefined or as the nearest end of the range if the options say so, and else
refused. -/
theorem C68_outside (E : Env) (O : Opts) (t : Tables) (s : Subset) (c : Varcode) (info : Varinfo)
    (h : t.query c = .ok info) (hn : info.IsNum) (hh : O.hook = none) (i : Int)
    (hi : i < info.imin ∨ info.imax < i) :
    (O.silent = true → ∃ v, (StoreOp.int c i).apply E O t s = .ok (s ++ [v]) ∧ v.info = info ∧
      v.toVarCore.view = none ∧ v.attrs = []) ∧
    (O.silent = false → O.clamp = true → ∃ v, (StoreOp.int c i).apply E O t s = .ok (s ++ [v]) ∧
      v.info = info ∧ v.attrs = [] ∧
      v.toVarCore.view = some (.num (if i < info.imin then info.imin else info.imax))) ∧
    (O.silent = false → O.clamp = false → (StoreOp.int c i).apply E O t s = .err .domain) := by
  have e : (Var.new info).seti O i = (Var.new info).assign_i_checked O i :=
    seti_num (show (Var.new info).info.IsNum from hn) i
  have hi' : i < (Var.new info).info.imin ∨ (Var.new info).info.imax < i := hi
  refine ⟨fun h1 => ⟨(Var.new info).unset, ?_, rfl, view_unset rfl, rfl⟩, fun h1 h2 => ⟨(Var.new info).putInt
    (if i < info.imin then info.imin else info.imax), ?_, rfl, rfl, view_num hn rfl rfl⟩,
    fun h1 h2 => ?_⟩ <;>
  simp only [StoreOp.apply, Subset.store_variable_i, Var.newInt, h, Res.ok_bind, e,
    Var.assign_i_checked, if_pos hi', h1]
  · rfl
  · simp only [h2]; rfl
  · simp only [h2, hh]; rfl

example : sampleTables.query (WR_VAR 0 12 101) = .ok sampleTemp ∧ sampleTemp.IsNum ∧
    Opts.default.hook = none ∧ sampleTemp.imax < 70000 ∧ Opts.default.silent = false :=
  ⟨by decide +kernel, .inr rfl, rfl, by decide +kernel, rfl⟩

/-- C68 is false in the code for doubles that no 32-bit number holds, given to an element
of integers: another value is stored, without an error. -/
theorem C68_not_double : sampleTables.query (WR_VAR 0 2 1) = .ok sampleCode ∧
    ((StoreOp.double (WR_VAR 0 2 1) (.fin 4294967297)).apply Env0 .default sampleTables []).bind
      (fun s => .ok (s.map fun v => (v.code, v.toVarCore.view))) =
    .ok [(WR_VAR 0 2 1, some (.num 1))] := by decide +kernel

/-- Requests that fit. -/
def sampleStores : List StoreOp :=
  [.copy sampleVar, .int (WR_VAR 0 12 101) 27315, .double (WR_VAR 0 12 101) (.fin (5463/20)),
    .text (WR_VAR 0 1 19) (ascii "Bologna") [], .undef (WR_VAR 0 12 101), .undefInfo sampleCode]

/-- Hypotheses of C68 met, and the values stored. -/
example : (∀ op ∈ sampleStores, op.Fits Env0 sampleTables) ∧
    ((StoreOp.run Env0 .default sampleTables [tempVar 5] sampleStores).bind
      fun s => .ok (s.map fun v => (v.code, v.toVarCore.view))) =
    .ok [(WR_VAR 0 12 101, some (.num 5)), (sampleVar.code, sampleVar.toVarCore.view),
      (WR_VAR 0 12 101, some (.num 27315)), (WR_VAR 0 12 101, some (.num 27315)),
      (WR_VAR 0 1 19, some (.text (ascii "Bologna"))), (WR_VAR 0 12 101, none), (sampleCode.code, none)] := by
  refine ⟨?_, by decide +kernel⟩
  intro op hop
  simp only [sampleStores, List.mem_cons, List.not_mem_nil, or_false] at hop
  rcases hop with rfl | rfl | rfl | rfl | rfl | rfl
  · exact sampleVar_WF
  · exact ⟨sampleTemp, by decide +kernel, .inr rfl, by decide +kernel⟩
  · exact ⟨sampleTemp, by decide +kernel, sampleTemp_made, rfl, nofun, by decide +kernel, by decide +kernel⟩
  · exact ⟨sampleStr, by decide +kernel, rfl, by unfold NulFree; decide⟩
  · exact ⟨sampleTemp, by decide +kernel⟩
  · trivial

/-- An element that is not in the table. -/
example : sampleTables.query (WR_VAR 0 63 1) = .err .notfound := by decide +kernel

end Wreport
