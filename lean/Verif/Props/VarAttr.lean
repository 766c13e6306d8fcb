import Verif.Props.Samples
import Verif.Lemmas.VarCopy

/-!
# C12, C13, C14, C15: attributes, copies, comparison, assignment
-/

namespace Wreport

open Spec

/-! ## C12 -/

/-- Operations on the attributes of a variable. -/
inductive AttrOp where
  | seta (attr : Var)
  | setaMove (attr : Var)
  | unseta (code : Nat)
  | clear

/-- Apply one operation. -/
def AttrOp.apply (v : Var) : AttrOp → Res Var
  | .seta a => v.seta a
  | .setaMove a => .ok (v.setaMove a)
  | .unseta c => .ok (v.unseta c)
  | .clear => .ok v.clear_attrs

/-- Apply operations in turn. -/
def AttrOp.run : Var → List AttrOp → Res Var
  | v, [] => .ok v
  | v, op :: ops => do
    let v ← op.apply v
    AttrOp.run v ops

/-- Specification: a map from descriptor code to descriptor and value. -/
abbrev AttrMap := Nat → Option (Varinfo × Option Value)

/-- Specification of one operation on the map. -/
def AttrOp.spec (m : AttrMap) : AttrOp → AttrMap
  | .seta a | .setaMove a =>
    fun c => if a.info.code = c then some (a.info, a.toVarCore.view) else m c
  | .unseta code => fun c => if code = c then none else m c
  | .clear => fun _ => none

/-- The variable an operation uses is well formed. -/
def AttrOp.Good : AttrOp → Prop
  | .seta a | .setaMove a => a.WF
  | _ => True

/-- The map a variable shows through lookups. -/
def Var.attrMap (v : Var) : AttrMap := fun c => (v.enqa c).map fun a => (a.info, a.view)

theorem Var.attrMap_eq {v : Var} (h : v.WF) (c : Nat) :
    v.attrMap c = (v.attrs.find? (fun a => a.code = c)).map fun a => (a.info, a.view) := by
  unfold Var.attrMap Var.enqa
  rw [enqaList_eq h.sorted]

theorem AttrOp.apply_ok {v : Var} (h : v.WF) (op : AttrOp) (hop : op.Good) :
    ∃ v', op.apply v = .ok v' ∧ v'.WF ∧ v'.toVarCore = v.toVarCore ∧
      v'.attrMap = op.spec v.attrMap := by
  have move : ∀ (a : VarCore), a.WF →
      ({ v with attrs := Var.setaList a v.attrs } : Var).WF ∧
      ({ v with attrs := Var.setaList a v.attrs } : Var).attrMap =
        fun c => if a.info.code = c then some (a.info, a.view) else v.attrMap c := by
    intro a ha
    have hw : ({ v with attrs := Var.setaList a v.attrs } : Var).WF :=
      ⟨h.core, fun x hx => (setaList_mem hx).elim (fun e => e ▸ ha) (h.attrs x),
        setaList_sorted h.sorted⟩
    refine ⟨hw, ?_⟩
    funext c
    rw [Var.attrMap_eq hw, Var.attrMap_eq h]
    simp only
    rw [find_setaList h.sorted]
    show Option.map _ (if a.info.code = c then _ else _) = _
    split <;> rfl
  cases op with
  | setaMove a =>
    obtain ⟨h1, h2⟩ := move a.toVarCore hop.core
    exact ⟨_, rfl, h1, rfl, h2⟩
  | seta a =>
    obtain ⟨b, b1, b2, b3, b4, b5, -⟩ := copy_ok (src := a) hop
    obtain ⟨h1, h2⟩ := move b.toVarCore b2.core
    refine ⟨_, ?_, h1, rfl, ?_⟩
    · show v.seta a = _
      unfold Var.seta
      rw [b1]
      rfl
    · rw [h2]
      unfold AttrOp.spec
      rw [b5, show b.toVarCore.info = b.info from rfl, b3]
  | unseta c =>
    have hsub := unsetaList_sublist c v.attrs
    have hw : (v.unseta c).WF :=
      ⟨h.core, fun x hx => h.attrs x (hsub.subset hx), h.sorted.sublist hsub⟩
    refine ⟨_, rfl, hw, rfl, ?_⟩
    funext c'
    rw [Var.attrMap_eq hw]
    show Option.map _ ((Var.unsetaList c v.attrs).find? _) = _
    rw [find_unsetaList h.sorted]
    unfold AttrOp.spec
    split
    · next e => simp [e]
    · next e => simp [e, Var.attrMap_eq h]
  | clear =>
    refine ⟨_, rfl, ⟨h.core, by simp [Var.clear_attrs], by simp [Var.clear_attrs]⟩, rfl, ?_⟩
    funext c
    simp [Var.attrMap, Var.enqa, Var.clear_attrs, Var.enqaList, AttrOp.spec]

/-- C12: over any sequence of attribute operations, lookups agree with the map
from descriptor to last value set; the variable's own value is untouched. -/
theorem C12_refines_map (v : Var) (ops : List AttrOp) (h : v.WF) (hops : ∀ o ∈ ops, o.Good) :
    ∃ v', AttrOp.run v ops = .ok v' ∧ v'.WF ∧ v'.toVarCore = v.toVarCore ∧
      v'.attrMap = ops.foldl AttrOp.spec v.attrMap := by
  induction ops generalizing v with
  | nil => exact ⟨v, rfl, h, rfl, rfl⟩
  | cons o ops ih =>
    obtain ⟨w, w1, w2, w3, w4⟩ := AttrOp.apply_ok h o (hops o (by simp))
    obtain ⟨x, x1, x2, x3, x4⟩ := ih w w2 (fun y hy => hops y (List.mem_cons_of_mem _ hy))
    refine ⟨x, ?_, x2, x3.trans w3, ?_⟩
    · rw [AttrOp.run, w1]; exact x1
    · rw [x4, w4]; rfl

/-- C12: iterating over the attributes gives exactly the entries of the map, in
strictly increasing code order. -/
theorem C12_iteration (v : Var) (h : v.WF) :
    v.attrs.Pairwise (fun a b => a.code < b.code) ∧
      ∀ info val, (∃ a ∈ v.attrs, a.info = info ∧ a.view = val) ↔
        v.attrMap info.code = some (info, val) := by
  refine ⟨h.sorted, ?_⟩
  intro info val
  rw [Var.attrMap_eq h]
  constructor
  · rintro ⟨a, ha, rfl, rfl⟩
    have : ∀ l : List VarCore, l.Pairwise (fun a b => a.code < b.code) → a ∈ l →
        l.find? (fun x => x.code = a.info.code) = some a := by
      intro l hs ha
      induction l with
      | nil => simp at ha
      | cons x l ih =>
        rw [List.pairwise_cons] at hs
        rw [List.find?_cons]
        rcases List.mem_cons.mp ha with rfl | ha
        · simp [VarCore.code]
        · have := hs.1 a ha
          have hne : x.code ≠ a.info.code := by
            show x.code ≠ a.code
            omega
          simp only [hne, decide_false]
          exact ih hs.2 ha
    rw [this _ h.sorted ha]; rfl
  · intro hm
    rw [Option.map_eq_some_iff] at hm
    obtain ⟨a, h1, h2⟩ := hm
    simp only [Prod.mk.injEq] at h2
    exact ⟨a, List.mem_of_find?_eq_some h1, h2.1, h2.2⟩

/-- A temperature of 15.00 degrees with a quality attribute of 1. -/
def sampleVar : Var :=
  { info := sampleTemp, isset := true, cell := .word 28815,
    attrs := [{ info := sampleCode, isset := true, cell := .word 1 }] }

theorem sampleVar_WF : sampleVar.WF := by
  refine ⟨⟨28815, rfl, rfl⟩, ?_, by simp [sampleVar]⟩
  intro a ha
  simp only [sampleVar, List.mem_singleton] at ha
  subst ha
  exact ⟨1, rfl, rfl⟩

example : sampleVar.WF ∧ (AttrOp.seta sampleVar).Good ∧
    (∃ a, sampleVar.enqa (WR_VAR 0 2 1) = some a ∧ a.view = some (.num 1)) :=
  ⟨sampleVar_WF, sampleVar_WF, _, rfl, rfl⟩

/-! ## C13 -/

/-- C13 (part): among variables whose descriptors come from the same tables,
comparison is defined and is true exactly when code, value and attributes agree.
Missing: variables with the same code and different descriptors, for which it
fails (`C13_not_different_tables`). -/
theorem C13_eq_iff_partial (x y : Var) (hx : x.WF) (hy : y.WF) (ht : SameTables x y) :
    x.eq y = .ok (decide (x.view = y.view)) := Var.eq_eq hx hy ht

theorem SameTables_symm {x y : Var} (h : SameTables x y) : SameTables y x :=
  fun a ha b hb e => (h b hb a ha e.symm).symm

/-- C13: a variable equals itself, even when its own attributes have the
variable's code. -/
theorem C13_reflexive_partial (x : Var) (hx : x.WF) (ht : SameTables x x) : x.eq x = .ok true := by
  rw [Var.eq_eq hx hx ht]; simp

/-- C13: comparison is symmetric (same tables). -/
theorem C13_symmetric_partial (x y : Var) (hx : x.WF) (hy : y.WF) (ht : SameTables x y) :
    x.eq y = y.eq x := by
  rw [Var.eq_eq hx hy ht, Var.eq_eq hy hx (SameTables_symm ht)]
  simp [eq_comm]

/-- C13: comparison is transitive (same tables). -/
theorem C13_transitive_partial (x y z : Var) (hx : x.WF) (hy : y.WF) (hz : z.WF)
    (h1 : SameTables x y) (h2 : SameTables y z) (h3 : SameTables x z)
    (hxy : x.eq y = .ok true) (hyz : y.eq z = .ok true) : x.eq z = .ok true := by
  rw [Var.eq_eq hx hy h1] at hxy
  rw [Var.eq_eq hy hz h2] at hyz
  rw [Var.eq_eq hx hz h3]
  simp only [Res.ok.injEq, decide_eq_true_eq] at *
  rw [hxy, hyz]

theorem sameTables_of_copy {x y : Var} (h0 : y.info = x.info)
    (h1 : y.attrs.map (fun a => (a.info, a.isset, a.view)) =
      x.attrs.map (fun a => (a.info, a.isset, a.view))) (hself : SameTables x x) :
    SameTables x y := by
  have infos : y.attrs.map (·.info) = x.attrs.map (·.info) := by
    have := congrArg (List.map Prod.fst) h1
    simpa [List.map_map, Function.comp_def] using this
  intro a ha b hb e
  have : ∃ b' ∈ x.toVarCore :: x.attrs, b'.info = b.info := by
    rcases List.mem_cons.mp hb with rfl | hb
    · exact ⟨x.toVarCore, by simp, h0.symm⟩
    · have : b.info ∈ y.attrs.map (·.info) := List.mem_map.mpr ⟨b, hb, rfl⟩
      rw [infos, List.mem_map] at this
      obtain ⟨b', h1, h2⟩ := this
      exact ⟨b', List.mem_cons_of_mem _ h1, h2⟩
  obtain ⟨b', hb', e'⟩ := this
  rw [← e']
  apply hself a ha b' hb'
  show a.info.code = b'.info.code
  rw [e']; exact e

/-- C13: the copy constructor never fails, and the copy compares equal to the
original, both ways. -/
theorem C13_copy_equal (x : Var) (hx : x.WF) (ht : SameTables x x) :
    ∃ y, x.copy = .ok y ∧ y.WF ∧ y.view = x.view ∧ x.eq y = .ok true ∧ y.eq x = .ok true := by
  obtain ⟨y, y1, y2, y3, y4, y5, y6⟩ := copy_ok hx
  have hv : y.view = x.view := by
    unfold Var.view
    rw [(codes_of_infos y6).2, y5]
    simp only [VarCore.code]
    rw [show y.toVarCore.info = y.info from rfl, y3]
  have ht' := sameTables_of_copy y3 y6 ht
  refine ⟨y, y1, y2, hv, ?_, ?_⟩
  · rw [Var.eq_eq hx y2 ht', hv]; simp
  · rw [Var.eq_eq y2 hx (SameTables_symm ht'), hv]; simp

example : SameTables sampleVar sampleVar := by
  intro a ha b hb e
  simp only [sampleVar, List.mem_cons, List.not_mem_nil, or_false] at ha hb
  rcases ha with rfl | rfl <;> rcases hb with rfl | rfl <;> first | rfl | exact absurd e (by decide)

/-- The same code in another table, as a string. -/
def sampleTempStr : Varinfo :=
  made (Varinfo.raw (WR_VAR 0 12 101) .string (ascii "CCITTIA5") 0 2 0 16)

/-- C13 fails between variables with the same code and different types:
comparing a string with a number uses the number as a pointer. -/
theorem C13_not_different_tables :
    ((Var.new sampleTempStr).sets .default (ascii "x")).1.eq ((Var.new sampleTemp).putInt 5) = .ub := by
  decide

/-- C13 fails between variables with the same code and different scale: different
numbers compare equal. -/
theorem C13_not_different_scale :
    ((Var.new sampleTemp).putInt 5).eq ((Var.new { sampleTemp with scale := 1 }).putInt 5) = .ok true := by
  decide

/-! ## C14 -/

/-- C14 (part): for variables from the same tables, if they are set or have no
attributes, `diff` reports zero exactly when they compare equal. Missing: unset
variables with attributes, for which it fails (`C14_not_unset`). -/
theorem C14_diff_iff_eq_partial (x y : Var) (hx : x.WF) (hy : y.WF) (ht : SameTables x y)
    (h : x.isset = true ∨ y.isset = true ∨ (x.attrs = [] ∧ y.attrs = [])) :
    ∃ d e, x.diff y = .ok d ∧ x.eq y = .ok e ∧ (d = 0 ↔ e = true) := by
  obtain ⟨d, d1, d2⟩ := Var.diff_eq hx hy ht
  refine ⟨d, _, d1, Var.eq_eq hx hy ht, ?_⟩
  rw [d2, decide_eq_true_eq]
  constructor
  · rintro ⟨⟨h1, h2⟩, h3⟩
    rcases h with h | h | ⟨h, h'⟩
    · exact h3 h
    · exact h3 ((WF_view_isset hx.core hy.core h2).trans h)
    · unfold Var.view
      rw [h, h', h1, h2]
  · intro h1
    refine ⟨?_, fun _ => h1⟩
    unfold Var.view at h1
    simp only [Prod.mk.injEq] at h1
    exact h1.1

example : sampleVar.WF ∧ SameTables sampleVar (Var.new sampleTemp) ∧ sampleVar.isset = true ∧
    sampleVar.diff (Var.new sampleTemp) = .ok 1 := by
  refine ⟨sampleVar_WF, ?_, rfl, by decide +kernel⟩
  intro a ha b hb e
  simp only [sampleVar, Var.new, List.mem_cons, List.not_mem_nil, or_false] at ha hb
  rcases ha with rfl | rfl <;> rcases hb with rfl <;> first | rfl | exact absurd e (by decide)

/-- C14 fails for unset variables: their attributes are never looked at. -/
theorem C14_not_unset :
    sampleVar.unset.diff (Var.new sampleTemp) = .ok 0 ∧
      sampleVar.unset.eq (Var.new sampleTemp) = .ok false := by
  decide +kernel

/-! ## C15 -/

/-- C15 (part): copy assignment between variables with the same descriptor makes
the target show what the source shows. Missing: different descriptors, for which
it fails (`C15_not_longer_string`, `C15_not_number_to_string`). -/
theorem C15_copy_assign_partial (v src : Var) (hv : v.WF) (hs : src.WF) (hi : v.info = src.info) :
    ∃ v', v.assign src = .ok v' ∧ v'.WF ∧ v'.info = src.info ∧ v'.view = src.view := by
  have e : ({ v with info := src.info } : Var) = v := by rw [← hi]
  obtain ⟨c, c1, c2, -, c4, c5, -⟩ := copy_value_ok hv.core hs.core hi
  obtain ⟨w, w1, w2, w3, w4⟩ := setattrs_ok (v := c) c4 hs
  refine ⟨w, ?_, w2, ?_, ?_⟩
  · unfold Var.assign
    simp only [e, c1, Res.ok_bind]
    exact w1
  · rw [show w.info = w.toVarCore.info from rfl, w3, ← hi]; exact c2
  · unfold Var.view
    rw [w3, c5, (codes_of_infos w4).2]
    simp only [VarCore.code]
    rw [show c.toVarCore.info = c.info from rfl, c2, hi]

/-- C15: copy assignment of any source onto a variable that was never set. -/
theorem C15_copy_assign_fresh (info : Varinfo) (src : Var) (hs : src.WF) :
    ∃ v', (Var.new info).assign src = .ok v' ∧ v'.WF ∧ v'.info = src.info ∧ v'.view = src.view :=
  C15_copy_assign_partial (Var.new src.info) src ⟨WF_new _, by simp [Var.new], by simp [Var.new]⟩ hs rfl

/-- C15 (part): move assignment between variables with the same descriptor.
Missing: different descriptors (`C15_not_move`). -/
theorem C15_move_assign_partial (v src : Var) (hv : v.WF) (hs : src.WF) (hi : v.info = src.info) :
    (v.moveAssign src).1.WF ∧ (v.moveAssign src).1.view = src.view ∧
      (v.moveAssign src).1.info = src.info ∧ (v.moveAssign src).2.isset = false := by
  have key : (v.moveAssign src).1.toVarCore.WF ∧
      (v.moveAssign src).1.toVarCore.view = src.toVarCore.view ∧
      (v.moveAssign src).1.info = src.info ∧ (v.moveAssign src).2.isset = false ∧
      (v.moveAssign src).1.attrs = src.attrs := by
    unfold Var.moveAssign Var.move_value
    cases hset : src.isset with
    | false =>
      simp only [Bool.not_false, if_true]
      exact ⟨WF_isset_false hv.core, by rw [view_unset hset]; exact view_unset rfl, hi, hset, trivial⟩
    | true =>
      simp only [Bool.not_true, Bool.false_eq_true, if_false]
      have e : ({ v.toVarCore with isset := true, cell := src.cell } : VarCore) = src.toVarCore := by
        show VarCore.mk v.info true src.cell = src.toVarCore
        rw [hi, ← hset]
      cases v.info.type <;> exact ⟨e ▸ hs.core, by rw [← e], hi, rfl, trivial⟩
  obtain ⟨k1, k2, k3, k4, k5⟩ := key
  refine ⟨⟨k1, by rw [k5]; exact hs.attrs, by rw [k5]; exact hs.sorted⟩, ?_, k3, k4⟩
  unfold Var.view
  rw [k2, k5]
  simp only [VarCore.code]
  rw [show (v.moveAssign src).1.toVarCore.info = (v.moveAssign src).1.info from rfl, k3]

/-- C15: the move constructor gives a variable that shows what the source was. -/
theorem C15_move_construct (src : Var) (hs : src.WF) :
    src.move.1.WF ∧ src.move.1.view = src.view ∧ src.move.2.isset = false := by
  have := C15_move_assign_partial (Var.new src.info) src ⟨WF_new _, by simp [Var.new], by simp [Var.new]⟩
    hs rfl
  exact ⟨this.1, this.2.1, this.2.2.2⟩

example : sampleVar.WF ∧ (Var.new sampleTemp).WF ∧ (Var.new sampleTemp).info = sampleVar.info :=
  ⟨sampleVar_WF, ⟨WF_new _, by simp [Var.new], by simp [Var.new]⟩, rfl⟩

/-- C15 fails when a variable holding a short string is assigned a longer one: the
old buffer is too small. -/
theorem C15_not_longer_string :
    ((Var.new sampleTempStr).sets .default (ascii "x")).1.assign
      ((Var.new sampleStr).sets .default (ascii "Bologna")).1 = .ub := by decide

/-- C15 fails when a variable holding a number is assigned a string: the number is
used as a pointer. -/
theorem C15_not_number_to_string :
    ((Var.new sampleTemp).putInt 5).assign ((Var.new sampleStr).sets .default (ascii "x")).1 = .ub := by
  decide

/-- C15 fails for move assignment: the target keeps its old descriptor. -/
theorem C15_not_move :
    (((Var.new sampleLat).putInt 1).moveAssign ((Var.new sampleTemp).putInt 28815)).1.code =
        WR_VAR 0 5 2 ∧
      (((Var.new sampleLat).putInt 1).moveAssign ((Var.new sampleTemp).putInt 28815)).1.eq
        ((Var.new sampleTemp).putInt 28815) = .ok false := by decide

end Wreport
