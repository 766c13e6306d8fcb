import Verif.Spec.Structure

/-!
# What the option to add undefined attributes may change
-/

namespace Wreport.Spec

/-- An attribute that stands for a missing associated field: the two quality elements with
no value, or the element that says that the following value is replaced. -/
def Undefined (a : VarCore) : Prop :=
  (a.code = WR_VAR 0 33 2 ∨ a.code = WR_VAR 0 33 50) ∧ a.isset = false ∨ a.code = WR_VAR 0 33 41

/-- `w` is `v`, without some attributes that stand for a missing field. -/
structure ButUndefined (v w : Var) : Prop where
  core : w.toVarCore = v.toVarCore
  attrs : ∀ c, w.enqa c = v.enqa c ∨ w.enqa c = none ∧ ∃ a, v.enqa c = some a ∧ Undefined a

/-- `w` is `v`, with some attributes that stand for a missing field left out or replaced. -/
structure OverUndefined (v w : Var) : Prop where
  core : w.toVarCore = v.toVarCore
  attrs : ∀ c, w.enqa c = v.enqa c ∨ ∃ a, v.enqa c = some a ∧ Undefined a

/-- A domain error hook leaves the attributes of the variable alone. -/
def HookKeepsAttrs (O : Opts) : Prop :=
  ∀ h, O.hook = some h →
    (∀ v x, (h.int v x).1.attrs = v.attrs) ∧ ∀ v x, (h.double v x).1.attrs = v.attrs

end Wreport.Spec
