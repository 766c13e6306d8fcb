import Verif.Model.Listing
import Verif.Spec.Listing

/-! # What a printout of a subset should contain -/

namespace Wreport.Spec

/-- The variables among the items of a printout. -/
def printedVars (items : List Item) : List Var :=
  items.filterMap fun x => match x.content with
    | .var v => some v
    | _ => none

/-- The variable printed is the count for a bitmap: a new variable with the length of the
bitmap, which is the next variable. -/
def BitmapCount (O : Opts) (subset : List Var) (x : Item) (v : Var) : Prop :=
  ∃ w info, subset[x.var_pos]? = some w ∧ info.code = x.code ∧
    Var.newInt O info (wrapInt w.info.len) = .ok v

/-- An item tells something true about a subset: a variable of it or the count for a
bitmap; an attribute of the variable at the given position, or that it has none such;
an attribute of some variable with the given code. -/
def Truthful (O : Opts) (subset : List Var) (x : Item) : Prop :=
  match x.content with
  | .var v => v ∈ subset ∨ BitmapCount O subset x v
  | .attr a => ∃ v, subset[x.var_pos]? = some v ∧ a ∈ v.attrs ∧ a.code = x.code
  | .undef => ∃ v, subset[x.var_pos]? = some v ∧ ∀ a ∈ v.attrs, a.code ≠ x.code
  | .field a => ∃ v ∈ subset, v.code = x.code ∧ a ∈ v.attrs
  | .noField _ => ∃ v ∈ subset, v.code = x.code

end Wreport.Spec
