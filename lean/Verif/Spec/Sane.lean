import Verif.Spec.Tables
import Verif.Spec.Var

/-! # What decoded data must look like whatever the message -/

namespace Wreport

open Spec

/-- A value that can be read back: its storage is of the size and kind its
description says, the description is one that the library makes, and a number is in
the range of its description. -/
structure VarCore.Sane (E : Env) (v : VarCore) : Prop where
  wf : v.WF
  made : v.info.Made E
  range : ∀ i, v.view = some (.num i) → v.info.imin ≤ i ∧ i ≤ v.info.imax

/-- A variable whose value and attributes are sane, with attributes in increasing
code order. -/
structure Var.Sane (E : Env) (v : Var) : Prop where
  core : v.toVarCore.Sane E
  attrs : ∀ a ∈ v.attrs, a.Sane E
  sorted : v.attrs.Pairwise (fun a b => a.code < b.code)

/-- Options under which values out of range are not stored: the hook that programs
may install, if any, leaves sane variables sane and of the same description, and
clamping is off. -/
structure Opts.Sane (E : Env) (O : Opts) : Prop where
  clamp : O.clamp = false
  int : ∀ h, O.hook = some h → ∀ v i, Var.Sane E v →
    Var.Sane E (h.int v i).1 ∧ (h.int v i).1.info = v.info
  double : ∀ h, O.hook = some h → ∀ v d, Var.Sane E v →
    Var.Sane E (h.double v d).1 ∧ (h.double v d).1.info = v.info

/-- The descriptions made up so far are as the library makes them. -/
structure TableCaches.Made (E : Env) (t : TableCaches) : Prop where
  bitmap : ∀ k i, (k, i) ∈ t.bitmap_table → Varinfo.set_string E i.code k.length = .ok i
  chardata : ∀ k i, (k, i) ∈ t.chardata_table → Varinfo.set_string E k (WR_VAR_Y k) = .ok i
  unknown : ∀ k i, (k, i) ∈ t.unknown_table → Varinfo.set_binary E i.code k = .ok i

end Wreport
