import Verif.Spec.Own

/-!
# Setters of numbers

Setters of numbers keep descriptor and attributes and store a number or nothing, also when
there is a hook of that kind for values out of range.
-/

namespace Wreport.Own

open Spec

theorem NumSetter.attrs {f : Var → Var × Res Unit} (hf : NumSetter f) (V : Var) :
    (f V).1.attrs = V.attrs := by
  have := hf.over V V.attrs
  exact congrArg (fun r => r.1.attrs) this

theorem numSetter_unset (r : Res Unit) : NumSetter (fun V => (V.unset, r)) :=
  ⟨fun _ _ => rfl, fun _ => rfl, fun _ => .inl rfl⟩

theorem hook_int {O : Opts} (hO : PlainHook O) (x : Int) :
    NumSetter (fun V => match O.hook with
      | some h => h.int V x
      | none => (V.unset, .err .domain)) := by
  cases h : O.hook with
  | none => exact numSetter_unset _
  | some k => exact (hO k h).1 x

theorem hook_double {O : Opts} (hO : PlainHook O) (x : Dbl) :
    NumSetter (fun V => match O.hook with
      | some h => h.double V x
      | none => (V.unset, .err .domain)) := by
  cases h : O.hook with
  | none => exact numSetter_unset _
  | some k => exact (hO k h).2 x

/-- Which setter is used depends on the descriptor only. -/
theorem NumSetter.either {c : Varinfo → Prop} [DecidablePred c] {f g : Var → Var × Res Unit}
    (hf : NumSetter f) (hg : NumSetter g) : NumSetter (fun V => if c V.info then f V else g V) := by
  refine ⟨fun V l => ?_, fun V => ?_, fun V => ?_⟩ <;> beta_reduce <;> split
  · exact hf.over V l
  · exact hg.over V l
  · exact hf.info V
  · exact hg.info V
  · exact hf.cell V
  · exact hg.cell V

theorem numSetter_put (f : Varinfo → Int) : NumSetter (fun V => (V.putInt (f V.info), .ok ())) :=
  ⟨fun _ _ => rfl, fun _ => rfl, fun _ => .inr ⟨_, rfl⟩⟩

theorem numSetter_putDbl {E : Env} (f : Varinfo → Dbl) : NumSetter (fun V => V.putDbl E (f V.info)) := by
  refine ⟨fun V l => ?_, fun V => ?_, fun V => ?_⟩ <;> simp only [Var.putDbl] <;>
    cases V.info.encode_decimal E (f V.info)
  · rfl
  · rfl
  · rfl
  · rfl
  · rfl
  · rfl
  · exact .inr ⟨_, rfl⟩
  · exact .inl rfl
  · exact .inl rfl

theorem numSetter_assign_i {O : Opts} (hO : PlainHook O) (x : Int) :
    NumSetter (fun V => V.assign_i_checked O x) := by
  refine .either (c := fun i => x < i.imin ∨ i.imax < x) ?_ (numSetter_put fun _ => x)
  split
  · exact numSetter_unset _
  · split
    · exact numSetter_put fun i => if x < i.imin then i.imin else i.imax
    · exact hook_int hO x

theorem numSetter_text {O : Opts} (hO : PlainHook O) (s : List Byte) :
    NumSetter (fun V => V.setNumText O s) := by
  unfold Var.setNumText
  split
  · exact ⟨fun V l => rfl, fun V => rfl, fun V => .inl rfl⟩
  · exact numSetter_assign_i hO _

theorem numSetter_assign_d {E : Env} {O : Opts} (hO : PlainHook O) (x : Dbl) :
    NumSetter (fun V => V.assign_d_checked E O x) := by
  unfold Var.assign_d_checked
  split
  · split
    · exact numSetter_unset _
    · exact hook_double hO x
  · refine .either (c := fun i => x.lt i.dmin ∨ x.gt i.dmax) ?_ (numSetter_putDbl fun _ => x)
    split
    · exact numSetter_unset _
    · split
      · exact numSetter_putDbl fun i => .fin (if x.lt i.dmin then i.dmin else i.dmax)
      · exact hook_double hO x

theorem numSetter_setd {E : Env} {O : Opts} (hO : PlainHook O) (x : Dbl) :
    NumSetter (fun V => V.setd E O x) := by
  refine ⟨fun V l => ?_, fun V => ?_, fun V => ?_⟩ <;> simp only [Var.setd] <;>
    cases V.info.type <;> simp only
  all_goals first
    | exact (numSetter_assign_d hO x).over V l
    | exact (numSetter_assign_d hO x).info V
    | exact (numSetter_assign_d hO x).cell V
    | exact (numSetter_assign_i hO _).over V l
    | exact (numSetter_assign_i hO _).info V
    | exact (numSetter_assign_i hO _).cell V
    | rfl
    | exact .inl trivial

theorem PlainHook.of_none {O : Opts} (hO : O.hook = none) : PlainHook O := by
  intro k hk
  rw [hO] at hk
  cases hk

end Wreport.Own
