import Verif.Lemmas.Decoded
import Verif.Spec.Undef
import Verif.Props.Assoc
import Verif.Props.CompressedData

/-!
# C78: the option to add undefined attributes
-/

namespace Wreport

open Spec

theorem ofRes_attrs {v : Var} {r : Res Var} (h : ∀ w, r = .ok w → w.attrs = v.attrs) :
    (v.ofRes r).1.attrs = v.attrs := by
  cases r with
  | ok w => exact h w rfl
  | err e => rfl
  | ub => rfl

theorem assign_i_attrs {O : Opts} (hO : HookKeepsAttrs O) (v : Var) (x : Int) :
    (v.assign_i_checked O x).1.attrs = v.attrs := by
  unfold Var.assign_i_checked
  split
  · split
    · rfl
    · split
      · rfl
      · split
        · rename_i h hh
          exact (hO h hh).1 v x
        · rfl
  · rfl

theorem putDbl_attrs (E : Env) (v : Var) (x : Dbl) : (v.putDbl E x).1.attrs = v.attrs := by
  refine ofRes_attrs fun w hw => ?_
  obtain ⟨i, -, hw⟩ := Res.bind_eq_ok.mp hw
  cases hw
  rfl

theorem assign_d_attrs {E : Env} {O : Opts} (hO : HookKeepsAttrs O) (v : Var) (x : Dbl) :
    (v.assign_d_checked E O x).1.attrs = v.attrs := by
  unfold Var.assign_d_checked
  split
  · split
    · rfl
    · split
      · rename_i h hh
        exact (hO h hh).2 v x
      · rfl
  · split
    · split
      · rfl
      · split
        · exact putDbl_attrs E v _
        · split
          · rename_i h hh
            exact (hO h hh).2 v x
          · rfl
    · exact putDbl_attrs E v x

theorem assign_b_attrs (v : Var) (m : Mem) (n : Nat) : (v.assign_b_checked m n).1.attrs = v.attrs := by
  refine ofRes_attrs fun w hw => ?_
  obtain ⟨a, -, hw⟩ := Res.bind_eq_ok.mp hw
  split at hw
  · obtain ⟨b, -, hw⟩ := Res.bind_eq_ok.mp hw
    obtain ⟨c, -, hw⟩ := Res.bind_eq_ok.mp hw
    cases hw
    rfl
  · obtain ⟨b, -, hw⟩ := Res.bind_eq_ok.mp hw
    obtain ⟨c, -, hw⟩ := Res.bind_eq_ok.mp hw
    obtain ⟨d, -, hw⟩ := Res.bind_eq_ok.mp hw
    cases hw
    rfl

theorem assign_c_attrs (v : Var) (m : Mem) (n : Nat) : (v.assign_c_checked m n).1.attrs = v.attrs := by
  refine ofRes_attrs fun w hw => ?_
  obtain ⟨a, -, hw⟩ := Res.bind_eq_ok.mp hw
  obtain ⟨b, -, hw⟩ := Res.bind_eq_ok.mp hw
  obtain ⟨c, -, hw⟩ := Res.bind_eq_ok.mp hw
  cases hw
  rfl

theorem seti_attrs {O : Opts} (hO : HookKeepsAttrs O) (v : Var) (x : Int) :
    (v.seti O x).1.attrs = v.attrs := by
  unfold Var.seti
  split <;> first | rfl | exact assign_i_attrs hO v x

theorem setd_attrs {E : Env} {O : Opts} (hO : HookKeepsAttrs O) (v : Var) (x : Dbl) :
    (v.setd E O x).1.attrs = v.attrs := by
  unfold Var.setd
  split <;> first | rfl | exact assign_i_attrs hO v _ | exact assign_d_attrs hO v x

theorem setNumText_attrs {O : Opts} (hO : HookKeepsAttrs O) (v : Var) (s : List Byte) :
    (v.setNumText O s).1.attrs = v.attrs := by
  unfold Var.setNumText
  split
  · rfl
  · exact assign_i_attrs hO v _

theorem setc_attrs {O : Opts} (hO : HookKeepsAttrs O) (v : Var) (m : Mem) :
    (v.setc O m).1.attrs = v.attrs := by
  unfold Var.setc
  split
  · exact assign_c_attrs v m _
  · exact assign_b_attrs v m _
  all_goals
    split
    · exact setNumText_attrs hO v _
    all_goals rfl

theorem sets_attrs {O : Opts} (hO : HookKeepsAttrs O) (v : Var) (s : List Byte) :
    (v.sets O s).1.attrs = v.attrs := by
  unfold Var.sets
  split
  · exact assign_c_attrs v _ _
  · exact assign_b_attrs v _ _
  all_goals exact setNumText_attrs hO v _

theorem newStr_attrs {O : Opts} (hO : HookKeepsAttrs O) {info : Varinfo} {s : List Byte} {v : Var}
    (h : Var.newStr O info s = .ok v) : v.attrs = [] := by
  unfold Var.newStr at h
  obtain ⟨_, -, h⟩ := Res.bind_eq_ok.mp h
  cases h
  exact sets_attrs hO _ s

theorem copy_value_attrs {v w : Var} {src : VarCore} (h : v.copy_value src = .ok w) :
    w.attrs = v.attrs := by
  unfold Var.copy_value at h
  split at h
  · cases h; rfl
  split at h
  · obtain ⟨a, -, h⟩ := Res.bind_eq_ok.mp h
    obtain ⟨b, -, h⟩ := Res.bind_eq_ok.mp h
    obtain ⟨c, -, h⟩ := Res.bind_eq_ok.mp h
    obtain ⟨d, -, h⟩ := Res.bind_eq_ok.mp h
    cases h
    rfl
  · obtain ⟨a, -, h⟩ := Res.bind_eq_ok.mp h
    obtain ⟨b, -, h⟩ := Res.bind_eq_ok.mp h
    obtain ⟨c, -, h⟩ := Res.bind_eq_ok.mp h
    obtain ⟨d, -, h⟩ := Res.bind_eq_ok.mp h
    cases h
    rfl
  all_goals
    split at h
    · cases h; rfl
    · cases h

namespace Input

theorem setDecoded_attrs {O : Opts} (hO : HookKeepsAttrs O) {v w : Var} {s : Option (List Byte)}
    (h : setDecoded O v s = .ok w) : w.attrs = v.attrs := by
  cases s with
  | none => cases h; rfl
  | some s =>
    obtain ⟨_, -, h⟩ := Res.bind_eq_ok.mp h
    cases h
    exact setc_attrs hO v _

theorem setNumber_attrs {E : Env} {O : Opts} (hO : HookKeepsAttrs O) {v w : Var} {n : Nat}
    (h : setNumber E O v n = .ok w) : w.attrs = v.attrs := by
  obtain ⟨d, -, h⟩ := Res.bind_eq_ok.mp h
  obtain ⟨_, -, h⟩ := Res.bind_eq_ok.mp h
  cases h
  exact setd_attrs hO v _

theorem setNumberOrMissing_attrs {E : Env} {O : Opts} (hO : HookKeepsAttrs O) {v w : Var} {b : Bool}
    {n : Nat} (h : setNumberOrMissing E O v b n = .ok w) : w.attrs = v.attrs := by
  unfold setNumberOrMissing at h
  split at h
  · cases h; rfl
  · exact setNumber_attrs hO h

theorem decode_string_var_attrs {O : Opts} (hO : HookKeepsAttrs O) {i : Input} {v : Var}
    {r : Var × Input} (h : i.decode_string_var O v = .ok r) : r.1.attrs = v.attrs := by
  obtain ⟨a, -, h⟩ := Res.bind_eq_ok.mp h
  obtain ⟨b, h1, h⟩ := Res.bind_eq_ok.mp h
  cases h
  exact setDecoded_attrs hO h1

theorem decode_binary_attrs {O : Opts} (hO : HookKeepsAttrs O) {i : Input} {v : Var}
    {r : Var × Input} (h : i.decode_binary O v = .ok r) : r.1.attrs = v.attrs := by
  obtain ⟨a, -, h⟩ := Res.bind_eq_ok.mp h
  split at h
  · cases h; rfl
  · obtain ⟨b, -, h⟩ := Res.bind_eq_ok.mp h
    cases h
    exact setc_attrs hO v _

theorem decode_number_attrs {E : Env} {O : Opts} (hO : HookKeepsAttrs O) {i : Input} {v : Var}
    {r : Var × Input} (h : i.decode_number E O v = .ok r) : r.1.attrs = v.attrs := by
  obtain ⟨a, -, h⟩ := Res.bind_eq_ok.mp h
  obtain ⟨b, -, h⟩ := Res.bind_eq_ok.mp h
  obtain ⟨c, h1, h⟩ := Res.bind_eq_ok.mp h
  cases h
  exact setNumberOrMissing_attrs hO h1

end Input

theorem copy_plain_attrs {v w : Var} (hv : v.attrs = []) (h : v.copy = .ok w) : w.attrs = [] := by
  unfold Var.copy at h
  obtain ⟨a, -, h⟩ := Res.bind_eq_ok.mp h
  unfold Var.setattrs at h
  rw [hv] at h
  cases h
  rfl

/-- Attributes in order of code. -/
def Var.Ordered (v : Var) : Prop := v.attrs.Pairwise fun a b => a.code < b.code

theorem Var.Ordered.nil {v : Var} (h : v.attrs = []) : v.Ordered := by
  unfold Var.Ordered
  rw [h]
  exact .nil

theorem Var.Ordered.setaMove {v a : Var} (h : v.Ordered) : (v.setaMove a).Ordered :=
  setaList_sorted h

theorem enqa_setaMove {v a : Var} (h : v.Ordered) (c : Nat) :
    (v.setaMove a).enqa c = if a.toVarCore.code = c then some a.toVarCore else v.enqa c := by
  unfold Var.enqa
  rw [enqaList_eq (show (v.setaMove a).attrs.Pairwise _ from setaList_sorted h), enqaList_eq h]
  exact find_setaList h c

theorem Spec.ButUndefined.refl (v : Var) : ButUndefined v v := ⟨rfl, fun _ => .inl rfl⟩

theorem Spec.ButUndefined.both {v w : Var} (h : ButUndefined v w) (hv : v.Ordered) (hw : w.Ordered)
    (a : Var) : ButUndefined (v.setaMove a) (w.setaMove a) := by
  refine ⟨h.core, fun c => ?_⟩
  rw [enqa_setaMove hv, enqa_setaMove hw]
  split
  · exact .inl rfl
  · exact h.attrs c

theorem Spec.ButUndefined.first {v : Var} (hv : v.attrs = []) {a : Var} (ha : Undefined a.toVarCore) :
    ButUndefined (v.setaMove a) v := by
  refine ⟨rfl, fun c => ?_⟩
  rw [enqa_setaMove (.nil hv)]
  have hn : v.enqa c = none := by unfold Var.enqa; rw [hv]; rfl
  split
  · exact .inr ⟨hn, _, rfl, ha⟩
  · exact .inl rfl

/-- What skipping missing values changes in the attribute made from an associated field. -/
theorem AssociatedField.make_attribute_skip {E : Env} {O : Opts} {t : Vartable}
    (hO : HookKeepsInfo O) {f g : AssociatedField} (hb : g.bit_count = f.bit_count)
    (hs : g.significance = f.significance) (hf : f.skip_missing = false)
    (hg : g.skip_missing = true) {value : Nat} {a : Option Var}
    (h : f.make_attribute E O t value = .ok a) :
    g.make_attribute E O t value = .ok a ∨
      g.make_attribute E O t value = .ok none ∧ ∃ x, a = some x ∧ Undefined x.toVarCore := by
  unfold make_attribute at h ⊢
  rw [hb, hs]
  obtain ⟨ones, h1, h⟩ := Res.bind_eq_ok.mp h
  rw [h1, Res.ok_bind]
  simp only [hf, hg, Bool.and_false, Bool.and_true, Bool.not_false, Bool.not_true, Bool.true_or,
    Bool.false_or, Bool.false_eq_true, if_false, if_true] at h ⊢
  have hmiss : ∀ {q : Varcode}, (q = WR_VAR 0 33 2 ∨ q = WR_VAR 0 33 50) →
      fieldAttr O t q (decide (value = ones)) value = .ok a → decide (value = ones) = true →
      ∃ x, a = some x ∧ Undefined x.toVarCore := by
    intro q hq ha hm
    unfold fieldAttr at ha
    obtain ⟨info, i1, ha⟩ := Res.bind_eq_ok.mp ha
    rw [if_pos hm] at ha
    cases ha
    have hc : (Var.new info).toVarCore.code = q := Sequential.query_code i1
    exact ⟨_, rfl, .inl ⟨by rw [hc]; exact hq, rfl⟩⟩
  split
  · exact .inl (by rwa [if_pos (by assumption)] at h)
  rw [if_neg (by assumption)] at h
  split
  · exact .inl (by rwa [if_pos (by assumption)] at h)
  rw [if_neg (by assumption)] at h
  split
  · rw [if_pos (by assumption)] at h
    split
    · exact .inr ⟨rfl, hmiss (.inr rfl) h (by assumption)⟩
    · exact .inl h
  rw [if_neg (by assumption)] at h
  split
  · exact .inl (by rwa [if_pos (by assumption)] at h)
  rw [if_neg (by assumption)] at h
  split
  · rw [if_pos (by assumption)] at h
    split
    · exact .inr ⟨rfl, hmiss (.inl rfl) h (by assumption)⟩
    · exact .inl h
  rw [if_neg (by assumption)] at h
  split
  · rw [if_pos (by assumption)] at h
    split
    · exact .inl h
    · refine .inr ⟨rfl, ?_⟩
      unfold fieldAttr at h
      obtain ⟨info, i1, h⟩ := Res.bind_eq_ok.mp h
      simp only [Bool.false_eq_true, if_false] at h
      obtain ⟨x, x1, h⟩ := Res.bind_eq_ok.mp h
      cases h
      refine ⟨x, rfl, .inr ?_⟩
      unfold Var.newInt at x1
      obtain ⟨_, -, x1⟩ := Res.bind_eq_ok.mp x1
      cases x1
      have : ((Var.new info).seti O (ofU32 0)).1.info = info := seti_info hO _ _
      show (((Var.new info).seti O (ofU32 0)).1.info).code = _
      rw [this]
      exact Sequential.query_code i1
  rw [if_neg (by assumption)] at h
  exact .inl h

/-- Two subsets with variables in the relation `B`, and attributes in order. -/
structure OutsOf (B : Var → Var → Prop) (out out' : List Var) : Prop where
  length : out'.length = out.length
  vars : ∀ k (h : k < out.length) (h' : k < out'.length), out[k].Ordered ∧ out'[k].Ordered ∧
    B out[k] out'[k]

variable {B : Var → Var → Prop}

theorem OutsOf.snoc {out out' : List Var} (h : OutsOf B out out') {v w : Var} (hv : v.Ordered)
    (hw : w.Ordered) (hb : B v w) : OutsOf B (out ++ [v]) (out' ++ [w]) := by
  refine ⟨by simp [h.length], fun k hk hk' => ?_⟩
  by_cases hl : k < out.length
  · have hl' : k < out'.length := by rw [h.length]; exact hl
    simpa only [List.getElem_append_left hl, List.getElem_append_left hl'] using h.vars k hl hl'
  · have hl' : out'.length ≤ k := by rw [h.length]; omega
    simp only [List.getElem_append_right (Nat.le_of_not_lt hl), List.getElem_append_right hl',
      List.getElem_singleton]
    exact ⟨hv, hw, hb⟩

theorem OutsOf.set {out out' : List Var} (h : OutsOf B out out') (pos : Nat) {v w : Var} (hv : v.Ordered)
    (hw : w.Ordered) (hb : B v w) : OutsOf B (out.set pos v) (out'.set pos w) := by
  refine ⟨by simp [h.length], fun k hk hk' => ?_⟩
  rw [List.getElem_set, List.getElem_set]
  split
  · exact ⟨hv, hw, hb⟩
  · exact h.vars k _ _

theorem OutsOf.cores (hB : ∀ v w, B v w → w.toVarCore = v.toVarCore) {out out' : List Var}
    (h : OutsOf B out out') :
    out'.map (·.toVarCore) = out.map (·.toVarCore) := by
  refine List.ext_getElem (by simp [h.length]) fun k h1 h2 => ?_
  simp only [List.getElem_map]
  exact hB _ _ (h.vars k (by simpa using h2) (by simpa using h1)).2.2

theorem OutsOf.codes (hB : ∀ v w, B v w → w.toVarCore = v.toVarCore) {out out' : List Var}
    (h : OutsOf B out out') :
    out'.map (·.code) = out.map (·.code) := by
  have := congrArg (List.map VarCore.code) (h.cores hB)
  simpa [List.map_map, Function.comp_def] using this

namespace Decoder

/-- The subsets decoded with and without undefined attributes. -/
abbrev Outs (out out' : List Var) : Prop := OutsOf ButUndefined out out'

/-- A decoder that adds undefined attributes, and one that does not. -/
def undefRel : Rel Dec Dec where
  le _ _ := True
  refl _ := trivial
  trans _ _ _ _ _ := trivial
  Q _ a b c c' x y := b.input = a.input ∧ Outs a.out b.out ∧ c'.bitmap_table = c.bitmap_table ∧
    c'.chardata_table = c.chardata_table ∧ x = false ∧ y = true
  stable _ _ _ _ _ _ _ _ _ h := h

/-- The same state with other variables, skipping missing values. -/
def skipping (s : St) (out : List Var) : St :=
  { s with
    tgt := { s.tgt with out := out }
    associated_field := { s.associated_field with skip_missing := true } }

theorem undefRel_iff {F : Dec} {s t : St} : undefRel.R F s t ↔
    s.associated_field.skip_missing = false ∧ ∃ out, Outs s.tgt.out out ∧ t = skipping s out := by
  constructor
  · rintro ⟨⟨h1, h2, h3, h4, h5, h6, h7, h8, h9, h10⟩, q1, q2, q3, q4, q5, q6⟩
    refine ⟨q5, t.tgt.out, q2, ?_⟩
    obtain ⟨b, ⟨f1, f2, f3⟩, c1, c2, c3, c4, c5, c6, ⟨d1, d2, d3⟩, ⟨e1, e2⟩⟩ := t
    obtain ⟨b', ⟨f1', f2', f3'⟩, c1', c2', c3', c4', c5', c6', ⟨d1', d2', d3'⟩, ⟨e1', e2'⟩⟩ := s
    simp only at *
    subst_vars
    rfl
  · rintro ⟨h1, out, h2, rfl⟩
    exact ⟨⟨rfl, rfl, rfl, rfl, rfl, rfl, rfl, rfl, rfl, rfl⟩, rfl, h2, rfl, rfl, h1, rfl⟩

/-- A step in terms of the states themselves. -/
theorem undef_sim {s : St} {r : Res St} {g : St → Res St}
    (h : ∀ s' out, r = .ok s' → s.associated_field.skip_missing = false → Outs s.tgt.out out →
      ∃ out', g (skipping s out) = .ok (skipping s' out') ∧ Outs s'.tgt.out out' ∧
        s'.associated_field.skip_missing = false) : undefRel.Sim s r g := by
  intro s' hs
  refine ⟨trivial, fun F t _ hr => ?_⟩
  obtain ⟨h1, out, h2, rfl⟩ := undefRel_iff.mp hr
  obtain ⟨out', g1, g2, g3⟩ := h s' out hs h1 h2
  exact ⟨_, g1, undefRel_iff.mpr ⟨g3, out', g2, rfl⟩⟩

theorem undef_simV {α : Type} {s : St} {r : Res (α × St)} {g : St → Res (α × St)}
    (h : ∀ a s' out, r = .ok (a, s') → s.associated_field.skip_missing = false →
      Outs s.tgt.out out → ∃ out', g (skipping s out) = .ok (a, skipping s' out') ∧
        Outs s'.tgt.out out' ∧ s'.associated_field.skip_missing = false) :
    undefRel.SimV s r g := by
  intro a s' hs
  refine ⟨trivial, fun F t _ hr => ?_⟩
  obtain ⟨h1, out, h2, rfl⟩ := undefRel_iff.mp hr
  obtain ⟨out', g1, g2, g3⟩ := h a s' out hs h1 h2
  exact ⟨_, g1, undefRel_iff.mpr ⟨g3, out', g2, rfl⟩⟩

theorem decode_uniform_attrs {C : Ctx} (hA : HookKeepsAttrs C.O) {i : Input} {info : Varinfo}
    {r : Var × Input} (h : decode_uniform_b_value C i info = .ok r) : r.1.attrs = [] := by
  unfold decode_uniform_b_value at h
  split at h
  · exact Input.decode_string_var_attrs hA h
  · exact Input.decode_binary_attrs hA h
  all_goals exact Input.decode_number_attrs hA h

theorem newStr_attrs' {O : Opts} (hA : HookKeepsAttrs O) {info : Varinfo} {x : List Byte} {v : Var}
    (h : Var.newStr O info x = .ok v) : v.attrs = [] := newStr_attrs hA h

theorem Outs.plain {out out' : List Var} (h : Outs out out') {v : Var} (hv : v.attrs = []) :
    Outs (out ++ [v]) (out' ++ [v]) := OutsOf.snoc h (.nil hv) (.nil hv) (.refl v)

theorem storeCopy_ok {s s' : St} {v : Var} (h : storeCopy s v = .ok s') :
    ∃ w, v.copy = .ok w ∧ s' = store s w := by
  obtain ⟨w, h1, h⟩ := Res.bind_eq_ok.mp h
  cases h
  exact ⟨w, h1, rfl⟩

theorem define_variable_undef {C : Ctx} (hA : HookKeepsAttrs C.O) {s s' : St} {info : Varinfo}
    {out : List Var} (h : define_variable C s info = .ok s')
    (hs : s.associated_field.skip_missing = false) (ho : Outs s.tgt.out out) :
    ∃ out', define_variable C (skipping s out) info = .ok (skipping s' out') ∧
      Outs s'.tgt.out out' ∧ s'.associated_field.skip_missing = false := by
  obtain ⟨r, h1, h⟩ := Res.bind_eq_ok.mp h
  obtain ⟨w, h2, rfl⟩ := storeCopy_ok h
  refine ⟨out ++ [w], ?_, Outs.plain ho (copy_plain_attrs (decode_uniform_attrs hA h1) h2), hs⟩
  unfold define_variable
  rw [show (skipping s out).tgt.input = s.tgt.input from rfl, h1, Res.ok_bind]
  unfold storeCopy
  rw [h2]
  rfl

theorem decode_and_add_undef {C : Ctx} (hA : HookKeepsAttrs C.O) {s : St} {info : Varinfo}
    {out : List Var} {r : Var × St} (h : decode_and_add_to_all C s info = .ok r)
    (hs : s.associated_field.skip_missing = false) (ho : Outs s.tgt.out out) :
    ∃ out', decode_and_add_to_all C (skipping s out) info = .ok (r.1, skipping r.2 out') ∧
      Outs r.2.tgt.out out' ∧ r.2.associated_field.skip_missing = false := by
  obtain ⟨a, h1, h⟩ := Res.bind_eq_ok.mp h
  cases h
  refine ⟨out ++ [a.1], ?_, Outs.plain ho (decode_uniform_attrs hA h1), hs⟩
  unfold decode_and_add_to_all
  rw [show (skipping s out).tgt.input = s.tgt.input from rfl, h1, Res.ok_bind]
  rfl

theorem decode_and_set_undef {C : Ctx} {s s' : St} {info : Varinfo} {pos : Nat}
    {out : List Var} (h : decode_and_set_attribute C s info pos = .ok s')
    (hs : s.associated_field.skip_missing = false) (ho : Outs s.tgt.out out) :
    ∃ out', decode_and_set_attribute C (skipping s out) info pos = .ok (skipping s' out') ∧
      Outs s'.tgt.out out' ∧ s'.associated_field.skip_missing = false := by
  obtain ⟨r, h1, h⟩ := Res.bind_eq_ok.mp h
  unfold decode_and_set_attribute
  rw [show (skipping s out).tgt.input = s.tgt.input from rfl, h1, Res.ok_bind]
  split at h
  · cases h
    rw [if_pos (by assumption)]
    exact ⟨out, rfl, ho, hs⟩
  · rw [if_neg (by assumption)]
    split at h
    · cases h
    · rename_i v hv
      obtain ⟨hk, rfl⟩ := List.getElem?_eq_some_iff.mp hv
      have hk' : pos < out.length := by rw [ho.length]; exact hk
      obtain ⟨o1, o2, o3⟩ := ho.vars pos hk hk'
      obtain ⟨x, h2, h⟩ := Res.bind_eq_ok.mp h
      cases h
      unfold Var.seta at h2 ⊢
      obtain ⟨a, h3, h2⟩ := Res.bind_eq_ok.mp h2
      cases h2
      refine ⟨out.set pos (out[pos].setaMove a), ?_,
        ho.set pos o1.setaMove o2.setaMove (o3.both o1 o2 a), hs⟩
      rw [show (skipping s out).tgt.out[pos]? = some out[pos] from List.getElem?_eq_getElem hk']
      simp only [h3, Res.ok_bind, Res.pure_def]
      rfl

theorem associated_undef {C : Ctx} (hO : HookKeepsInfo C.O) (hA : HookKeepsAttrs C.O) {s s' : St}
    {info : Varinfo} {out : List Var}
    (h : define_variable_with_associated_field C s info = .ok s')
    (hs : s.associated_field.skip_missing = false) (ho : Outs s.tgt.out out) :
    ∃ out', define_variable_with_associated_field C (skipping s out) info =
        .ok (skipping s' out') ∧
      Outs s'.tgt.out out' ∧ s'.associated_field.skip_missing = false := by
  obtain ⟨r, h1, h⟩ := Res.bind_eq_ok.mp h
  obtain ⟨a, h2, h⟩ := Res.bind_eq_ok.mp h
  obtain ⟨w, h3, h⟩ := Res.bind_eq_ok.mp h
  obtain ⟨s1, h4, h⟩ := Res.bind_eq_ok.mp h
  obtain ⟨u, h5, rfl⟩ := storeCopy_ok h4
  have hu := copy_plain_attrs (decode_uniform_attrs hA h3) h5
  unfold define_variable_with_associated_field
  rw [show (skipping s out).tgt.input = s.tgt.input from rfl,
    show (skipping s out).associated_field.bit_count = s.associated_field.bit_count from rfl, h1,
    Res.ok_bind]
  have hlast : ∀ (q : St) (l : List Var) (v b : Var), q.tgt.out = l ++ [v] →
      setLast q (some b) = .ok { q with tgt := { q.tgt with out := l ++ [v.setaMove b] } } := by
    intro q l v b hq
    unfold setLast
    rw [hq]
    simp [setAt, hq]
  have hskip := AssociatedField.make_attribute_skip (t := C.btable) (E := C.E) hO
    (f := s.associated_field) (g := (skipping s out).associated_field) rfl rfl hs rfl h2
  have key : ∀ a' : Option Var, (a' = a ∨ a' = none ∧ ∃ x, a = some x ∧ Undefined x.toVarCore) →
      ∃ out', (setLast (store (setInput (skipping s out) w.2) u) a') = .ok (skipping s' out') ∧
        Outs s'.tgt.out out' ∧ s'.associated_field.skip_missing = false := by
    rintro a' (rfl | ⟨rfl, x, rfl, hx⟩)
    · cases a' with
      | none =>
        cases h
        exact ⟨out ++ [u], rfl, Outs.plain ho hu, hs⟩
      | some b =>
        rw [hlast _ s.tgt.out u b rfl] at h
        cases h
        exact ⟨out ++ [u.setaMove b], hlast _ out u b rfl,
          ho.snoc (Var.Ordered.nil hu).setaMove (Var.Ordered.nil hu).setaMove (.refl _), hs⟩
    · rw [hlast _ s.tgt.out u x rfl] at h
      cases h
      exact ⟨out ++ [u], rfl,
        ho.snoc (Var.Ordered.nil hu).setaMove (.nil hu) (.first hu hx), hs⟩
  rcases hskip with hg | ⟨hg, hx⟩
  · rw [hg, Res.ok_bind]
    simp only [h3, Res.ok_bind, storeCopy, h5, Res.pure_def]
    exact key a (.inl rfl)
  · rw [hg, Res.ok_bind]
    simp only [h3, Res.ok_bind, storeCopy, h5, Res.pure_def]
    exact key none (.inr ⟨rfl, hx⟩)

theorem undef_sims (C : Ctx) (hO : HookKeepsInfo C.O) (hA : HookKeepsAttrs C.O) :
    undefRel.Sims (target C) (target C) where
  bitmap s n := undef_sim fun s' out h hs ho => by
    obtain ⟨r, h1, h⟩ := Res.bind_eq_ok.mp h
    simp only at h
    obtain ⟨info, h2, h⟩ := Res.bind_eq_ok.mp h
    obtain ⟨v, h3, h⟩ := Res.bind_eq_ok.mp h
    obtain ⟨b, h4, h⟩ := Res.bind_eq_ok.mp h
    cases h
    have hp := Outs.plain ho (newStr_attrs hA h3)
    refine ⟨out ++ [v], ?_, hp, hs⟩
    have h5 : s.bitmaps.define C.E v.toVarCore ((out ++ [v]).map (·.code)) (out ++ [v]).length =
        .ok b := by
      rw [hp.codes fun _ _ h => h.core, hp.length]
      exact h4
    exact Res.bind_eq_ok.mpr ⟨r, h1, Res.bind_eq_ok.mpr ⟨info, h2, Res.bind_eq_ok.mpr
      ⟨v, h3, Res.bind_eq_ok.mpr ⟨b, h5, rfl⟩⟩⟩⟩
  element s i := undef_sim fun s' out h hs ho => define_variable_undef hA h hs ho
  associated s i := undef_sim fun s' out h hs ho => associated_undef hO hA h hs ho
  factor s i := undef_simV fun a s' out h hs ho => by
    obtain ⟨r, h1, h⟩ := Res.bind_eq_ok.mp h
    obtain ⟨n, h2, h⟩ := Res.bind_eq_ok.mp h
    cases h
    obtain ⟨out', g1, g2, g3⟩ := decode_and_add_undef hA h1 hs ho
    refine ⟨out', ?_, g2, g3⟩
    exact Res.bind_eq_ok.mpr ⟨_, g1, Res.bind_eq_ok.mpr ⟨n, h2, rfl⟩⟩
  bitmapFactor s i := undef_simV fun a s' out h hs ho => by
    obtain ⟨r, h1, h⟩ := Res.bind_eq_ok.mp h
    obtain ⟨n, h2, h⟩ := Res.bind_eq_ok.mp h
    cases h
    exact ⟨out, Res.bind_eq_ok.mpr ⟨_, h1, Res.bind_eq_ok.mpr ⟨n, h2, rfl⟩⟩, ho, hs⟩
  significance s i := undef_simV fun a s' out h hs ho => by
    obtain ⟨r, h1, h⟩ := Res.bind_eq_ok.mp h
    obtain ⟨n, h2, h⟩ := Res.bind_eq_ok.mp h
    cases h
    obtain ⟨out', g1, g2, g3⟩ := decode_and_add_undef hA h1 hs ho
    refine ⟨out', ?_, g2, g3⟩
    exact Res.bind_eq_ok.mpr ⟨_, g1, Res.bind_eq_ok.mpr ⟨n, h2, rfl⟩⟩
  substituted s p := undef_sim fun s' out h hs ho => by
    have h : define_substituted_value C s p = .ok s' := h
    unfold define_substituted_value at h
    split at h
    · cases h
    · rename_i v hv
      obtain ⟨hk, rfl⟩ := List.getElem?_eq_some_iff.mp hv
      have hk' : p < out.length := by rw [ho.length]; exact hk
      obtain ⟨out', g1, g2⟩ := decode_and_set_undef h hs ho
      refine ⟨out', ?_, g2⟩
      show define_substituted_value C (skipping s out) p = _
      unfold define_substituted_value
      rw [show (skipping s out).tgt.out[p]? = some out[p] from List.getElem?_eq_getElem hk']
      simp only
      rw [show out[p].info = s.tgt.out[p].info from
        congrArg VarCore.info (ho.vars p hk hk').2.2.core]
      exact g1
  attr s i p := undef_sim fun s' out h hs ho => decode_and_set_undef h hs ho
  raw s c := undef_sim fun s' out h hs ho => by
    have h : define_raw_character_data C s c = .ok s' := h
    unfold define_raw_character_data at h
    simp only at h
    obtain ⟨info, h1, h⟩ := Res.bind_eq_ok.mp h
    obtain ⟨r, h2, h⟩ := Res.bind_eq_ok.mp h
    obtain ⟨v, h3, h⟩ := Res.bind_eq_ok.mp h
    obtain ⟨w, h4, rfl⟩ := storeCopy_ok h
    refine ⟨out ++ [w], ?_, Outs.plain ho (copy_plain_attrs (newStr_attrs hA h3) h4), hs⟩
    refine Res.bind_eq_ok.mpr ⟨info, h1, Res.bind_eq_ok.mpr ⟨r, h2, Res.bind_eq_ok.mpr ⟨v, h3, ?_⟩⟩⟩
    unfold storeCopy
    rw [h4]
    rfl
  refval s c := undef_sim fun s' out h hs ho => by
    obtain ⟨r, h1, h⟩ := Res.bind_eq_ok.mp h
    cases h
    exact ⟨out, Res.bind_eq_ok.mpr ⟨r, h1, rfl⟩, ho, hs⟩

end Decoder

/-! ## C78 -/

/-- The hypothesis on hooks, without a hook. -/
theorem default_keeps_attrs : HookKeepsAttrs .default := nofun

/-- C78 (part): decoding a subset with undefined attributes gives what decoding without them
gives, in the same order and with the same values, reading the same input: only some
attributes that stand for a missing associated field are not there. Missing from the full
property: that decoding with them succeeds when it does without (`C78_not_conversely`),
and that what is added has no value (`C78_not_undefined`). -/
theorem C78_undefined_partial (C : Ctx) (hO : HookKeepsInfo C.O) (hA : HookKeepsAttrs C.O) (depth : Nat)
    (datadesc : List Varcode) (caches : TableCaches) (i : Input) (out : List Var)
    (rest : TableCaches × Input)
    (h : Decoder.decodeSubset C true depth datadesc caches i = .ok (out, rest)) :
    ∃ out', Decoder.decodeSubset C false depth datadesc caches i = .ok (out', rest) ∧
      List.Forall₂ ButUndefined out out' := by
  obtain ⟨s, h1, h⟩ := Res.bind_eq_ok.mp h
  cases h
  obtain ⟨-, hr⟩ := Interp.sim_run C (Decoder.undef_sims C hO hA) depth datadesc
    (Decoder.start true caches i) s h1
  obtain ⟨t, t1, t2⟩ := hr s.tgt (Decoder.start false caches i) trivial
    (Decoder.undefRel_iff.mpr ⟨rfl, [], ⟨rfl, fun k hk => by cases hk⟩, rfl⟩)
  obtain ⟨-, out', g1, rfl⟩ := Decoder.undefRel_iff.mp t2
  refine ⟨out', Res.bind_eq_ok.mpr ⟨_, t1, rfl⟩, ?_⟩
  exact List.forall₂_iff_get.mpr ⟨g1.length.symm, fun k hk hk' => (g1.vars k hk hk').2.2⟩

/-- C78 (part): the same for all the subsets of an uncompressed message. -/
theorem C78_subsets_partial (C : Ctx) (hO : HookKeepsInfo C.O) (hA : HookKeepsAttrs C.O) (depth : Nat)
    (datadesc : List Varcode) (n : Nat) (caches : TableCaches) (i : Input) (outs : List (List Var))
    (rest : TableCaches × Input)
    (h : Decoder.decodeSubsets C true depth datadesc n caches i = .ok (outs, rest)) :
    ∃ outs', Decoder.decodeSubsets C false depth datadesc n caches i = .ok (outs', rest) ∧
      List.Forall₂ (List.Forall₂ ButUndefined) outs outs' := by
  induction n generalizing caches i outs rest with
  | zero => cases h; exact ⟨[], rfl, .nil⟩
  | succ n ih =>
    obtain ⟨⟨out, c, j⟩, h1, h⟩ := Res.bind_eq_ok.mp h
    obtain ⟨⟨outs1, r⟩, h2, h⟩ := Res.bind_eq_ok.mp h
    cases h
    obtain ⟨out', g1, g2⟩ := C78_undefined_partial C hO hA depth datadesc caches i out (c, j) h1
    obtain ⟨outs', k1, k2⟩ := ih c j outs1 _ h2
    exact ⟨out' :: outs', Res.bind_eq_ok.mpr ⟨_, g1, Res.bind_eq_ok.mpr ⟨_, k1, rfl⟩⟩, .cons g2 k2⟩

/-- A temperature with an associated field of two bits. -/
def undefDesc : List Varcode := [WR_VAR 2 4 2, WR_VAR 0 31 21, WR_VAR 0 12 101, WR_VAR 2 4 0]

/-- What is decoded from bits. -/
def undefDecoded (C : Ctx) (add_undef : Bool) (b : List Bool) :
    Res (List (Option Value × List (Varcode × Option Value))) := do
  let r ← Decoder.decodeSubset C add_undef 1 undefDesc noCaches
    { data := packed 10 b, s4_cursor := 0, pbyte := 0, pbyte_len := 0 }
  return r.1.map fun v => (v.toVarCore.view, v.attrs.map fun a => (a.code, a.view))

/-- Hypotheses of C78 met: a missing field of significance 8 gives an attribute with no
value, or none. -/
example : undefDecoded sampleCtx true (bits 6 8 ++ bits 2 3 ++ bits 16 27315) =
      .ok [(some (.num 8), []), (some (.num 27315), [(WR_VAR 0 33 2, none)])] ∧
    undefDecoded sampleCtx false (bits 6 8 ++ bits 2 3 ++ bits 16 27315) =
      .ok [(some (.num 8), []), (some (.num 27315), [])] ∧
    HookKeepsInfo sampleCtx.O ∧ HookKeepsAttrs sampleCtx.O :=
  ⟨by decide +kernel, by decide +kernel, nofun, default_keeps_attrs⟩

/-- With B33041. -/
def followingCtx : Ctx := { sampleCtx with btable :=
  ⟨sampleB.entries ++ [⟨sampleFollowing, []⟩]⟩ }

/-- C78 fails the other way round: undefined attributes can make decoding fail, if the table has no
element for them. -/
theorem C78_not_conversely :
    undefDecoded sampleCtx false (bits 6 21 ++ bits 2 3 ++ bits 16 27315) =
      .ok [(some (.num 21), []), (some (.num 27315), [])] ∧
    undefDecoded sampleCtx true (bits 6 21 ++ bits 2 3 ++ bits 16 27315) = .err .notfound :=
  ⟨by decide +kernel, by decide +kernel⟩

/-- C78 fails for significance 21: the attribute added for a missing field has the value 0, as if the field had been there. -/
theorem C78_not_undefined :
    undefDecoded followingCtx true (bits 6 21 ++ bits 2 3 ++ bits 16 27315) =
      .ok [(some (.num 21), []), (some (.num 27315), [(WR_VAR 0 33 41, some (.num 0))])] ∧
    undefDecoded followingCtx false (bits 6 21 ++ bits 2 0 ++ bits 16 27315) =
      .ok [(some (.num 21), []), (some (.num 27315), [(WR_VAR 0 33 41, some (.num 0))])] :=
  ⟨by decide +kernel, by decide +kernel⟩

end Wreport
