import Verif.Props.Undef
import Verif.Lemmas.NumSetter

/-!
# C78 for compressed data
-/

namespace Wreport

open Spec

/-! ## Copies -/

/-- The copy of an attribute. -/
def recopy (a : VarCore) : Option VarCore :=
  match (Var.new a.info).copy_value a with
  | .ok c => some c.toVarCore
  | _ => none

theorem recopy_info {a c : VarCore} (h : recopy a = some c) : c.info = a.info := by
  unfold recopy at h
  cases hc : (Var.new a.info).copy_value a with
  | ok x =>
    rw [hc] at h
    cases h
    have : x.info = (Var.new a.info).info := copy_value_info hc
    exact this
  | err e => rw [hc] at h; cases h
  | ub => rw [hc] at h; cases h

theorem recopy_undefined {a c : VarCore} (h : recopy a = some c) (ha : Undefined a) :
    Undefined c := by
  have hi : c.code = a.code := congrArg Varinfo.code (recopy_info h)
  rcases ha with ⟨h1, h2⟩ | h1
  · refine .inl ⟨by rw [hi]; exact h1, ?_⟩
    unfold recopy Var.copy_value at h
    rw [h2] at h
    cases h
    rfl
  · exact .inr (hi.trans h1)

/-- Attributes that can be copied. -/
def Var.Copyable (v : Var) : Prop := ∀ a ∈ v.attrs, (recopy a).isSome = true

theorem copyAttrs_of {l : List VarCore} (h : ∀ a ∈ l, (recopy a).isSome = true) :
    ∃ l', Var.copyAttrs l = .ok l' := by
  induction l with
  | nil => exact ⟨[], rfl⟩
  | cons a l ih =>
    obtain ⟨l', h1⟩ := ih fun x hx => h x (List.mem_cons_of_mem _ hx)
    have ha := h a List.mem_cons_self
    unfold recopy at ha
    cases hc : (Var.new a.info).copy_value a with
    | ok c => exact ⟨_, Res.bind_eq_ok.mpr ⟨c, hc, Res.bind_eq_ok.mpr ⟨l', h1, rfl⟩⟩⟩
    | err e => rw [hc] at ha; cases ha
    | ub => rw [hc] at ha; cases ha

theorem copyAttrs_lookup {l l' : List VarCore} (h : Var.copyAttrs l = .ok l') :
    l'.map (·.code) = l.map (·.code) ∧
      ∀ c, Var.enqaList c l' = (Var.enqaList c l).bind recopy := by
  induction l generalizing l' with
  | nil => cases h; exact ⟨rfl, fun _ => rfl⟩
  | cons a l ih =>
    obtain ⟨x, h1, h⟩ := Res.bind_eq_ok.mp h
    obtain ⟨m, h2, h⟩ := Res.bind_eq_ok.mp h
    cases h
    obtain ⟨i1, i2⟩ := ih h2
    have hr : recopy a = some x.toVarCore := by unfold recopy; rw [h1]
    have hc : x.toVarCore.code = a.code := congrArg Varinfo.code (recopy_info hr)
    refine ⟨by simp only [List.map_cons, hc, i1], fun c => ?_⟩
    unfold Var.enqaList
    rw [hc]
    split
    · split
      · rw [Option.bind_some, hr]
      · exact i2 c
    · rfl

theorem copyAttrs_all {l l' : List VarCore} (h : Var.copyAttrs l = .ok l') :
    ∀ a ∈ l, (recopy a).isSome = true := by
  induction l generalizing l' with
  | nil => intro a ha; cases ha
  | cons b l ih =>
    obtain ⟨x, h1, h⟩ := Res.bind_eq_ok.mp h
    obtain ⟨m, h2, h⟩ := Res.bind_eq_ok.mp h
    intro a ha
    rcases List.mem_cons.mp ha with rfl | ha
    · unfold recopy
      rw [h1]
      rfl
    · exact ih h2 a ha

theorem enqaList_mem {c : Varcode} {l : List VarCore} {a : VarCore}
    (h : Var.enqaList c l = some a) : a ∈ l := by
  induction l with
  | nil => cases h
  | cons b l ih =>
    unfold Var.enqaList at h
    split at h
    · split at h
      · cases h; exact List.mem_cons_self
      · exact List.mem_cons_of_mem _ (ih h)
    · cases h

theorem copy_parts {v v' : Var} (h : v.copy = .ok v') :
    (∃ x, (Var.new v.info).copy_value v.toVarCore = .ok x ∧ v'.toVarCore = x.toVarCore) ∧
      Var.copyAttrs v.attrs = .ok v'.attrs := by
  unfold Var.copy at h
  obtain ⟨x, h1, h⟩ := Res.bind_eq_ok.mp h
  unfold Var.setattrs at h
  obtain ⟨l, h2, h⟩ := Res.bind_eq_ok.mp h
  cases h
  exact ⟨⟨x, h1, rfl⟩, h2⟩

theorem Var.Ordered.copy {v v' : Var} (hv : v.Ordered) (h : v.copy = .ok v') : v'.Ordered :=
  sorted_of_codes (copyAttrs_lookup (copy_parts h).2).1 hv

theorem Spec.OverUndefined.copy {v w v' : Var} (h : OverUndefined v w) (hw : w.Copyable)
    (hc : v.copy = .ok v') : ∃ w', w.copy = .ok w' ∧ OverUndefined v' w' := by
  obtain ⟨⟨x, x1, x2⟩, x3⟩ := copy_parts hc
  obtain ⟨l, hl⟩ := copyAttrs_of hw
  have hx : (Var.new w.info).copy_value w.toVarCore = .ok x := by
    rw [h.core]; exact x1
  refine ⟨{ x with attrs := l }, ?_, x2.symm, fun c => ?_⟩
  · unfold Var.copy
    rw [hx, Res.ok_bind]
    unfold Var.setattrs
    rw [hl]
    rfl
  · have e1 := (copyAttrs_lookup x3).2 c
    have e2 := (copyAttrs_lookup hl).2 c
    show Var.enqaList c l = Var.enqaList c v'.attrs ∨ _
    rcases h.attrs c with h | ⟨a, h, ha⟩
    · left
      rw [e1, e2]
      exact congrArg (Option.bind · recopy) h
    · cases hr : recopy a with
      | none =>
        have := copyAttrs_all x3 a (enqaList_mem (show Var.enqaList c v.attrs = some a from h))
        rw [hr] at this
        cases this
      | some b =>
        right
        refine ⟨b, ?_, recopy_undefined hr ha⟩
        show Var.enqaList c v'.attrs = some b
        rw [e1, show Var.enqaList c v.attrs = some a from h]
        exact hr

/-! ## Setting the value of variables with other attributes -/

theorem setd_over {E : Env} {O : Opts} (hO : Own.PlainHook O) (v : Var) (x : Dbl)
    (l : List VarCore) :
    ({ v with attrs := l } : Var).setd E O x =
      ({ (v.setd E O x).1 with attrs := l }, (v.setd E O x).2) :=
  (Own.numSetter_setd hO x).over v l

namespace Input

theorem setNumberOrMissing_over {E : Env} {O : Opts} (hO : Own.PlainHook O) {v v' : Var} {b : Bool}
    {n : Nat} (h : setNumberOrMissing E O v b n = .ok v') (l : List VarCore) :
    setNumberOrMissing E O { v with attrs := l } b n = .ok { v' with attrs := l } := by
  unfold setNumberOrMissing at h ⊢
  split at h
  · cases h
    rw [if_pos (by assumption)]
    rfl
  · rw [if_neg (by assumption)]
    obtain ⟨d, h1, h⟩ := Res.bind_eq_ok.mp h
    simp only at h
    obtain ⟨u, h2, h⟩ := Res.bind_eq_ok.mp h
    cases h
    unfold setNumber
    refine Res.bind_eq_ok.mpr ⟨d, h1, ?_⟩
    rw [setd_over hO]
    exact Res.bind_eq_ok.mpr ⟨u, h2, rfl⟩

theorem decode_compressed_diff_over {E : Env} {O : Opts} (hO : Own.PlainHook O) {i : Input}
    {v : Var} {base bits : Nat} {r : Var × Input}
    (h : i.decode_compressed_diff E O v base bits = .ok r) (l : List VarCore) :
    i.decode_compressed_diff E O { v with attrs := l } base bits =
      .ok ({ r.1 with attrs := l }, r.2) := by
  obtain ⟨a, h1, h⟩ := Res.bind_eq_ok.mp h
  obtain ⟨m, h2, h⟩ := Res.bind_eq_ok.mp h
  obtain ⟨w, h3, h⟩ := Res.bind_eq_ok.mp h
  cases h
  exact Res.bind_eq_ok.mpr ⟨a, h1, Res.bind_eq_ok.mpr ⟨m, h2, Res.bind_eq_ok.mpr
    ⟨_, setNumberOrMissing_over hO h3 l, rfl⟩⟩⟩

end Input

theorem HookKeepsAttrs.of_plain {O : Opts} (hO : Own.PlainHook O) : HookKeepsAttrs O :=
  fun k hk => ⟨fun v x => ((hO k hk).1 x).attrs v, fun v x => ((hO k hk).2 x).attrs v⟩

theorem HookKeepsInfo.of_plain {O : Opts} (hO : Own.PlainHook O) : HookKeepsInfo O :=
  fun k hk => ⟨fun v x => ((hO k hk).1 x).info v, fun v x => ((hO k hk).2 x).info v⟩

/-! ## Columns -/

/-- Variables decoded with and without undefined attributes, before they are stored. -/
structure Pair (v w : Var) : Prop where
  left : v.Ordered
  right : w.Ordered
  over : OverUndefined v w
  copies : w.Copyable

/-- Attributes made with and without skipping missing fields. -/
def Made2 (a a' : Option Var) : Prop :=
  (a' = a ∨ a' = none ∧ ∃ x, a = some x ∧ Undefined x.toVarCore) ∧
    ∀ x, a' = some x → (recopy x.toVarCore).isSome = true

theorem Pair.same {v : Var} (h : v.attrs = []) : Pair v v where
  left := .nil h
  right := .nil h
  over := ⟨rfl, fun _ => .inl rfl⟩
  copies := by intro a ha; rw [h] at ha; cases ha

theorem Pair.add {v w : Var} (h : Pair v w) {a a' : Option Var} (ha : Made2 a a') :
    Pair (Input.addAttr v a) (Input.addAttr w a') := by
  obtain ⟨ha | ⟨rfl, x, rfl, hx⟩, hc⟩ := ha
  · subst ha
    cases a' with
    | none => exact h
    | some x =>
      refine ⟨h.left.setaMove, h.right.setaMove, ⟨h.over.core, fun c => ?_⟩, ?_⟩
      · show (w.setaMove x).enqa c = (v.setaMove x).enqa c ∨ ∃ a, (v.setaMove x).enqa c = some a ∧ _
        rw [enqa_setaMove h.left, enqa_setaMove h.right]
        split
        · exact .inl rfl
        · exact h.over.attrs c
      · intro a ha
        rcases setaList_mem ha with rfl | ha
        · exact hc x rfl
        · exact h.copies a ha
  · refine ⟨h.left.setaMove, h.right, ⟨h.over.core, fun c => ?_⟩, h.copies⟩
    show w.enqa c = (v.setaMove x).enqa c ∨ ∃ a, (v.setaMove x).enqa c = some a ∧ _
    rw [enqa_setaMove h.left]
    split
    · exact .inr ⟨_, rfl, hx⟩
    · exact h.over.attrs c

theorem newInt_copies {O : Opts} (hO : Own.PlainHook O) {info : Varinfo} {n : Int} {v : Var}
    (h : Var.newInt O info n = .ok v) : (recopy v.toVarCore).isSome = true := by
  unfold Var.newInt at h
  obtain ⟨u, h1, h⟩ := Res.bind_eq_ok.mp h
  cases h
  unfold Var.seti at h1 ⊢
  have key : ∀ x : Var, x.info = info → (info.type = .integer ∨ info.type = .decimal) →
      (x.isset = false ∨ ∃ k, x.cell = .word k) → (recopy x.toVarCore).isSome = true := by
    intro x hx ht hc
    unfold recopy Var.copy_value
    rw [hx]
    rcases hc with hc | ⟨k, hc⟩
    · rw [hc]; rfl
    · cases hs : x.isset
      · rfl
      · rcases ht with ht | ht <;> simp [Var.new, ht, hc]
  have hassign : (info.type = .integer ∨ info.type = .decimal) →
      ((Var.new info).assign_i_checked O n).2 = .ok u →
      (recopy ((Var.new info).assign_i_checked O n).1.toVarCore).isSome = true := by
    intro ht h2
    refine key _ ((Own.numSetter_assign_i hO n).info _) ht (.inr ?_)
    rcases (Own.numSetter_assign_i hO n).cell (Var.new info) with e | e
    · exact ⟨0, by rw [e]; rcases ht with ht | ht <;> simp [Var.new, ht]⟩
    · exact e
  split at h1
  · cases h1
  · cases h1
  · exact hassign (.inl (by assumption)) h1
  · exact hassign (.inr (by assumption)) h1

theorem AssociatedField.make_attribute_copies {E : Env} {O : Opts} (hO : Own.PlainHook O)
    {t : Vartable} {f : AssociatedField} {value : Nat} {x : Var}
    (h : f.make_attribute E O t value = .ok (some x)) : (recopy x.toVarCore).isSome = true := by
  have key : ∀ {q : Varcode} {m : Bool} {n : Nat}, fieldAttr O t q m n = .ok (some x) →
      (recopy x.toVarCore).isSome = true := by
    intro q m n h
    unfold fieldAttr at h
    obtain ⟨info, -, h⟩ := Res.bind_eq_ok.mp h
    split at h
    · cases h; rfl
    · obtain ⟨v, h1, h⟩ := Res.bind_eq_ok.mp h
      cases h
      exact newInt_copies hO h1
  unfold make_attribute at h
  obtain ⟨ones, -, h⟩ := Res.bind_eq_ok.mp h
  simp only at h
  split at h
  · exact key h
  split at h
  · exact key h
  split at h
  · split at h
    · cases h
    · exact key h
  split at h
  · exact key h
  split at h
  · split at h
    · cases h
    · exact key h
  split at h
  · split at h
    · exact key h
    · cases h
  split at h
  · cases h
  · cases h

theorem AssociatedField.make_attribute_two {E : Env} {O : Opts} (hO : Own.PlainHook O)
    {t : Vartable} {f g : AssociatedField} (hb : g.bit_count = f.bit_count)
    (hs : g.significance = f.significance) (hf : f.skip_missing = false)
    (hg : g.skip_missing = true) {value : Nat} {a : Option Var}
    (h : f.make_attribute E O t value = .ok a) :
    ∃ a', g.make_attribute E O t value = .ok a' ∧ Made2 a a' := by
  rcases make_attribute_skip (HookKeepsInfo.of_plain hO) hb hs hf hg h with h1 | ⟨h1, h2⟩
  · exact ⟨a, h1, .inl rfl, fun x hx => make_attribute_copies hO (by rw [h, hx])⟩
  · exact ⟨none, h1, .inr ⟨rfl, h2⟩, nofun⟩

namespace Input

theorem fieldLoop_two {C : Ctx} (hO : Own.PlainHook C.O) {f g : AssociatedField}
    (hb : g.bit_count = f.bit_count) (hs : g.significance = f.significance)
    (hf : f.skip_missing = false) (hg : g.skip_missing = true) {base bits : Nat} (n : Nat)
    {i : Input} {r : List (Option Var) × Input} (h : fieldLoop C f base bits n i = .ok r) :
    ∃ as, fieldLoop C g base bits n i = .ok (as, r.2) ∧ List.Forall₂ Made2 r.1 as := by
  induction n generalizing i r with
  | zero => cases h; exact ⟨[], rfl, .nil⟩
  | succ n ih =>
    obtain ⟨b, h1, h⟩ := Res.bind_eq_ok.mp h
    obtain ⟨a, h2, h⟩ := Res.bind_eq_ok.mp h
    obtain ⟨c, h3, h⟩ := Res.bind_eq_ok.mp h
    cases h
    obtain ⟨a', g1, g2⟩ := AssociatedField.make_attribute_two hO hb hs hf hg h2
    obtain ⟨as, k1, k2⟩ := ih h3
    exact ⟨a' :: as, Res.bind_eq_ok.mpr ⟨b, h1, Res.bind_eq_ok.mpr ⟨a', g1, Res.bind_eq_ok.mpr
      ⟨_, k1, rfl⟩⟩⟩, .cons g2 k2⟩

theorem fieldDiffLoop_two {C : Ctx} (hO : Own.PlainHook C.O) {base bits : Nat}
    {as as' : List (Option Var)} (ha : List.Forall₂ Made2 as as') {v w : Var} {i : Input}
    {r : List Var × Input} (hv : Pair v w) (h : fieldDiffLoop C base bits v as i = .ok r) :
    ∃ ws, fieldDiffLoop C base bits w as' i = .ok (ws, r.2) ∧ List.Forall₂ Pair r.1 ws := by
  induction ha generalizing v w i r with
  | nil => cases h; exact ⟨[], rfl, .nil⟩
  | @cons a a' as as' ha _ ih =>
    obtain ⟨b, h1, h⟩ := Res.bind_eq_ok.mp h
    obtain ⟨c, h2, h⟩ := Res.bind_eq_ok.mp h
    cases h
    have hw : w = { v with attrs := w.attrs } := by
      obtain ⟨wc, wa⟩ := w
      have : wc = v.toVarCore := hv.over.core
      subst this
      rfl
    have e1 := decode_compressed_diff_over hO h1 w.attrs
    rw [← hw] at e1
    have hb : b.1.attrs = v.attrs := by
      obtain ⟨x, -, h1⟩ := Res.bind_eq_ok.mp h1
      obtain ⟨y, -, h1⟩ := Res.bind_eq_ok.mp h1
      obtain ⟨z, h3, h1⟩ := Res.bind_eq_ok.mp h1
      cases h1
      exact setNumberOrMissing_attrs (HookKeepsAttrs.of_plain hO) h3
    have hp : Pair b.1 { b.1 with attrs := w.attrs } := by
      refine ⟨?_, hv.right, ⟨rfl, fun k => ?_⟩, hv.copies⟩
      · unfold Var.Ordered; rw [hb]; exact hv.left
      · show Var.enqaList k w.attrs = Var.enqaList k b.1.attrs ∨
          ∃ a, Var.enqaList k b.1.attrs = some a ∧ _
        rw [hb]
        exact hv.over.attrs k
    obtain ⟨ws, k1, k2⟩ := ih (hp.add ha) h2
    exact ⟨_, Res.bind_eq_ok.mpr ⟨_, e1, Res.bind_eq_ok.mpr ⟨_, k1, rfl⟩⟩, .cons (hp.add ha) k2⟩

theorem map_addAttr_two {v : Var} (hv : v.attrs = []) {as as' : List (Option Var)}
    (ha : List.Forall₂ Made2 as as') :
    List.Forall₂ Pair (as.map (addAttr v)) (as'.map (addAttr v)) := by
  induction ha with
  | nil => exact .nil
  | cons h _ ih => exact .cons ((Pair.same hv).add h) ih

theorem decode_compressed_number_attrs_two {C : Ctx} (hO : Own.PlainHook C.O) {info : Varinfo}
    {as as' : List (Option Var)} (ha : List.Forall₂ Made2 as as') {i : Input}
    {r : List Var × Input} (h : i.decode_compressed_number_attrs C info as = .ok r) :
    ∃ ws, i.decode_compressed_number_attrs C info as' = .ok (ws, r.2) ∧
      List.Forall₂ Pair r.1 ws := by
  obtain ⟨b, h1, h⟩ := Res.bind_eq_ok.mp h
  unfold decode_compressed_number_attrs
  rw [h1, Res.ok_bind]
  split at h
  · cases h
    rw [if_pos (by assumption)]
    exact ⟨_, rfl, map_addAttr_two rfl ha⟩
  rw [if_neg (by assumption)]
  split at h
  · rw [if_pos (by assumption)]
    obtain ⟨v, h2, h⟩ := Res.bind_eq_ok.mp h
    cases h
    rw [h2]
    exact ⟨_, rfl, map_addAttr_two (setNumber_attrs (HookKeepsAttrs.of_plain hO) h2) ha⟩
  · rw [if_neg (by assumption)]
    exact fieldDiffLoop_two hO ha (.same rfl) h

theorem diffLoop_attrs {E : Env} {O : Opts} (hA : HookKeepsAttrs O)
    {base bits : Nat} (n : Nat) {u : Var} (hu : u.attrs = []) {i : Input} {r : List Var × Input}
    (h : diffLoop E O base bits n u i = .ok r) : ∀ v ∈ r.1, v.attrs = [] := by
  induction n generalizing u i r with
  | zero => cases h; intro v hv; cases hv
  | succ n ih =>
    obtain ⟨a, h1, h⟩ := Res.bind_eq_ok.mp h
    obtain ⟨b, h2, h⟩ := Res.bind_eq_ok.mp h
    cases h
    have ha : a.1.attrs = [] := by
      obtain ⟨x, -, h1⟩ := Res.bind_eq_ok.mp h1
      obtain ⟨y, -, h1⟩ := Res.bind_eq_ok.mp h1
      obtain ⟨z, h3, h1⟩ := Res.bind_eq_ok.mp h1
      cases h1
      exact (setNumberOrMissing_attrs hA h3).trans hu
    intro v hv
    rcases List.mem_cons.mp hv with rfl | hv
    · exact ha
    · exact ih ha h2 v hv

theorem stringLoop_attrs {O : Opts} (hA : HookKeepsAttrs O) {info : Varinfo}
    {bits : Nat} (n : Nat) {i : Input} {r : List Var × Input}
    (h : stringLoop O info bits n i = .ok r) : ∀ v ∈ r.1, v.attrs = [] := by
  induction n generalizing i r with
  | zero => cases h; intro v hv; cases hv
  | succ n ih =>
    obtain ⟨a, -, h⟩ := Res.bind_eq_ok.mp h
    obtain ⟨v, h1, h⟩ := Res.bind_eq_ok.mp h
    obtain ⟨b, h2, h⟩ := Res.bind_eq_ok.mp h
    cases h
    intro w hw
    rcases List.mem_cons.mp hw with rfl | hw
    · exact setDecoded_attrs hA h1
    · exact ih h2 w hw

theorem decode_compressed_number_attrs_nil {E : Env} {O : Opts} (hA : HookKeepsAttrs O)
    {info : Varinfo} {n : Nat} {i : Input} {r : List Var × Input}
    (h : i.decode_compressed_number E O info n = .ok r) : ∀ v ∈ r.1, v.attrs = [] := by
  obtain ⟨a, -, h⟩ := Res.bind_eq_ok.mp h
  split at h
  · cases h
    intro v hv
    rw [List.eq_of_mem_replicate hv]
    rfl
  split at h
  · obtain ⟨w, h1, h⟩ := Res.bind_eq_ok.mp h
    cases h
    intro v hv
    rw [List.eq_of_mem_replicate hv]
    exact setNumber_attrs hA h1
  · exact diffLoop_attrs hA n rfl h

theorem decode_compressed_string_attrs {O : Opts} (hA : HookKeepsAttrs O)
    {info : Varinfo} {n : Nat} {i : Input} {r : List Var × Input}
    (h : i.decode_compressed_string O info n = .ok r) : ∀ v ∈ r.1, v.attrs = [] := by
  obtain ⟨a, -, h⟩ := Res.bind_eq_ok.mp h
  obtain ⟨b, -, h⟩ := Res.bind_eq_ok.mp h
  split at h
  · obtain ⟨w, h1, h⟩ := Res.bind_eq_ok.mp h
    cases h
    intro v hv
    rw [List.eq_of_mem_replicate hv]
    exact setDecoded_attrs hA h1
  split at h
  · cases h
  · exact stringLoop_attrs hA n h

theorem decode_string_same_attrs {O : Opts} (hA : HookKeepsAttrs O) {v : Var} {n : Nat} {i : Input}
    {r : Var × Input} (h : i.decode_string_same O v n = .ok r) : r.1.attrs = v.attrs := by
  obtain ⟨a, -, h⟩ := Res.bind_eq_ok.mp h
  obtain ⟨b, -, h⟩ := Res.bind_eq_ok.mp h
  split at h
  · obtain ⟨w, h1, h⟩ := Res.bind_eq_ok.mp h
    cases h
    exact setDecoded_attrs hA h1
  split at h
  · cases h
  · obtain ⟨c, -, h⟩ := Res.bind_eq_ok.mp h
    obtain ⟨w, h1, h⟩ := Res.bind_eq_ok.mp h
    obtain ⟨d, -, h⟩ := Res.bind_eq_ok.mp h
    have e : w.attrs = v.unset.attrs := setDecoded_attrs hA h1
    cases h
    exact e

theorem decode_semantic_attrs {E : Env} {O : Opts} (hA : HookKeepsAttrs O) {v : Var} {i : Input}
    {r : Var × Input} (h : i.decode_compressed_semantic_number E O v = .ok r) :
    r.1.attrs = v.attrs := by
  obtain ⟨a, -, h⟩ := Res.bind_eq_ok.mp h
  obtain ⟨b, -, h⟩ := Res.bind_eq_ok.mp h
  obtain ⟨c, -, h⟩ := Res.bind_eq_ok.mp h
  split at h
  · cases h
  · obtain ⟨w, h1, h⟩ := Res.bind_eq_ok.mp h
    cases h
    exact setNumberOrMissing_attrs hA h1

theorem pairs_same {vs : List Var} (h : ∀ v ∈ vs, v.attrs = []) : List.Forall₂ Pair vs vs := by
  induction vs with
  | nil => exact .nil
  | cons v vs ih =>
    exact .cons (.same (h v List.mem_cons_self)) (ih fun w hw => h w (List.mem_cons_of_mem _ hw))

theorem decode_compressed_number_af_two {C : Ctx} (hO : Own.PlainHook C.O) {info : Varinfo}
    {f g : AssociatedField} (hb : g.bit_count = f.bit_count)
    (hs : g.significance = f.significance) (hf : f.skip_missing = false)
    (hg : g.skip_missing = true) {n : Nat} {i : Input} {r : List Var × Input}
    (h : i.decode_compressed_number_af C info f n = .ok r) :
    ∃ ws, i.decode_compressed_number_af C info g n = .ok (ws, r.2) ∧ List.Forall₂ Pair r.1 ws := by
  obtain ⟨a, h1, h⟩ := Res.bind_eq_ok.mp h
  obtain ⟨b, h2, h⟩ := Res.bind_eq_ok.mp h
  obtain ⟨c, h3, h⟩ := Res.bind_eq_ok.mp h
  unfold decode_compressed_number_af
  rw [hb, h1, Res.ok_bind, h2, Res.ok_bind, h3, Res.ok_bind]
  split at h
  · rw [if_pos (by assumption)]
    exact ⟨r.1, h, pairs_same (decode_compressed_number_attrs_nil (HookKeepsAttrs.of_plain hO) h)⟩
  · rw [if_neg (by assumption)]
    obtain ⟨as, h4, h⟩ := Res.bind_eq_ok.mp h
    obtain ⟨as', g1, g2⟩ := fieldLoop_two hO hb hs hf hg n h4
    rw [g1, Res.ok_bind]
    exact decode_compressed_number_attrs_two hO g2 h

end Input

namespace CDecoder

/-- The subsets decoded with and without undefined attributes. -/
abbrev Subs (ss ss' : List (List Var)) : Prop := List.Forall₂ (OutsOf OverUndefined) ss ss'

/-- The same state with other subsets, skipping missing values. -/
def skipping (s : St) (ss : List (List Var)) : St :=
  { s with
    tgt := { s.tgt with subsets := ss }
    associated_field := { s.associated_field with skip_missing := true } }

/-- A decoder that adds undefined attributes, and one that does not. -/
def undefRel : Rel CDec CDec where
  le _ _ := True
  refl _ := trivial
  trans _ _ _ _ _ := trivial
  Q _ a b c c' x y := b.input = a.input ∧ Subs a.subsets b.subsets ∧
    c'.bitmap_table = c.bitmap_table ∧ c'.chardata_table = c.chardata_table ∧ x = false ∧ y = true
  stable _ _ _ _ _ _ _ _ _ h := h

theorem undefRel_iff {F : CDec} {s t : St} : undefRel.R F s t ↔
    s.associated_field.skip_missing = false ∧ ∃ ss, Subs s.tgt.subsets ss ∧ t = skipping s ss := by
  constructor
  · rintro ⟨⟨h1, h2, h3, h4, h5, h6, h7, h8, h9, h10⟩, q1, q2, q3, q4, q5, q6⟩
    refine ⟨q5, t.tgt.subsets, q2, ?_⟩
    obtain ⟨b, ⟨f1, f2, f3⟩, c1, c2, c3, c4, c5, c6, ⟨d1, d2, d3⟩, ⟨e1, e2⟩⟩ := t
    obtain ⟨b', ⟨f1', f2', f3'⟩, c1', c2', c3', c4', c5', c6', ⟨d1', d2', d3'⟩, ⟨e1', e2'⟩⟩ := s
    simp only at *
    subst_vars
    rfl
  · rintro ⟨h1, out, h2, rfl⟩
    exact ⟨⟨rfl, rfl, rfl, rfl, rfl, rfl, rfl, rfl, rfl, rfl⟩, rfl, h2, rfl, rfl, h1, rfl⟩

/-- A step in terms of the states themselves. -/
theorem undef_sim {s : St} {r : Res St} {g : St → Res St}
    (h : ∀ s' ss, r = .ok s' → s.associated_field.skip_missing = false → Subs s.tgt.subsets ss →
      ∃ ss', g (skipping s ss) = .ok (skipping s' ss') ∧ Subs s'.tgt.subsets ss' ∧
        s'.associated_field.skip_missing = false) : undefRel.Sim s r g := by
  intro s' hs
  refine ⟨trivial, fun F t _ hr => ?_⟩
  obtain ⟨h1, ss, h2, rfl⟩ := undefRel_iff.mp hr
  obtain ⟨ss', g1, g2, g3⟩ := h s' ss hs h1 h2
  exact ⟨_, g1, undefRel_iff.mpr ⟨g3, ss', g2, rfl⟩⟩

theorem undef_simV {α : Type} {s : St} {r : Res (α × St)} {g : St → Res (α × St)}
    (h : ∀ a s' ss, r = .ok (a, s') → s.associated_field.skip_missing = false →
      Subs s.tgt.subsets ss → ∃ ss', g (skipping s ss) = .ok (a, skipping s' ss') ∧
        Subs s'.tgt.subsets ss' ∧ s'.associated_field.skip_missing = false) :
    undefRel.SimV s r g := by
  intro a s' hs
  refine ⟨trivial, fun F t _ hr => ?_⟩
  obtain ⟨h1, ss, h2, rfl⟩ := undefRel_iff.mp hr
  obtain ⟨ss', g1, g2, g3⟩ := h a s' ss hs h1 h2
  exact ⟨_, g1, undefRel_iff.mpr ⟨g3, ss', g2, rfl⟩⟩

theorem copyAll_two {vs ws cs : List Var} (h : List.Forall₂ Pair vs ws) (hc : copyAll vs = .ok cs) :
    ∃ ds, copyAll ws = .ok ds ∧ List.Forall₂ (fun c d => c.Ordered ∧ d.Ordered ∧
      OverUndefined c d) cs ds := by
  induction h generalizing cs with
  | nil => cases hc; exact ⟨[], rfl, .nil⟩
  | @cons v w vs ws h _ ih =>
    obtain ⟨c, h1, hc⟩ := Res.bind_eq_ok.mp hc
    obtain ⟨cs', h2, hc⟩ := Res.bind_eq_ok.mp hc
    cases hc
    obtain ⟨d, d1, d2⟩ := h.over.copy h.copies h1
    obtain ⟨ds, g1, g2⟩ := ih h2
    exact ⟨d :: ds, Res.bind_eq_ok.mpr ⟨d, d1, Res.bind_eq_ok.mpr ⟨ds, g1, rfl⟩⟩,
      .cons ⟨h.left.copy h1, h.right.copy d1, d2⟩ g2⟩

theorem zip_two {ss ss' : List (List Var)} (h : Subs ss ss') {cs ds : List Var}
    (hc : List.Forall₂ (fun c d => c.Ordered ∧ d.Ordered ∧ OverUndefined c d) cs ds) :
    Subs (List.zipWith (fun s v => s ++ [v]) ss cs) (List.zipWith (fun s v => s ++ [v]) ss' ds) := by
  induction h generalizing cs ds with
  | nil => exact .nil
  | cons h _ ih =>
    cases hc with
    | nil => exact .nil
    | cons hc hcs => exact .cons (h.snoc hc.1 hc.2.1 hc.2.2) (ih hcs)

theorem storeCopies_two {s s' : St} {ss : List (List Var)} {vs ws : List Var}
    (h : storeCopies s vs = .ok s') (hv : List.Forall₂ Pair vs ws)
    (hs : s.associated_field.skip_missing = false) (ho : Subs s.tgt.subsets ss) :
    ∃ ss', storeCopies (skipping s ss) ws = .ok (skipping s' ss') ∧ Subs s'.tgt.subsets ss' ∧
      s'.associated_field.skip_missing = false := by
  obtain ⟨cs, h1, h⟩ := Res.bind_eq_ok.mp h
  cases h
  obtain ⟨ds, d1, d2⟩ := copyAll_two hv h1
  exact ⟨_, Res.bind_eq_ok.mpr ⟨ds, d1, rfl⟩, zip_two ho d2, hs⟩

theorem Subs.length {ss ss' : List (List Var)} (h : Subs ss ss') : ss'.length = ss.length :=
  (List.Forall₂.length_eq h).symm

theorem lastOfFirst_two {s : St} {ss : List (List Var)} {v : Var} (h : lastOfFirst s = .ok v)
    (ho : Subs s.tgt.subsets ss) :
    ∃ w, lastOfFirst (skipping s ss) = .ok w ∧ w.toVarCore = v.toVarCore := by
  unfold lastOfFirst at h ⊢
  cases hs : s.tgt.subsets with
  | nil => rw [hs] at h; cases h
  | cons x xs =>
    rw [hs] at h ho
    cases ho with
    | @cons _ y _ ys hx _ =>
      simp only at h
      show ∃ w, (match (y :: ys : List (List Var)) with
        | [] => Res.ub
        | s :: _ => match s.getLast? with
          | none => .ub
          | some v => .ok v) = .ok w ∧ _
      simp only
      cases hl : x.getLast? with
      | none => rw [hl] at h; cases h
      | some u =>
        rw [hl] at h
        cases h
        have hlen := hx.length
        have hxl : x.length ≠ 0 := by
          intro h0
          rw [List.length_eq_zero_iff] at h0
          rw [h0] at hl
          cases hl
        rw [List.getLast?_eq_getElem?] at hl ⊢
        rw [hlen, List.getElem?_eq_getElem (by omega : x.length - 1 < y.length)]
        obtain ⟨hk, rfl⟩ := List.getElem?_eq_some_iff.mp hl
        exact ⟨_, rfl, (hx.vars _ hk (by omega)).2.2.core⟩

theorem decode_uniform_attrs {C : Ctx} (hA : HookKeepsAttrs C.O) {s : St} {info : Varinfo}
    {r : Var × Input} (h : decode_uniform_b_value C s info = .ok r) : r.1.attrs = [] := by
  unfold decode_uniform_b_value at h
  split at h
  · exact Input.decode_string_same_attrs hA h
  · cases h
  all_goals exact Input.decode_semantic_attrs hA h

theorem decode_uniform_skip {C : Ctx} {s : St} {ss : List (List Var)} (ho : Subs s.tgt.subsets ss)
    (info : Varinfo) :
    decode_uniform_b_value C (skipping s ss) info = decode_uniform_b_value C s info := by
  unfold decode_uniform_b_value
  rw [show (skipping s ss).tgt.subsets = ss from rfl, Subs.length ho]
  rfl

theorem decode_b_skip {C : Ctx} {s : St} {ss : List (List Var)} (ho : Subs s.tgt.subsets ss)
    (info : Varinfo) : decode_b_value C (skipping s ss) info = decode_b_value C s info := by
  unfold decode_b_value
  rw [show (skipping s ss).tgt.subsets = ss from rfl, Subs.length ho]
  rfl

theorem decode_b_attrs {C : Ctx} (hA : HookKeepsAttrs C.O) {s : St} {info : Varinfo}
    {r : List Var × Input} (h : decode_b_value C s info = .ok r) : ∀ v ∈ r.1, v.attrs = [] := by
  unfold decode_b_value at h
  split at h
  · exact Input.decode_compressed_string_attrs hA h
  · cases h
  all_goals exact Input.decode_compressed_number_attrs_nil hA h

theorem decode_and_add_undef {C : Ctx} (hA : HookKeepsAttrs C.O) {s : St} {info : Varinfo}
    {ss : List (List Var)} {r : Var × St} (h : decode_and_add_to_all C s info = .ok r)
    (hs : s.associated_field.skip_missing = false) (ho : Subs s.tgt.subsets ss) :
    ∃ w ss', decode_and_add_to_all C (skipping s ss) info = .ok (w, skipping r.2 ss') ∧
      w.toVarCore = r.1.toVarCore ∧ Subs r.2.tgt.subsets ss' ∧
      r.2.associated_field.skip_missing = false := by
  obtain ⟨a, h1, h⟩ := Res.bind_eq_ok.mp h
  obtain ⟨s1, h2, h⟩ := Res.bind_eq_ok.mp h
  obtain ⟨v, h3, h⟩ := Res.bind_eq_ok.mp h
  cases h
  have ha := decode_uniform_attrs hA h1
  obtain ⟨ss', g1, g2, g3⟩ := storeCopies_two h2 (Input.pairs_same fun v hv => by
    rw [List.eq_of_mem_replicate hv]; exact ha) hs ho
  obtain ⟨w, w1, w2⟩ := lastOfFirst_two h3 g2
  refine ⟨w, ss', ?_, w2, g2, g3⟩
  unfold decode_and_add_to_all
  rw [decode_uniform_skip ho, h1, Res.ok_bind, show (skipping s ss).tgt.subsets = ss from rfl,
    Subs.length ho]
  exact Res.bind_eq_ok.mpr ⟨_, g1, Res.bind_eq_ok.mpr ⟨w, w1, rfl⟩⟩

theorem setAttrs_two (pos : Nat) {ss ss' : List (List Var)} (ho : Subs ss ss') (as : List Var)
    {r : List (List Var)} (h : setAttrs pos ss as = .ok r) :
    ∃ r', setAttrs pos ss' as = .ok r' ∧ Subs r r' := by
  induction ho generalizing as r with
  | nil => cases h; exact ⟨[], rfl, .nil⟩
  | @cons x y xs ys hx ht ih =>
    cases as with
    | nil => cases h; exact ⟨y :: ys, rfl, .cons hx ht⟩
    | cons a as =>
      unfold setAttrs at h ⊢
      split at h
      · obtain ⟨r1, h1, h⟩ := Res.bind_eq_ok.mp h
        cases h
        obtain ⟨r', g1, g2⟩ := ih as h1
        rw [if_pos (by assumption)]
        exact ⟨y :: r', Res.bind_eq_ok.mpr ⟨r', g1, rfl⟩, .cons hx g2⟩
      · rw [if_neg (by assumption)]
        split at h
        · cases h
        · rename_i v hv
          obtain ⟨hk, rfl⟩ := List.getElem?_eq_some_iff.mp hv
          have hk' : pos < y.length := by rw [hx.length]; exact hk
          obtain ⟨u, h1, h⟩ := Res.bind_eq_ok.mp h
          obtain ⟨r1, h2, h⟩ := Res.bind_eq_ok.mp h
          cases h
          obtain ⟨r', g1, g2⟩ := ih as h2
          unfold Var.seta at h1
          obtain ⟨b, h3, h1⟩ := Res.bind_eq_ok.mp h1
          cases h1
          obtain ⟨o1, o2, o3⟩ := hx.vars pos hk hk'
          rw [List.getElem?_eq_getElem hk']
          refine ⟨y.set pos (y[pos].setaMove b) :: r', ?_, .cons (hx.set pos o1.setaMove
            o2.setaMove ⟨o3.core, fun c => ?_⟩) g2⟩
          · simp only [Var.seta, h3, Res.ok_bind, Res.pure_def, g1]
          · rw [enqa_setaMove o1, enqa_setaMove o2]
            split
            · exact .inl rfl
            · exact o3.attrs c

theorem decode_and_set_undef {C : Ctx} {s s' : St} {info : Varinfo} {pos : Nat}
    {ss : List (List Var)} (h : decode_and_set_attribute C s info pos = .ok s')
    (hs : s.associated_field.skip_missing = false) (ho : Subs s.tgt.subsets ss) :
    ∃ ss', decode_and_set_attribute C (skipping s ss) info pos = .ok (skipping s' ss') ∧
      Subs s'.tgt.subsets ss' ∧ s'.associated_field.skip_missing = false := by
  obtain ⟨r, h1, h⟩ := Res.bind_eq_ok.mp h
  obtain ⟨l, h2, h⟩ := Res.bind_eq_ok.mp h
  cases h
  obtain ⟨l', g1, g2⟩ := setAttrs_two pos ho r.1 h2
  refine ⟨l', ?_, g2, hs⟩
  unfold decode_and_set_attribute
  rw [decode_b_skip ho, h1, Res.ok_bind]
  exact Res.bind_eq_ok.mpr ⟨l', g1, rfl⟩

theorem associated_undef {C : Ctx} (hO : Own.PlainHook C.O) {s s' : St} {info : Varinfo}
    {ss : List (List Var)} (h : define_variable_with_associated_field C s info = .ok s')
    (hs : s.associated_field.skip_missing = false) (ho : Subs s.tgt.subsets ss) :
    ∃ ss', define_variable_with_associated_field C (skipping s ss) info = .ok (skipping s' ss') ∧
      Subs s'.tgt.subsets ss' ∧ s'.associated_field.skip_missing = false := by
  obtain ⟨r, h1, h⟩ := Res.bind_eq_ok.mp h
  have key : ∃ ws, decode_b_value_af C (skipping s ss) info = .ok (ws, r.2) ∧
      List.Forall₂ Pair r.1 ws := by
    have hA := HookKeepsAttrs.of_plain hO
    unfold decode_b_value_af at h1 ⊢
    rw [show (skipping s ss).tgt.subsets = ss from rfl, Subs.length ho]
    split at h1
    · exact ⟨r.1, h1, Input.pairs_same (Input.decode_compressed_string_attrs hA h1)⟩
    · cases h1
    · exact Input.decode_compressed_number_af_two hO
        (f := s.associated_field) (g := (skipping s ss).associated_field) rfl rfl hs rfl h1
    · exact Input.decode_compressed_number_af_two hO
        (f := s.associated_field) (g := (skipping s ss).associated_field) rfl rfl hs rfl h1
  obtain ⟨ws, w1, w2⟩ := key
  obtain ⟨ss', g1, g2⟩ := storeCopies_two h w2 hs ho
  exact ⟨ss', Res.bind_eq_ok.mpr ⟨_, w1, g1⟩, g2⟩

theorem undef_sims (C : Ctx) (hO : Own.PlainHook C.O) :
    undefRel.Sims (target C) (target C) where
  bitmap s n := undef_sim fun s' ss h hs ho => by
    have hA := HookKeepsAttrs.of_plain hO
    obtain ⟨r, h1, h⟩ := Res.bind_eq_ok.mp h
    simp only at h
    obtain ⟨info, h2, h⟩ := Res.bind_eq_ok.mp h
    obtain ⟨v, h3, h⟩ := Res.bind_eq_ok.mp h
    obtain ⟨s1, h4, h⟩ := Res.bind_eq_ok.mp h
    obtain ⟨u, h5, h⟩ := Res.bind_eq_ok.mp h
    obtain ⟨b, h6, h⟩ := Res.bind_eq_ok.mp h
    cases h
    obtain ⟨ss', g1, g2, g3⟩ := storeCopies_two h4 (Input.pairs_same fun x hx => by
      rw [List.eq_of_mem_replicate hx]; exact newStr_attrs hA h3) hs ho
    obtain ⟨w, w1, w2⟩ := lastOfFirst_two h5 g2
    have hh : (ss'.headD []).map (·.code) = (s1.tgt.subsets.headD []).map (·.code) ∧
        (ss'.headD []).length = (s1.tgt.subsets.headD []).length := by
      revert g2
      generalize s1.tgt.subsets = l
      intro g2
      cases g2 with
      | nil => exact ⟨rfl, rfl⟩
      | cons hx _ => exact ⟨hx.codes fun _ _ h => h.core, hx.length⟩
    have h7 : s1.bitmaps.define C.E w.toVarCore ((ss'.headD []).map (·.code))
        (ss'.headD []).length = .ok b := by
      rw [hh.1, hh.2, w2]
      exact h6
    refine ⟨ss', ?_, g2, g3⟩
    rw [← Subs.length ho] at g1
    exact Res.bind_eq_ok.mpr ⟨r, h1, Res.bind_eq_ok.mpr ⟨info, h2, Res.bind_eq_ok.mpr
      ⟨v, h3, Res.bind_eq_ok.mpr ⟨_, g1, Res.bind_eq_ok.mpr ⟨w, w1, Res.bind_eq_ok.mpr
        ⟨b, h7, rfl⟩⟩⟩⟩⟩⟩
  element s i := undef_sim fun s' ss h hs ho => by
    obtain ⟨r, h1, h⟩ := Res.bind_eq_ok.mp h
    obtain ⟨ss', g1, g2⟩ := storeCopies_two h
      (Input.pairs_same (decode_b_attrs (HookKeepsAttrs.of_plain hO) h1)) hs ho
    exact ⟨ss', Res.bind_eq_ok.mpr ⟨r, (decode_b_skip ho i).trans h1, g1⟩, g2⟩
  associated s i := undef_sim fun s' ss h hs ho => associated_undef hO h hs ho
  factor s i := undef_simV fun a s' ss h hs ho => by
    obtain ⟨r, h1, h⟩ := Res.bind_eq_ok.mp h
    obtain ⟨n, h2, h⟩ := Res.bind_eq_ok.mp h
    cases h
    obtain ⟨w, ss', g1, g2, g3⟩ := decode_and_add_undef (HookKeepsAttrs.of_plain hO) h1 hs ho
    exact ⟨ss', Res.bind_eq_ok.mpr ⟨_, g1, Res.bind_eq_ok.mpr ⟨n, by rw [g2]; exact h2, rfl⟩⟩, g3⟩
  bitmapFactor s i := undef_simV fun a s' ss h hs ho => by
    obtain ⟨r, h1, h⟩ := Res.bind_eq_ok.mp h
    obtain ⟨n, h2, h⟩ := Res.bind_eq_ok.mp h
    cases h
    exact ⟨ss, Res.bind_eq_ok.mpr ⟨_, (decode_uniform_skip ho i).trans h1,
      Res.bind_eq_ok.mpr ⟨n, h2, rfl⟩⟩, ho, hs⟩
  significance s i := undef_simV fun a s' ss h hs ho => by
    obtain ⟨r, h1, h⟩ := Res.bind_eq_ok.mp h
    obtain ⟨n, h2, h⟩ := Res.bind_eq_ok.mp h
    cases h
    obtain ⟨w, ss', g1, g2, g3⟩ := decode_and_add_undef (HookKeepsAttrs.of_plain hO) h1 hs ho
    exact ⟨ss', Res.bind_eq_ok.mpr ⟨_, g1, Res.bind_eq_ok.mpr ⟨n, by rw [g2]; exact h2, rfl⟩⟩, g3⟩
  substituted s p := undef_sim fun s' ss h hs ho => by
    have h : define_substituted_value C s p = .ok s' := h
    unfold define_substituted_value at h
    show ∃ ss', define_substituted_value C (skipping s ss) p = .ok (skipping s' ss') ∧ _
    unfold define_substituted_value
    cases hl : s.tgt.subsets with
    | nil => rw [hl] at h; cases h
    | cons x xs =>
      rw [hl] at h
      have ho' := ho
      rw [hl] at ho'
      cases ho' with
      | @cons _ y _ ys hx _ =>
        simp only at h
        split at h
        · cases h
        · rename_i v hv
          obtain ⟨hk, rfl⟩ := List.getElem?_eq_some_iff.mp hv
          have hk' : p < y.length := by rw [hx.length]; exact hk
          obtain ⟨ss', g1, g2⟩ := decode_and_set_undef h hs ho
          refine ⟨ss', ?_, g2⟩
          show (match y[p]? with
            | none => Res.ub
            | some v => decode_and_set_attribute C (skipping s (y :: ys)) v.info p) = _
          rw [List.getElem?_eq_getElem hk']
          simp only
          rw [show y[p].info = x[p].info from congrArg VarCore.info (hx.vars p hk hk').2.2.core]
          exact g1
  attr s i p := undef_sim fun s' ss h hs ho => decode_and_set_undef h hs ho
  raw s c := undef_sim fun s' ss h hs ho => by
    obtain ⟨_, -, h⟩ := Res.bind_eq_ok.mp h
    cases h
  refval s c := undef_sim fun s' ss h hs ho => by cases h

end CDecoder

/-- C78 (part) for compressed data: decoding with undefined attributes gives what decoding
without them gives, in the same order and with the same values, reading the same input;
attributes differ only where there are undefined ones. Where the others are then not
always left out is C67 (`C67_not_missing`). A hook for values out of range may set the
variable to a number or unset it. Missing as in `C78_undefined_partial`. -/
theorem C78_compressed_partial (C : Ctx) (hO : Own.PlainHook C.O) (depth : Nat)
    (datadesc : List Varcode) (n : Nat) (caches : TableCaches) (i : Input)
    (outs : List (List Var)) (rest : TableCaches × Input)
    (h : CDecoder.decodeSubsets C true depth datadesc n caches i = .ok (outs, rest)) :
    ∃ outs', CDecoder.decodeSubsets C false depth datadesc n caches i = .ok (outs', rest) ∧
      List.Forall₂ (List.Forall₂ OverUndefined) outs outs' := by
  obtain ⟨s, h1, h⟩ := Res.bind_eq_ok.mp h
  cases h
  obtain ⟨-, hr⟩ := Interp.sim_run C (CDecoder.undef_sims C hO) depth datadesc
    (CDecoder.start true caches n i) s h1
  have h0 : CDecoder.Subs (List.replicate n []) (List.replicate n []) := by
    induction n with
    | zero => exact .nil
    | succ n ih =>
      rw [List.replicate_succ]
      exact .cons ⟨rfl, fun k hk => by cases hk⟩ (List.forall₂_same.mpr fun x hx => by
        rw [List.eq_of_mem_replicate hx]; exact ⟨rfl, fun k hk => by cases hk⟩)
  obtain ⟨t, t1, t2⟩ := hr s.tgt (CDecoder.start false caches n i) trivial
    (CDecoder.undefRel_iff.mpr ⟨rfl, _, h0, rfl⟩)
  obtain ⟨-, outs', g1, rfl⟩ := CDecoder.undefRel_iff.mp t2
  refine ⟨outs', Res.bind_eq_ok.mpr ⟨_, t1, rfl⟩, g1.imp fun a b h => ?_⟩
  exact List.forall₂_iff_get.mpr ⟨h.length.symm, fun k hk hk' => (h.vars k hk hk').2.2⟩

/-- The last variable decoded in each of two compressed subsets. -/
def undefColumn (add_undef : Bool) (b : List Bool) :
    Res (List (Option Value × List (Varcode × Option Value))) := do
  let r ← CDecoder.decodeSubsets sampleCtx add_undef 1 undefDesc 2 noCaches
    { data := packed 12 b, s4_cursor := 0, pbyte := 0, pbyte_len := 0 }
  return (r.1.filterMap List.getLast?).map fun v =>
    (v.toVarCore.view, v.attrs.map fun a => (a.code, a.view))

/-- Hypotheses of C78 met by two compressed subsets, the first of which has a missing field
of significance 8. -/
example : undefColumn true (bits 6 8 ++ bits 6 0 ++ bits 2 1 ++ bits 6 2 ++ bits 2 2 ++ bits 2 0 ++
        bits 16 27315 ++ bits 6 0) =
      .ok [(some (.num 27315), [(WR_VAR 0 33 2, none)]),
        (some (.num 27315), [(WR_VAR 0 33 2, some (.num 1))])] ∧
    undefColumn false (bits 6 8 ++ bits 6 0 ++ bits 2 1 ++ bits 6 2 ++ bits 2 2 ++ bits 2 0 ++
        bits 16 27315 ++ bits 6 0) =
      .ok [(some (.num 27315), []), (some (.num 27315), [(WR_VAR 0 33 2, some (.num 1))])] ∧
    Own.PlainHook sampleCtx.O :=
  ⟨by decide +kernel, by decide +kernel, .of_none rfl⟩

end Wreport
