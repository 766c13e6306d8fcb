import Verif.Lemmas.Listing
import Verif.Lemmas.Moves
import Verif.Lemmas.VarCopy
import Verif.Spec.Items
import Verif.Props.Scan
import Verif.Props.Data

/-!
# C81: the structured printout of a subset
-/

namespace Wreport

open Spec

namespace DDSPrinter

/-- The attributes of all variables are in order. -/
def Ordered (subset : List Var) : Prop :=
  ∀ v ∈ subset, v.attrs.Pairwise (fun a b => a.code < b.code)

/-- The printer went on from one state to another and printed `new`. -/
structure Printed (C : Ctx) (a b : Enc Sheet) (new : List Item) : Prop where
  subset : b.subset = a.subset
  stack : b.ob.stack = a.ob.stack
  number : b.ob.subset_no = a.ob.subset_no
  items : b.ob.items = a.ob.items ++ new
  later : a.current_var ≤ b.current_var
  numbered : ∀ x ∈ new, x.subset_no = a.ob.subset_no
  truthful : Ordered a.subset → ∀ x ∈ new, Truthful C.O a.subset x
  vars : ((a.subset.drop a.current_var).take (b.current_var - a.current_var)).Sublist
    (printedVars new)

theorem Printed.refl (C : Ctx) (a : Enc Sheet) : Printed C a a [] where
  subset := rfl
  stack := rfl
  number := rfl
  items := by simp
  later := le_refl _
  numbered := by simp
  truthful := by simp
  vars := by simp

theorem Printed.trans {C : Ctx} {a b c : Enc Sheet} {n n' : List Item} (h : Printed C a b n)
    (h' : Printed C b c n') : Printed C a c (n ++ n') where
  subset := h'.subset.trans h.subset
  stack := h'.stack.trans h.stack
  number := h'.number.trans h.number
  items := by rw [h'.items, h.items, List.append_assoc]
  later := h.later.trans h'.later
  numbered x hx := by
    rcases List.mem_append.mp hx with hx | hx
    · exact h.numbered x hx
    · rw [h'.numbered x hx, h.number]
  truthful ho x hx := by
    rcases List.mem_append.mp hx with hx | hx
    · exact h.truthful ho x hx
    · have := h'.truthful (by rw [h.subset]; exact ho) x hx
      rwa [h.subset] at this
  vars := by
    have h1 := h.later
    have h2 := h'.later
    have e : c.current_var - a.current_var =
        (b.current_var - a.current_var) + (c.current_var - b.current_var) := by omega
    rw [e, List.take_add, printedVars, List.filterMap_append]
    refine List.Sublist.append h.vars ?_
    have := h'.vars
    rw [h.subset] at this
    rw [List.drop_drop, show a.current_var + (b.current_var - a.current_var) = b.current_var by omega]
    exact this

/-- Printing one item at the same place. -/
theorem Printed.one {C : Ctx} {st st' : Enc.St Sheet} {v : Var} {code : Varcode}
    {pos : Nat} (hg : Enc.get_var st = .ok (v, st')) :
    Printed C st.tgt (print st' code pos (.var v)).tgt
      [⟨st.tgt.ob.subset_no, pos, st.tgt.ob.stack, code, .var v⟩] := by
  unfold Enc.get_var Enc.get_var_at at hg
  cases hs : st.tgt.subset[st.tgt.current_var]? with
  | none => rw [hs] at hg; cases hg
  | some w =>
    rw [hs] at hg
    cases hg
    exact {
      subset := rfl
      stack := rfl
      number := rfl
      items := rfl
      later := Nat.le_succ _
      numbered := by simp
      truthful := by
        intro _ x hx
        rw [List.mem_singleton] at hx
        subst hx
        exact .inl (List.mem_of_getElem? hs)
      vars := by
        obtain ⟨hl, he⟩ := List.getElem?_eq_some_iff.mp hs
        show ((List.drop _ _).take (st.tgt.current_var + 1 - st.tgt.current_var)).Sublist [v]
        rw [show st.tgt.current_var + 1 - st.tgt.current_var = 1 by omega,
          List.drop_eq_getElem_cons hl, he]
        simp }

/-- Printing something true. -/
theorem Printed.say {C : Ctx} (st : Enc.St Sheet) {code : Varcode} {pos : Nat} {content : Content}
    (h : Ordered st.tgt.subset → Truthful C.O st.tgt.subset
      ⟨st.tgt.ob.subset_no, pos, st.tgt.ob.stack, code, content⟩) :
    Printed C st.tgt (print st code pos content).tgt
      [⟨st.tgt.ob.subset_no, pos, st.tgt.ob.stack, code, content⟩] where
  subset := rfl
  stack := rfl
  number := rfl
  items := rfl
  later := le_refl _
  numbered := by simp
  truthful := by
    intro ho x hx
    rw [List.mem_singleton] at hx
    subst hx
    exact h ho
  vars := by
    show ((List.drop _ _).take (st.tgt.current_var - st.tgt.current_var)).Sublist _
    simp

/-- The printer went on and printed items at the present place. -/
def Here (C : Ctx) (a b : Enc Sheet) : Prop :=
  ∃ new, Printed C a b new ∧ ∀ x ∈ new, x.path = a.ob.stack

theorem get_var_ok {st st' : Enc.St Sheet} {v : Var} (h : Enc.get_var st = .ok (v, st')) :
    st.tgt.subset[st.tgt.current_var]? = some v ∧
      st' = { st with tgt := { st.tgt with current_var := st.tgt.current_var + 1 } } := by
  unfold Enc.get_var Enc.get_var_at at h
  cases hs : st.tgt.subset[st.tgt.current_var]? with
  | none => rw [hs] at h; cases h
  | some w => rw [hs] at h; cases h; exact ⟨rfl, rfl⟩

theorem enqaList_some {c : Varcode} {l : List VarCore} {a : VarCore}
    (h : Var.enqaList c l = some a) : a ∈ l ∧ a.code = c := by
  induction l with
  | nil => cases h
  | cons x l ih =>
    unfold Var.enqaList at h
    split at h
    · split at h
      · cases h
        exact ⟨List.mem_cons_self, by assumption⟩
      · exact ⟨List.mem_cons_of_mem _ (ih h).1, (ih h).2⟩
    · cases h

theorem get_attribute_mem {f : AssociatedField} {v : Var} {a : VarCore}
    (h : f.get_attribute v = .ok (some a)) : a ∈ v.attrs := by
  unfold AssociatedField.get_attribute Var.enqa at h
  repeat' split at h
  all_goals first
    | exact (enqaList_some (Res.ok.inj h)).1
    | cases h

theorem Here.var {C : Ctx} {st st' : Enc.St Sheet} {v : Var} {code : Varcode} {pos : Nat}
    (hg : Enc.get_var st = .ok (v, st')) :
    Here C st.tgt (print st' code pos (.var v)).tgt :=
  ⟨_, .one hg, by simp⟩

theorem Here.say {C : Ctx} (st : Enc.St Sheet) {code : Varcode} {pos : Nat} {content : Content}
    (h : Ordered st.tgt.subset → Truthful C.O st.tgt.subset
      ⟨st.tgt.ob.subset_no, pos, st.tgt.ob.stack, code, content⟩) :
    Here C st.tgt (print st code pos content).tgt :=
  ⟨_, .say st h, by simp⟩

theorem print_attr_here {C : Ctx} {st st' : Enc.St Sheet} {info : Varinfo} {pos : Nat}
    (h : print_attr st info pos = .ok st') : Here C st.tgt st'.tgt := by
  unfold print_attr Enc.get_var_at at h
  cases hs : st.tgt.subset[pos]? with
  | none => rw [hs] at h; cases h
  | some v =>
    rw [hs] at h
    simp only [Res.ok_bind] at h
    cases ha : v.enqa info.code with
    | some a =>
      rw [ha] at h
      cases h
      refine .say st fun _ => ⟨v, hs, enqaList_some ha⟩
    | none =>
      rw [ha] at h
      cases h
      refine .say st fun ho => ⟨v, hs, ?_⟩
      intro a hm hc
      unfold Var.enqa at ha
      rw [enqaList_eq (ho v (List.mem_of_getElem? hs)), List.find?_eq_none] at ha
      exact ha a hm (by simpa using hc)

/-- The callbacks print at the present place. -/
theorem moves (C : Ctx) : Moves (target C) (Here C) where
  refl a := ⟨[], .refl C a, by simp⟩
  trans a b c h h' := by
    obtain ⟨n, h1, h2⟩ := h
    obtain ⟨n', h3, h4⟩ := h'
    refine ⟨n ++ n', h1.trans h3, fun x hx => ?_⟩
    rcases List.mem_append.mp hx with hx | hx
    · exact h2 x hx
    · rw [h4 x hx, h1.stack]
  bitmap s n s' h := by
    change define_bitmap C.E s n = .ok s' at h
    unfold define_bitmap at h
    obtain ⟨⟨v, s1⟩, h1, h⟩ := Res.bind_eq_ok.mp h
    obtain ⟨s2, h2, h⟩ := Res.bind_eq_ok.mp h
    cases h
    unfold Enc.define_bitmap at h2
    rw [h1, Res.ok_bind] at h2
    simp only at h2
    split at h2
    · cases h2
    · obtain ⟨b, _, h2⟩ := Res.bind_eq_ok.mp h2
      cases h2
      have := Here.var (C := C) (code := v.code) (pos := 0) h1
      exact this
  variable_ s i s' h := by
    change define_variable s i = .ok s' at h
    unfold define_variable at h
    obtain ⟨⟨v, s1⟩, h1, h⟩ := Res.bind_eq_ok.mp h
    cases h
    exact .var h1
  associated s i s' h := by
    change define_variable_with_associated_field s i = .ok s' at h
    unfold define_variable_with_associated_field at h
    obtain ⟨⟨v, s1⟩, h1, h⟩ := Res.bind_eq_ok.mp h
    obtain ⟨s2, h2, h⟩ := Res.bind_eq_ok.mp h
    cases h
    obtain ⟨hv, rfl⟩ := get_var_ok h1
    unfold encode_associated_field at h2
    obtain ⟨att, h3, h2⟩ := Res.bind_eq_ok.mp h2
    have hm := List.mem_of_getElem? hv
    obtain ⟨content, ht, rfl⟩ : ∃ content, Truthful C.O s.tgt.subset
        ⟨s.tgt.ob.subset_no, s.tgt.current_var + 1, s.tgt.ob.stack, v.code, content⟩ ∧
        s2 = print { s with tgt := { s.tgt with current_var := s.tgt.current_var + 1 } } v.code
          (s.tgt.current_var + 1) content := by
      cases att with
      | some a =>
        cases h2
        exact ⟨.field a, ⟨v, hm, rfl, get_attribute_mem h3⟩, rfl⟩
      | none =>
        cases h2
        exact ⟨.noField _, ⟨v, hm, rfl⟩, rfl⟩
    have hg : Enc.get_var (print s v.code (s.tgt.current_var + 1) content) = .ok (v,
        print { s with tgt := { s.tgt with current_var := s.tgt.current_var + 1 } } v.code
          (s.tgt.current_var + 1) content) := by
      unfold Enc.get_var Enc.get_var_at
      simp only [show (print s v.code (s.tgt.current_var + 1) content).tgt.subset[(print s v.code
        (s.tgt.current_var + 1) content).tgt.current_var]? = some v from hv, Res.ok_bind]
      rfl
    obtain ⟨n, p1, p2⟩ := Here.say (C := C) s (code := v.code) (pos := s.tgt.current_var + 1)
      (content := content) fun _ => ht
    obtain ⟨n', p3, p4⟩ := Here.var (C := C) (code := i.code) (pos := s.tgt.current_var + 1) hg
    refine ⟨n ++ n', p1.trans p3, fun x hx => ?_⟩
    rcases List.mem_append.mp hx with hx | hx
    · exact p2 x hx
    · rw [p4 x hx, p1.stack]
  factor s i n s' h := by
    change define_delayed_replication_factor s i = .ok (n, s') at h
    unfold define_delayed_replication_factor at h
    obtain ⟨⟨v, s1⟩, h1, h⟩ := Res.bind_eq_ok.mp h
    obtain ⟨k, _, h⟩ := Res.bind_eq_ok.mp h
    cases h
    exact .var h1
  bitmapFactor s i n s' h := by
    change define_bitmap_delayed_replication_factor C.O s i = .ok (n, s') at h
    unfold define_bitmap_delayed_replication_factor at h
    obtain ⟨v, h1, h⟩ := Res.bind_eq_ok.mp h
    obtain ⟨r, h2, h⟩ := Res.bind_eq_ok.mp h
    cases h
    unfold Enc.get_var_at at h1
    cases hs : s.tgt.subset[s.tgt.current_var]? with
    | none => rw [hs] at h1; cases h1
    | some w =>
      rw [hs] at h1
      cases h1
      exact .say s fun _ => .inr ⟨v, i, hs, rfl, h2⟩
  significance s i n s' h := by
    change define_associated_field_significance s i = .ok (n, s') at h
    unfold define_associated_field_significance at h
    obtain ⟨⟨v, s1⟩, h1, h⟩ := Res.bind_eq_ok.mp h
    obtain ⟨k, _, h⟩ := Res.bind_eq_ok.mp h
    cases h
    exact .var h1
  substituted s p s' h := by
    change define_substituted_value s p = .ok s' at h
    unfold define_substituted_value at h
    split at h
    · cases h
    · exact print_attr_here h
  attr s i p s' h := print_attr_here h
  raw s c s' h := by
    change define_raw_character_data s c = .ok s' at h
    unfold define_raw_character_data at h
    obtain ⟨⟨v, s1⟩, h1, h⟩ := Res.bind_eq_ok.mp h
    cases h
    exact .var h1
  refval s c s' h := by cases h

/-- What is printed for descriptors: everything is nested in them. -/
def Under (C : Ctx) (ops : List Varcode) (s s' : Enc.St Sheet) : Prop :=
  ∃ new, Printed C s.tgt s'.tgt new ∧ ∀ x ∈ new, ∃ path g,
    x.path = s.tgt.ob.stack ++ path ∧ NestedIn C.dtable.query ops path g

theorem _root_.Wreport.Spec.NestedIn.append {D : Varcode → Res (List Varcode)} {ops path g : List Varcode}
    (h : NestedIn D ops path g) (pre : List Varcode) : ∃ g', NestedIn D (pre ++ ops) path g' := by
  cases h with
  | top => exact ⟨_, .top⟩
  | @group p _ _ _ _ _ _ hf hc hg h =>
    refine ⟨g, ?_⟩
    rw [← List.append_assoc]
    exact .group (pre := pre ++ p) hf hc hg h
  | @factor p _ _ _ hf hc =>
    refine ⟨g, ?_⟩
    rw [← List.append_assoc]
    exact .factor (pre := pre ++ p) hf hc
  | @sequence p _ _ _ _ _ hf hl h =>
    refine ⟨g, ?_⟩
    rw [← List.append_assoc]
    exact .sequence (pre := pre ++ p) hf hl h

/-- Going on with more descriptors. -/
theorem Under.next {C : Ctx} {ops pre : List Varcode} {s s1 s' : Enc.St Sheet} {new : List Item}
    (h : Printed C s.tgt s1.tgt new)
    (hn : ∀ x ∈ new, ∃ path g, x.path = s.tgt.ob.stack ++ path ∧
      NestedIn C.dtable.query (pre ++ ops) path g)
    (h' : Under C ops s1 s') : Under C (pre ++ ops) s s' := by
  obtain ⟨new', h1, h2⟩ := h'
  refine ⟨new ++ new', h.trans h1, fun x hx => ?_⟩
  rcases List.mem_append.mp hx with hx | hx
  · exact hn x hx
  · obtain ⟨path, g, h3, h4⟩ := h2 x hx
    obtain ⟨g', h5⟩ := h4.append pre
    exact ⟨path, g', by rw [h3, h.stack], h5⟩

theorem Under.here {C : Ctx} {ops pre : List Varcode} {s s1 s' : Enc.St Sheet}
    (h : Here C s.tgt s1.tgt) (h' : Under C ops s1 s') : Under C (pre ++ ops) s s' := by
  obtain ⟨new, h1, h2⟩ := h
  exact h'.next h1 fun x hx => ⟨[], _, by rw [h2 x hx, List.append_nil], .top⟩

/-- Repeating. -/
theorem times_under {C : Ctx} {g : List Varcode} {body : Enc.St Sheet → Res (Enc.St Sheet)}
    (hb : ∀ a b, body a = .ok b → Under C g a b) (n : Nat) (s s' : Enc.St Sheet)
    (h : Interp.times body n s = .ok s') : Under C g s s' := by
  refine Interp.times_moves (M := Under C g) (fun a => ⟨[], .refl C _, by simp⟩) ?_ hb n s s' h
  intro a b c h1 h2
  obtain ⟨n1, h3, h4⟩ := h1
  exact Under.next (pre := []) h3 h4 h2

/-- With something on the stack while it is done. -/
theorem nested_ok {C : Ctx} {code : Varcode} {body : Enc.St Sheet → Res (Enc.St Sheet)}
    {s s' : Enc.St Sheet} (h : nested code body s = .ok s') :
    ∃ t, body (setStack s (s.tgt.ob.stack ++ [code])) = .ok t ∧
      ∀ new, Printed C (setStack s (s.tgt.ob.stack ++ [code])).tgt t.tgt new →
        Printed C s.tgt s'.tgt new := by
  unfold nested at h
  obtain ⟨t, h1, h⟩ := Res.bind_eq_ok.mp h
  cases h
  refine ⟨t, h1, fun new hp => ?_⟩
  exact {
    subset := hp.subset
    stack := by
      show t.tgt.ob.stack.dropLast = _
      rw [hp.stack]
      exact List.dropLast_concat
    number := hp.number
    items := hp.items
    later := hp.later
    numbered := hp.numbered
    truthful := hp.truthful
    vars := hp.vars }

theorem rule (C : Ctx) : Over.Rule C (over C) (Under C) where
  nil s := ⟨[], .refl C _, by simp⟩
  element c rest s s1 s' _ h hp := Under.here (pre := [c]) ((moves C).b_variable h) hp
  operator c rest rest' s s1 s' _ h hp := by
    have hm : Here C s.tgt s1.tgt := (moves C).c_modifier h
    rcases Interp.c_modifier_rest (show Interp.c_modifier C (target C) s c rest = .ok (rest', s1)
      from h) with ⟨_, rfl⟩ | ⟨_, rfl⟩ | ⟨_, n, rfl⟩
    · exact Under.here (pre := [c]) hm hp
    · exact Under.here (pre := [c, WR_VAR 0 31 21]) hm hp
    · exact Under.here (pre := [c, n]) hm hp
  replication c rest d ops g post body s s1 s' hf _ hd ho hl hb h hp := by
    obtain ⟨f, hfa, rfl, _, _⟩ := Interp.delayedCode_split hd
    subst ho
    obtain ⟨t, h1, h2⟩ := nested_ok (C := C) (show nested c
      (fun st => Interp.r_replication C (target C) body st c d) s = .ok s1 from h)
    have key : ∃ new, Printed C (setStack s (s.tgt.ob.stack ++ [c])).tgt t.tgt new ∧
        ∀ x ∈ new, ∃ path g', x.path = s.tgt.ob.stack ++ path ∧
          NestedIn C.dtable.query (c :: (f ++ (g ++ post))) path g' := by
      have hin : ∀ a, a.tgt.ob.stack = s.tgt.ob.stack ++ [c] → Under C g a t →
          ∃ new, Printed C a.tgt t.tgt new ∧
          ∀ x ∈ new, ∃ path g', x.path = s.tgt.ob.stack ++ path ∧
            NestedIn C.dtable.query (c :: (f ++ (g ++ post))) path g' := by
        rintro a ha ⟨new, h3, h4⟩
        refine ⟨new, h3, fun x hx => ?_⟩
        obtain ⟨path, g', h5, h6⟩ := h4 x hx
        exact ⟨c :: path, g', by rw [h5, ha, List.append_assoc]; rfl,
          .group (pre := []) hf hfa hl h6⟩
      unfold Interp.r_replication at h1
      split at h1
      · exact hin _ rfl (times_under hb _ _ _ h1)
      · obtain ⟨i, _, h1⟩ := Res.bind_eq_ok.mp h1
        obtain ⟨⟨n, s2⟩, h3, h1⟩ := Res.bind_eq_ok.mp h1
        obtain ⟨n1, p1, p2⟩ := (moves C).factor _ _ _ _ h3
        obtain ⟨n2, p3, p4⟩ := hin s2 p1.stack (times_under hb _ _ _ h1)
        refine ⟨n1 ++ n2, p1.trans p3, fun x hx => ?_⟩
        rcases List.mem_append.mp hx with hx | hx
        · exact ⟨[c], _, p2 x hx, .factor (pre := []) hf hfa⟩
        · exact p4 x hx
    obtain ⟨new, h3, h4⟩ := key
    have := Under.next (pre := c :: (f ++ g)) (ops := post) (h2 new h3) (fun x hx => by
      obtain ⟨path, g', h5, h6⟩ := h4 x hx
      exact ⟨path, g', h5, by simpa using h6⟩) hp
    simpa using this
  bitmap c rest d ops g post s s1 s' _ _ hd ho hl h hp := by
    obtain ⟨f, _, rfl, _, _⟩ := Interp.delayedCode_split hd
    subst ho
    have := Under.here (pre := c :: (f ++ g)) ((moves C).r_bitmap (C := C) h) hp
    simpa using this
  sequence c rest l body s s1 s' hf hl hb h hp := by
    obtain ⟨t, h1, h2⟩ := nested_ok (C := C) (show nested c body s = .ok s1 from h)
    obtain ⟨new, h3, h4⟩ := hb _ _ h1
    refine Under.next (pre := [c]) (h2 new h3) (fun x hx => ?_) hp
    obtain ⟨path, g', h5, h6⟩ := h4 x hx
    refine ⟨c :: path, g', ?_, .sequence (pre := []) hf hl h6⟩
    rw [h5]
    show (s.tgt.ob.stack ++ [c]) ++ path = _
    rw [List.append_assoc]; rfl

end DDSPrinter

/-- C81: every item printed for a subset has its number, stands under descriptors that
are nested as printed, and says something true about the subset; and all the variables
that the descriptors take are printed, in order. Missing: the positions of variables,
which are one too high, and printing every subset that can be encoded
(`C81_not_position`, `C81_not_printed`). -/
theorem C81_printout_partial (C : Ctx) (depth : Nat) (datadesc : List Varcode) (n : Nat)
    (subset : List Var) (caches : TableCaches) (st : Enc.St Sheet)
    (h : (DDSPrinter.over C).run C depth datadesc (.new caches ⟨subset, 0, ⟨n, [], []⟩⟩) = .ok st) :
    (∀ x ∈ st.tgt.ob.items, x.subset_no = n ∧ ∃ g, NestedIn C.dtable.query datadesc x.path g) ∧
    (DDSPrinter.Ordered subset → ∀ x ∈ st.tgt.ob.items, Truthful C.O subset x) ∧
    (subset.take st.tgt.current_var).Sublist (printedVars st.tgt.ob.items) := by
  obtain ⟨new, h1, h2⟩ := (DDSPrinter.rule C).run depth datadesc h
  have hi : st.tgt.ob.items = new := h1.items
  rw [hi]
  refine ⟨fun x hx => ⟨h1.numbered x hx, ?_⟩, h1.truthful, ?_⟩
  · obtain ⟨path, g, h3, h4⟩ := h2 x hx
    rw [h3]
    exact ⟨g, h4⟩
  · simpa [Interp.new] using h1.vars

/-- The same for all subsets of a bulletin: what is printed is, subset by subset, what is
printed for each, with the number of the subset. Missing: as for
`C81_printout_partial`. -/
theorem C81_subsets_partial (C : Ctx) (depth : Nat) (datadesc : List Varcode) (n : Nat)
    (subsets : List (List Var)) (caches : TableCaches) (items : List Item)
    (h : DDSPrinter.printSubsets C depth datadesc n subsets caches = .ok items) :
    ∃ parts : List (List Item), items = parts.flatten ∧ parts.length = subsets.length ∧
      ∀ k part subset, parts[k]? = some part → subsets[k]? = some subset →
        (∀ x ∈ part, x.subset_no = n + k) ∧
        ∃ caches caches', DDSPrinter.printSubset C depth datadesc (n + k) subset caches =
          .ok (caches', part) := by
  induction subsets generalizing n caches items with
  | nil =>
    cases h
    exact ⟨[], rfl, rfl, by simp⟩
  | cons s rest ih =>
    obtain ⟨⟨c1, p⟩, h1, h⟩ := Res.bind_eq_ok.mp h
    obtain ⟨is, h2, h⟩ := Res.bind_eq_ok.mp h
    cases h
    obtain ⟨parts, rfl, hl, hp⟩ := ih _ _ _ h2
    refine ⟨p :: parts, rfl, by simp [hl], fun k part subset hk hs => ?_⟩
    cases k with
    | zero =>
      cases hk
      cases hs
      refine ⟨fun x hx => ?_, _, _, h1⟩
      obtain ⟨st, h3, h4⟩ := Res.bind_eq_ok.mp h1
      cases h4
      exact ((C81_printout_partial C depth datadesc n _ _ _ h3).1 x hx).1
    | succ k =>
      obtain ⟨h3, h4⟩ := hp k part subset hk hs
      rw [show n + (k + 1) = n + 1 + k by omega]
      exact ⟨h3, h4⟩

/-- What is printed of an item. -/
structure Glance where
  pos : Nat
  path : List Varcode
  code : Varcode
  isVar : Bool
deriving DecidableEq

def glance (x : Item) : Glance :=
  ⟨x.var_pos, x.path, x.code, match x.content with | .var _ => true | _ => false⟩

/-- What is printed of the items of a subset. -/
def glances (depth : Nat) (datadesc : List Varcode) (subset : List Var) : Res (List Glance) := do
  let r ← DDSPrinter.printSubset sampleCtx depth datadesc 0 subset noCaches
  return r.2.map glance

/-- The hypotheses of C81 are met, with sequences in a delayed replication. -/
example : glances 1 [WR_VAR 1 1 0, WR_VAR 0 31 1, WR_VAR 3 1 1, WR_VAR 0 2 1]
    [factorVar 1, tempVar 27315, codeVar 1, codeVar 2] = .ok [
      ⟨1, [WR_VAR 1 1 0], WR_VAR 0 31 1, true⟩,
      ⟨2, [WR_VAR 1 1 0, WR_VAR 3 1 1], WR_VAR 0 12 101, true⟩,
      ⟨3, [WR_VAR 1 1 0, WR_VAR 3 1 1], WR_VAR 0 2 1, true⟩,
      ⟨4, [], WR_VAR 0 2 1, true⟩] := by decide +kernel

example : DDSPrinter.Ordered attrSubset := by
  unfold DDSPrinter.Ordered
  decide +kernel

/-- C81 fails for positions: in this subset the temperature is the variable number 1
counting from 0. It is printed as number 2, while its attribute is printed as belonging
to number 1. -/
theorem C81_not_position :
    (attrSubset.map (·.code))[1]? = some (WR_VAR 0 12 101) ∧
    (do let g ← glances 1 attrDesc attrSubset
        return (g[2]?, g[5]?)) =
      Res.ok (some ⟨2, [], WR_VAR 0 12 101, true⟩, some ⟨1, [], WR_VAR 0 33 7, false⟩) := by
  decide +kernel

/-- C81 fails for changes of reference values: the subset can be encoded, and printing it
throws. -/
theorem C81_not_printed :
    (written 0 [WR_VAR 2 3 10, WR_VAR 0 12 101, WR_VAR 2 3 255, WR_VAR 0 12 101]
      [(Var.new { sampleTemp with bit_ref := 5 }).putInt 7]).isOk = true ∧
    glances 0 [WR_VAR 2 3 10, WR_VAR 0 12 101, WR_VAR 2 3 255, WR_VAR 0 12 101]
      [(Var.new { sampleTemp with bit_ref := 5 }).putInt 7] = .err .unimplemented := by
  decide +kernel

end Wreport
