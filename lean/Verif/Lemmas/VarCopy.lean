import Verif.Lemmas.Var

/-! # Copying, comparing and attribute chains -/

namespace Wreport

open Spec

theorem WF_new (info : Varinfo) : (Var.new info).toVarCore.WF := by
  unfold VarCore.WF Var.new
  cases info.type <;> simp [inInt]

theorem view_unset {v : VarCore} (h : v.isset = false) : v.view = none := by
  unfold VarCore.view; simp [h]

theorem WF_isset_false {v : VarCore} (h : v.WF) : ({ v with isset := false } : VarCore).WF := by
  unfold VarCore.WF at *
  cases ht : v.info.type with
  | integer => simpa [ht] using h
  | decimal => simpa [ht] using h
  | string =>
    simp only [ht] at h ⊢
    rcases h with ⟨-, h⟩ | ⟨m, h, hl, -⟩
    · exact Or.inl ⟨trivial, h⟩
    · exact Or.inr ⟨m, h, hl, nofun⟩
  | binary =>
    simp only [ht] at h ⊢
    rcases h with ⟨-, h⟩ | ⟨m, h, hl, -⟩
    · exact Or.inl ⟨trivial, h⟩
    · exact Or.inr ⟨m, h, hl, nofun⟩

/-- The three ways a set variable can look. -/
theorem WF_set {v : VarCore} (h : v.WF) (hs : v.isset = true) :
    (v.info.IsNum ∧ ∃ i, v.cell = .word i ∧ inInt i = true ∧ v.view = some (.num i)) ∨
    (v.info.type = .string ∧ ∃ m s, v.cell = .mem m ∧ m.length = v.info.len + 1 ∧
      cstr m = .ok s ∧ v.view = some (.text s)) ∨
    (v.info.type = .binary ∧ ∃ m, v.cell = .mem m ∧ m.length = v.info.len + 1 ∧
      none ∉ m.take v.info.len ∧ v.view = some (.bits ((m.take v.info.len).map (·.getD 0)))) := by
  cases ht : v.info.type with
  | integer =>
    left
    obtain ⟨i, h1, h2⟩ := (WF_num (Or.inl ht)).mp h
    exact ⟨Or.inl ht, i, h1, h2, view_num (Or.inl ht) h1 hs⟩
  | decimal =>
    left
    obtain ⟨i, h1, h2⟩ := (WF_num (Or.inr ht)).mp h
    exact ⟨Or.inr ht, i, h1, h2, view_num (Or.inr ht) h1 hs⟩
  | string =>
    right; left
    unfold VarCore.WF at h
    simp only [ht] at h
    rcases h with ⟨h, -⟩ | ⟨m, h, hl, h'⟩
    · rw [h] at hs; cases hs
    · obtain ⟨s, h2⟩ := h' hs
      exact ⟨rfl, m, s, h, hl, h2, by unfold VarCore.view; simp [hs, ht, h, h2]⟩
  | binary =>
    right; right
    unfold VarCore.WF at h
    simp only [ht] at h
    rcases h with ⟨h, -⟩ | ⟨m, h, hl, h'⟩
    · rw [h] at hs; cases hs
    · exact ⟨rfl, m, h, hl, h' hs, by unfold VarCore.view; simp [hs, ht, h]⟩

theorem map_getD_inj {x y : Mem} (hx : none ∉ x) (hy : none ∉ y) :
    x.map (·.getD 0) = y.map (·.getD 0) ↔ x = y := by
  constructor
  · intro h
    have e : ∀ z : Mem, none ∉ z → (z.map (·.getD 0)).map some = z := by
      intro z hz
      rw [List.map_map]
      conv_rhs => rw [← List.map_id z]
      apply List.map_congr_left
      intro o ho
      cases o with
      | none => exact absurd ho hz
      | some b => rfl
    rw [← e x hx, ← e y hy, h]
  · rintro rfl; rfl

/-- Comparison of values of variables with the same descriptor. -/
theorem value_equals_eq {a b : VarCore} (ha : a.WF) (hb : b.WF) (hi : a.info = b.info) :
    a.value_equals b = .ok (decide (a.view = b.view)) := by
  unfold VarCore.value_equals
  cases hsa : a.isset with
  | false =>
    rw [view_unset hsa]
    cases hsb : b.isset with
    | false => rw [view_unset hsb]; simp
    | true =>
      obtain ⟨-, i, -, -, h⟩ | ⟨-, m, s, -, -, -, h⟩ | ⟨-, m, -, -, -, h⟩ := WF_set hb hsb <;>
        simp [h]
  | true =>
    cases hsb : b.isset with
    | false =>
      rw [view_unset hsb]
      obtain ⟨-, i, -, -, h⟩ | ⟨-, m, s, -, -, -, h⟩ | ⟨-, m, -, -, -, h⟩ := WF_set ha hsa <;>
        simp [h]
    | true =>
      simp only [Bool.not_true, Bool.and_false, Bool.or_self, Bool.false_eq_true, if_false]
      obtain ⟨tn, i, ci, -, h⟩ | ⟨tn, m, s, ci, -, hcs, h⟩ | ⟨tn, m, ci, hl, hnn, h⟩ := WF_set ha hsa
      · obtain ⟨-, j, cj, -, h'⟩ | ⟨tn', -⟩ | ⟨tn', -⟩ := WF_set hb hsb
        · rw [h, h', ci, cj]
          rcases tn with tn | tn <;> simp [tn]
        · rw [hi] at tn; rcases tn with tn | tn <;> rw [tn] at tn' <;> cases tn'
        · rw [hi] at tn; rcases tn with tn | tn <;> rw [tn] at tn' <;> cases tn'
      · obtain ⟨tn', -⟩ | ⟨-, m', s', cj, -, hcs', h'⟩ | ⟨tn', -⟩ := WF_set hb hsb
        · rw [hi] at tn; rcases tn' with tn' | tn' <;> rw [tn] at tn' <;> cases tn'
        · rw [h, h']
          simp [tn, VarCore.ptr, ci, cj, hcs, hcs']
        · rw [hi] at tn; rw [tn] at tn'; cases tn'
      · obtain ⟨tn', -⟩ | ⟨tn', -⟩ | ⟨-, m', cj, hl', hnn', h'⟩ := WF_set hb hsb
        · rw [hi] at tn; rcases tn' with tn' | tn' <;> rw [tn] at tn' <;> cases tn'
        · rw [hi] at tn; rw [tn] at tn'; cases tn'
        · rw [h, h']
          rw [← hi] at hl' hnn'
          simp only [tn, VarCore.ptr, ci, cj, Res.ok_bind, ← hi]
          rw [memRead_of_le (by omega), memRead_of_le (by omega)]
          simp only [Res.ok_bind]
          rw [if_neg (by tauto)]
          simp only [Option.some.injEq, Value.bits.injEq, map_getD_inj hnn hnn']

/-- Copying a value between variables with the same descriptor. -/
theorem copy_value_ok {v : Var} {src : VarCore} (hv : v.toVarCore.WF) (hs : src.WF)
    (hi : v.info = src.info) :
    ∃ v', v.copy_value src = .ok v' ∧ v'.info = v.info ∧ v'.attrs = v.attrs ∧
      v'.toVarCore.WF ∧ v'.toVarCore.view = src.view ∧ v'.isset = src.isset := by
  unfold Var.copy_value
  cases hset : src.isset with
  | false =>
    refine ⟨{ v with isset := false }, by simp, rfl, rfl, WF_isset_false hv, ?_, rfl⟩
    rw [view_unset hset]
    exact view_unset rfl
  | true =>
    simp only [Bool.not_true, Bool.false_eq_true, if_false]
    obtain ⟨tn, i, ci, hin, h⟩ | ⟨tn, m, s, ci, hl, hcs, h⟩ | ⟨tn, m, ci, hl, hnn, h⟩ :=
      WF_set hs hset
    · rw [ci, h]
      rw [← hi] at tn
      refine ⟨v.putInt i, by rcases tn with t | t <;> simp [t], rfl, rfl, ?_, ?_, rfl⟩
      · exact (WF_num (v := (v.putInt i).toVarCore) tn).mpr ⟨i, rfl, hin⟩
      · exact view_num (v := (v.putInt i).toVarCore) tn rfl rfl
    · rw [h]
      rw [← hi] at tn hl
      obtain ⟨m0, a1, a2⟩ := WF_allocate hv (Or.inl tn)
      have hptr : src.ptr = .ok m := by simp [VarCore.ptr, ci]
      refine ⟨v.putMem m, ?_, rfl, rfl, Var.WF_putMem_string tn hl hcs,
        Var.view_putMem_string tn hcs, rfl⟩
      simp only [tn, a1, hptr, Res.ok_bind]
      rw [memRead_of_le (by omega)]
      simp only [Res.ok_bind]
      rw [memWrite_of_le (by simp; omega)]
      simp only [Res.ok_bind, Res.pure_def, Res.ok.injEq]
      congr
      rw [List.take_of_length_le (by omega), List.drop_of_length_le (by omega), List.append_nil]
    · rw [h]
      have tn' := tn
      have hl' := hl
      rw [← hi] at tn' hl'
      obtain ⟨m0, a1, a2⟩ := WF_allocate hv (Or.inr tn')
      have hptr : src.ptr = .ok m := by simp [VarCore.ptr, ci]
      have htk : ((m.take v.info.len) ++ m0.drop (m.take v.info.len).length).take v.info.len =
          m.take v.info.len := by
        rw [List.take_append_of_le_length (by simp; omega)]
        rw [List.take_take, min_self]
      have hlen : ((m.take v.info.len) ++ m0.drop (m.take v.info.len).length).length =
          v.info.len + 1 := by simp; omega
      refine ⟨v.putMem (m.take v.info.len ++ m0.drop (m.take v.info.len).length), ?_, rfl, rfl,
        ?_, ?_, rfl⟩
      · simp only [tn', a1, hptr, Res.ok_bind]
        rw [memRead_of_le (by omega)]
        simp only [Res.ok_bind]
        rw [memWrite_of_le (by simp; omega)]
        simp
      · unfold VarCore.WF Var.putMem
        simp only [tn']
        right
        refine ⟨_, rfl, hlen, fun _ => ?_⟩
        rw [htk, hi]; exact hnn
      · unfold VarCore.view Var.putMem
        simp only [tn', Bool.not_true, Bool.false_eq_true, if_false]
        rw [htk, hi]

/-- Copying a chain of attributes. -/
theorem copyAttrs_ok {l : List VarCore} (h : ∀ a ∈ l, a.WF) :
    ∃ l', Var.copyAttrs l = .ok l' ∧ (∀ a ∈ l', a.WF) ∧
      l'.map (fun a => (a.info, a.isset, a.view)) = l.map (fun a => (a.info, a.isset, a.view)) := by
  induction l with
  | nil => exact ⟨[], rfl, by simp, rfl⟩
  | cons a l ih =>
    obtain ⟨l', h1, h2, h3⟩ := ih (fun x hx => h x (List.mem_cons_of_mem _ hx))
    obtain ⟨c, c1, c2, -, c4, c5, c6⟩ :=
      copy_value_ok (v := Var.new a.info) (WF_new _) (h a (by simp)) rfl
    refine ⟨c.toVarCore :: l', ?_, ?_, ?_⟩
    · rw [Var.copyAttrs, c1]
      simp [h1]
    · intro x hx
      rcases List.mem_cons.mp hx with rfl | hx
      · exact c4
      · exact h2 x hx
    · simp only [List.map_cons, c5, c6, h3]
      rw [c2]
      rfl

theorem codes_of_infos {l l' : List VarCore}
    (h : l'.map (fun a => (a.info, a.isset, a.view)) = l.map (fun a => (a.info, a.isset, a.view))) :
    l'.map (·.code) = l.map (·.code) ∧
      (l'.map fun a => (a.code, a.view)) = l.map fun a => (a.code, a.view) := by
  constructor
  · have := congrArg (List.map (fun p : Varinfo × Bool × Option Value => p.1.code)) h
    simpa [List.map_map, Function.comp_def, VarCore.code] using this
  · have := congrArg (List.map (fun p : Varinfo × Bool × Option Value => (p.1.code, p.2.2))) h
    simpa [List.map_map, Function.comp_def, VarCore.code] using this

theorem sorted_of_codes {l l' : List VarCore} (h : l'.map (·.code) = l.map (·.code))
    (hs : l.Pairwise (fun a b => a.code < b.code)) : l'.Pairwise (fun a b => a.code < b.code) := by
  have := (List.pairwise_map (f := VarCore.code) (R := (· < ·))).mpr hs
  rw [← h] at this
  exact List.pairwise_map.mp this

/-- `setattrs` from a well formed variable. -/
theorem setattrs_ok {v src : Var} (hv : v.toVarCore.WF) (hs : src.WF) :
    ∃ v', v.setattrs src = .ok v' ∧ v'.WF ∧ v'.toVarCore = v.toVarCore ∧
      v'.attrs.map (fun a => (a.info, a.isset, a.view)) =
        src.attrs.map (fun a => (a.info, a.isset, a.view)) := by
  obtain ⟨l', h1, h2, h3⟩ := copyAttrs_ok hs.attrs
  refine ⟨{ v with attrs := l' }, ?_, ⟨hv, h2, sorted_of_codes (codes_of_infos h3).1 hs.sorted⟩,
    rfl, h3⟩
  unfold Var.setattrs
  rw [h1]; rfl

/-- The copy constructor. -/
theorem copy_ok {src : Var} (hs : src.WF) :
    ∃ v, src.copy = .ok v ∧ v.WF ∧ v.info = src.info ∧ v.isset = src.isset ∧
      v.toVarCore.view = src.toVarCore.view ∧
      v.attrs.map (fun a => (a.info, a.isset, a.view)) =
        src.attrs.map (fun a => (a.info, a.isset, a.view)) := by
  obtain ⟨c, c1, c2, -, c4, c5, c6⟩ :=
    copy_value_ok (v := Var.new src.info) (WF_new _) hs.core rfl
  obtain ⟨w, w1, w2, w3, w4⟩ := setattrs_ok (v := c) c4 hs
  refine ⟨w, ?_, w2, ?_, ?_, ?_, w4⟩
  · unfold Var.copy
    rw [c1]
    exact w1
  · rw [show w.info = w.toVarCore.info from rfl, w3]; exact c2
  · rw [show w.isset = w.toVarCore.isset from rfl, w3]; exact c6
  · rw [w3]; exact c5

/-! ## Attribute chains as maps -/

theorem enqaList_eq {l : List VarCore} (hs : l.Pairwise (fun a b => a.code < b.code)) (c : Nat) :
    Var.enqaList c l = l.find? (fun a => a.code = c) := by
  induction l with
  | nil => rfl
  | cons a l ih =>
    rw [List.pairwise_cons] at hs
    rw [Var.enqaList, List.find?_cons, ih hs.2]
    by_cases h : a.code = c
    · simp [h]
    · rw [if_neg h]
      simp only [h, decide_false]
      split
      · rfl
      · symm
        rw [List.find?_eq_none]
        intro x hx
        have := hs.1 x hx
        simp; omega

theorem setaList_mem {attr x : VarCore} {l : List VarCore} (h : x ∈ Var.setaList attr l) :
    x = attr ∨ x ∈ l := by
  induction l with
  | nil => simpa [Var.setaList] using h
  | cons a l ih =>
    rw [Var.setaList] at h
    split at h
    · simpa using h
    · split at h
      · simp only [List.mem_cons] at h ⊢; tauto
      · simp only [List.mem_cons] at h ⊢
        rcases h with h | h
        · tauto
        · have := ih h; tauto

theorem setaList_sorted {attr : VarCore} {l : List VarCore}
    (hs : l.Pairwise (fun a b => a.code < b.code)) :
    (Var.setaList attr l).Pairwise (fun a b => a.code < b.code) := by
  induction l with
  | nil => simp [Var.setaList]
  | cons a l ih =>
    have hs' := List.pairwise_cons.mp hs
    rw [Var.setaList]
    split
    · rw [List.pairwise_cons]
      refine ⟨?_, hs⟩
      intro x hx
      rcases List.mem_cons.mp hx with rfl | hx
      · assumption
      · have := hs'.1 x hx; omega
    · split
      · rw [List.pairwise_cons]
        exact ⟨fun x hx => by have := hs'.1 x hx; omega, hs'.2⟩
      · rw [List.pairwise_cons]
        refine ⟨fun x hx => ?_, ih hs'.2⟩
        rcases setaList_mem hx with rfl | hx
        · omega
        · exact hs'.1 x hx

theorem find_setaList {attr : VarCore} {l : List VarCore}
    (hs : l.Pairwise (fun a b => a.code < b.code)) (c : Nat) :
    (Var.setaList attr l).find? (fun a => a.code = c) =
      if attr.code = c then some attr else l.find? (fun a => a.code = c) := by
  induction l with
  | nil => simp [Var.setaList, List.find?_cons]; split <;> simp_all
  | cons a l ih =>
    have hs' := List.pairwise_cons.mp hs
    rw [Var.setaList]
    split
    · rw [List.find?_cons]
      by_cases h : attr.code = c <;> simp [h]
    · split
      · next h1 h2 =>
        rw [List.find?_cons]
        by_cases h : attr.code = c
        · simp [h]
        · simp [h, h2]
      · next h1 h2 =>
        rw [List.find?_cons, List.find?_cons, ih hs'.2]
        by_cases h : a.code = c
        · have : attr.code ≠ c := by omega
          simp [h, this]
        · simp [h]

theorem unsetaList_sublist (c : Nat) (l : List VarCore) : (Var.unsetaList c l).Sublist l := by
  induction l with
  | nil => simp [Var.unsetaList]
  | cons a l ih =>
    rw [Var.unsetaList]
    split
    · exact List.Sublist.refl _
    · split
      · exact List.sublist_cons_self _ _
      · exact ih.cons_cons _

theorem find_unsetaList {l : List VarCore} (hs : l.Pairwise (fun a b => a.code < b.code))
    (c c' : Nat) :
    (Var.unsetaList c l).find? (fun a => a.code = c') =
      if c = c' then none else l.find? (fun a => a.code = c') := by
  induction l with
  | nil => simp [Var.unsetaList]
  | cons a l ih =>
    have hs' := List.pairwise_cons.mp hs
    rw [Var.unsetaList]
    split
    · next h =>
      split
      · next e =>
        subst e
        rw [List.find?_eq_none]
        intro x hx
        rcases List.mem_cons.mp hx with rfl | hx
        · simp; omega
        · have := hs'.1 x hx; simp; omega
      · rfl
    · split
      · next h1 h2 =>
        split
        · next e =>
          rw [List.find?_eq_none]
          intro x hx
          have := hs'.1 x hx; simp; omega
        · next e =>
          rw [List.find?_cons]
          have : a.code ≠ c' := by omega
          simp [this]
      · next h1 h2 =>
        rw [List.find?_cons, List.find?_cons, ih hs'.2]
        by_cases h : a.code = c'
        · have : c ≠ c' := by omega
          simp [h, this]
        · simp [h]

/-! ## Comparison of whole variables -/

/-- Descriptors that agree whenever the codes do, as with variables described by
the same tables. -/
def SameTables (x y : Var) : Prop :=
  ∀ a ∈ x.toVarCore :: x.attrs, ∀ b ∈ y.toVarCore :: y.attrs, a.code = b.code → a.info = b.info

theorem eqChain_eq (a : VarCore) (l : List VarCore) (b : VarCore) (m : List VarCore)
    (ha : ∀ x ∈ a :: l, x.WF) (hb : ∀ x ∈ b :: m, x.WF)
    (ht : ∀ x ∈ a :: l, ∀ y ∈ b :: m, x.code = y.code → x.info = y.info) :
    Var.eqChain a l b m = .ok (decide ((a :: l).map (fun x => (x.code, x.view)) =
      (b :: m).map (fun x => (x.code, x.view)))) := by
  induction l generalizing a b m with
  | nil =>
    rw [Var.eqChain.eq_def]
    by_cases hc : a.code = b.code
    · rw [if_neg (by simp [hc])]
      rw [value_equals_eq (ha a (by simp)) (hb b (by simp)) (ht a (by simp) b (by simp) hc)]
      simp only [Res.ok_bind]
      by_cases hv : a.view = b.view
      · cases m <;> simp [hv, hc]
      · simp [hv]
    · simp [hc]
  | cons a' l ih =>
    rw [Var.eqChain.eq_def]
    by_cases hc : a.code = b.code
    · rw [if_neg (by simp [hc])]
      rw [value_equals_eq (ha a (by simp)) (hb b (by simp)) (ht a (by simp) b (by simp) hc)]
      simp only [Res.ok_bind]
      by_cases hv : a.view = b.view
      · cases m with
        | nil => simp [hv]
        | cons b' m =>
          simp only [hv, decide_true, Bool.not_true, Bool.false_eq_true, if_false]
          rw [ih a' b' m (fun x hx => ha x (List.mem_cons_of_mem _ hx))
            (fun x hx => hb x (List.mem_cons_of_mem _ hx))
            (fun x hx y hy => ht x (List.mem_cons_of_mem _ hx) y (List.mem_cons_of_mem _ hy))]
          congr 1
          rw [List.map_cons (l := a' :: l), List.map_cons (l := b' :: m)]
          simp [hc, hv]
      · simp [hv]
    · simp [hc]

theorem Var.eq_eq {x y : Var} (hx : x.WF) (hy : y.WF) (ht : SameTables x y) :
    x.eq y = .ok (decide (x.view = y.view)) := by
  unfold Var.eq
  rw [eqChain_eq _ _ _ _ ?_ ?_ ht]
  · unfold Var.view
    simp [Prod.ext_iff, VarCore.code]
  · intro z hz
    rcases List.mem_cons.mp hz with rfl | hz
    · exact hx.core
    · exact hx.attrs z hz
  · intro z hz
    rcases List.mem_cons.mp hz with rfl | hz
    · exact hy.core
    · exact hy.attrs z hz

/-- `diffValue` on variables with the same code and descriptor. -/
theorem diffValue_eq {a b : VarCore} (ha : a.WF) (hb : b.WF)
    (hi : a.code = b.code → a.info = b.info) :
    Var.diffValue a b = .ok (if a.code = b.code ∧ a.view = b.view then
      (if a.isset then none else some 0) else some 1) := by
  unfold Var.diffValue
  by_cases hc : a.code = b.code
  · have hi := hi hc
    rw [if_neg (by simp [hc])]
    have hve := value_equals_eq ha hb hi
    cases hsa : a.isset <;> cases hsb : b.isset
    · simp [hc, view_unset hsa, view_unset hsb]
    · rw [view_unset hsa]
      obtain ⟨-, i, -, -, h⟩ | ⟨-, m, s, -, -, -, h⟩ | ⟨-, m, -, -, -, h⟩ := WF_set hb hsb <;>
        simp [h]
    · rw [view_unset hsb]
      obtain ⟨-, i, -, -, h⟩ | ⟨-, m, s, -, -, -, h⟩ | ⟨-, m, -, -, -, h⟩ := WF_set ha hsa <;>
        simp [h]
    · simp only [Bool.not_true, Bool.and_self, Bool.or_self, Bool.false_eq_true, if_false]
      rw [if_neg (by simp [hi]), if_neg (by simp [hi]), hve]
      by_cases hv : a.view = b.view <;> simp [hv, hc]
  · rw [if_pos hc]
    simp [hc]

theorem WF_view_isset {a b : VarCore} (ha : a.WF) (hb : b.WF) (h : a.view = b.view) :
    a.isset = b.isset := by
  have key : ∀ {v : VarCore}, v.WF → (v.isset = true ↔ v.view ≠ none) := by
    intro v hv
    constructor
    · intro hs
      obtain ⟨-, i, -, -, h⟩ | ⟨-, m, s, -, -, -, h⟩ | ⟨-, m, -, -, -, h⟩ := WF_set hv hs <;> simp [h]
    · intro h
      by_contra hc
      exact h (view_unset (by simpa using hc))
  have k1 := key ha
  have k2 := key hb
  rw [h] at k1
  rw [Bool.eq_iff_iff, k1, k2]

/-- The attribute loop of `diff`, and the comparison inside it. -/
theorem diff_zero (n : Nat) :
    (∀ (l m : List VarCore), l.length ≤ n → l.length = m.length → (∀ x ∈ l, x.WF) → (∀ x ∈ m, x.WF) →
      (∀ x ∈ l, ∀ y ∈ m, x.code = y.code → x.info = y.info) →
      ∃ d, Var.diffAttrs l m = .ok d ∧
        (d = 0 ↔ l.map (fun x => (x.code, x.view)) = m.map (fun x => (x.code, x.view)))) ∧
    (∀ (a : VarCore) (l : List VarCore) (b : VarCore) (m : List VarCore), l.length < n →
      (∀ x ∈ a :: l, x.WF) → (∀ x ∈ b :: m, x.WF) →
      (∀ x ∈ a :: l, ∀ y ∈ b :: m, x.code = y.code → x.info = y.info) →
      ∃ d, Var.diffChain a l b m = .ok d ∧
        (d = 0 ↔ (a.code = b.code ∧ a.view = b.view) ∧
          (a.isset = true → l.map (fun x => (x.code, x.view)) = m.map (fun x => (x.code, x.view))))) := by
  induction n with
  | zero =>
    constructor
    · intro l m hl hlm _ _ _
      have : l = [] := List.length_eq_zero_iff.mp (by omega)
      subst this
      have : m = [] := List.length_eq_zero_iff.mp hlm.symm
      subst this
      exact ⟨0, by rw [Var.diffAttrs]; simp, by simp⟩
    · intro a l b m h; omega
  | succ n ih =>
    have chain : ∀ (a : VarCore) (l : List VarCore) (b : VarCore) (m : List VarCore),
        l.length < n + 1 →
      (∀ x ∈ a :: l, x.WF) → (∀ x ∈ b :: m, x.WF) →
      (∀ x ∈ a :: l, ∀ y ∈ b :: m, x.code = y.code → x.info = y.info) →
      ∃ d, Var.diffChain a l b m = .ok d ∧
        (d = 0 ↔ (a.code = b.code ∧ a.view = b.view) ∧
          (a.isset = true → l.map (fun x => (x.code, x.view)) = m.map (fun x => (x.code, x.view)))) := by
      intro a l b m hl ha hb ht
      rw [Var.diffChain, diffValue_eq (ha a (by simp)) (hb b (by simp)) (ht a (by simp) b (by simp))]
      simp only [Res.ok_bind]
      by_cases hv : a.code = b.code ∧ a.view = b.view
      · rw [if_pos hv]
        cases hs : a.isset with
        | false => exact ⟨0, by simp, by simp [hv]⟩
        | true =>
          simp only [if_true]
          by_cases he : l.isEmpty = m.isEmpty
          · rw [if_neg (by simpa using he)]
            by_cases hlen : l.length = m.length
            · rw [if_neg (by simpa using hlen)]
              obtain ⟨d, d1, d2⟩ := ih.1 l m (by omega) hlen
                (fun x hx => ha x (List.mem_cons_of_mem _ hx))
                (fun x hx => hb x (List.mem_cons_of_mem _ hx))
                (fun x hx y hy => ht x (List.mem_cons_of_mem _ hx) y (List.mem_cons_of_mem _ hy))
              exact ⟨d, d1, by rw [d2]; simp [hv]⟩
            · rw [if_pos hlen]
              refine ⟨_, rfl, ?_⟩
              constructor
              · intro h; omega
              · intro h
                have := congrArg List.length (h.2 trivial)
                simp at this; exact absurd this hlen
          · rw [if_pos he]
            refine ⟨1, rfl, ?_⟩
            simp only [one_ne_zero, false_iff, not_and]
            intro _ h
            apply he
            have := h trivial
            cases l <;> cases m <;> simp_all
      · rw [if_neg hv]
        exact ⟨1, rfl, by simp [hv]⟩
    refine ⟨?_, chain⟩
    intro l m hl hlm ha hb ht
    cases l with
    | nil =>
      have : m = [] := List.length_eq_zero_iff.mp hlm.symm
      subst this
      exact ⟨0, by rw [Var.diffAttrs]; simp, by simp⟩
    | cons a l =>
      cases m with
      | nil => simp at hlm
      | cons b m =>
        simp only [List.length_cons] at hl hlm
        obtain ⟨d, d1, d2⟩ := chain a l b m (by omega) ha hb ht
        obtain ⟨e, e1, e2⟩ := ih.1 l m (by omega) (by omega)
          (fun x hx => ha x (List.mem_cons_of_mem _ hx))
          (fun x hx => hb x (List.mem_cons_of_mem _ hx))
          (fun x hx y hy => ht x (List.mem_cons_of_mem _ hx) y (List.mem_cons_of_mem _ hy))
        rw [Var.diffAttrs]
        by_cases hx : (if a.code < b.code then a.code else if b.code < a.code then b.code else 0) ≠ 0
        · rw [if_pos hx]
          refine ⟨1, rfl, ?_⟩
          simp only [one_ne_zero, List.map_cons, List.cons.injEq, Prod.mk.injEq, false_iff]
          intro h
          rw [h.1.1] at hx
          simp at hx
        · rw [if_neg hx, d1]
          simp only [Res.ok_bind]
          by_cases hd : d = 0
          · rw [if_neg (by simpa using hd)]
            refine ⟨e, e1, ?_⟩
            have := (d2.mp hd).1
            rw [e2]
            simp [this]
          · rw [if_pos hd]
            refine ⟨d, rfl, ?_⟩
            constructor
            · intro h; exact absurd h hd
            · intro h
              simp only [List.map_cons, List.cons.injEq, Prod.mk.injEq] at h
              exact d2.mpr ⟨h.1, fun _ => h.2⟩

theorem Var.diff_eq {x y : Var} (hx : x.WF) (hy : y.WF) (ht : SameTables x y) :
    ∃ d, x.diff y = .ok d ∧
      (d = 0 ↔ (x.code = y.code ∧ x.toVarCore.view = y.toVarCore.view) ∧
        (x.isset = true → x.view = y.view)) := by
  have hx' : ∀ z ∈ x.toVarCore :: x.attrs, z.WF := by
    intro z hz
    rcases List.mem_cons.mp hz with rfl | hz
    · exact hx.core
    · exact hx.attrs z hz
  have hy' : ∀ z ∈ y.toVarCore :: y.attrs, z.WF := by
    intro z hz
    rcases List.mem_cons.mp hz with rfl | hz
    · exact hy.core
    · exact hy.attrs z hz
  obtain ⟨d, d1, d2⟩ := (diff_zero (x.attrs.length + 1)).2 x.toVarCore x.attrs y.toVarCore y.attrs
    (by omega) hx' hy' ht
  refine ⟨d, d1, ?_⟩
  rw [d2]
  unfold Var.view
  constructor
  · rintro ⟨h, h'⟩
    exact ⟨h, fun hs => by rw [h' hs]; simp [h]⟩
  · rintro ⟨h, h'⟩
    refine ⟨h, fun hs => ?_⟩
    have := h' hs
    simpa [h] using this

end Wreport
