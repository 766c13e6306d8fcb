import Verif.Lemmas.Data
import Verif.Model.Compressed
import Verif.Props.Compressed
import Verif.Spec.Compressed

/-!
# The decoder of compressed data in step with the walk through all the subsets
-/

namespace Wreport

open Spec

/-! ## Columns -/

theorem carried_of_carries {n : Nat} {t : List Byte} (h : carries n t = true) (hn : NulFree t) :
    Carried n t := by
  unfold carries at h
  simp only [Bool.and_eq_true, decide_eq_true_eq, List.any_eq_true, bne_iff_ne] at h
  obtain ⟨⟨h1, h2⟩, h3⟩ := h
  refine ⟨?_, hn, h1, h3⟩
  cases hg : t.getLast? with
  | none => rw [hg] at h2; cases h2
  | some b =>
    rw [hg] at h2
    simp only [Bool.and_eq_true, Bool.not_eq_true', bne_iff_ne] at h2
    obtain ⟨s, rfl⟩ := List.getLast?_eq_some_iff.mp hg
    exact ⟨s, b, rfl, h2.1, h2.2⟩

theorem fieldsOf_cons {f : Option Value → Option (List Bool)} {v : Option Value}
    {vs : List (Option Value)} {b : List Bool} (h : fieldsOf f (v :: vs) = some b) :
    ∃ a c, f v = some a ∧ fieldsOf f vs = some c ∧ b = a ++ c := by
  unfold fieldsOf at h
  split at h
  · next a c h1 h2 => cases h; exact ⟨a, c, h1, h2, rfl⟩
  · cases h

theorem increments_of {info : Varinfo} {base width : Nat} {vs : List (Option Value)} {f : List Bool}
    (h : fieldsOf (increment info base width) vs = some f) :
    ∃ incs : List (Option Nat), incs.length = vs.length ∧
      f = (incs.flatMap fun
        | none => missingField width
        | some k => bits width k) ∧
      compressedValues base info.bit_ref incs = vs ∧
      ∀ k, some k ∈ incs → k < 2 ^ width - 1 ∧ base + k < 2 ^ info.bit_len - 1 ∧
        info.imin ≤ (base + k : Nat) + info.bit_ref ∧ (base + k : Nat) + info.bit_ref ≤ info.imax := by
  induction vs generalizing f with
  | nil => cases h; exact ⟨[], rfl, rfl, rfl, by simp⟩
  | cons v vs ih =>
    obtain ⟨a, c, h1, h2, rfl⟩ := fieldsOf_cons h
    obtain ⟨incs, i1, rfl, i3, i4⟩ := ih h2
    match v, h1 with
    | none, h1 =>
      cases h1
      refine ⟨none :: incs, by simp [i1], rfl, ?_, ?_⟩
      · unfold compressedValues at i3 ⊢
        simp only [List.map_cons, i3]
      · intro k hk
        exact i4 k (by simpa using hk)
    | some (.num x), h1 =>
      simp only [increment] at h1
      split at h1
      · next hc =>
        obtain ⟨c1, c2, c3⟩ := hc
        simp only [numFits, decide_eq_true_eq] at c1
        obtain ⟨f1, f2, f3, f4, f5, f6⟩ := c1
        cases h1
        have hp : ((2 ^ width - 1 : Nat) : Int) = 2 ^ width - 1 := by
          rw [Nat.cast_sub Nat.one_le_two_pow]; simp
        have hq : ((2 ^ info.bit_len - 1 : Nat) : Int) = 2 ^ info.bit_len - 1 := by
          rw [Nat.cast_sub Nat.one_le_two_pow]; simp
        refine ⟨some (x - info.bit_ref - base).toNat :: incs, by simp [i1], rfl, ?_, ?_⟩
        · unfold compressedValues at i3 ⊢
          simp only [List.map_cons, i3]
          congr 3
          omega
        · intro k hk
          rcases List.mem_cons.mp hk with hk | hk
          · cases hk
            refine ⟨by omega, by omega, by omega, by omega⟩
          · exact i4 k hk
      · cases h1
    | some (.text _), h1 => cases h1
    | some (.bits _), h1 => cases h1

/-- Texts that variables of that length can hold. -/
def Held (len : Nat) (vs : List (Option Value)) : Prop :=
  ∀ t, some (.text t) ∈ vs → NulFree t ∧ t.length ≤ len

theorem textOf_eq {n len : Nat} {v : Option Value} {a : List Bool} (h : textOf n v = some a)
    (hl : ∀ t, v = some (.text t) → NulFree t ∧ t.length ≤ len) :
    ∃ t, a = stringField n t ∧ stringValue len t = v ∧ ∀ s, t = some s → Carried n s := by
  match v, h with
  | none, h => cases h; exact ⟨none, rfl, rfl, nofun⟩
  | some (.num _), h => cases h
  | some (.bits _), h => cases h
  | some (.text t), h =>
    simp only [textOf] at h
    split at h
    · next hc =>
      cases h
      obtain ⟨hn, hlen⟩ := hl t rfl
      refine ⟨some t, rfl, ?_, ?_⟩
      · simp only [stringValue]
        rw [List.take_of_length_le hlen]
      · rintro s hs
        cases hs
        exact carried_of_carries hc hn
    · cases h

theorem texts_of {n len : Nat} {vs : List (Option Value)} {f : List Bool}
    (h : fieldsOf (textOf n) vs = some f) (hl : Held len vs) :
    ∃ ts : List (Option (List Byte)), ts.length = vs.length ∧ f = ts.flatMap (stringField n) ∧
      ts.map (stringValue len) = vs ∧ ∀ s, some s ∈ ts → Carried n s := by
  induction vs generalizing f with
  | nil => cases h; exact ⟨[], rfl, rfl, rfl, by simp⟩
  | cons v vs ih =>
    obtain ⟨a, c, h1, h2, rfl⟩ := fieldsOf_cons h
    obtain ⟨ts, i1, rfl, i3, i4⟩ := ih h2 (fun t ht => hl t (by simp [ht]))
    obtain ⟨t, rfl, t2, t3⟩ := textOf_eq h1 (fun t ht => hl t (by simp [ht]))
    refine ⟨t :: ts, by simp [i1], rfl, by simp [t2, i3], ?_⟩
    intro s hs
    rcases List.mem_cons.mp hs with hs | hs
    · exact t3 s hs.symm
    · exact i4 s hs

theorem sameColumn_eq {f : Option Value → Option (List Bool)} {vs : List (Option Value)}
    {b : List Bool} (h : sameColumn f vs = some b) :
    ∃ v a, f v = some a ∧ b = a ++ bits 6 0 ∧ vs = List.replicate vs.length v ∧ vs ≠ [] := by
  cases vs with
  | nil => cases h
  | cons v vs =>
    simp only [sameColumn] at h
    split at h
    · next hall =>
      obtain ⟨a, h1, h2⟩ := Option.map_eq_some_iff.mp h
      refine ⟨v, a, h1, h2.symm, ?_, by simp⟩
      apply List.eq_replicate_iff.mpr
      refine ⟨rfl, fun x hx => ?_⟩
      rcases List.mem_cons.mp hx with rfl | hx
      · rfl
      · exact of_decide_eq_true (List.all_eq_true.mp hall x hx)
    · cases h

theorem numBase_eq {info : Varinfo} {v : Option Value} {a : List Bool} (h : numBase info v = some a) :
    0 < info.bit_len ∧ info.bit_len ≤ 31 ∧ ∃ base, base < 2 ^ info.bit_len ∧
      a = bits info.bit_len base ∧
      (base < 2 ^ info.bit_len - 1 → info.imin ≤ base + info.bit_ref ∧ base + info.bit_ref ≤ info.imax) ∧
      (if base = 2 ^ info.bit_len - 1 then none else some (.num (base + info.bit_ref))) = v := by
  have hpos : 0 < 2 ^ info.bit_len := by positivity
  match v, h with
  | none, h =>
    simp only [numBase] at h
    split at h
    · next hc =>
      cases h
      refine ⟨hc.1, hc.2, 2 ^ info.bit_len - 1, by omega, ?_, by omega, by simp⟩
      rw [bits_ones]; rfl
    · cases h
  | some (.text _), h => cases h
  | some (.bits _), h => cases h
  | some (.num k), h =>
    simp only [numBase] at h
    split at h
    · next hc =>
      cases h
      simp only [numFits, decide_eq_true_eq] at hc
      obtain ⟨f1, f2, f3, f4, f5, f6⟩ := hc
      have hq : ((2 ^ info.bit_len - 1 : Nat) : Int) = 2 ^ info.bit_len - 1 := by
        rw [Nat.cast_sub Nat.one_le_two_pow]; simp
      refine ⟨f1, f2, (k - info.bit_ref).toNat, by omega, rfl, ?_, ?_⟩
      · intro _; omega
      · rw [if_neg (by omega)]
        congr 2
        omega
    · cases h

/-- A column is read back as its values. -/
theorem column_read (C : Ctx) (hE : IsRounding C.E.fl) {st : CDecoder.St} {info : Varinfo}
    (hm : info.Made C.E) {vs : List (Option Value)} {p : Plan} {f rest : List Bool}
    (hcol : column info vs p = some f) (hl : Held info.len vs)
    (hlen : st.tgt.subsets.length = vs.length) (hi : st.tgt.input.WF)
    (hrem : st.tgt.input.rem = f ++ rest) (hrest : 8 ≤ rest.length) :
    ∃ ws i', CDecoder.decode_b_value C st info = .ok (ws, i') ∧ i'.WF ∧ i'.rem = rest ∧
      (∀ w ∈ ws, w.info = info ∧ w.attrs = [] ∧ w.toVarCore.WF) ∧
      ws.map (·.toVarCore.view) = vs := by
  unfold CDecoder.decode_b_value
  rw [hlen]
  have hnum : info.IsNum → numColumn info vs p = some f →
      ∃ ws i', st.tgt.input.decode_compressed_number C.E C.O info vs.length = .ok (ws, i') ∧
        i'.WF ∧ i'.rem = rest ∧ (∀ w ∈ ws, w.info = info ∧ w.attrs = [] ∧ w.toVarCore.WF) ∧
        ws.map (·.toVarCore.view) = vs := by
    intro hn hc
    cases p with
    | same =>
      obtain ⟨v, a, h1, rfl, h3, -⟩ := sameColumn_eq hc
      obtain ⟨b1, b2, base, b3, rfl, b5, b6⟩ := numBase_eq h1
      rw [List.append_assoc] at hrem
      obtain ⟨w, i', g1, g2, g3, g4, g5, g6, g7⟩ := C23_constant C.E hE C.O info hm hn
        ⟨b1, .inl b2⟩ base vs.length b3 b5 _ hi rest hrest hrem
      refine ⟨_, i', g1, g2, g3, ?_, ?_⟩
      · intro x hx
        rw [List.eq_of_mem_replicate hx]
        exact ⟨g4, g5, g6⟩
      · rw [List.map_replicate, g7, b6]
        exact h3.symm
    | increments base width =>
      unfold numColumn at hc
      simp only at hc
      split at hc
      · next hb =>
        obtain ⟨b1, b2, b3, b4, b5⟩ := hb
        obtain ⟨g, hg, rfl⟩ := Option.map_eq_some_iff.mp hc
        obtain ⟨incs, i1, rfl, i3, i4⟩ := increments_of hg
        obtain ⟨ws, i', g1, g2, g3, g4, g5⟩ := C23_increments_partial C.E hE C.O info hm hn
          ⟨b1, .inl b2⟩ base width ⟨b4, .inl b5⟩ b3 incs i4 _ hi rest hrest
          (by rw [hrem]; rfl)
        rw [i1] at g1
        exact ⟨ws, i', g1, g2, g3, g4, by rw [g5, i3]⟩
      · cases hc
    | texts _ _ => cases hc
  unfold column at hcol
  cases ht : info.type with
  | integer => rw [ht] at hcol; exact hnum (.inl ht) hcol
  | decimal => rw [ht] at hcol; exact hnum (.inr ht) hcol
  | binary => rw [ht] at hcol; cases hcol
  | string =>
    rw [ht] at hcol
    simp only at hcol ⊢
    cases p with
    | same =>
      unfold textColumn at hcol
      simp only at hcol
      split at hcol
      · next h8 =>
        obtain ⟨v, a, h1, rfl, h3, h4⟩ := sameColumn_eq hcol
        have hv : v ∈ vs := by
          rw [h3]
          exact List.mem_replicate.mpr ⟨fun h => h4 (List.length_eq_zero_iff.mp h), rfl⟩
        obtain ⟨t, rfl, t2, t3⟩ := textOf_eq h1 (fun t ht' => hl t (ht' ▸ hv))
        rw [List.append_assoc] at hrem
        obtain ⟨w, i', g1, g2, g3, g4, g5, g6, g7⟩ := C24_constant C.O info ht (info.bit_len / 8)
          vs.length (by omega) t t3 _ hi rest hrest hrem
        refine ⟨_, i', g1, g2, g3, ?_, ?_⟩
        · intro x hx
          rw [List.eq_of_mem_replicate hx]
          exact ⟨g4, g5, g6⟩
        · rw [List.map_replicate, g7, t2]
          exact h3.symm
      · cases hcol
    | increments _ _ => cases hcol
    | texts base n =>
      unfold textColumn at hcol
      simp only at hcol
      split at hcol
      · next hb =>
        obtain ⟨b1, b2⟩ := hb
        obtain ⟨g, hg, rfl⟩ := Option.map_eq_some_iff.mp hcol
        obtain ⟨ts, i1, rfl, i3, i4⟩ := texts_of hg hl
        obtain ⟨ws, i', g1, g2, g3, g4, g5⟩ := C24_any_base C.O info ht n base b1 b2 ts i4 _ hi rest
          hrest (by rw [hrem]; simp only [List.append_assoc])
        rw [i1] at g1
        exact ⟨ws, i', g1, g2, g3, g4, by rw [g5, i3]⟩
      · cases hcol

/-- One value for all is read back as that value. -/
theorem factor_read (C : Ctx) (hE : IsRounding C.E.fl) {st : CDecoder.St} {info : Varinfo}
    (hm : info.Made C.E) (hn : info.IsNum) {vs : List (Option Value)} {v : Option Value}
    {f rest : List Bool} (hcol : numColumn info (v :: vs) .same = some f) (hi : st.tgt.input.WF)
    (hrem : st.tgt.input.rem = f ++ rest) (hrest : 8 ≤ rest.length) :
    ∃ w i', CDecoder.decode_uniform_b_value C st info = .ok (w, i') ∧ i'.WF ∧ i'.rem = rest ∧
      w.info = info ∧ w.attrs = [] ∧ w.toVarCore.WF ∧ w.toVarCore.view = v ∧ ∀ x ∈ vs, x = v := by
  obtain ⟨u, a, h1, rfl, h3, -⟩ := sameColumn_eq (f := numBase info) (vs := v :: vs) hcol
  have hu : ∀ x ∈ v :: vs, x = u := by
    rw [h3]
    exact fun x hx => List.eq_of_mem_replicate hx
  have hv : v = u := hu v (by simp)
  subst hv
  obtain ⟨b1, b2, base, b3, rfl, b5, b6⟩ := numBase_eq h1
  rw [List.append_assoc] at hrem
  have := C25_semantic C.E hE C.O info hm hn ⟨b1, .inl b2⟩ base 0 b3 (by omega) b5 _ hi rest hrest hrem
  rw [if_pos rfl] at this
  obtain ⟨w, i', g1, g2, g3, g4, g5, g6, g7⟩ := this
  refine ⟨w, i', ?_, g2, g3, g4, g5, g6, g7.trans b6, fun x hx => hu x (by simp [hx])⟩
  unfold CDecoder.decode_uniform_b_value
  rcases hn with h | h <;> (rw [h]; exact g1)

theorem forall₂_of_map {ws vs : List Var} {P : Var → Prop}
    (hw : ∀ w ∈ ws, P w) (hv : ws.map (·.toVarCore.view) = vs.map (·.toVarCore.view)) :
    List.Forall₂ (fun (w v : Var) => P w ∧ w.toVarCore.view = v.toVarCore.view) ws vs := by
  induction ws generalizing vs with
  | nil => cases vs with
    | nil => exact .nil
    | cons _ _ => cases hv
  | cons w ws ih => cases vs with
    | nil => cases hv
    | cons v vs =>
      simp only [List.map_cons, List.cons.injEq] at hv
      exact .cons ⟨hw w (by simp), hv.1⟩ (ih (fun w h => hw w (by simp [h])) hv.2)

theorem forall₂_trans {α β γ : Type} {P : α → β → Prop} {Q : β → γ → Prop} {R : α → γ → Prop}
    (h : ∀ a b c, P a b → Q b c → R a c) {as : List α} {bs : List β} {cs : List γ}
    (h1 : List.Forall₂ P as bs) (h2 : List.Forall₂ Q bs cs) : List.Forall₂ R as cs := by
  induction h1 generalizing cs with
  | nil => cases h2; exact .nil
  | cons p _ ih => cases h2 with
    | cons q q' => exact .cons (h _ _ _ p q) (ih q')

end Wreport
