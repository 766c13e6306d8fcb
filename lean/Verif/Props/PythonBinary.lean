import Verif.Props.Python

/-!
Property C103 for attributes of any type: bits that a binary attribute does not use.
-/

namespace Wreport

namespace Spec

/-- The bits of the last byte that a binary value does not use are zero. -/
def Clean (a : VarCore) : Prop :=
  ∀ bs, a.view = some (.bits bs) → a.info.bit_len % 8 ≠ 0 →
    ∀ b, bs.getLast? = some b → b.toNat < 2 ^ (a.info.bit_len % 8)

end Spec

namespace Py

open Spec

variable {E : Env}

theorem mask_small {b : Byte} {k : Nat} (hk : k < 8) (h : b.toNat < 2 ^ k) :
    b &&& UInt8.ofNat (2 ^ k - 1) = b := by
  apply UInt8.toNat_inj.mp
  rw [UInt8.toNat_and]
  have hp : 2 ^ k ≤ 2 ^ 7 := Nat.pow_le_pow_right (by decide) (by omega)
  rw [UInt8.toNat_ofNat_of_lt' (by show _ < 256; omega), Nat.and_two_pow_sub_one_eq_mod, Nat.mod_eq_of_lt h]

theorem mask_lt (b : Byte) {k : Nat} (hk : k < 8) : (b &&& UInt8.ofNat (2 ^ k - 1)).toNat < 2 ^ k := by
  rw [UInt8.toNat_and]
  have hp : 2 ^ k ≤ 2 ^ 7 := Nat.pow_le_pow_right (by decide) (by omega)
  rw [UInt8.toNat_ofNat_of_lt' (by show _ < 256; omega), Nat.and_two_pow_sub_one_eq_mod]
  exact Nat.mod_lt _ (by positivity)

theorem view_binary {v : VarCore} (ht : v.info.type = .binary) {m : Mem} (hc : v.cell = .mem m)
    (hs : v.isset = true) : v.view = some (.bits ((m.take v.info.len).map (·.getD 0))) := by
  unfold VarCore.view
  simp [hs, ht, hc]

/-- A binary variable of the same description given the value of an attribute. -/
theorem setval_binary {a : VarCore} (ha : a.Sane E) (hcl : Clean a) (ht : a.info.type = .binary) :
    ((Var.new a.info).setval E .default a).2 = .ok () ∧
      AttrCopy a ((Var.new a.info).setval E .default a).1 := by
  unfold AttrCopy
  cases hs : a.isset with
  | false =>
    have goal : (Var.new a.info).setval E .default a = ((Var.new a.info).unset, .ok ()) := by
      unfold Var.setval
      simp [hs]
    rw [goal]
    refine ⟨rfl, rfl, ?_, rfl⟩
    rw [view_unset hs]
    exact view_unset (v := (Var.new a.info).unset.toVarCore) rfl
  | true =>
    have hwf := ha.wf
    unfold VarCore.WF at hwf
    rw [ht] at hwf
    rcases hwf with ⟨h, -⟩ | ⟨m, hc, hl, hn⟩
    · rw [hs] at h; cases h
    have hn := hn hs
    have hlen := ha.made.2.2.2 ht
    obtain ⟨m0, a1, a2⟩ := WF_allocate (v := (Var.new a.info).toVarCore) (WF_new _) (Or.inr ht)
    have ev : (Var.new a.info).info = a.info := rfl
    have hm0 : m0.length = a.info.len + 1 := a2
    have hread : memRead m a.info.len = .ok (m.take a.info.len) := memRead_of_le (by omega)
    have hwrite : memWrite m0 (m.take a.info.len) = .ok (m.take a.info.len ++ m0.drop a.info.len) := by
      rw [memWrite_of_le (by simp; omega)]
      simp; omega
    have hmask : Var.maskLast a.info (m.take a.info.len ++ m0.drop a.info.len) =
        .ok (m.take a.info.len ++ m0.drop a.info.len) := by
      unfold Var.maskLast
      split
      · rfl
      · next hk =>
        rw [if_neg (by omega)]
        have hlt : a.info.len - 1 < m.length := by omega
        have hg : (m.take a.info.len ++ m0.drop a.info.len)[a.info.len - 1]? = some (m[a.info.len - 1]) := by
          rw [List.getElem?_append_left (by simp; omega), List.getElem?_take_of_lt (by omega),
            List.getElem?_eq_getElem hlt]
        rw [hg]
        cases hb : m[a.info.len - 1] with
        | none =>
          exact absurd (hb ▸ List.mem_take_iff_getElem.mpr ⟨a.info.len - 1, by omega, rfl⟩) hn
        | some b =>
          have := hcl _ (view_binary ht hc hs) hk b (by
            rw [List.getLast?_eq_getElem?, List.getElem?_map, List.length_map, List.length_take,
              Nat.min_eq_left (by omega), List.getElem?_take_of_lt (by omega),
              List.getElem?_eq_getElem hlt, hb]
            rfl)
          simp only
          rw [mask_small (Nat.mod_lt _ (by decide)) this]
          congr 1
          apply List.ext_getElem?
          intro i
          rw [List.getElem?_set]
          split
          · next h =>
            subst h
            rw [if_pos (by simp; omega), hg, hb]
          · rfl
    have hq : a.enqc E = .ok m := by
      unfold VarCore.enqc VarCore.ptr
      simp [hs, ht, hc]
    have goal : (Var.new a.info).setval E .default a =
        ((Var.new a.info).putMem (m.take a.info.len ++ m0.drop a.info.len), .ok ()) := by
      unfold Var.setval
      rw [hs, if_neg (by simp)]
      simp only [ev, ht, hq]
      unfold Var.assign_b_checked
      rw [a1]
      simp only [Res.ok_bind, ev]
      rw [if_neg (Nat.lt_irrefl _), hread]
      simp only [Res.ok_bind]
      rw [hwrite]
      simp only [Res.ok_bind]
      rw [hmask]
      rfl
    rw [goal]
    refine ⟨rfl, rfl, ?_, rfl⟩
    rw [view_binary ht hc hs, view_binary (v := ((Var.new a.info).putMem _).toVarCore) ht rfl rfl]
    show some (Value.bits (((m.take a.info.len ++ m0.drop a.info.len).take a.info.len).map _)) = _
    rw [List.take_left' (by simp; omega)]

/-- The unused bits of a value that is not binary. -/
theorem clean_other {v : VarCore} (ht : v.info.type ≠ .binary) : Clean v := by
  intro bs h
  unfold VarCore.view at h
  split at h
  · cases h
  · split at h <;> try cases h
    · next h' _ => split at h <;> cases h
    · next h' _ => exact absurd h' ht

/-- Bytes copied into a binary variable. -/
theorem assign_b_clean {v : Var} (hm : v.info.Made E) (ht : v.info.type = .binary) (m : Mem) (n : Nat)
    (h : (v.assign_b_checked m n).2 = .ok ()) : Clean (v.assign_b_checked m n).1.toVarCore := by
  have hlen := hm.2.2.2 ht
  unfold Var.assign_b_checked at h ⊢
  generalize hr : (do
    let m0 ← v.allocate
    if n < v.info.len then do
      let w ← memRead m n
      let m ← memWrite m0 (w ++ List.replicate (v.info.len - n) (some 0))
      return v.putMem m
    else do
      let w ← memRead m v.info.len
      let m ← memWrite m0 w
      let m ← Var.maskLast v.info m
      return v.putMem m) = r at h ⊢
  cases r with
  | err e => cases h
  | ub => cases h
  | ok w =>
    show Clean w.toVarCore
    obtain ⟨m0, -, hr⟩ := Res.bind_eq_ok.mp hr
    have key : ∀ m' : Mem, w = v.putMem m' → (v.info.bit_len % 8 ≠ 0 →
        ∀ b, m'[v.info.len - 1]? = some (some b) → b.toNat < 2 ^ (v.info.bit_len % 8)) →
        (∃ b, m'[v.info.len - 1]? = some (some b)) ∨ v.info.bit_len % 8 = 0 → Clean w.toVarCore := by
      rintro m' rfl hk hb bs hv hn b hl
      rw [view_binary (v := (v.putMem m').toVarCore) ht rfl rfl] at hv
      cases hv
      have hn : v.info.bit_len % 8 ≠ 0 := hn
      obtain ⟨c, hc⟩ := hb.resolve_right hn
      have hlt := (List.getElem?_eq_some_iff.mp hc).1
      rw [show (v.putMem m').info = v.info from rfl, List.getLast?_eq_getElem?, List.getElem?_map,
        List.length_map, List.length_take, Nat.min_eq_left (by omega),
        List.getElem?_take_of_lt (by omega), hc] at hl
      cases hl
      exact hk hn _ hc
    split at hr
    · next hlt =>
      obtain ⟨r, r1, hr⟩ := Res.bind_eq_ok.mp hr
      obtain ⟨m', r2, hr⟩ := Res.bind_eq_ok.mp hr
      cases hr
      unfold memRead at r1
      split at r1
      · cases r1
        unfold memWrite at r2
        split at r2
        · cases r2
          have hg : ((m.take n ++ List.replicate (v.info.len - n) (some (0 : Byte))) ++
              m0.drop (m.take n ++ List.replicate (v.info.len - n) (some (0 : Byte))).length)[v.info.len - 1]? =
              some (some 0) := by
            rw [List.getElem?_append_left (by simp; omega), List.getElem?_append_right (by simp; omega),
              List.getElem?_replicate, if_pos (by simp; omega)]
          refine key _ rfl (fun _ b hb => ?_) (Or.inl ⟨0, hg⟩)
          rw [hg] at hb
          cases hb
          exact Nat.two_pow_pos _
        · cases r2
      · cases r1
    · obtain ⟨r, r1, hr⟩ := Res.bind_eq_ok.mp hr
      obtain ⟨m', r2, hr⟩ := Res.bind_eq_ok.mp hr
      obtain ⟨m'', r3, hr⟩ := Res.bind_eq_ok.mp hr
      cases hr
      unfold Var.maskLast at r3
      split at r3
      · next h0 => exact key _ rfl (fun h => absurd h0 h) (Or.inr h0)
      · split at r3
        · cases r3
        · split at r3
          · next b hb =>
            cases r3
            have hlt := (List.getElem?_eq_some_iff.mp hb).1
            have hg : (m'.set (v.info.len - 1)
                (some (b &&& UInt8.ofNat (2 ^ (v.info.bit_len % 8) - 1))))[v.info.len - 1]? =
                some (some (b &&& UInt8.ofNat (2 ^ (v.info.bit_len % 8) - 1))) :=
              List.getElem?_set_self hlt
            refine key _ rfl (fun _ c hc => ?_) (Or.inl ⟨_, hg⟩)
            rw [hg] at hc
            cases hc
            exact mask_lt b (Nat.mod_lt _ (by decide))
          · cases r3

/-- The attribute that an operation sets is sane, and its unused bits are zero. -/
def AttrOpClean (E : Env) : AttrOp → Prop
  | .seta a | .setaMove a => a.Sane E ∧ Clean a.toVarCore
  | _ => True

theorem attrRun_clean {ops : List AttrOp} (hops : ∀ o ∈ ops, AttrOpClean E o) :
    ∀ {v v' : Var}, v.Sane E → (∀ a ∈ v.attrs, Clean a) → AttrOp.run v ops = .ok v' →
      v'.Sane E ∧ ∀ a ∈ v'.attrs, Clean a := by
  induction ops with
  | nil => intro v v' hv hc h; cases h; exact ⟨hv, hc⟩
  | cons o ops ih =>
    intro v v' hv hc h
    rw [AttrOp.run] at h
    obtain ⟨w, h1, h2⟩ := Res.bind_eq_ok.mp h
    have ho := hops o (by simp)
    have move : ∀ a : Var, a.Sane E → Clean a.toVarCore →
        (v.setaMove a).Sane E ∧ ∀ b ∈ (v.setaMove a).attrs, Clean b := by
      intro a ha hca
      refine ⟨setaMove_sane hv ha.core, fun b hb => ?_⟩
      rcases setaList_mem hb with rfl | hb
      · exact hca
      · exact hc b hb
    have hw : w.Sane E ∧ ∀ a ∈ w.attrs, Clean a := by
      cases o with
      | seta a =>
        obtain ⟨ha, hca⟩ : a.Sane E ∧ Clean a.toVarCore := ho
        obtain ⟨b, b1, b2, b3⟩ := copy_sane ha
        obtain ⟨b', b1', -, -, -, b4, -⟩ := copy_ok ha.wf
        rw [b1] at b1'
        cases b1'
        simp only [AttrOp.apply, Var.seta, b1, Res.ok_bind] at h1
        cases h1
        refine move b b2 ?_
        intro bs hb
        rw [b3]
        exact hca bs (b4 ▸ hb)
      | setaMove a => cases h1; exact move a ho.1 ho.2
      | unseta c =>
        cases h1
        have hsub := unsetaList_sublist c v.attrs
        exact ⟨⟨hv.core, fun a ha => hv.attrs a (hsub.subset ha), hv.sorted.sublist hsub⟩,
          fun a ha => hc a (hsub.subset ha)⟩
      | clear =>
        cases h1
        exact ⟨⟨hv.core, by simp [Var.clear_attrs], by simp [Var.clear_attrs]⟩,
          by simp [Var.clear_attrs]⟩
    exact ih (fun x hx => hops x (List.mem_cons_of_mem _ hx)) hw.1 hw.2 h2

theorem attrObjects_all (hE : IsRounding E.fl) (hconv : ∀ u d, E.conv u u d = .ok d)
    {l : List VarCore} (hs : ∀ a ∈ l, a.Sane E) (hc : ∀ a ∈ l, Clean a) :
    ∃ ws, attrObjects E .default l = .ok ws ∧ List.Forall₂ AttrCopy l ws := by
  induction l with
  | nil => exact ⟨[], rfl, .nil⟩
  | cons a l ih =>
    obtain ⟨ws, h1, h3⟩ := ih (fun x hx => hs x (by simp [hx])) fun x hx => hc x (by simp [hx])
    have ha := hs a (by simp)
    have : ((Var.new a.info).setval E .default a).2 = .ok () ∧
        AttrCopy a ((Var.new a.info).setval E .default a).1 := by
      by_cases ht : a.info.type = .binary
      · exact setval_binary ha (hc a (by simp)) ht
      · exact ⟨(setval_same hE hconv ha ht).1, (setval_same hE hconv ha ht).2.2⟩
    refine ⟨_ :: ws, ?_, .cons this.2 h3⟩
    unfold attrObjects
    simp only [this.1, h1]
    rfl

end Py

open Spec Py

/-- C103: setting a value leaves zero the bits that a binary value does not use,
whatever bytes are given. -/
theorem C103_clean_partial (E : Env) (O : Opts) (hO : HookKeepsInfo O) (v : Var) (hm : v.info.Made E) :
    (∀ m, (v.setc O m).2 = .ok () → Clean (v.setc O m).1.toVarCore) ∧
    (∀ s, (v.sets O s).2 = .ok () → Clean (v.sets O s).1.toVarCore) ∧
    ∀ a, (v.setval E O a).2 = .ok () → v.info.type = .binary → a.isset = true →
      Clean (v.setval E O a).1.toVarCore := by
  refine ⟨fun m h => ?_, fun s h => ?_, fun a h ht ha => ?_⟩
  · by_cases ht : v.info.type = .binary
    · unfold Var.setc at h ⊢
      simp only [ht] at h ⊢
      exact assign_b_clean hm ht _ _ h
    · exact clean_other (by rw [setc_info hO]; exact ht)
  · by_cases ht : v.info.type = .binary
    · unfold Var.sets at h ⊢
      simp only [ht] at h ⊢
      exact assign_b_clean hm ht _ _ h
    · exact clean_other (by rw [sets_info hO]; exact ht)
  · unfold Var.setval at h ⊢
    rw [ha, if_neg (by simp)] at h ⊢
    simp only [ht] at h ⊢
    cases hq : a.enqc E with
    | ok m =>
      rw [hq] at h
      exact assign_b_clean hm ht _ _ h
    | err e => rw [hq] at h; cases h
    | ub => rw [hq] at h; cases h

/-- C103 (part): after any sequence of attribute operations, `get_attrs` gives one
variable for each attribute, in increasing order of code, which shows what the map from
codes to last value set has for that code, and has no attributes. Attributes are of any
type. Missing: `enqa`, which fails (`C103_not_enqa_alone`). -/
theorem C103_get_attrs_all_partial (E : Env) (hE : IsRounding E.fl)
    (hconv : ∀ u d, E.conv u u d = .ok d) (v : Var) (ops : List AttrOp) (hv : v.Sane E)
    (hc : ∀ a ∈ v.attrs, Clean a) (hops : ∀ o ∈ ops, AttrOpClean E o) :
    ∃ v' ws, AttrOp.run v ops = .ok v' ∧ (get_attrs E .default v').done = .returned ws ∧
      ws.Pairwise (fun a b => a.code < b.code) ∧ (∀ w ∈ ws, w.attrs = []) ∧
      ∀ info val, (∃ w ∈ ws, w.info = info ∧ w.toVarCore.view = val) ↔
        ops.foldl AttrOp.spec v.attrMap info.code = some (info, val) := by
  have hgood : ∀ o ∈ ops, o.Good := by
    intro o ho
    have := hops o ho
    cases o with
    | seta a => exact Var.Sane.wf (this : a.Sane E ∧ _).1
    | setaMove a => exact Var.Sane.wf (this : a.Sane E ∧ _).1
    | unseta c => trivial
    | clear => trivial
  obtain ⟨v', h1, h2, -, h4⟩ := C12_refines_map v ops hv.wf hgood
  obtain ⟨hs', hc'⟩ := attrRun_clean hops hv hc h1
  obtain ⟨ws, w1, w2⟩ := attrObjects_all hE hconv hs'.attrs hc'
  obtain ⟨i1, i2⟩ := C12_iteration v' h2
  have hmap : ∀ {l : List VarCore} {ws : List Var}, List.Forall₂ AttrCopy l ws →
      ws.map (·.code) = l.map (·.code) := by
    intro l ws h
    induction h with
    | nil => rfl
    | cons h _ ih =>
      simp only [List.map_cons, ih]
      congr 1
      show (Var.toVarCore _).info.code = _
      rw [h.1]
      rfl
  have hmem : ∀ {l : List VarCore} {ws : List Var}, List.Forall₂ AttrCopy l ws →
      (∀ w ∈ ws, w.attrs = []) ∧ ∀ info val, (∃ w ∈ ws, w.info = info ∧ w.toVarCore.view = val) ↔
        ∃ a ∈ l, a.info = info ∧ a.view = val := by
    intro l ws h
    induction h with
    | nil => simp
    | cons h _ ih =>
      refine ⟨?_, ?_⟩
      · intro w hw
        rcases List.mem_cons.mp hw with rfl | hw
        · exact h.2.2
        · exact ih.1 w hw
      · intro info val
        rw [List.exists_mem_cons_iff, List.exists_mem_cons_iff, ih.2, h.1, h.2.1]
  refine ⟨v', ws, h1, ?_, ?_, (hmem w2).1, ?_⟩
  · unfold get_attrs
    rw [w1]
    rfl
  · have : (ws.map (·.code)).Pairwise (· < ·) := by
      rw [hmap w2]
      exact List.pairwise_map.mpr i1
    exact List.pairwise_map.mp this
  · intro info val
    rw [(hmem w2).2, i2, h4]

/-- The variable of eleven bits that is set from two bytes of ones shows eleven ones, and
is an attribute for the theorem; so is a variable just made. -/
example : ((Var.new sampleBin).sets .default [255, 255]).1.toVarCore.view = some (.bits [255, 7]) ∧
    AttrOpClean Env0 (.seta ((Var.new sampleBin).sets .default [255, 255]).1) ∧
    (Var.new sampleTemp).Sane Env0 ∧ ∀ a ∈ (Var.new sampleTemp).attrs, Clean a := by
  have hset : ((Var.new sampleBin).sets .default [255, 255]).2 = .ok () := by decide +kernel
  refine ⟨by decide +kernel, ⟨⟨⟨?_, sampleBin_made, ?_⟩, ?_, ?_⟩, ?_⟩, Var.Sane.new sampleTemp_made,
    by simp [Var.new]⟩
  · exact Or.inr ⟨[some 255, some 7, none], by decide +kernel, by decide +kernel, fun _ => by decide +kernel⟩
  · intro i h
    have : ((Var.new sampleBin).sets .default [255, 255]).1.toVarCore.view = some (.bits [255, 7]) := by
      decide +kernel
    rw [this] at h
    cases h
  · have : ((Var.new sampleBin).sets .default [255, 255]).1.attrs = [] := by decide +kernel
    rw [this]
    simp
  · have : ((Var.new sampleBin).sets .default [255, 255]).1.attrs = [] := by decide +kernel
    rw [this]
    simp
  · exact (C103_clean_partial Env0 .default (fun h hh => by cases hh) (Var.new sampleBin)
      sampleBin_made).2.1 _ hset

end Wreport
