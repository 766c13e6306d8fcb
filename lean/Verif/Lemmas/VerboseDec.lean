import Verif.Lemmas.Verbose
import Verif.Props.Format

/-! # What the verbose decoder prints can always be printed -/

namespace Wreport

open Spec

/-- A sane value can be printed. -/
theorem VarCore.Sane.formatFile {E : Env} {v : VarCore} (h : v.Sane E) (u : List Byte) :
    ∃ x, v.formatFile E u = .ok x := by
  unfold VarCore.formatFile
  cases hs : v.isset with
  | false => exact ⟨_, rfl⟩
  | true =>
    have hw := h.wf
    unfold VarCore.WF at hw
    have num : v.info.IsNum → (∃ i, v.cell = .word i) → ∃ x, v.formatNumber E = .ok x := by
      rintro hn ⟨i, hc⟩
      obtain ⟨d, h1, -⟩ := enqd_decode h.made hn hs hc
      unfold VarCore.formatNumber
      rw [h1]
      exact ⟨_, rfl⟩
    cases ht : v.info.type with
    | integer =>
      rw [ht] at hw
      obtain ⟨i, hc, -⟩ := hw
      exact num (Or.inl ht) ⟨i, hc⟩
    | decimal =>
      rw [ht] at hw
      obtain ⟨i, hc, -⟩ := hw
      exact num (Or.inr ht) ⟨i, hc⟩
    | string =>
      rw [ht] at hw
      rcases hw with hw | ⟨m, hc, -, hw⟩
      · rw [hs] at hw
        simp at hw
      · obtain ⟨s, hw⟩ := hw hs
        simp [VarCore.ptr, hc, hw]
    | binary =>
      rw [ht] at hw
      rcases hw with hw | ⟨m, hc, hl, hw⟩
      · rw [hs] at hw
        simp at hw
      · obtain ⟨t, h1, -⟩ := hexBytes_ok v.info.len m (hw hs) (by omega)
        simp [VarCore.ptr, hc, h1]

theorem mem_of_enqaList {c : Varcode} {l : List VarCore} {a : VarCore}
    (h : Var.enqaList c l = some a) : a ∈ l := by
  induction l with
  | nil => simp [Var.enqaList] at h
  | cons x l ih =>
    unfold Var.enqaList at h
    split at h
    · split at h
      · cases h
        simp
      · exact List.mem_cons_of_mem _ (ih h)
    · cases h

theorem Var.Sane.enqa {E : Env} {v : Var} (h : v.Sane E) {c : Varcode} {a : VarCore}
    (ha : v.enqa c = some a) : a.Sane E := h.attrs a (mem_of_enqaList ha)

/-! ## Positions kept by bitmaps -/

theorem skipBack_lt {codes : List Varcode} {n s : Nat} (h : Bitmap.skipBack codes n = .ok s) :
    s < codes.length := by
  induction n with
  | zero =>
    unfold Bitmap.skipBack at h
    split at h
    · cases h
    · next hc =>
      split at h
      · cases h
      · cases h
        exact (List.getElem?_eq_some_iff.mp hc).1
  | succ n ih =>
    unfold Bitmap.skipBack at h
    split at h
    · cases h
    · next hc =>
      split at h
      · exact ih h
      · cases h
        exact (List.getElem?_eq_some_iff.mp hc).1

theorem build_lt {codes : List Varcode} {text : Res Mem} {b s : Nat} {refs out : List Nat}
    (hr : ∀ p ∈ refs, p < codes.length) (h : Bitmap.build codes text b s refs = .ok out) :
    ∀ p ∈ out, p < codes.length := by
  induction b generalizing s refs with
  | zero => cases h
  | succ b ih =>
    unfold Bitmap.build at h
    obtain ⟨k, hk, h⟩ := Res.bind_eq_ok.mp h
    obtain ⟨m, -, h⟩ := Res.bind_eq_ok.mp h
    obtain ⟨p, -, h⟩ := Res.bind_eq_ok.mp h
    have ha : ∀ q ∈ Bitmap.addRef refs k p, q < codes.length := by
      intro q hq
      unfold Bitmap.addRef at hq
      split at hq
      · rcases List.mem_append.mp hq with hq | hq
        · exact hr q hq
        · rw [List.mem_singleton.mp hq]
          exact skipBack_lt hk
      · exact hr q hq
    split at h
    · cases h
      exact ha
    · split at h
      · cases h
      · exact ih ha h

/-- The bitmaps refer to positions of a subset. -/
def Bitmaps.Within (b : Bitmaps) (n : Nat) : Prop :=
  ∀ m, b.current = some m ∨ b.last = some m → ∀ p ∈ m.refs, p < n

namespace Bitmaps.Within

variable {b : Bitmaps} {n : Nat}

theorem new : Bitmaps.new.Within n := by
  rintro m (h | h) <;> cases h

theorem le (h : b.Within n) {k : Nat} (hk : n ≤ k) : b.Within k :=
  fun m hm p hp => (h m hm p hp).trans_le hk

theorem reuse (h : b.Within n) : b.reuse_last.Within n := by
  rintro m (hm | hm)
  · unfold Bitmaps.reuse_last at hm
    cases hl : b.last with
    | none => rw [hl] at hm; cases hm
    | some k =>
      rw [hl] at hm
      cases hm
      exact h k (Or.inr hl)
  · cases hm

theorem discard (h : b.Within n) : b.discard_last.Within n := by
  rintro m (hm | hm)
  · exact h m (Or.inl hm)
  · cases hm

theorem next (h : b.Within n) {r : Nat × Bitmaps} (hr : b.next = .ok r) :
    r.1 < n ∧ r.2.Within n ∧ b.current ≠ none := by
  unfold Bitmaps.next at hr
  split at hr
  · cases hr
  · next c hc =>
    obtain ⟨x, hx, hr⟩ := Res.bind_eq_ok.mp hr
    have hb := h c (Or.inl hc)
    have key : x.1 < n ∧ x.2.refs = c.refs := by
      unfold Bitmap.next at hx
      split at hx
      · cases hx
      · next p hp =>
        cases hx
        exact ⟨hb p (List.mem_reverse.mp (List.mem_of_getElem? hp)), rfl⟩
    split at hr
    · cases hr
      refine ⟨key.1, ?_, by simp [hc]⟩
      rintro m (hm | hm)
      · cases hm
      · cases hm
        rw [key.2]
        exact hb
    · cases hr
      refine ⟨key.1, ?_, by simp [hc]⟩
      rintro m (hm | hm)
      · cases hm
        rw [key.2]
        exact hb
      · exact h m (Or.inr hm)

theorem define {E : Env} {v : VarCore} {codes : List Varcode} {a : Nat} {b' : Bitmaps}
    (h : b.Within codes.length) (hd : b.define E v codes a = .ok b') :
    b'.Within codes.length := by
  unfold Bitmaps.define at hd
  split at hd
  · next c hc =>
    cases hd
    rintro m (hm | hm)
    · cases hm
      unfold Bitmap.new at hc
      split at hc
      · cases hc
      · split at hc
        · cases hc
        · obtain ⟨refs, hr, hc⟩ := Res.bind_eq_ok.mp hc
          cases hc
          exact build_lt (by simp) hr
    · exact h m (Or.inr hm)
  · split at hd <;> cases hd
  · cases hd

end Bitmaps.Within

/-! ## One subset -/

namespace Decoder

variable {C : Ctx} {s s' : St}

theorem storeCopy_out {v : Var} (h : storeCopy s v = .ok s') :
    s'.bitmaps = s.bitmaps ∧ s'.tgt.out.length = s.tgt.out.length + 1 := by
  unfold storeCopy at h
  obtain ⟨w, -, h⟩ := Res.bind_eq_ok.mp h
  cases h
  exact ⟨rfl, by simp [store]⟩

theorem variable_out {i : Varinfo} (h : define_variable C s i = .ok s') :
    s'.bitmaps = s.bitmaps ∧ s'.tgt.out.length = s.tgt.out.length + 1 := by
  unfold define_variable at h
  obtain ⟨r, -, h⟩ := Res.bind_eq_ok.mp h
  exact storeCopy_out (s := setInput s r.2) h

theorem associated_out {i : Varinfo} (h : define_variable_with_associated_field C s i = .ok s') :
    s'.bitmaps = s.bitmaps ∧ s'.tgt.out.length = s.tgt.out.length + 1 := by
  unfold define_variable_with_associated_field at h
  obtain ⟨r, -, h⟩ := Res.bind_eq_ok.mp h
  obtain ⟨a, -, h⟩ := Res.bind_eq_ok.mp h
  obtain ⟨w, -, h⟩ := Res.bind_eq_ok.mp h
  obtain ⟨t, ht, h⟩ := Res.bind_eq_ok.mp h
  obtain ⟨h1, h2⟩ := storeCopy_out ht
  unfold setLast at h
  split at h
  · cases h
    exact ⟨h1, h2⟩
  · split at h
    · cases h
    · cases h
      exact ⟨h1, by simpa [setAt, setInput] using h2⟩

theorem to_all_out {i : Varinfo} {r : Var × St} (h : decode_and_add_to_all C s i = .ok r) :
    r.2.bitmaps = s.bitmaps ∧ r.2.tgt.out.length = s.tgt.out.length + 1 := by
  unfold decode_and_add_to_all at h
  obtain ⟨w, -, h⟩ := Res.bind_eq_ok.mp h
  cases h
  exact ⟨rfl, by simp [store, setInput]⟩

theorem attr_out {i : Varinfo} {pos : Nat} (h : decode_and_set_attribute C s i pos = .ok s') :
    s'.bitmaps = s.bitmaps ∧ s'.tgt.out.length = s.tgt.out.length := by
  unfold decode_and_set_attribute at h
  obtain ⟨r, -, h⟩ := Res.bind_eq_ok.mp h
  split at h
  · cases h
    exact ⟨rfl, rfl⟩
  · split at h
    · cases h
    · obtain ⟨w, -, h⟩ := Res.bind_eq_ok.mp h
      cases h
      exact ⟨rfl, by simp [setAt, setInput]⟩

theorem associated_keeps (hF : Fit False C) {i : Varinfo} (hi : Handy False C.E l.room i)
    (h : Kept False C.E l b s) :
    (define_variable_with_associated_field C s i).Has False (Kept False C.E l b) := by
  unfold define_variable_with_associated_field
  have n : ∀ (j : Input) (k : Nat), j.Lasts False k := fun _ _ => False.elim
  refine Res.Has.bind (P := fun _ => True) (Res.Has.trivial' False.elim) fun r _ _ => ?_
  refine Res.Has.bind (make_attribute_has hF.opts hF.calm hF.table _ False.elim _) fun a _ ha => ?_
  refine Res.Has.bind (value_has (b := b) hF hi (n _ _)) fun w _ hw => ?_
  refine Res.Has.bind (storeCopy_has (h.setInput hw.2.2) hw.1) fun s' _ hs' => ?_
  unfold setLast
  cases a with
  | none => exact hs'.1
  | some a =>
    cases hl : s'.tgt.out.getLast? with
    | none =>
      rw [List.getLast?_eq_none_iff] at hl
      exact absurd hl hs'.2
    | some v =>
      exact hs'.1.setAt (setaMove_sane (hs'.1.out v (List.mem_of_getLast? hl)) (ha a rfl).core) _

end Decoder

namespace Verbose

/-- What is kept while one subset is decoded. -/
structure One (E : Env) (b : Bitmaps) (c : TableCaches) (t : Dec) : Prop where
  caches : c.Made E
  out : ∀ v ∈ t.out, v.Sane E
  refs : b.Within t.out.length

theorem One.kept {E : Env} {s : Decoder.St} (h : One E s.bitmaps s.caches s.tgt) (l : Bounds)
    (b : Nat) : Decoder.Kept False E l b s :=
  ⟨h.caches, h.out, False.elim, False.elim⟩

theorem One.of {E : Env} {l : Bounds} {b : Nat} {s : Decoder.St} (h : Decoder.Kept False E l b s)
    (hb : s.bitmaps.Within s.tgt.out.length) : One E s.bitmaps s.caches s.tgt :=
  ⟨h.caches, h.out, hb⟩

theorem handy {E : Env} {i : Varinfo} (h : i.Made E) (w : Nat) : Handy False E w i :=
  ⟨h, False.elim, False.elim⟩

/-- What the verbose decoder prints about one subset can always be printed. -/
theorem watch {C : Ctx} (hF : Decoder.Fit False C) :
    Watch C (Decoder.target C) (shown C.E) (One C.E) (fun i => i.Made C.E) where
  pending b c t x h := ⟨h.caches, h.out, fun m hm => h.refs m hm⟩
  reuse b c t h := ⟨h.caches, h.out, h.refs.reuse⟩
  discard b c t h := ⟨h.caches, h.out, h.refs.discard⟩
  next b c t r h hr := ⟨h.caches, h.out, (h.refs.next hr).2.1⟩
  query c i hi := ((Vartable.query_has (safe := False) (l := ⟨0, 0, 0, 0⟩) (w := 0) hF.table
    False.elim).ok hi).made
  info s c i hi := ((get_varinfo_has (safe := False) (l := ⟨0, 0, 0, 0⟩) hF.table False.elim
    False.elim False.elim).ok hi).made
  unknown b c t code n i h hi := by
    obtain ⟨h1, h2⟩ := h.caches.get_unknown (safe := False) code n
    exact ⟨(h1.ok hi).1, h2, h.out, h.refs⟩
  bitmap s n s' h hs' := by
    have := (Decoder.bitmap_has (h.kept ⟨0, 0, 0, 0⟩ 0) id n).ok hs'
    refine ⟨this.caches, this.out, ?_⟩
    change Decoder.define_bitmap C s n = .ok s' at hs'
    unfold Decoder.define_bitmap at hs'
    obtain ⟨r, -, hs'⟩ := Res.bind_eq_ok.mp hs'
    obtain ⟨i, -, hs'⟩ := Res.bind_eq_ok.mp hs'
    obtain ⟨v, -, hs'⟩ := Res.bind_eq_ok.mp hs'
    obtain ⟨b, hb, hs'⟩ := Res.bind_eq_ok.mp hs'
    cases hs'
    have hw := Bitmaps.Within.define (b := s.bitmaps) (by
      refine h.refs.le ?_
      simp [Decoder.store, Decoder.setInput]) hb
    simpa using hw
  element s i s' hi h hs' := by
    obtain ⟨h1, h2⟩ := Decoder.variable_out hs'
    have k := (Decoder.variable_has (l := ⟨0, 0, 0, 0⟩) (b := 0) hF (handy hi _) (h.kept _ _)).ok hs'
    refine ⟨.of k (by rw [h1]; exact h.refs.le (by omega)), ?_⟩
    simp only [shown]
    cases hl : s'.tgt.out.getLast? with
    | none =>
      rw [List.getLast?_eq_none_iff] at hl
      rw [hl] at h2
      simp at h2
    | some v => exact (k.out v (List.mem_of_getLast? hl)).core.formatFile _
  associated s i s' hi h hs' := by
    obtain ⟨h1, h2⟩ := Decoder.associated_out hs'
    have k := (Decoder.associated_keeps (l := ⟨0, 0, 0, 0⟩) (b := 0) hF (handy hi _)
      (h.kept _ _)).ok hs'
    exact .of k (by rw [h1]; exact h.refs.le (by omega))
  factor s i r hi h hr := by
    have k := (Decoder.factor_has (l := ⟨0, 0, 0, 0⟩) (b := 0) hF (handy hi _) (h.kept _ _)).ok hr
    refine .of k.2 ?_
    change Decoder.define_delayed_replication_factor C s i = .ok r at hr
    unfold Decoder.define_delayed_replication_factor at hr
    obtain ⟨x, hx, hr⟩ := Res.bind_eq_ok.mp hr
    obtain ⟨n, -, hr⟩ := Res.bind_eq_ok.mp hr
    cases hr
    obtain ⟨h1, h2⟩ := Decoder.to_all_out hx
    show x.2.bitmaps.Within x.2.tgt.out.length
    rw [h1]
    exact h.refs.le (by omega)
  bitmapFactor s i r hi h hr := by
    change Decoder.define_bitmap_delayed_replication_factor C s i = .ok r at hr
    unfold Decoder.define_bitmap_delayed_replication_factor at hr
    obtain ⟨x, hx, hr⟩ := Res.bind_eq_ok.mp hr
    obtain ⟨n, -, hr⟩ := Res.bind_eq_ok.mp hr
    cases hr
    exact ⟨h.caches, h.out, h.refs⟩
  significance s i r hi h hr := by
    have k := (Decoder.meaning_has (l := ⟨0, 0, 0, 0⟩) (b := 0) hF (handy hi _) (h.kept _ _)).ok hr
    refine ⟨k.caches, k.out, ?_⟩
    change Decoder.define_associated_field_significance C s i = .ok r at hr
    unfold Decoder.define_associated_field_significance at hr
    obtain ⟨x, hx, hr⟩ := Res.bind_eq_ok.mp hr
    obtain ⟨n, -, hr⟩ := Res.bind_eq_ok.mp hr
    cases hr
    obtain ⟨h1, h2⟩ := Decoder.to_all_out hx
    show x.2.bitmaps.Within x.2.tgt.out.length
    rw [h1]
    exact h.refs.le (by omega)
  substituted s r s' h hr hs' := by
    have hn := h.refs.next hr
    have h' : One C.E r.2 s.caches s.tgt := ⟨h.caches, h.out, hn.2.1⟩
    change Decoder.define_substituted_value C _ r.1 = .ok s' at hs'
    unfold Decoder.define_substituted_value at hs'
    split at hs'
    · cases hs'
    · next v hv =>
      obtain ⟨h1, h2⟩ := Decoder.attr_out hs'
      have hi := (h.out v (List.mem_of_getElem? hv)).core.made
      have k := (Decoder.attr_has (l := ⟨0, 0, 0, 0⟩) (b := 0) hF (handy hi _)
        (One.kept (s := { s with bitmaps := r.2 }) h' _ _) id _).ok hs'
      exact .of k (by rw [h1, h2]; exact hn.2.1)
  attr s i r s' hi h hr hs' := by
    have hn := h.refs.next hr
    have h' : One C.E r.2 s.caches s.tgt := ⟨h.caches, h.out, hn.2.1⟩
    change Decoder.decode_and_set_attribute C _ i r.1 = .ok s' at hs'
    obtain ⟨h1, h2⟩ := Decoder.attr_out hs'
    have k := (Decoder.attr_has (l := ⟨0, 0, 0, 0⟩) (b := 0) hF (handy hi _)
      (One.kept (s := { s with bitmaps := r.2 }) h' _ _) id _).ok hs'
    refine ⟨.of k (by rw [h1, h2]; exact hn.2.1), ?_⟩
    have hlt : r.1 < s'.tgt.out.length := by rw [h2]; exact hn.1
    have hg := List.getElem?_eq_getElem hlt
    simp only [shown, hg]
    refine ⟨⟨_, rfl⟩, ?_⟩
    have hv := k.out _ (List.getElem_mem hlt)
    cases ha : s'.tgt.out[r.1].enqa i.code with
    | none => exact ⟨_, rfl⟩
    | some a => exact (hv.enqa ha).formatFile _
  raw s c s' h hs' := by
    have k := (Decoder.raw_has (C := C) (l := ⟨0, 0, 0, 0⟩) (b := 0) (h.kept _ _) c).ok hs'
    refine .of k ?_
    change Decoder.define_raw_character_data C s c = .ok s' at hs'
    unfold Decoder.define_raw_character_data at hs'
    obtain ⟨i, -, hs'⟩ := Res.bind_eq_ok.mp hs'
    obtain ⟨r, -, hs'⟩ := Res.bind_eq_ok.mp hs'
    obtain ⟨v, -, hs'⟩ := Res.bind_eq_ok.mp hs'
    obtain ⟨h1, h2⟩ := Decoder.storeCopy_out hs'
    rw [h1, h2]
    exact h.refs.le (by simp [Decoder.setInput])
  refval s c s' h hs' := by
    change Decoder.define_c03_refval_override C s c = .ok s' at hs'
    unfold Decoder.define_c03_refval_override at hs'
    obtain ⟨r, -, hs'⟩ := Res.bind_eq_ok.mp hs'
    cases hs'
    exact ⟨h.caches, h.out, h.refs⟩

end Verbose

end Wreport
