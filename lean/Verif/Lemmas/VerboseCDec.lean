import Verif.Lemmas.VerboseDec

/-! # What the verbose decoder prints of compressed data can always be printed -/

namespace Wreport

open Spec

/-! ## Each subset gets its own value -/

namespace Input

variable {E : Env} {O : Opts} {info : Varinfo} {i : Input} {n : Nat} {r : List Var × Input}

theorem diffLoop_length {base d : Nat} {v : Var} (h : diffLoop E O base d n v i = .ok r) :
    r.1.length = n := by
  induction n generalizing v i r with
  | zero => cases h; rfl
  | succ n ih =>
    unfold diffLoop at h
    obtain ⟨x, -, h⟩ := Res.bind_eq_ok.mp h
    obtain ⟨y, hy, h⟩ := Res.bind_eq_ok.mp h
    cases h
    simp [ih hy]

theorem stringLoop_length {d : Nat} (h : stringLoop O info d n i = .ok r) : r.1.length = n := by
  induction n generalizing i r with
  | zero => cases h; rfl
  | succ n ih =>
    unfold stringLoop at h
    obtain ⟨x, -, h⟩ := Res.bind_eq_ok.mp h
    obtain ⟨v, -, h⟩ := Res.bind_eq_ok.mp h
    obtain ⟨y, hy, h⟩ := Res.bind_eq_ok.mp h
    cases h
    simp [ih hy]

theorem decode_compressed_number_length (h : i.decode_compressed_number E O info n = .ok r) :
    r.1.length = n := by
  unfold decode_compressed_number at h
  obtain ⟨x, -, h⟩ := Res.bind_eq_ok.mp h
  split at h
  · cases h
    simp
  · split at h
    · obtain ⟨v, -, h⟩ := Res.bind_eq_ok.mp h
      cases h
      simp
    · exact diffLoop_length h

theorem decode_compressed_string_length (h : i.decode_compressed_string O info n = .ok r) :
    r.1.length = n := by
  unfold decode_compressed_string at h
  obtain ⟨x, -, h⟩ := Res.bind_eq_ok.mp h
  obtain ⟨y, -, h⟩ := Res.bind_eq_ok.mp h
  split at h
  · obtain ⟨v, -, h⟩ := Res.bind_eq_ok.mp h
    cases h
    simp
  · split at h
    · cases h
    · exact stringLoop_length h

theorem fieldDiffLoop_length {C : Ctx} {base d : Nat} {v : Var} {as : List (Option Var)}
    (h : fieldDiffLoop C base d v as i = .ok r) : r.1.length = as.length := by
  induction as generalizing i r v with
  | nil => cases h; rfl
  | cons a as ih =>
    unfold fieldDiffLoop at h
    obtain ⟨x, -, h⟩ := Res.bind_eq_ok.mp h
    obtain ⟨y, hy, h⟩ := Res.bind_eq_ok.mp h
    cases h
    simp [ih hy]

theorem decode_compressed_number_af_length {C : Ctx} {f : AssociatedField}
    (h : i.decode_compressed_number_af C info f n = .ok r) : r.1.length = n := by
  unfold decode_compressed_number_af at h
  obtain ⟨x, -, h⟩ := Res.bind_eq_ok.mp h
  obtain ⟨y, -, h⟩ := Res.bind_eq_ok.mp h
  obtain ⟨z, -, h⟩ := Res.bind_eq_ok.mp h
  split at h
  · exact decode_compressed_number_length h
  · obtain ⟨as, ha, h⟩ := Res.bind_eq_ok.mp h
    rw [← fieldLoop_length _ ha]
    unfold decode_compressed_number_attrs at h
    obtain ⟨b, -, h⟩ := Res.bind_eq_ok.mp h
    split at h
    · cases h
      simp
    · split at h
      · obtain ⟨v, -, h⟩ := Res.bind_eq_ok.mp h
        cases h
        simp
      · exact fieldDiffLoop_length h

end Input

namespace CDecoder

variable {C : Ctx} {s s' : St}

theorem b_value_length {i : Varinfo} {r : List Var × Input} (h : decode_b_value C s i = .ok r) :
    r.1.length = s.tgt.subsets.length := by
  unfold decode_b_value at h
  split at h
  · exact Input.decode_compressed_string_length h
  · cases h
  · exact Input.decode_compressed_number_length h
  · exact Input.decode_compressed_number_length h

theorem b_value_af_length {i : Varinfo} {r : List Var × Input}
    (h : decode_b_value_af C s i = .ok r) : r.1.length = s.tgt.subsets.length := by
  unfold decode_b_value_af at h
  split at h
  · exact Input.decode_compressed_string_length h
  · cases h
  · exact Input.decode_compressed_number_af_length h
  · exact Input.decode_compressed_number_af_length h

theorem copyAll_length {vs ws : List Var} (h : copyAll vs = .ok ws) : ws.length = vs.length := by
  induction vs generalizing ws with
  | nil => cases h; rfl
  | cons v vs ih =>
    unfold copyAll at h
    obtain ⟨x, -, h⟩ := Res.bind_eq_ok.mp h
    obtain ⟨y, hy, h⟩ := Res.bind_eq_ok.mp h
    cases h
    simp [ih hy]

/-- All the subsets have as many variables. -/
def Even (ss : List (List Var)) (n : Nat) : Prop := ∀ vs ∈ ss, vs.length = n

theorem storeCopies_out {vs : List Var} (hl : vs.length = s.tgt.subsets.length)
    (h : storeCopies s vs = .ok s') :
    s'.bitmaps = s.bitmaps ∧ s'.tgt.subsets.length = s.tgt.subsets.length ∧
      ∀ n, Even s.tgt.subsets n → Even s'.tgt.subsets (n + 1) := by
  unfold storeCopies at h
  obtain ⟨ws, hw, h⟩ := Res.bind_eq_ok.mp h
  cases h
  have := copyAll_length hw
  refine ⟨rfl, ?_, fun n hn x hx => ?_⟩
  · simp only [storeAll, List.length_zipWith]
    omega
  · obtain ⟨t, h1, v, -, rfl⟩ := mem_zipWith_append hx
    simp [hn t h1]

theorem to_all_out {i : Varinfo} {r : Var × St} (h : decode_and_add_to_all C s i = .ok r) :
    r.2.bitmaps = s.bitmaps ∧ r.2.tgt.subsets.length = s.tgt.subsets.length ∧
      ∀ n, Even s.tgt.subsets n → Even r.2.tgt.subsets (n + 1) := by
  unfold decode_and_add_to_all at h
  obtain ⟨x, -, h⟩ := Res.bind_eq_ok.mp h
  obtain ⟨t, ht, h⟩ := Res.bind_eq_ok.mp h
  obtain ⟨v, -, h⟩ := Res.bind_eq_ok.mp h
  cases h
  exact storeCopies_out (s := setInput s x.2) (by simp [setInput]) ht

theorem setAttrs_out {pos : Nat} {ss : List (List Var)} {as : List Var} {ss' : List (List Var)}
    (h : setAttrs pos ss as = .ok ss') : ss'.map List.length = ss.map List.length := by
  induction ss generalizing as ss' with
  | nil =>
    unfold setAttrs at h
    cases h
    rfl
  | cons s ss ih =>
    cases as with
    | nil => cases h; rfl
    | cons a as =>
      unfold setAttrs at h
      split at h
      · obtain ⟨x, hx, h⟩ := Res.bind_eq_ok.mp h
        cases h
        simp only [List.map_cons, ih hx]
      · split at h
        · cases h
        · obtain ⟨w, -, h⟩ := Res.bind_eq_ok.mp h
          obtain ⟨x, hx, h⟩ := Res.bind_eq_ok.mp h
          cases h
          simp only [List.map_cons, ih hx, List.length_set]

theorem Even.map {ss ss' : List (List Var)} {n : Nat} (h : Even ss n)
    (he : ss'.map List.length = ss.map List.length) : Even ss' n := by
  intro x hx
  have h1 : x.length ∈ ss'.map List.length := List.mem_map_of_mem hx
  rw [he] at h1
  obtain ⟨y, hy, h2⟩ := List.mem_map.mp h1
  rw [← h2]
  exact h y hy

theorem attr_out {i : Varinfo} {pos : Nat} (h : decode_and_set_attribute C s i pos = .ok s') :
    s'.bitmaps = s.bitmaps ∧ s'.tgt.subsets.map List.length = s.tgt.subsets.map List.length := by
  unfold decode_and_set_attribute at h
  obtain ⟨x, -, h⟩ := Res.bind_eq_ok.mp h
  obtain ⟨y, hy, h⟩ := Res.bind_eq_ok.mp h
  cases h
  exact ⟨rfl, setAttrs_out hy⟩

end CDecoder

theorem Bitmaps.Within.define_last {E : Env} {v : VarCore} {codes : List Varcode} {a : Nat}
    {b b' : Bitmaps} (hd : b.define E v codes a = .ok b') : b'.last = b.last := by
  unfold Bitmaps.define at hd
  split at hd
  · cases hd
    rfl
  · split at hd <;> cases hd
  · cases hd

namespace Verbose

open CDecoder

theorem each_ok {f : List Var → Res (List Byte)} {ss : List (List Var)}
    (h : ∀ vs ∈ ss, ∃ x, f vs = .ok x) : ∃ x, each f ss = .ok x := by
  induction ss with
  | nil => exact ⟨_, rfl⟩
  | cons s ss ih =>
    obtain ⟨x, hx⟩ := h s (by simp)
    obtain ⟨y, hy⟩ := ih fun vs hvs => h vs (List.mem_cons_of_mem _ hvs)
    unfold each
    rw [hx, Res.ok_bind, hy]
    exact ⟨_, rfl⟩

/-- What is kept while all the subsets are decoded. -/
structure All (E : Env) (b : Bitmaps) (c : TableCaches) (t : CDec) : Prop where
  caches : c.Made E
  out : ∀ vs ∈ t.subsets, AllSane E vs
  refs : ∃ n, Even t.subsets n ∧ b.Within n
  some : b.current ≠ none ∨ b.last ≠ none → t.subsets ≠ []

theorem All.kept {E : Env} {s : CDecoder.St} (h : All E s.bitmaps s.caches s.tgt) :
    CDecoder.Kept E s := ⟨h.caches, h.out⟩

/-- The same after each subset got one more variable. -/
theorem All.grow {E : Env} {b : Bitmaps} {c : TableCaches} {t : CDec} {s' : CDecoder.St}
    (h : All E b c t) (k : CDecoder.Kept E s')
    (ho : s'.bitmaps = b ∧ s'.tgt.subsets.length = t.subsets.length ∧
      ∀ n, Even t.subsets n → Even s'.tgt.subsets (n + 1)) :
    All E s'.bitmaps s'.caches s'.tgt := by
  obtain ⟨n, h1, h2⟩ := h.refs
  obtain ⟨o1, o2, o3⟩ := ho
  refine ⟨k.caches, k.out, ⟨n + 1, o3 n h1, by rw [o1]; exact h2.le (by omega)⟩, ?_⟩
  rw [o1]
  intro hs he
  rw [he] at o2
  exact h.some hs (List.length_eq_zero_iff.mp o2.symm)

theorem All.attr {E : Env} {b : Bitmaps} {c : TableCaches} {t : CDec} {s' : CDecoder.St}
    (h : All E b c t) (k : CDecoder.Kept E s')
    (ho : s'.bitmaps = b ∧ s'.tgt.subsets.map List.length = t.subsets.map List.length) :
    All E s'.bitmaps s'.caches s'.tgt := by
  obtain ⟨n, h1, h2⟩ := h.refs
  obtain ⟨o1, o2⟩ := ho
  refine ⟨k.caches, k.out, ⟨n, h1.map o2, by rw [o1]; exact h2⟩, ?_⟩
  rw [o1]
  intro hs he
  rw [he] at o2
  exact h.some hs (List.map_eq_nil_iff.mp o2.symm)

theorem All.next {E : Env} {b : Bitmaps} {c : TableCaches} {t : CDec} {r : Nat × Bitmaps}
    (h : All E b c t) (hr : b.next = .ok r) : All E r.2 c t ∧ t.subsets ≠ [] ∧
      ∀ vs ∈ t.subsets, r.1 < vs.length := by
  obtain ⟨n, h1, h2⟩ := h.refs
  obtain ⟨a1, a2, a3⟩ := h2.next hr
  have hne := h.some (Or.inl a3)
  exact ⟨⟨h.caches, h.out, ⟨n, h1, a2⟩, fun _ => hne⟩, hne, fun vs hvs => by rw [h1 vs hvs]; exact a1⟩

/-- What the verbose decoder prints about the subsets can always be printed. -/
theorem watchAll {C : Ctx} (hF : Decoder.Fit False C) :
    Watch C (CDecoder.target C) (shownAll C.E) (All C.E) (fun i => i.Made C.E) where
  pending b c t x h := by
    obtain ⟨n, h1, h2⟩ := h.refs
    exact ⟨h.caches, h.out, ⟨n, h1, fun m hm => h2 m hm⟩, h.some⟩
  reuse b c t h := by
    obtain ⟨n, h1, h2⟩ := h.refs
    refine ⟨h.caches, h.out, ⟨n, h1, h2.reuse⟩, ?_⟩
    rintro (h' | h')
    · refine h.some (Or.inr fun he => h' ?_)
      unfold Bitmaps.reuse_last
      rw [he]
      rfl
    · exact absurd rfl h'
  discard b c t h := by
    obtain ⟨n, h1, h2⟩ := h.refs
    refine ⟨h.caches, h.out, ⟨n, h1, h2.discard⟩, ?_⟩
    rintro (h' | h')
    · exact h.some (Or.inl h')
    · exact absurd rfl h'
  next b c t r h hr := (h.next hr).1
  query c i hi := ((Vartable.query_has (safe := False) (l := ⟨0, 0, 0, 0⟩) (w := 0) hF.table
    False.elim).ok hi).made
  info s c i hi := ((get_varinfo_has (safe := False) (l := ⟨0, 0, 0, 0⟩) hF.table False.elim
    False.elim False.elim).ok hi).made
  unknown b c t code n i h hi := by
    obtain ⟨h1, h2⟩ := h.caches.get_unknown (safe := False) code n
    exact ⟨(h1.ok hi).1, h2, h.out, h.refs, h.some⟩
  bitmap s n s' h hs' := by
    have k := (CDecoder.bitmap_has (C := C) h.kept n).ok hs'
    change CDecoder.define_bitmap C s n = .ok s' at hs'
    unfold CDecoder.define_bitmap at hs'
    obtain ⟨r, -, hs'⟩ := Res.bind_eq_ok.mp hs'
    obtain ⟨i, -, hs'⟩ := Res.bind_eq_ok.mp hs'
    obtain ⟨v, -, hs'⟩ := Res.bind_eq_ok.mp hs'
    obtain ⟨t, ht, hs'⟩ := Res.bind_eq_ok.mp hs'
    obtain ⟨w, hw, hs'⟩ := Res.bind_eq_ok.mp hs'
    obtain ⟨b, hb, hs'⟩ := Res.bind_eq_ok.mp hs'
    cases hs'
    obtain ⟨o1, o2, o3⟩ := storeCopies_out (by simp [setInput]) ht
    obtain ⟨m, h1, h2⟩ := h.refs
    have he := o3 m h1
    unfold lastOfFirst at hw
    cases hss : t.tgt.subsets with
    | nil => rw [hss] at hw; cases hw
    | cons x xs =>
      have hx : x.length = m + 1 := he x (by rw [hss]; simp)
      refine ⟨k.caches, k.out, ⟨m + 1, he, ?_⟩, fun _ => ?_⟩
      · rw [hss] at hb
        have hwi := Bitmaps.Within.define (b := t.bitmaps) (by
          rw [o1]
          refine Bitmaps.Within.le h2 ?_
          simp [hx]) hb
        simpa [hx] using hwi
      · show t.tgt.subsets ≠ []
        rw [hss]
        simp
  element s i s' hi h hs' := by
    have k : CDecoder.Kept C.E s' := ((CDecoder.care hF).element 0 s i hi h.kept).ok hs'
    change CDecoder.define_variable C s i = .ok s' at hs'
    unfold CDecoder.define_variable at hs'
    obtain ⟨r, hr, hs'⟩ := Res.bind_eq_ok.mp hs'
    have ho := storeCopies_out (s := setInput s r.2) (by simpa [setInput] using b_value_length hr) hs'
    refine ⟨h.grow k ho, ?_⟩
    obtain ⟨n, h1, -⟩ := h.refs
    have he := ho.2.2 n h1
    refine each_ok fun vs hvs => ?_
    cases hl : vs.getLast? with
    | none =>
      rw [List.getLast?_eq_none_iff] at hl
      have := he vs hvs
      rw [hl] at this
      simp at this
    | some v => exact (k.out vs hvs v (List.mem_of_getLast? hl)).core.formatFile _
  associated s i s' hi h hs' := by
    change CDecoder.define_variable_with_associated_field C s i = .ok s' at hs'
    unfold CDecoder.define_variable_with_associated_field at hs'
    obtain ⟨r, hr, hs'⟩ := Res.bind_eq_ok.mp hs'
    have k := (storeCopies_has h.kept ((b_value_af_has hF hi).ok hr) _).ok hs'
    exact h.grow k (storeCopies_out (s := setInput s r.2)
      (by simpa [setInput] using b_value_af_length hr) hs')
  factor s i r hi h hr := by
    have k := ((CDecoder.care hF).factor 0 s i hi h.kept).ok hr
    change CDecoder.define_delayed_replication_factor C s i = .ok r at hr
    unfold CDecoder.define_delayed_replication_factor at hr
    obtain ⟨x, hx, hr⟩ := Res.bind_eq_ok.mp hr
    obtain ⟨n, -, hr⟩ := Res.bind_eq_ok.mp hr
    cases hr
    exact h.grow k.2 (CDecoder.to_all_out hx)
  bitmapFactor s i r hi h hr := by
    change CDecoder.define_bitmap_delayed_replication_factor C s i = .ok r at hr
    unfold CDecoder.define_bitmap_delayed_replication_factor at hr
    obtain ⟨x, hx, hr⟩ := Res.bind_eq_ok.mp hr
    obtain ⟨n, -, hr⟩ := Res.bind_eq_ok.mp hr
    cases hr
    exact ⟨h.caches, h.out, h.refs, h.some⟩
  significance s i r hi h hr := by
    have k := ((CDecoder.care hF).meaning 0 s i hi h.kept).ok hr
    change CDecoder.define_associated_field_significance C s i = .ok r at hr
    unfold CDecoder.define_associated_field_significance at hr
    obtain ⟨x, hx, hr⟩ := Res.bind_eq_ok.mp hr
    obtain ⟨n, -, hr⟩ := Res.bind_eq_ok.mp hr
    cases hr
    exact h.grow ⟨k.caches, k.out⟩ (CDecoder.to_all_out hx)
  substituted s r s' h hr hs' := by
    obtain ⟨h', -, -⟩ := h.next hr
    change CDecoder.define_substituted_value C _ r.1 = .ok s' at hs'
    have k := (CDecoder.substituted_has hF (s := { s with bitmaps := r.2 }) ⟨h.caches, h.out⟩ _).ok hs'
    unfold CDecoder.define_substituted_value at hs'
    split at hs'
    · cases hs'
    · split at hs'
      · cases hs'
      · exact h'.attr k (CDecoder.attr_out hs')
  attr s i r s' hi h hr hs' := by
    obtain ⟨h', hne, hlt⟩ := h.next hr
    change CDecoder.decode_and_set_attribute C _ i r.1 = .ok s' at hs'
    have k := (CDecoder.attr_has hF hi (s := { s with bitmaps := r.2 }) ⟨h.caches, h.out⟩ _).ok hs'
    have ho := CDecoder.attr_out hs'
    have hl : ∀ vs ∈ s'.tgt.subsets, r.1 < vs.length := by
      intro vs hvs
      have h1 : vs.length ∈ s'.tgt.subsets.map List.length := List.mem_map_of_mem hvs
      rw [ho.2] at h1
      obtain ⟨y, hy, h2⟩ := List.mem_map.mp h1
      rw [← h2]
      exact hlt y hy
    refine ⟨h'.attr k ho, ?_, ?_⟩
    · cases hss : s'.tgt.subsets with
      | nil =>
        have h2 := ho.2
        rw [hss] at h2
        exact absurd (List.map_eq_nil_iff.mp h2.symm) hne
      | cons x xs =>
        have := hl x (by rw [hss]; simp)
        simp only [shownAll, hss, List.getElem?_eq_getElem this]
        exact ⟨_, rfl⟩
    · refine each_ok fun vs hvs => ?_
      have hv := k.out vs hvs _ (List.getElem_mem (hl vs hvs))
      simp only [List.getElem?_eq_getElem (hl vs hvs)]
      cases ha : (vs[r.1]'(hl vs hvs)).enqa i.code with
      | none => exact ⟨_, rfl⟩
      | some a => exact (hv.enqa ha).formatFile _
  raw s c s' h hs' := by
    change CDecoder.define_raw_character_data C s c = .ok s' at hs'
    unfold CDecoder.define_raw_character_data at hs'
    obtain ⟨r, -, hs'⟩ := Res.bind_eq_ok.mp hs'
    cases hs'
  refval s c s' h hs' := by cases hs'

end Verbose

end Wreport
