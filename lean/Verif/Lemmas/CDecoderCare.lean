import Verif.Lemmas.DecoderCare
import Verif.Model.Compressed

/-! # What decoding a compressed message keeps true

There is no bound on undefined behaviour here: increments of 32 bits or more have it,
whatever the descriptors. -/

namespace Wreport

open Spec

variable {E : Env}

/-- A list of sane variables. -/
abbrev AllSane (E : Env) (vs : List Var) : Prop := ∀ v ∈ vs, v.Sane E

namespace Input

variable {O : Opts} {i : Input} {info : Varinfo}

theorem setDecoded_res {v : Var} (h : v.Sane E) (ht : v.info.type = .string) (s : Option (List Byte)) :
    (setDecoded O v s).Has False (fun w => w.Sane E) := by
  obtain ⟨w, h1, h2, -⟩ := setDecoded_sane (O := O) h ht s
  rw [h1]
  exact h2

theorem diff_sane (hE : IsRounding E.fl) (hO : O.Sane E) {v : Var} (hv : v.Sane E)
    (hn : v.info.IsNum) (base d : Nat) :
    (i.decode_compressed_diff E O v base d).Has False
      (fun r => r.1.Sane E ∧ r.1.info = v.info) := by
  unfold decode_compressed_diff
  refine Res.Has.bind (P := fun _ => True) (Res.Has.trivial' False.elim) fun r _ _ => ?_
  refine Res.Has.bind (P := fun _ => True) (Res.Has.trivial' False.elim) fun m _ _ => ?_
  exact Res.Has.bind (setNumberOrMissing_sane (safe := False) hE hO False.elim hv hn m _)
    fun w _ hw => hw

theorem diffLoop_sane (hE : IsRounding E.fl) (hO : O.Sane E) {v : Var} (hv : v.Sane E)
    (hn : v.info.IsNum) (base d n : Nat) :
    (diffLoop E O base d n v i).Has False (fun r => AllSane E r.1) := by
  induction n generalizing i v with
  | zero => simp [diffLoop, Res.Has, AllSane]
  | succ n ih =>
    unfold diffLoop
    refine Res.Has.bind (diff_sane hE hO hv hn base d) fun r _ hr => ?_
    refine Res.Has.bind (ih hr.1 (by rw [hr.2]; exact hn)) fun r' _ hr' => ?_
    intro w hw
    rcases List.mem_cons.mp hw with rfl | hw
    · exact hr.1
    · exact hr' w hw

theorem number_sane (hE : IsRounding E.fl) (hO : O.Sane E) (hm : info.Made E) (hn : info.IsNum)
    (n : Nat) : (i.decode_compressed_number E O info n).Has False (fun r => AllSane E r.1) := by
  unfold decode_compressed_number
  refine Res.Has.bind (P := fun _ => True) (Res.Has.trivial' False.elim) fun r _ _ => ?_
  have rep : ∀ v : Var, v.Sane E → AllSane E (List.replicate n v) := by
    intro v hv w hw
    rw [(List.mem_replicate.mp hw).2]
    exact hv
  split
  · exact rep _ (Var.Sane.new hm)
  · split
    · refine Res.Has.bind (setNumber_sane (safe := False) hE hO False.elim (Var.Sane.new hm) hn _)
        fun w _ hw => ?_
      exact rep _ hw.1
    · exact diffLoop_sane hE hO (Var.Sane.new hm) hn _ _ _

theorem addAttr_sane {v : Var} (hv : v.Sane E) {a : Option Var} (ha : ∀ x, a = some x → x.Sane E) :
    (addAttr v a).Sane E := by
  cases a with
  | none => exact hv
  | some x => exact setaMove_sane hv (ha x rfl).core

theorem fieldDiffLoop_sane {C : Ctx} (hE : IsRounding C.E.fl) (hO : C.O.Sane C.E) (base d : Nat)
    {as : List (Option Var)} (ha : ∀ a ∈ as, ∀ x, a = some x → x.Sane C.E) {v : Var}
    (hv : v.Sane C.E) (hn : v.info.IsNum) :
    (fieldDiffLoop C base d v as i).Has False (fun r => AllSane C.E r.1) := by
  induction as generalizing v i with
  | nil => simp [fieldDiffLoop, Res.Has, AllSane]
  | cons a as ih =>
    unfold fieldDiffLoop
    refine Res.Has.bind (diff_sane hE hO hv hn base d) fun r _ hr => ?_
    have h1 := addAttr_sane hr.1 (ha a (by simp))
    refine Res.Has.bind (ih (fun b hb => ha b (List.mem_cons_of_mem _ hb)) h1
      (by rw [addAttr_info, hr.2]; exact hn)) fun r' _ hr' => ?_
    intro v hv
    rcases List.mem_cons.mp hv with rfl | hv
    · exact h1
    · exact hr' v hv

theorem attrs_sane {C : Ctx} (hE : IsRounding C.E.fl) (hO : C.O.Sane C.E) (hm : info.Made C.E)
    (hn : info.IsNum) {as : List (Option Var)} (ha : ∀ a ∈ as, ∀ x, a = some x → x.Sane C.E) :
    (i.decode_compressed_number_attrs C info as).Has False (fun r => AllSane C.E r.1) := by
  unfold decode_compressed_number_attrs
  refine Res.Has.bind (P := fun _ => True) (Res.Has.trivial' False.elim) fun r _ _ => ?_
  have rep : ∀ v : Var, v.Sane C.E → AllSane C.E (as.map (addAttr v)) := by
    intro v hv w hw
    obtain ⟨a, h1, rfl⟩ := List.mem_map.mp hw
    exact addAttr_sane hv (ha a h1)
  split
  · exact rep _ (Var.Sane.new hm)
  · split
    · refine Res.Has.bind (setNumber_sane (safe := False) hE hO False.elim (Var.Sane.new hm) hn _)
        fun w _ hw => ?_
      exact rep _ hw.1
    · exact fieldDiffLoop_sane hE hO _ _ ha (Var.Sane.new hm) hn

theorem fieldLoop_sane {C : Ctx} (hO : C.O.Sane C.E) (ht : C.btable.Inv C.E) (f : AssociatedField)
    (base d n : Nat) :
    (fieldLoop C f base d n i).Has False (fun r => ∀ a ∈ r.1, ∀ x, a = some x → x.Sane C.E) := by
  induction n generalizing i with
  | zero => simp [fieldLoop, Res.Has]
  | succ n ih =>
    unfold fieldLoop
    refine Res.Has.bind (P := fun _ => True) (Res.Has.trivial' False.elim) fun r _ _ => ?_
    refine Res.Has.bind (make_attribute_has (safe := False) hO False.elim ht f False.elim _)
      fun a _ ha => ?_
    refine Res.Has.bind ih fun r' _ hr' => ?_
    intro b hb
    rcases List.mem_cons.mp hb with rfl | hb
    · exact ha
    · exact hr' b hb

theorem number_af_sane {C : Ctx} (hE : IsRounding C.E.fl) (hO : C.O.Sane C.E)
    (ht : C.btable.Inv C.E) (hm : info.Made C.E) (hn : info.IsNum) (f : AssociatedField) (n : Nat) :
    (i.decode_compressed_number_af C info f n).Has False (fun r => AllSane C.E r.1) := by
  unfold decode_compressed_number_af
  refine Res.Has.bind (P := fun _ => True) (Res.Has.trivial' False.elim) fun b _ _ => ?_
  refine Res.Has.bind (P := fun _ => True) (Res.Has.trivial' False.elim) fun d _ _ => ?_
  refine Res.Has.bind (P := fun _ => True) (Res.Has.trivial' False.elim) fun o _ _ => ?_
  split
  · exact number_sane hE hO hm hn n
  · refine Res.Has.bind (fieldLoop_sane hO ht f _ _ _) fun as _ has => ?_
    exact attrs_sane hE hO hm hn has

theorem stringLoop_sane (hm : info.Made E) (ht : info.type = .string) (d n : Nat) :
    (stringLoop O info d n i).Has False (fun r => AllSane E r.1) := by
  induction n generalizing i with
  | zero => simp [stringLoop, Res.Has, AllSane]
  | succ n ih =>
    unfold stringLoop
    refine Res.Has.bind (P := fun _ => True) (Res.Has.trivial' False.elim) fun r _ _ => ?_
    refine Res.Has.bind (setDecoded_res (Var.Sane.new hm) ht _) fun v _ hv => ?_
    refine Res.Has.bind ih fun r' _ hr' => ?_
    intro b hb
    rcases List.mem_cons.mp hb with rfl | hb
    · exact hv
    · exact hr' b hb

theorem string_sane (hm : info.Made E) (ht : info.type = .string) (n : Nat) :
    (i.decode_compressed_string O info n).Has False (fun r => AllSane E r.1) := by
  unfold decode_compressed_string
  refine Res.Has.bind (P := fun _ => True) (Res.Has.trivial' False.elim) fun r _ _ => ?_
  refine Res.Has.bind (P := fun _ => True) (Res.Has.trivial' False.elim) fun r' _ _ => ?_
  split
  · refine Res.Has.bind (setDecoded_res (Var.Sane.new hm) ht _) fun v _ hv => ?_
    intro w hw
    rw [(List.mem_replicate.mp hw).2]
    exact hv
  · split
    · trivial
    · exact stringLoop_sane hm ht _ _

end Input

namespace CDecoder

/-- What holds while decoding all the subsets. -/
structure Kept (E : Env) (s : St) : Prop where
  caches : s.caches.Made E
  out : ∀ vs ∈ s.tgt.subsets, AllSane E vs

variable {C : Ctx} {s : St}

theorem copyAll_sane {vs : List Var} (h : AllSane C.E vs) :
    (copyAll vs).Has False (AllSane C.E) := by
  induction vs with
  | nil => simp [copyAll, Res.Has, AllSane]
  | cons v vs ih =>
    unfold copyAll
    obtain ⟨w, h1, h2, -⟩ := copy_sane (h v (by simp))
    rw [h1, Res.ok_bind]
    refine Res.Has.bind (ih fun x hx => h x (List.mem_cons_of_mem _ hx)) fun ws _ hws => ?_
    intro x hx
    rcases List.mem_cons.mp hx with rfl | hx
    · exact h2
    · exact hws x hx

theorem mem_zipWith_append {ss : List (List Var)} {vs : List Var} {x : List Var}
    (h : x ∈ List.zipWith (fun s v => s ++ [v]) ss vs) : ∃ s ∈ ss, ∃ v ∈ vs, x = s ++ [v] := by
  induction ss generalizing vs with
  | nil => simp at h
  | cons s ss ih =>
    cases vs with
    | nil => simp at h
    | cons v vs =>
      rcases List.mem_cons.mp h with rfl | h
      · exact ⟨s, by simp, v, by simp, rfl⟩
      · obtain ⟨s', h1, v', h2, h3⟩ := ih h
        exact ⟨s', List.mem_cons_of_mem _ h1, v', List.mem_cons_of_mem _ h2, h3⟩

theorem storeCopies_has (h : Kept C.E s) {vs : List Var} (hv : AllSane C.E vs) (i : Input) :
    (storeCopies (setInput s i) vs).Has False (Kept C.E) := by
  unfold storeCopies
  refine Res.Has.bind (copyAll_sane hv) fun ws _ hws => ⟨h.caches, ?_⟩
  intro x hx
  obtain ⟨s', h1, v', h2, rfl⟩ := mem_zipWith_append hx
  intro v hvv
  rcases List.mem_append.mp hvv with hvv | hvv
  · exact h.out s' h1 v hvv
  · rw [List.mem_singleton.mp hvv]; exact hws v' h2

variable (hF : Decoder.Fit False C) {i : Varinfo} (hi : i.Made C.E)

include hF hi

theorem uniform_has : (decode_uniform_b_value C s i).Has False (fun r => r.1.Sane C.E) := by
  have num : i.IsNum → (s.tgt.input.decode_compressed_semantic_number C.E C.O (Var.new i)).Has False
      (fun r => r.1.Sane C.E) := by
    intro hn
    unfold Input.decode_compressed_semantic_number
    refine Res.Has.bind (P := fun _ => True) (Res.Has.trivial' False.elim) fun r _ _ => ?_
    refine Res.Has.bind (P := fun _ => True) (Res.Has.trivial' False.elim) fun m _ _ => ?_
    refine Res.Has.bind (P := fun _ => True) (Res.Has.trivial' False.elim) fun m _ _ => ?_
    split
    · trivial
    · exact Res.Has.bind (Input.setNumberOrMissing_sane (safe := False) hF.rounding hF.opts
        False.elim (Var.Sane.new hi) hn _ _) fun w _ hw => hw.1
  unfold decode_uniform_b_value
  split
  · next ht =>
    unfold Input.decode_string_same
    refine Res.Has.bind (P := fun _ => True) (Res.Has.trivial' False.elim) fun r _ _ => ?_
    refine Res.Has.bind (P := fun _ => True) (Res.Has.trivial' False.elim) fun m _ _ => ?_
    split
    · exact Res.Has.bind (Input.setDecoded_res (Var.Sane.new hi) ht _) fun v _ hv => hv
    · split
      · trivial
      · refine Res.Has.bind (P := fun _ => True) (Res.Has.trivial' False.elim) fun r _ _ => ?_
        refine Res.Has.bind (Input.setDecoded_res (Var.Sane.new hi).unset ht _) fun v _ hv => ?_
        exact Res.Has.bind (P := fun _ => True) (Res.Has.trivial' False.elim) fun _ _ _ => hv
  · trivial
  · exact num (Or.inl ‹_›)
  · exact num (Or.inr ‹_›)

theorem b_value_has : (decode_b_value C s i).Has False (fun r => AllSane C.E r.1) := by
  unfold decode_b_value
  split
  · exact Input.string_sane hi ‹_› _
  · trivial
  · exact Input.number_sane hF.rounding hF.opts hi (Or.inl ‹_›) _
  · exact Input.number_sane hF.rounding hF.opts hi (Or.inr ‹_›) _

theorem b_value_af_has : (decode_b_value_af C s i).Has False (fun r => AllSane C.E r.1) := by
  unfold decode_b_value_af
  split
  · exact Input.string_sane hi ‹_› _
  · trivial
  · exact Input.number_af_sane hF.rounding hF.opts hF.table hi (Or.inl ‹_›) _ _
  · exact Input.number_af_sane hF.rounding hF.opts hF.table hi (Or.inr ‹_›) _ _

theorem to_all_has (h : Kept C.E s) :
    (decode_and_add_to_all C s i).Has False (fun r => Kept C.E r.2) := by
  unfold decode_and_add_to_all
  refine Res.Has.bind (uniform_has hF hi) fun r _ hr => ?_
  refine Res.Has.bind (storeCopies_has h (fun v hv => ?_) r.2) fun s' _ hs' => ?_
  · rw [(List.mem_replicate.mp hv).2]
    exact hr
  · exact Res.Has.bind (P := fun _ => True) (Res.Has.trivial' False.elim) fun v _ _ => hs'

omit hF hi in
theorem setAttrs_has (pos : Nat) {ss : List (List Var)} {as : List Var}
    (hs : ∀ vs ∈ ss, AllSane C.E vs) (ha : AllSane C.E as) :
    (setAttrs pos ss as).Has False (fun ss => ∀ vs ∈ ss, AllSane C.E vs) := by
  induction ss generalizing as with
  | nil => simp [setAttrs, Res.Has]
  | cons x ss ih =>
    cases as with
    | nil => exact hs
    | cons a as =>
      have ih' := ih (as := as) (fun vs hvs => hs vs (List.mem_cons_of_mem _ hvs))
        fun v hv => ha v (List.mem_cons_of_mem _ hv)
      unfold setAttrs
      split
      · refine Res.Has.bind ih' fun r _ hr => ?_
        intro vs hvs
        rcases List.mem_cons.mp hvs with rfl | hvs
        · exact hs _ (by simp)
        · exact hr vs hvs
      · split
        · exact id
        · next v hv =>
          unfold Var.seta
          obtain ⟨w, h1, h2, -⟩ := copy_sane (ha a (by simp))
          rw [h1]
          simp only [Res.ok_bind, Res.pure_def]
          refine Res.Has.bind ih' fun r _ hr => ?_
          intro vs hvs
          rcases List.mem_cons.mp hvs with rfl | hvs
          · intro y hy
            rcases List.mem_or_eq_of_mem_set hy with hy | hy
            · exact hs x (by simp) y hy
            · rw [hy]
              exact setaMove_sane (hs x (by simp) v (List.mem_of_getElem? hv)) h2.core
          · exact hr vs hvs

theorem attr_has (h : Kept C.E s) (pos : Nat) :
    (decode_and_set_attribute C s i pos).Has False (Kept C.E) := by
  unfold decode_and_set_attribute
  refine Res.Has.bind (b_value_has hF hi) fun r _ hr => ?_
  exact Res.Has.bind (setAttrs_has pos h.out hr) fun ss _ hss => ⟨h.caches, hss⟩

omit hi in
theorem substituted_has (h : Kept C.E s) (pos : Nat) :
    (define_substituted_value C s pos).Has False (Kept C.E) := by
  unfold define_substituted_value
  split
  · trivial
  · next x ss hss =>
    split
    · exact id
    · next v hv =>
      exact attr_has hF (h.out x (by rw [hss]; simp) v (List.mem_of_getElem? hv)).core.made h pos

omit hF hi in
theorem bitmap_has (h : Kept C.E s) (n : Nat) : (define_bitmap C s n).Has False (Kept C.E) := by
  unfold define_bitmap
  refine Res.Has.bind (P := fun _ => True) (Res.Has.trivial' False.elim) fun r _ _ => ?_
  obtain ⟨h1, h2⟩ := h.caches.get_bitmap (safe := False) s.bitmaps.pending_definitions r.1
  refine Res.Has.bind h1 fun info _ hm => ?_
  obtain ⟨v, v1, v2, -⟩ := newStr_sane (O := C.O) hm.1 hm.2 r.1
  rw [v1, Res.ok_bind]
  refine Res.Has.bind (storeCopies_has (s := { s with caches := _ }) ⟨h2, h.out⟩ (fun w hw => ?_) r.2)
    fun s' _ hs' => ?_
  · rw [(List.mem_replicate.mp hw).2]
    exact v2
  · refine Res.Has.bind (P := fun _ => True) (Res.Has.trivial' False.elim) fun v _ _ => ?_
    exact Res.Has.bind (P := fun _ => True) (Res.Has.trivial' False.elim) fun v _ _ =>
      ⟨hs'.caches, hs'.out⟩

omit hi in
/-- The decoder keeps what it should. -/
theorem care : Care False C (target C) (fun _ => Kept C.E) 0 (fun i => i.Made C.E)
      (fun _ => True) where
  mono b k s h := h
  query c _ := (Vartable.query_has (safe := False) (l := ⟨0, 0, 0, 0⟩) (w := 0) hF.table
    False.elim).mono fun i hi => hi.made
  contains c _ := Vartable.contains_safe _ _
  sequence c _ _ := Res.Has.of (fun _ _ _ _ => trivial) False.elim
  factorCode := trivial
  meaningCode := trivial
  info b s c _ _ := (get_varinfo_has (safe := False) (l := ⟨0, 0, 0, 0⟩) hF.table False.elim
    False.elim False.elim).mono fun i hi => hi.made
  unknown b s c n h _ _ := by
    obtain ⟨h1, h2⟩ := h.caches.get_unknown (safe := False) c n
    exact h1.mono fun i hi => ⟨hi.1, ⟨h2, h.out⟩⟩
  bitmap b s n _ _ h := (bitmap_has h n).mono fun s' hs' => ⟨hs'.caches, hs'.out⟩
  element b s i hi h := by
    show (define_variable C s i).Has _ _
    unfold define_variable
    exact Res.Has.bind (b_value_has hF hi) fun r _ hr => storeCopies_has h hr _
  associated b s i hi _ h := by
    show (define_variable_with_associated_field C s i).Has _ _
    unfold define_variable_with_associated_field
    exact Res.Has.bind (b_value_af_has hF hi) fun r _ hr => storeCopies_has h hr _
  factor b s i hi h := by
    show (define_delayed_replication_factor C s i).Has _ _
    unfold define_delayed_replication_factor
    refine Res.Has.bind (to_all_has hF hi h) fun r _ hr => ?_
    exact Res.Has.bind (P := fun _ => True) (Res.Has.trivial' False.elim) fun n _ _ =>
      ⟨Decoder.toU32_lt _, hr⟩
  bitmapFactor b s i hi hp h := by
    show (define_bitmap_delayed_replication_factor C s i).Has _ _
    unfold define_bitmap_delayed_replication_factor
    refine Res.Has.bind (uniform_has hF hi) fun r _ hr => ?_
    exact Res.Has.bind (P := fun _ => True) (Res.Has.trivial' False.elim) fun n _ _ =>
      ⟨Decoder.toU32_lt _, hp, ⟨h.caches, h.out⟩⟩
  field b s c _ _ _ _ h := ⟨h.caches, h.out⟩
  meaning b s i hi h := by
    show (define_associated_field_significance C s i).Has _ _
    unfold define_associated_field_significance
    refine Res.Has.bind (to_all_has hF hi h) fun r _ hr => ?_
    exact Res.Has.bind (P := fun _ => True) (Res.Has.trivial' False.elim) fun n _ _ =>
      ⟨hr.caches, hr.out⟩
  attr b s i hi _ h := Res.Has.of (fun r _ =>
    attr_has (s := { s with bitmaps := r.2 }) hF hi ⟨h.caches, h.out⟩ _) False.elim
  refval b s c _ h := trivial
  simple b s c _ _ _ _ h := by
    have keep : ∀ s' : St, s'.caches = s.caches → s'.tgt = s.tgt → Kept C.E s' := by
      intro s' h1 h2
      exact ⟨by rw [h1]; exact h.caches, by rw [h2]; exact h.out⟩
    unfold Interp.c_simple
    simp only []
    split
    · exact keep _ rfl rfl
    · exact keep _ rfl rfl
    · exact keep _ rfl rfl
    · exact Res.Has.bind (P := fun _ => True) (Res.Has.trivial' False.elim) fun _ _ _ => trivial
    · exact keep _ rfl rfl
    · exact keep _ rfl rfl
    · split
      · trivial
      · exact keep _ rfl rfl
    · unfold Interp.c23
      split
      · exact keep _ rfl rfl
      · split
        · split
          · trivial
          · exact Res.Has.bind (P := fun _ => True) (Res.Has.trivial' False.elim) fun r _ _ =>
              substituted_has (s := { s with bitmaps := r.2 }) hF ⟨h.caches, h.out⟩ _
        · trivial
    · unfold Interp.c37
      split
      · exact keep _ rfl rfl
      · split
        · exact keep _ rfl rfl
        · trivial
    · exact h

omit hi in
/-- Decoding all the subsets. -/
theorem decodeSubsets_has (au : Bool) (depth : Nat) (ops : List Varcode) (n : Nat)
    {caches : TableCaches} (hc : caches.Made C.E) (j : Input) :
    (decodeSubsets C au depth ops n caches j).Has False (fun r =>
      (∀ vs ∈ r.1, AllSane C.E vs) ∧ r.2.1.Made C.E) := by
  obtain ⟨K, hK⟩ := (care hF).run depth ops (fun _ _ => trivial) False.elim
  unfold decodeSubsets
  refine Res.Has.bind (hK 0 (start au caches n j) ⟨hc, ?_⟩) fun s' _ hs' => ⟨hs'.out, hs'.caches⟩
  intro vs hvs
  rw [(List.mem_replicate.mp hvs).2]
  simp [AllSane]

end CDecoder

end Wreport
