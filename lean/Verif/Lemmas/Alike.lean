import Verif.Lemmas.Tables
import Verif.Model.Message
import Verif.Model.Crex
import Verif.Model.Listing

/-!
# Tables that answer alike

Decoding depends on an element table only through the answers it gives, not through
the alterations that earlier requests have left in it.
-/

namespace Wreport

/-- Two contexts whose element tables give metadata with the same contents. -/
structure Ctx.Alike (C D : Ctx) : Prop where
  E : D.E = C.E
  O : D.O = C.O
  dtable : D.dtable = C.dtable
  query : D.btable.query = C.btable.query
  contains : D.btable.contains = C.btable.contains
  altered : ∀ code s l r,
    ((D.btable.query_altered C.E code s l r).2 >>= fun x => Res.ok x.2) =
      ((C.btable.query_altered C.E code s l r).2 >>= fun x => Res.ok x.2)

namespace Vartable

theorem Ext.query {t t' : Vartable} (h : t.Ext t') (hs : Spec.Increasing t.codes) :
    t'.query = t.query ∧ t'.contains = t.contains := by
  have hs' : Spec.Increasing t'.codes := by rw [h.codes]; exact hs
  have key : ∀ code, t'.query code = t.query code ∧ t'.contains code = t.contains code := by
    intro code
    by_cases hc : code ∈ t.codes
    · unfold Vartable.codes at hc
      obtain ⟨e, he, rfl⟩ := List.mem_map.mp hc
      obtain ⟨i, hi⟩ := List.mem_iff_getElem?.mp he
      obtain ⟨pre, hp⟩ := h.entry i e hi
      have h1 := query_entry_found hs hi
      have h2 := query_entry_found hs' hp
      simp only at h2
      unfold Vartable.query Vartable.contains
      rw [h1, h2]
      exact ⟨rfl, rfl⟩
    · have h1 := query_entry_missing hs hc
      have h2 := query_entry_missing hs' (by rw [h.codes]; exact hc)
      unfold Vartable.query Vartable.contains
      rw [h1, h2]
      exact ⟨rfl, rfl⟩
  exact ⟨funext fun c => (key c).1, funext fun c => (key c).2⟩

theorem Ext.altered {E : Env} {t t' : Vartable} (h : t.Ext t') (hi : t.Inv E) (hi' : t'.Inv E)
    (code : Varcode) (s : Int) (l : Nat) (r : Int) :
    ((t'.query_altered E code s l r).2 >>= fun x => Res.ok x.2) =
      ((t.query_altered E code s l r).2 >>= fun x => Res.ok x.2) := by
  by_cases hc : code ∈ t.codes
  · unfold Vartable.codes at hc
    obtain ⟨e, he, rfl⟩ := List.mem_map.mp hc
    obtain ⟨i, hi0⟩ := List.mem_iff_getElem?.mp he
    obtain ⟨pre, hp⟩ := h.entry i e hi0
    have h1 := query_altered_result hi hi0 s l r
    have h2 := query_altered_result hi' hp s l r
    exact h2.trans h1.symm
  · have h1 := query_entry_missing hi.sorted hc
    have h2 := query_entry_missing hi'.sorted (by rw [h.codes]; exact hc)
    unfold query_altered
    rw [h1, h2]

end Vartable

theorem Ctx.alike_of_ext {C D : Ctx} (hE : D.E = C.E) (hO : D.O = C.O) (hd : D.dtable = C.dtable)
    (h : C.btable.Ext D.btable) (hi : C.btable.Inv C.E) (hi' : D.btable.Inv C.E) : C.Alike D :=
  ⟨hE, hO, hd, (h.query hi.sorted).1, (h.query hi.sorted).2, h.altered hi hi'⟩

namespace Interp

variable {σ : Type} {C D : Ctx}

theorem get_varinfo_alike (h : C.Alike D) (st : Interp σ) (code : Varcode) :
    get_varinfo D st code = get_varinfo C st code := by
  have ha : ∀ code s l r,
      ((D.btable.query_altered C.E code s l r).2 >>= fun x => pure x.2) =
      ((C.btable.query_altered C.E code s l r).2 >>= fun x => pure x.2) := h.altered
  unfold get_varinfo
  simp only [h.E, h.query, ha]

theorem c06_info_alike (h : C.Alike D) (st : Interp σ) (code : Varcode) (n : Nat) :
    c06_info D st code n = c06_info C st code n := by
  unfold c06_info
  simp only [h.contains, get_varinfo_alike h]

theorem c06_define_alike (h : C.Alike D) (T : Target σ) (st : Interp σ) (code : Varcode) (n : Nat)
    (i : Option Varinfo) : c06_define D T st code n i = c06_define C T st code n i := by
  unfold c06_define
  simp only [h.E]

theorem step_alike (h : C.Alike D) (T : Target σ)
    (expand exec : List Varcode → Interp σ → Res (Interp σ)) (st : Interp σ) (cur : Varcode)
    (rest : List Varcode) : step D T expand exec st cur rest = step C T expand exec st cur rest := by
  simp only [step, b_variable, replication, bitmapOrRepeat, r_bitmap, bitmapSize, r_replication,
    c_modifier, c04, c04_significance, c06, get_varinfo_alike h, c06_info_alike h,
    c06_define_alike h, h.query, h.dtable]

theorem loop_alike (h : C.Alike D) (T : Target σ)
    (expand : List Varcode → Interp σ → Res (Interp σ)) (n : Nat) :
    loop D T expand n = loop C T expand n := by
  induction n with
  | zero => funext ops st; cases ops <;> rfl
  | succ n ih =>
    funext ops st
    cases ops with
    | nil => rfl
    | cons cur rest => simp only [loop, step_alike h, ih]

theorem run_alike (h : C.Alike D) (T : Target σ) (depth : Nat) : run D T depth = run C T depth := by
  induction depth with
  | zero => funext ops st; simp only [run, loop_alike h]
  | succ n ih => funext ops st; simp only [run, loop_alike h, ih]

end Interp

namespace Over

variable {σ : Type} {C D : Ctx}

theorem loop_alike (h : C.Alike D) (V : Over σ)
    (expand : List Varcode → Interp σ → Res (Interp σ)) (n : Nat) :
    loop D V expand n = loop C V expand n := by
  induction n with
  | zero => funext ops st; cases ops <;> rfl
  | succ n ih =>
    funext ops st
    cases ops with
    | nil => rfl
    | cons cur rest => simp only [loop, step, h.dtable, ih]

theorem run_alike (h : C.Alike D) (V : Over σ) (depth : Nat) : run D V depth = run C V depth := by
  induction depth with
  | zero => funext ops st; simp only [run, loop_alike h]
  | succ n ih => funext ops st; simp only [run, loop_alike h, ih]

theorem plain_alike (h : C.Alike D) (T : Target σ) : plain D T = plain C T := by
  unfold plain
  congr 1
  · funext st c; simp only [Interp.b_variable, Interp.get_varinfo_alike h]
  · funext st c n
    simp only [Interp.c_modifier, Interp.c04, Interp.c04_significance, Interp.c06,
      Interp.c06_info_alike h, Interp.c06_define_alike h, h.query]
  · funext body st c d; simp only [Interp.r_replication, h.query]
  · funext st c d ops; simp only [Interp.r_bitmap, Interp.bitmapSize, h.query]

end Over

theorem Scan.over_alike {C D : Ctx} (h : C.Alike D) : Scan.over D = Scan.over C := by
  unfold Scan.over
  have hp := Over.plain_alike h Scan.target
  have hc : Interp.c_modifier D Scan.target = Interp.c_modifier C Scan.target := congrArg Over.c_modifier hp
  rw [hp, hc]

theorem Scan.features_alike {C D : Ctx} (h : C.Alike D) (depth : Nat) (datadesc : List Varcode)
    (caches : TableCaches) :
    Scan.features D depth datadesc caches = Scan.features C depth datadesc caches := by
  unfold Scan.features
  rw [Scan.over_alike h, Over.run_alike h]

variable {C D : Ctx}

theorem fieldAttr_alike (h : C.Alike D) (code : Varcode) (missing : Bool) (value : Nat) :
    AssociatedField.fieldAttr C.O D.btable code missing value =
      AssociatedField.fieldAttr C.O C.btable code missing value := by
  unfold AssociatedField.fieldAttr
  simp only [h.query]

theorem make_attribute_alike (h : C.Alike D) (f : AssociatedField) (value : Nat) :
    f.make_attribute C.E C.O D.btable value = f.make_attribute C.E C.O C.btable value := by
  unfold AssociatedField.make_attribute
  simp only [fieldAttr_alike h]

namespace Decoder

theorem decode_uniform_b_value_alike (h : C.Alike D) (i : Input) (info : Varinfo) :
    decode_uniform_b_value D i info = decode_uniform_b_value C i info := by
  unfold decode_uniform_b_value
  simp only [h.E, h.O]

theorem decode_and_set_attribute_alike (h : C.Alike D) (st : St) (info : Varinfo) (pos : Nat) :
    decode_and_set_attribute D st info pos = decode_and_set_attribute C st info pos := by
  unfold decode_and_set_attribute
  simp only [decode_uniform_b_value_alike h]

theorem define_substituted_value_alike (h : C.Alike D) (st : St) (pos : Nat) :
    define_substituted_value D st pos = define_substituted_value C st pos := by
  unfold define_substituted_value
  simp only [decode_and_set_attribute_alike h]

theorem target_alike (h : C.Alike D) : target D = target C := by
  unfold target
  congr 1 <;> funext st x
  · unfold define_bitmap; simp only [h.E, h.O]
  · unfold define_variable; simp only [decode_uniform_b_value_alike h]
  · unfold define_variable_with_associated_field
    simp only [h.E, h.O, make_attribute_alike h, decode_uniform_b_value_alike h]
  · unfold define_delayed_replication_factor decode_and_add_to_all
    simp only [decode_uniform_b_value_alike h]
  · unfold define_bitmap_delayed_replication_factor; simp only [decode_uniform_b_value_alike h]
  · unfold define_associated_field_significance decode_and_add_to_all
    simp only [decode_uniform_b_value_alike h]
  · exact define_substituted_value_alike h st x
  · funext pos; exact decode_and_set_attribute_alike h st x pos
  · unfold define_raw_character_data; simp only [h.E, h.O]

theorem decodeSubsets_alike (h : C.Alike D) (add_undef : Bool) (depth : Nat)
    (datadesc : List Varcode) (n : Nat) (caches : TableCaches) (i : Input) :
    decodeSubsets D add_undef depth datadesc n caches i =
      decodeSubsets C add_undef depth datadesc n caches i := by
  induction n generalizing caches i with
  | zero => rfl
  | succ n ih => simp only [decodeSubsets, decodeSubset, target_alike h, Interp.run_alike h, ih]

end Decoder

theorem fieldLoop_alike (h : C.Alike D) (f : AssociatedField) (b d n : Nat) (i : Input) :
    Input.fieldLoop D f b d n i = Input.fieldLoop C f b d n i := by
  induction n generalizing i with
  | zero => rfl
  | succ n ih => simp only [Input.fieldLoop, h.E, h.O, make_attribute_alike h, ih]

theorem fieldDiffLoop_alike (h : C.Alike D) (b d : Nat) (v : Var) (as : List (Option Var))
    (i : Input) : Input.fieldDiffLoop D b d v as i = Input.fieldDiffLoop C b d v as i := by
  induction as generalizing v i with
  | nil => rfl
  | cons a as ih => simp only [Input.fieldDiffLoop, h.E, h.O, ih]

theorem decode_compressed_number_af_alike (h : C.Alike D) (i : Input) (info : Varinfo)
    (f : AssociatedField) (n : Nat) : i.decode_compressed_number_af D info f n =
      i.decode_compressed_number_af C info f n := by
  unfold Input.decode_compressed_number_af Input.decode_compressed_number_attrs
  simp only [h.E, h.O, fieldLoop_alike h, fieldDiffLoop_alike h]

namespace CDecoder

theorem uniform_alike (h : C.Alike D) (st : St) (info : Varinfo) :
    decode_uniform_b_value D st info = decode_uniform_b_value C st info := by
  unfold decode_uniform_b_value
  simp only [h.E, h.O]

theorem value_alike (h : C.Alike D) (st : St) (info : Varinfo) :
    decode_b_value D st info = decode_b_value C st info := by
  unfold decode_b_value
  simp only [h.E, h.O]

theorem target_alike (h : C.Alike D) : target D = target C := by
  unfold target
  congr 1 <;> funext st x
  · unfold define_bitmap; simp only [h.E, h.O]
  · unfold define_variable; simp only [value_alike h]
  · unfold define_variable_with_associated_field decode_b_value_af
    simp only [h.O, decode_compressed_number_af_alike h]
  · unfold define_delayed_replication_factor decode_and_add_to_all; simp only [uniform_alike h]
  · unfold define_bitmap_delayed_replication_factor; simp only [uniform_alike h]
  · unfold define_associated_field_significance decode_and_add_to_all; simp only [uniform_alike h]
  · unfold define_substituted_value decode_and_set_attribute; simp only [value_alike h]
  · funext pos; unfold decode_and_set_attribute; simp only [value_alike h]

theorem decodeSubsets_alike (h : C.Alike D) (add_undef : Bool) (depth : Nat)
    (datadesc : List Varcode) (n : Nat) (caches : TableCaches) (i : Input) :
    decodeSubsets D add_undef depth datadesc n caches i =
      decodeSubsets C add_undef depth datadesc n caches i := by
  simp only [decodeSubsets, target_alike h, Interp.run_alike h]

end CDecoder

theorem decodeBody_alike (h : C.Alike D) (add_undef : Bool) (depth : Nat) (caches : TableCaches)
    (hd : BufrDec.Head) (n : Nat) (i : Input) :
    decodeBody add_undef depth (D, caches) hd n i = decodeBody add_undef depth (C, caches) hd n i := by
  simp only [decodeBody, Decoder.decodeSubsets_alike h, CDecoder.decodeSubsets_alike h]

namespace Crex.Decoder

theorem target_alike (h : C.Alike D) : target D = target C := by
  unfold target read_variable
  simp only [h.O]

theorem decode_data_alike (h : C.Alike D) (depth fuel : Nat) (datadesc : List Varcode)
    (caches : TableCaches) (i : In) :
    decode_data D depth fuel datadesc caches i = decode_data C depth fuel datadesc caches i := by
  have key : ∀ fuel caches i, decodeSubsets D depth datadesc fuel caches i =
      decodeSubsets C depth datadesc fuel caches i := by
    intro fuel
    induction fuel with
    | zero => intro _ _; rfl
    | succ n ih => intro caches i; simp only [decodeSubsets, decodeSubset, target_alike h, Interp.run_alike h, ih]
  simp only [decode_data, key]

end Crex.Decoder

end Wreport
