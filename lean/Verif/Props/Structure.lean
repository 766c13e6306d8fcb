import Verif.Lemmas.Decoded
import Verif.Props.CompressedData
import Verif.Props.CrexMessage
import Verif.Props.ValidateRun

/-!
# C77: subsets have the structure their descriptors say
-/

namespace Wreport

open Spec Interp

/-! ## Validator -/

namespace Validator

open Enc

/-- The variables the validator has looked at. -/
def seen (e : Enc Unit) : List VarCore := (e.subset.take e.current_var).map (·.toVarCore)

/-- How the validator reads descriptors. -/
def reading (C : Ctx) : Reading := ⟨C.dtable.query, fun _ c => WR_VAR_F c = 2, counts⟩

theorem get_var_seen {s : St Unit} {r : Var × St Unit} (h : get_var s = .ok r) :
    seen r.2.tgt = seen s.tgt ++ [r.1.toVarCore] ∧ r.2.tgt.subset = s.tgt.subset ∧
      r.2.bitmaps = s.bitmaps ∧ r.2.c03_refval_override_bits = s.c03_refval_override_bits := by
  unfold get_var get_var_at at h
  obtain ⟨v, h1, h⟩ := Res.bind_eq_ok.mp h
  cases h
  refine ⟨?_, rfl, rfl, rfl⟩
  split at h1
  · cases h1
  · rename_i hv
    cases h1
    unfold seen
    rw [List.take_add_one, hv]
    simp

theorem check_fits_code {E : Env} {crex : Bool} {i : Varinfo} {v : VarCore} {u : Unit}
    (h : check_fits E crex i v = .ok u) : v.code = i.code := by
  unfold check_fits at h
  by_contra hc
  rw [if_pos hc] at h
  cases h

theorem took_var {E : Env} {crex : Bool} {subset : List Var} {s s' : St Unit} {r : Var × St Unit}
    {i : Varinfo} (hI : s.tgt.subset = subset) (h1 : get_var s = .ok r)
    (h2 : encode (encode_var E crex) r.2 i r.1.toVarCore = .ok s') :
    Kept (fun e : Enc Unit => e.subset = subset) s s' ∧
      seen s'.tgt = seen s.tgt ++ [r.1.toVarCore] ∧ r.1.toVarCore.code = i.code := by
  obtain ⟨a1, a2, a3, a4⟩ := get_var_seen h1
  obtain ⟨_, h3, h2⟩ := Res.bind_eq_ok.mp h2
  cases h2
  exact ⟨⟨a2.trans hI, a3, a4⟩, a1, check_fits_code h3⟩

theorem check_attr_same {E : Env} {crex : Bool} {s s' : St Unit} {i : Varinfo} {p : Nat}
    (h : check_attr E crex s i p = .ok s') : s' = s := by
  unfold check_attr at h
  obtain ⟨v, -, h⟩ := Res.bind_eq_ok.mp h
  split at h
  · obtain ⟨_, -, h⟩ := Res.bind_eq_ok.mp h
    cases h; rfl
  · cases h; rfl

/-- The validator takes one variable for each descriptor. -/
theorem sequential (C : Ctx) (crex : Bool) (subset : List Var) :
    Sequential (target C crex) (fun e => e.subset = subset) seen (reading C) where
  bitmap := by
    intro s n s' hI h
    obtain ⟨r, h1, h⟩ := Res.bind_eq_ok.mp h
    obtain ⟨a1, a2, a3, a4⟩ := get_var_seen h1
    split at h
    · cases h
    rename_i hc
    obtain ⟨b, h2, h⟩ := Res.bind_eq_ok.mp h
    cases h
    obtain ⟨refs, e1, e2⟩ := define_marks h2
    exact ⟨a2.trans hI, a4, r.1.toVarCore, refs, a1, by rw [e1, a3],
      show WR_VAR_F r.1.code = 2 by simpa using hc, e2⟩
  element := by
    intro s i s' hI h
    obtain ⟨r, h1, h⟩ := Res.bind_eq_ok.mp h
    obtain ⟨k, a, b⟩ := took_var hI h1 h
    exact ⟨k, _, a, b⟩
  associated := by
    intro s i s' hI h
    obtain ⟨r, h1, h⟩ := Res.bind_eq_ok.mp h
    obtain ⟨k, a, b⟩ := took_var hI h1 h
    exact ⟨k, _, a, b⟩
  factor := by
    intro s i n s' hI h
    obtain ⟨r, h1, h⟩ := Res.bind_eq_ok.mp h
    obtain ⟨s1, h2, h⟩ := Res.bind_eq_ok.mp h
    obtain ⟨k, h3, h⟩ := Res.bind_eq_ok.mp h
    obtain ⟨kk, a, b⟩ := took_var hI h1 h2
    cases h
    exact ⟨kk, _, a, b, counts_of_enqi h3⟩
  bitmapFactor := by
    intro s i n s' hI h
    obtain ⟨v, -, h⟩ := Res.bind_eq_ok.mp h
    obtain ⟨v, -, h⟩ := Res.bind_eq_ok.mp h
    obtain ⟨s1, h1, h⟩ := Res.bind_eq_ok.mp h
    obtain ⟨_, -, h1⟩ := Res.bind_eq_ok.mp h1
    cases h1
    cases h
    exact ⟨⟨hI, rfl, rfl⟩, rfl⟩
  significance := by
    intro s i n s' hI h
    obtain ⟨r, h1, h⟩ := Res.bind_eq_ok.mp h
    obtain ⟨s1, h2, h⟩ := Res.bind_eq_ok.mp h
    obtain ⟨k, -, h⟩ := Res.bind_eq_ok.mp h
    obtain ⟨kk, a, b⟩ := took_var hI h1 h2
    cases h
    exact ⟨kk, _, a, b⟩
  substituted := by
    intro s p s' hI h
    have : s' = s := by
      simp only [target, define_substituted_value] at h
      split at h
      · cases h
      · exact check_attr_same h
    subst this
    exact ⟨⟨hI, rfl, rfl⟩, rfl⟩
  attr := by
    intro s i p s' hI h
    have : s' = s := check_attr_same h
    subst this
    exact ⟨⟨hI, rfl, rfl⟩, rfl⟩
  raw := by
    intro s c s' hI h
    obtain ⟨r, h1, h⟩ := Res.bind_eq_ok.mp h
    obtain ⟨a1, a2, a3, a4⟩ := get_var_seen h1
    split at h
    · cases h
    rename_i hc
    cases h
    exact ⟨⟨a2.trans hI, a3, a4⟩, _, a1, by simpa using hc⟩
  refval := by
    intro s c s' hI h
    obtain ⟨r, -, h⟩ := Res.bind_eq_ok.mp h
    cases h
    exact ⟨⟨hI, rfl, rfl⟩, rfl⟩

end Validator

/-! ## Decoder -/

namespace Decoder

/-- How the decoder reads descriptors: a bitmap has the code of the operator that
announced it. -/
def reading (C : Ctx) : Reading := ⟨C.dtable.query, fun op c => c = op, counts⟩

/-- The variables decoded so far. -/
def decoded (d : Dec) : List VarCore := d.out.map (·.toVarCore)

theorem uniform_info {C : Ctx} (hO : HookKeepsInfo C.O) {i : Input} {info : Varinfo}
    {r : Var × Input} (h : decode_uniform_b_value C i info = .ok r) : r.1.info = info := by
  unfold decode_uniform_b_value at h
  split at h
  · exact Input.decode_string_var_info hO h
  · exact Input.decode_binary_info hO h
  all_goals exact Input.decode_number_info hO h

theorem decoded_set {l : List Var} {p : Nat} {v w : Var} (h : l[p]? = some v)
    (hw : w.toVarCore = v.toVarCore) :
    (l.set p w).map (·.toVarCore) = l.map (·.toVarCore) := by
  rw [List.map_set]
  apply List.ext_getElem?
  intro k
  rw [List.getElem?_set]
  split
  · rename_i hk
    subst hk
    rw [List.getElem?_map, h]
    obtain ⟨hl, -⟩ := List.getElem?_eq_some_iff.mp h
    simp [hl, hw]
  · rfl

theorem storeCopy_took {s s' : St} {v : Var} (h : storeCopy s v = .ok s') :
    ∃ w, w.info = v.info ∧ s' = store s w := by
  obtain ⟨w, h1, h⟩ := Res.bind_eq_ok.mp h
  cases h
  exact ⟨w, copy_info h1, rfl⟩

theorem attribute_kept {C : Ctx} {s s' : St} {i : Varinfo} {p : Nat}
    (h : decode_and_set_attribute C s i p = .ok s') :
    Kept (fun _ => True) s s' ∧ decoded s'.tgt = decoded s.tgt := by
  obtain ⟨r, -, h⟩ := Res.bind_eq_ok.mp h
  split at h
  · cases h
    exact ⟨⟨trivial, rfl, rfl⟩, rfl⟩
  · split at h
    · cases h
    · rename_i v hv
      obtain ⟨w, h1, h⟩ := Res.bind_eq_ok.mp h
      cases h
      exact ⟨⟨trivial, rfl, rfl⟩, decoded_set hv (seta_core h1)⟩

/-- The decoder makes one variable for each descriptor. -/
theorem sequential (C : Ctx) (hO : HookKeepsInfo C.O) :
    Sequential (target C) (fun _ => True) decoded (reading C) where
  bitmap := by
    intro s n s' _ h
    obtain ⟨r, -, h⟩ := Res.bind_eq_ok.mp h
    obtain ⟨info, h1, h⟩ := Res.bind_eq_ok.mp h
    obtain ⟨v, h2, h⟩ := Res.bind_eq_ok.mp h
    obtain ⟨b, h3, h⟩ := Res.bind_eq_ok.mp h
    cases h
    obtain ⟨refs, e1, e2⟩ := define_marks h3
    refine ⟨trivial, rfl, v.toVarCore, refs, by simp [decoded, store, setInput], e1, ?_, e2⟩
    show v.info.code = _
    rw [newStr_info hO h2, Sequential.get_bitmap_code h1]
  element := by
    intro s i s' _ h
    obtain ⟨r, h1, h⟩ := Res.bind_eq_ok.mp h
    obtain ⟨w, e, rfl⟩ := storeCopy_took h
    refine ⟨⟨trivial, rfl, rfl⟩, w.toVarCore, by simp [decoded, store, setInput], ?_⟩
    show w.info.code = _
    rw [e, uniform_info hO h1]
  associated := by
    intro s i s' _ h
    obtain ⟨r, -, h⟩ := Res.bind_eq_ok.mp h
    obtain ⟨a, -, h⟩ := Res.bind_eq_ok.mp h
    obtain ⟨v, h1, h⟩ := Res.bind_eq_ok.mp h
    obtain ⟨s1, h2, h⟩ := Res.bind_eq_ok.mp h
    obtain ⟨w, e, rfl⟩ := storeCopy_took h2
    have hw : w.info.code = i.code := by rw [e, uniform_info hO h1]
    cases a with
    | none =>
      cases h
      exact ⟨⟨trivial, rfl, rfl⟩, w.toVarCore, by simp [decoded, store, setInput], hw⟩
    | some a =>
      unfold setLast at h
      have hl : (store (setInput s v.2) w).tgt.out = s.tgt.out ++ [w] := rfl
      simp only [hl, List.getLast?_append, List.getLast?_singleton, Option.some_or] at h
      cases h
      refine ⟨⟨trivial, rfl, rfl⟩, w.toVarCore, ?_, hw⟩
      simp only [decoded, setAt, hl]
      rw [decoded_set (v := w) (w := w.setaMove a) (by simp) rfl]
      simp
  factor := by
    intro s i n s' _ h
    obtain ⟨r, h1, h⟩ := Res.bind_eq_ok.mp h
    obtain ⟨v, h2, h1⟩ := Res.bind_eq_ok.mp h1
    cases h1
    obtain ⟨k, h3, h⟩ := Res.bind_eq_ok.mp h
    cases h
    refine ⟨⟨trivial, rfl, rfl⟩, v.1.toVarCore, by simp [decoded, store, setInput], ?_,
      counts_of_enqi h3⟩
    show v.1.info.code = _
    rw [uniform_info hO h2]
  bitmapFactor := by
    intro s i n s' _ h
    obtain ⟨r, -, h⟩ := Res.bind_eq_ok.mp h
    obtain ⟨k, -, h⟩ := Res.bind_eq_ok.mp h
    cases h
    exact ⟨⟨trivial, rfl, rfl⟩, rfl⟩
  significance := by
    intro s i n s' _ h
    obtain ⟨r, h1, h⟩ := Res.bind_eq_ok.mp h
    obtain ⟨v, h2, h1⟩ := Res.bind_eq_ok.mp h1
    cases h1
    obtain ⟨k, -, h⟩ := Res.bind_eq_ok.mp h
    cases h
    refine ⟨⟨trivial, rfl, rfl⟩, v.1.toVarCore, by simp [decoded, store, setInput], ?_⟩
    show v.1.info.code = _
    rw [uniform_info hO h2]
  substituted := by
    intro s p s' _ h
    simp only [target, define_substituted_value] at h
    split at h
    · cases h
    · exact attribute_kept h
  attr := fun s i p s' _ h => attribute_kept h
  raw := by
    intro s c s' _ h
    obtain ⟨info, h1, h⟩ := Res.bind_eq_ok.mp h
    obtain ⟨r, -, h⟩ := Res.bind_eq_ok.mp h
    obtain ⟨v, h2, h⟩ := Res.bind_eq_ok.mp h
    obtain ⟨w, e, rfl⟩ := storeCopy_took h
    refine ⟨⟨trivial, rfl, rfl⟩, w.toVarCore, by simp [decoded, store, setInput], ?_⟩
    show w.info.code = _
    rw [e, newStr_info hO h2, Sequential.get_chardata_code h1]
  refval := by
    intro s c s' _ h
    obtain ⟨r, -, h⟩ := Res.bind_eq_ok.mp h
    cases h
    exact ⟨⟨trivial, rfl, rfl⟩, rfl⟩

end Decoder

/-! ## Decoder of compressed data -/

namespace CDecoder

/-- The variables decoded so far in one of the subsets. -/
def decoded (j : Nat) (d : CDec) : List VarCore := ((d.subsets[j]?).getD []).map (·.toVarCore)

theorem copyAll_replicate {v : Var} {n : Nat} {ws : List Var} (hn : 0 < n)
    (h : copyAll (List.replicate n v) = .ok ws) :
    ∃ w, w.info = v.info ∧ ws = List.replicate n w := by
  have key : ∀ n ws, copyAll (List.replicate n v) = .ok ws → ∀ w ∈ ws, v.copy = .ok w := by
    intro n
    induction n with
    | zero => intro ws h; cases h; simp
    | succ n ih =>
      intro ws h
      obtain ⟨a, h1, h⟩ := Res.bind_eq_ok.mp h
      obtain ⟨as, h2, h⟩ := Res.bind_eq_ok.mp h
      cases h
      intro w hw
      rcases List.mem_cons.mp hw with rfl | hw
      · exact h1
      · exact ih as h2 w hw
  have hl : ∀ (vs ws : List Var), copyAll vs = .ok ws → ws.length = vs.length := by
    intro vs
    induction vs with
    | nil => intro ws h; cases h; rfl
    | cons a as ih =>
      intro ws h
      obtain ⟨b, h1, h⟩ := Res.bind_eq_ok.mp h
      obtain ⟨bs, h2, h⟩ := Res.bind_eq_ok.mp h
      cases h
      simp [ih _ h2]
  have hlen := hl _ _ h
  rw [List.length_replicate] at hlen
  cases ws with
  | nil => simp at hlen; omega
  | cons w ws =>
    have hw := key _ _ h w (by simp)
    refine ⟨w, copy_info hw, List.eq_replicate_iff.mpr ⟨hlen, fun b hb => ?_⟩⟩
    have := key _ _ h b hb
    rw [hw] at this
    cases this
    rfl

theorem copyAll_column {n : Nat} {info : Varinfo} {vs ws : List Var} (hv : Input.Column vs n info)
    (h : copyAll vs = .ok ws) : Input.Column ws n info := by
  induction vs generalizing n ws with
  | nil => cases h; exact hv
  | cons a as ih =>
    obtain ⟨b, h1, h⟩ := Res.bind_eq_ok.mp h
    obtain ⟨bs, h2, h⟩ := Res.bind_eq_ok.mp h
    cases h
    obtain ⟨h3, h4⟩ := hv
    obtain ⟨i1, i2⟩ := ih ⟨rfl, fun v hv => h4 v (by simp [hv])⟩ h2
    refine ⟨by simp [i1, ← h3], fun v hv => ?_⟩
    rcases List.mem_cons.mp hv with rfl | hv
    · rw [copy_info h1]; exact h4 a (by simp)
    · exact i2 v hv

theorem storeAll_took {s : St} {ws : List Var} {n j : Nat} (hI : s.tgt.subsets.length = n)
    (hw : ws.length = n) (hj : j < n) :
    Kept (fun d : CDec => d.subsets.length = n) s (storeAll s ws) ∧
      ∃ h : j < ws.length, decoded j (storeAll s ws).tgt = decoded j s.tgt ++ [(ws[j]).toVarCore] := by
  refine ⟨⟨by simp [storeAll, hI, hw], rfl, rfl⟩, by omega, ?_⟩
  have h1 : j < s.tgt.subsets.length := by omega
  have h2 : j < ws.length := by omega
  simp [decoded, storeAll, List.getElem?_zipWith, List.getElem?_eq_getElem h1,
    List.getElem?_eq_getElem h2]

theorem uniform_info {C : Ctx} (hO : HookKeepsInfo C.O) {s : St} {info : Varinfo}
    {r : Var × Input} (h : decode_uniform_b_value C s info = .ok r) : r.1.info = info := by
  unfold decode_uniform_b_value at h
  split at h
  · exact Input.decode_string_same_info hO h
  · cases h
  all_goals exact Input.decode_semantic_info hO h

theorem b_value_column {C : Ctx} (hO : HookKeepsInfo C.O) {s : St} {info : Varinfo}
    {r : List Var × Input} (h : decode_b_value C s info = .ok r) :
    Input.Column r.1 s.tgt.subsets.length info := by
  unfold decode_b_value at h
  split at h
  · exact Input.decode_compressed_string_column hO h
  · cases h
  all_goals exact Input.decode_compressed_number_column hO h

theorem b_value_af_column {C : Ctx} (hO : HookKeepsInfo C.O) {s : St} {info : Varinfo}
    {r : List Var × Input} (h : decode_b_value_af C s info = .ok r) :
    Input.Column r.1 s.tgt.subsets.length info := by
  unfold decode_b_value_af at h
  split at h
  · exact Input.decode_compressed_string_column hO h
  · cases h
  all_goals exact Input.decode_compressed_number_af_column hO h

theorem column_took {s s' : St} {vs : List Var} {n j : Nat} {info : Varinfo}
    (hI : s.tgt.subsets.length = n) (hv : Input.Column vs n info) (hj : j < n)
    (h : storeCopies s vs = .ok s') :
    Kept (fun d : CDec => d.subsets.length = n) s s' ∧
      ∃ v, decoded j s'.tgt = decoded j s.tgt ++ [v] ∧ v.code = info.code := by
  obtain ⟨ws, h1, h⟩ := Res.bind_eq_ok.mp h
  cases h
  obtain ⟨c1, c2⟩ := copyAll_column hv h1
  obtain ⟨k, hl, e⟩ := storeAll_took hI c1 hj
  refine ⟨k, _, e, ?_⟩
  show ws[j].info.code = _
  rw [c2 _ (List.getElem_mem hl)]

theorem same_took {s s' : St} {v u : Var} {n j : Nat}
    (hI : s.tgt.subsets.length = n) (hj : j < n)
    (h : storeCopies s (List.replicate n v) = .ok s') (hu : lastOfFirst s' = .ok u) :
    Kept (fun d : CDec => d.subsets.length = n) s s' ∧
      decoded j s'.tgt = decoded j s.tgt ++ [u.toVarCore] ∧ u.info = v.info := by
  obtain ⟨ws, h1, h⟩ := Res.bind_eq_ok.mp h
  cases h
  obtain ⟨w, hw, rfl⟩ := copyAll_replicate (by omega) h1
  obtain ⟨k, hl, e⟩ := storeAll_took hI (ws := List.replicate n w) (by simp) hj
  have : u = w := by
    unfold lastOfFirst storeAll at hu
    cases hs : s.tgt.subsets with
    | nil => rw [hs] at hI; simp at hI; omega
    | cons a as =>
      cases n with
      | zero => omega
      | succ n =>
        rw [hs, List.replicate_succ] at hu
        simp only [List.zipWith_cons_cons, List.getLast?_append, List.getLast?_singleton,
          Option.some_or] at hu
        cases hu
        rfl
  subst this
  exact ⟨k, by simpa using e, hw⟩

theorem setAttrs_kept {p : Nat} {ss ss' : List (List Var)} {as : List Var}
    (h : setAttrs p ss as = .ok ss') :
    ss'.map (·.map (·.toVarCore)) = ss.map (·.map (·.toVarCore)) := by
  induction ss generalizing as ss' with
  | nil => cases h; rfl
  | cons s ss ih =>
    cases as with
    | nil => cases h; rfl
    | cons a as =>
      unfold setAttrs at h
      split at h
      · obtain ⟨t, h1, h⟩ := Res.bind_eq_ok.mp h
        cases h
        rw [List.map_cons, List.map_cons, ih h1]
      · split at h
        · cases h
        · rename_i v hv
          obtain ⟨w, h2, h⟩ := Res.bind_eq_ok.mp h
          obtain ⟨t, h1, h⟩ := Res.bind_eq_ok.mp h
          cases h
          rw [List.map_cons, List.map_cons, ih h1, Decoder.decoded_set hv (seta_core h2)]

theorem attribute_kept {C : Ctx} {s s' : St} {i : Varinfo} {p n : Nat} (j : Nat)
    (hI : s.tgt.subsets.length = n)
    (h : decode_and_set_attribute C s i p = .ok s') :
    Kept (fun d : CDec => d.subsets.length = n) s s' ∧ decoded j s'.tgt = decoded j s.tgt := by
  obtain ⟨r, -, h⟩ := Res.bind_eq_ok.mp h
  obtain ⟨ss, h1, h⟩ := Res.bind_eq_ok.mp h
  cases h
  have e := setAttrs_kept h1
  refine ⟨⟨?_, rfl, rfl⟩, ?_⟩
  · have := congrArg List.length e
    simpa [hI] using this
  · have := congrArg (fun l => (l[j]?).getD []) e
    simp only [List.getElem?_map] at this
    unfold decoded
    cases hx : ss[j]? <;> cases hy : s.tgt.subsets[j]? <;> rw [hx, hy] at this <;>
      simpa using this

/-- The decoder of compressed data makes one variable for each descriptor in each
subset. -/
theorem sequential (C : Ctx) (hO : HookKeepsInfo C.O) (n j : Nat) (hj : j < n) :
    Sequential (target C) (fun d => d.subsets.length = n) (decoded j) (Decoder.reading C) where
  bitmap := by
    intro s k s' hI h
    obtain ⟨r, -, h⟩ := Res.bind_eq_ok.mp h
    obtain ⟨info, h1, h⟩ := Res.bind_eq_ok.mp h
    obtain ⟨v, h2, h⟩ := Res.bind_eq_ok.mp h
    obtain ⟨s1, h3, h⟩ := Res.bind_eq_ok.mp h
    obtain ⟨u, h4, h⟩ := Res.bind_eq_ok.mp h
    obtain ⟨b, h5, h⟩ := Res.bind_eq_ok.mp h
    cases h
    obtain ⟨refs, e1, e2⟩ := define_marks h5
    rw [hI] at h3
    obtain ⟨kk, e3, e4⟩ := same_took (by exact hI) hj h3 h4
    refine ⟨kk.1, kk.2.2, u.toVarCore, refs, e3, by rw [e1, kk.2.1]; rfl, ?_, e2⟩
    show u.info.code = _
    rw [e4, newStr_info hO h2, Sequential.get_bitmap_code h1]
  element := by
    intro s i s' hI h
    obtain ⟨r, h1, h⟩ := Res.bind_eq_ok.mp h
    have hc := b_value_column hO h1
    rw [hI] at hc
    exact column_took (s := setInput s r.2) hI hc hj h
  associated := by
    intro s i s' hI h
    obtain ⟨r, h1, h⟩ := Res.bind_eq_ok.mp h
    have hc := b_value_af_column hO h1
    rw [hI] at hc
    exact column_took (s := setInput s r.2) hI hc hj h
  factor := by
    intro s i k s' hI h
    obtain ⟨r, h1, h⟩ := Res.bind_eq_ok.mp h
    obtain ⟨v, h2, h1⟩ := Res.bind_eq_ok.mp h1
    obtain ⟨s1, h3, h1⟩ := Res.bind_eq_ok.mp h1
    obtain ⟨u, h4, h1⟩ := Res.bind_eq_ok.mp h1
    cases h1
    obtain ⟨m, h5, h⟩ := Res.bind_eq_ok.mp h
    cases h
    rw [hI] at h3
    obtain ⟨kk, e3, e4⟩ := same_took (s := setInput s v.2) hI hj h3 h4
    refine ⟨kk, u.toVarCore, e3, ?_, counts_of_enqi h5⟩
    show u.info.code = _
    rw [e4, uniform_info hO h2]
  bitmapFactor := by
    intro s i k s' hI h
    obtain ⟨r, -, h⟩ := Res.bind_eq_ok.mp h
    obtain ⟨m, -, h⟩ := Res.bind_eq_ok.mp h
    cases h
    exact ⟨⟨hI, rfl, rfl⟩, rfl⟩
  significance := by
    intro s i k s' hI h
    obtain ⟨r, h1, h⟩ := Res.bind_eq_ok.mp h
    obtain ⟨v, h2, h1⟩ := Res.bind_eq_ok.mp h1
    obtain ⟨s1, h3, h1⟩ := Res.bind_eq_ok.mp h1
    obtain ⟨u, h4, h1⟩ := Res.bind_eq_ok.mp h1
    cases h1
    obtain ⟨m, -, h⟩ := Res.bind_eq_ok.mp h
    cases h
    rw [hI] at h3
    obtain ⟨kk, e3, e4⟩ := same_took (s := setInput s v.2) hI hj h3 h4
    refine ⟨kk, u.toVarCore, e3, ?_⟩
    show u.info.code = _
    rw [e4, uniform_info hO h2]
  substituted := by
    intro s p s' hI h
    simp only [target, define_substituted_value] at h
    split at h
    · cases h
    · split at h
      · cases h
      · exact attribute_kept j hI h
  attr := fun s i p s' hI h => attribute_kept j hI h
  raw := by
    intro s c s' hI h
    obtain ⟨r, -, h⟩ := Res.bind_eq_ok.mp h
    cases h
  refval := by
    intro s c s' hI h
    cases h

end CDecoder

/-! ## CREX decoder -/

namespace Crex.Decoder

/-- How the CREX decoder reads descriptors; bitmaps are not implemented. -/
def reading (C : Ctx) : Reading := ⟨C.dtable.query, fun _ _ => False, countsCrex⟩

/-- The variables decoded so far. -/
def decoded (d : Dec) : List VarCore := d.out.map (·.toVarCore)

theorem default_keeps : HookKeepsInfo .default := nofun

theorem view_not_number {v : VarCore} (h : v.isset = false ∨ v.info.type = .string) (k : Int) :
    v.view ≠ some (.num k) := by
  unfold VarCore.view
  rcases h with h | h
  · simp [h]
  · split
    · simp
    · rw [h]
      cases v.cell with
      | word i => simp
      | mem m =>
        simp only
        split <;> simp

/-- Copying what was read keeps what it counts. -/
theorem copy_counts {v w : Var} {n : Nat} (h : v.copy = .ok w)
    (hv : (v.isset = false ∨ v.info.type = .string) ∧ n = 4294967295 ∨
      v.info.IsNum ∧ v.isset = true ∧ ∃ k, v.cell = .word k ∧ n = toU32 k) :
    countsCrex w.toVarCore n := by
  have hi := copy_info h
  unfold Var.copy at h
  obtain ⟨a, h1, h⟩ := Res.bind_eq_ok.mp h
  unfold Var.setattrs at h
  obtain ⟨b, -, h⟩ := Res.bind_eq_ok.mp h
  have hc : w.toVarCore = a.toVarCore := by cases h; rfl
  rcases hv with ⟨hv, rfl⟩ | ⟨hn, hs, k, hk, rfl⟩
  · right
    refine ⟨view_not_number ?_, rfl⟩
    rcases hv with hv | hv
    · left
      rw [hc]
      unfold Var.copy_value at h1
      rw [if_pos (by simp [hv])] at h1
      cases h1
      rfl
    · right
      rw [hi, hv]
  · left
    refine ⟨k, ?_, rfl⟩
    have ha : a = (Var.new v.info).putInt k := by
      unfold Var.copy_value at h1
      rw [if_neg (by simp [hs])] at h1
      have hk' : v.toVarCore.cell = .word k := hk
      rcases hn with ht | ht <;> simp only [Var.new, ht, hk'] at h1 <;> cases h1 <;> rfl
    rw [hc, ha]
    unfold VarCore.view Var.putInt Var.new
    rcases hn with ht | ht <;> simp [ht]

theorem read_variable_took {C : Ctx} (hO : C.O = .default) {s s' : St} {i : Varinfo} {n : Nat}
    (h : read_variable C s i = .ok (n, s')) :
    Kept (fun _ => True) s s' ∧
      ∃ v, decoded s'.tgt = decoded s.tgt ++ [v] ∧ v.code = i.code ∧ countsCrex v n := by
  obtain ⟨r, -, h⟩ := Res.bind_eq_ok.mp h
  obtain ⟨res, h1, h⟩ := Res.bind_eq_ok.mp h
  obtain ⟨w, h2, h⟩ := Res.bind_eq_ok.mp h
  cases h
  refine ⟨⟨trivial, rfl, rfl⟩, w.toVarCore, by simp [decoded], ?_⟩
  have key : ∀ v : Var × Res Nat, v.2 = .ok n → v = (if r.1.headD 0 = 47 then
      (Var.new i, .ok 4294967295) else setValue C.O i r.1 r.2.1) → v.1.info = i ∧
      ((v.1.isset = false ∨ v.1.info.type = .string) ∧ n = 4294967295 ∨
      v.1.info.IsNum ∧ v.1.isset = true ∧ ∃ k, v.1.cell = .word k ∧ n = toU32 k) := by
    intro v hv hve
    split at hve
    · subst hve
      cases hv
      exact ⟨rfl, .inl ⟨.inl rfl, rfl⟩⟩
    · rw [hO] at hve
      unfold setValue at hve
      split at hve
      · rename_i ht
        subst hve
        obtain ⟨_, -, hv⟩ := Res.bind_eq_ok.mp hv
        cases hv
        have e := setc_info default_keeps (Var.new i) (c_str (r.2.1.takeWhile (· ≠ 0)))
        exact ⟨e, .inl ⟨.inr (by rw [e]; exact ht), rfl⟩⟩
      · rename_i ht
        subst hve
        have e := seti_info default_keeps (Var.new i) (wrapInt (strtol r.1))
        refine ⟨e, .inr ?_⟩
        obtain ⟨_, hv1, hv⟩ := Res.bind_eq_ok.mp hv
        cases hv
        have hn : i.IsNum := by
          unfold Varinfo.IsNum
          cases hty : i.type with
          | integer => exact .inl rfl
          | decimal => exact .inr rfl
          | string => exact absurd hty ht
          | binary =>
            simp only [Var.seti, Var.new, hty] at hv1
            cases hv1
        have hseti : (Var.new i).seti .default (wrapInt (strtol r.1)) =
            (Var.new i).assign_i_checked .default (wrapInt (strtol r.1)) := by
          unfold Var.seti
          rcases hn with ht' | ht' <;> simp only [Var.new, ht']
        refine ⟨by rw [e]; exact hn, ?_⟩
        simp only
        rw [hseti] at hv1 ⊢
        unfold Var.assign_i_checked at hv1 ⊢
        split at hv1
        · cases hv1
        · rename_i hr
          rw [if_neg hr]
          exact ⟨rfl, _, rfl, rfl⟩
  obtain ⟨k1, k2⟩ := key _ h1 rfl
  refine ⟨?_, copy_counts h2 k2⟩
  show w.info.code = _
  rw [copy_info h2, k1]

/-- The CREX decoder makes one variable for each descriptor. -/
theorem sequential (C : Ctx) (hO : C.O = .default) :
    Sequential (target C) (fun _ => True) decoded (reading C) where
  bitmap := by
    intro _ _ _ _ h
    cases h
  element := by
    intro s i s' _ h
    obtain ⟨r, h1, h⟩ := Res.bind_eq_ok.mp h
    cases h
    obtain ⟨k, v, a, b, -⟩ := read_variable_took hO (n := r.1) h1
    exact ⟨k, v, a, b⟩
  associated := by
    intro _ _ _ _ h
    cases h
  factor := fun s i n s' _ h => read_variable_took hO h
  bitmapFactor := by
    intro _ _ _ _ _ h
    cases h
  significance := by
    intro _ _ _ _ _ h
    cases h
  substituted := by
    intro _ _ _ _ h
    cases h
  attr := by
    intro _ _ _ _ _ h
    cases h
  raw := by
    intro _ _ _ _ h
    cases h
  refval := by
    intro _ _ _ _ h
    cases h

end Crex.Decoder

/-! ## C77 -/

/-- Tables as programs have them keep the codes of what they alter. -/
theorem alterations_keep_code {E : Env} {t : Vartable} (h : t.Reachable E) :
    AlterationsKeepCode t := by
  intro e he a ha
  exact (alter_fields ((h.inv.entries e he).alts a ha).2.2).1

/-- C77: the variables of a decoded subset are those its descriptors stand for: one with
the code of each element, in order, with sequences replaced by their definition, groups
repeated as many times as the descriptor or the decoded factor says, and marks of
bitmaps used up by the values they announce. -/
theorem C77_decoded (C : Ctx) (hO : HookKeepsInfo C.O) (ht : AlterationsKeepCode C.btable)
    (add_undef : Bool) (d : Nat) (ops : List Varcode) (caches caches' : TableCaches) (i i' : Input)
    (vs : List Var) (h : Decoder.decodeSubset C add_undef d ops caches i = .ok (vs, caches', i')) :
    ∃ m, Follows (Decoder.reading C) Mode.start ops (vs.map (·.toVarCore)) m := by
  obtain ⟨s, h1, h2⟩ := Res.bind_eq_ok.mp h
  cases h2
  obtain ⟨-, ws, a, b⟩ := Sequential.took_run (Decoder.sequential C hO) rfl ht d ops _ _ h1 trivial
  have : ws = s.tgt.out.map (·.toVarCore) := a.symm
  exact ⟨_, this ▸ b⟩

/-- C77 for all the subsets of an uncompressed message. -/
theorem C77_decoded_all (C : Ctx) (hO : HookKeepsInfo C.O) (ht : AlterationsKeepCode C.btable)
    (add_undef : Bool) (d : Nat) (ops : List Varcode) (n : Nat) (caches caches' : TableCaches)
    (i i' : Input) (subsets : List (List Var))
    (h : Decoder.decodeSubsets C add_undef d ops n caches i = .ok (subsets, caches', i')) :
    subsets.length = n ∧
      ∀ vs ∈ subsets, ∃ m, Follows (Decoder.reading C) Mode.start ops (vs.map (·.toVarCore)) m := by
  induction n generalizing caches i subsets with
  | zero => cases h; exact ⟨rfl, by simp⟩
  | succ n ih =>
    obtain ⟨⟨vs, c1, i1⟩, h1, h⟩ := Res.bind_eq_ok.mp h
    obtain ⟨⟨rest, c2, i2⟩, h2, h⟩ := Res.bind_eq_ok.mp h
    cases h
    obtain ⟨a, b⟩ := ih _ _ _ h2
    refine ⟨by simp [a], fun ws hw => ?_⟩
    rcases List.mem_cons.mp hw with rfl | hw
    · exact C77_decoded C hO ht _ _ _ _ _ _ _ _ h1
    · exact b ws hw

/-- C77 for compressed data: each of the subsets. -/
theorem C77_compressed (C : Ctx) (hO : HookKeepsInfo C.O) (ht : AlterationsKeepCode C.btable)
    (add_undef : Bool) (d : Nat) (ops : List Varcode) (n : Nat) (caches caches' : TableCaches)
    (i i' : Input) (subsets : List (List Var))
    (h : CDecoder.decodeSubsets C add_undef d ops n caches i = .ok (subsets, caches', i'))
    (hn : 0 < n) :
    subsets.length = n ∧
      ∀ vs ∈ subsets, ∃ m, Follows (Decoder.reading C) Mode.start ops (vs.map (·.toVarCore)) m := by
  obtain ⟨s, h1, h2⟩ := Res.bind_eq_ok.mp h
  cases h2
  have key := fun j hj => Sequential.took_run (CDecoder.sequential C hO n j hj) rfl ht d ops _ _ h1
    (by simp [CDecoder.start, Interp.new])
  refine ⟨(key 0 hn).1, fun vs hv => ?_⟩
  obtain ⟨j, hj, rfl⟩ := List.getElem_of_mem hv
  have hj' : j < n := by rw [(key 0 hn).1] at hj; exact hj
  obtain ⟨-, ws, a, b⟩ := key j hj'
  have : ws = (s.tgt.subsets[j]).map (·.toVarCore) := by
    have h0 : CDecoder.decoded j (CDecoder.start add_undef caches n i).tgt = [] := by
      simp [CDecoder.decoded, CDecoder.start, Interp.new, List.getElem?_replicate]
      split <;> rfl
    rw [h0] at a
    simp only [CDecoder.decoded, List.getElem?_eq_getElem hj, Option.getD_some, List.nil_append] at a
    exact a.symm
  exact ⟨_, this ▸ b⟩

/-- C77 for validation (part): the first variables of an accepted subset are those the
descriptors stand for. Missing: nothing may follow them (`C77_not_all_taken`), and a bitmap
may have the code of any operator (`C77_not_bitmap_code`). -/
theorem C77_validated_partial (C : Ctx) (ht : AlterationsKeepCode C.btable) (crex : Bool) (d : Nat)
    (ops : List Varcode) (subset : List Var) (caches : TableCaches) (s : Interp (Enc Unit))
    (h : Interp.run C (Validator.target C crex) d ops (.new caches ⟨subset, 0, ()⟩) = .ok s) :
    ∃ m, Follows (Validator.reading C) Mode.start ops
      ((subset.take s.tgt.current_var).map (·.toVarCore)) m := by
  obtain ⟨hI, ws, a, b⟩ := Sequential.took_run (Validator.sequential C crex subset) rfl ht d ops _ _ h rfl
  have : ws = (subset.take s.tgt.current_var).map (·.toVarCore) := by
    have h0 : Validator.seen (Interp.new caches ⟨subset, 0, ()⟩ : Interp (Enc Unit)).tgt = [] := by
      simp [Validator.seen, Interp.new]
    rw [h0, List.nil_append] at a
    rw [← a]
    show (s.tgt.subset.take _).map _ = _
    rw [hI]
  exact ⟨_, this ▸ b⟩

/-- C77 for CREX (part): with default options. Missing: a factor that is missing
stands for `0xffffffff` times (`C77_not_missing_factor`). -/
theorem C77_crex_partial (C : Ctx) (hO : C.O = .default) (ht : AlterationsKeepCode C.btable)
    (d : Nat) (ops : List Varcode) (caches caches' : TableCaches) (i i' : Crex.In) (last : Bool)
    (vs : List Var) (h : Crex.Decoder.decodeSubset C d ops caches i = .ok (vs, caches', last, i')) :
    ∃ m, Follows (Crex.Decoder.reading C) Mode.start ops (vs.map (·.toVarCore)) m := by
  obtain ⟨s, h1, h2⟩ := Res.bind_eq_ok.mp h
  obtain ⟨e, -, h2⟩ := Res.bind_eq_ok.mp h2
  cases h2
  obtain ⟨-, ws, a, b⟩ := Sequential.took_run (Crex.Decoder.sequential C hO) rfl ht d ops _ _ h1 trivial
  have : ws = s.tgt.out.map (·.toVarCore) := a.symm
  exact ⟨_, this ▸ b⟩

/-- What `Follows` says of a list of elements: a variable for each, with its code. -/
theorem C77_elements (R : Reading) (m m' : Mode) (ops : List Varcode) (vs : List VarCore)
    (h : Follows R m ops vs m') (hm : m.references = false)
    (he : ∀ c ∈ ops, WR_VAR_F c = 0 ∧ WR_VAR_X c ≠ 33) :
    vs.map (·.code) = ops ∧ m' = m := by
  induction ops generalizing vs with
  | nil => cases h; exact ⟨rfl, rfl⟩
  | cons c ops ih =>
    obtain ⟨hf, hx⟩ := he c (by simp)
    have he' : ∀ c ∈ ops, WR_VAR_F c = 0 ∧ WR_VAR_X c ≠ 33 := fun c hc => he c (by simp [hc])
    cases h <;> try omega
    · rename_i v vs _ _ hc _ h
      obtain ⟨a, b⟩ := ih vs h he'
      exact ⟨by simp [a, hc], b⟩
    · simp_all

/-- The tables of the samples. -/
theorem sampleB_keeps : AlterationsKeepCode sampleCtx.btable := by
  unfold AlterationsKeepCode
  decide +kernel

/-- Hypotheses of C77 met: a subset with an associated field, two bitmaps, confidence and
a substituted value is decoded; so are two such subsets in compressed form. -/
example : HookKeepsInfo sampleCtx.O ∧ AlterationsKeepCode sampleCtx.btable ∧
    (do
      let msg ← encodeMessage sampleCtx 1 { sampleHeader with datadesc := attrDesc } [attrSubset] noCaches
      let r ← decodeMessage (fun _ => .ok (sampleCtx, noCaches)) false 1 msg
      return r.2.1.map (·.map (·.code))) =
      Res.ok [[WR_VAR 0 31 21, WR_VAR 0 12 101, WR_VAR 0 2 1, WR_VAR 2 22 0, WR_VAR 2 23 0]] :=
  ⟨nofun, sampleB_keeps, by decide +kernel⟩

/-- Hypotheses of C77 met for compressed data, in two subsets. -/
example : (do
    let r ← CDecoder.decodeSubsets sampleCtx false 1 attrDesc 2 noCaches
      (Input.new (packed (attrColumns.length / 8 + 2) attrColumns))
    return r.1.map (·.map (·.code))) =
    Res.ok (List.replicate 2
      [WR_VAR 0 31 21, WR_VAR 0 12 101, WR_VAR 0 2 1, WR_VAR 2 22 0, WR_VAR 2 23 0]) := by
  decide +kernel

/-- Text read by the CREX decoder. -/
def crexInput (t : String) : Crex.In := 
  { data := ascii t, cur := 0, has_check_digit := false, expected_check_digit := 0 }

/-- Hypotheses of C77 met for validation and for CREX. -/
example : validated attrDesc attrSubset = .ok 5 ∧ Crex.crexCtx.O = .default ∧
    AlterationsKeepCode Crex.crexCtx.btable ∧
    (do
      let r ← Crex.Decoder.decodeSubset Crex.crexCtx 1 [WR_VAR 1 1 0, WR_VAR 3 1 1] noCaches
        (crexInput "0002 27315 1 00005 / ++ 7777")
      return r.1.map (·.toVarCore.view)) = Res.ok [some (.num 2), some (.num 27315), some (.num 1),
        some (.num 5), none] :=
  ⟨by decide +kernel, rfl, by unfold AlterationsKeepCode; decide +kernel, by decide +kernel⟩

/-- C77 fails for validation of a subset with more variables than the descriptors stand
for. -/
theorem C77_not_all_taken : validated [WR_VAR 0 12 101] [tempVar 27315, codeVar 1] = .ok 1 ∧
    ¬ ∃ m, Follows (Validator.reading sampleCtx) Mode.start [WR_VAR 0 12 101]
      ([tempVar 27315, codeVar 1].map (·.toVarCore)) m := by
  refine ⟨by decide +kernel, ?_⟩
  rintro ⟨m, h⟩
  have := (C77_elements _ _ _ _ _ h rfl (by decide)).1
  exact absurd this (by decide +kernel)

/-- C77 fails for validation of a bitmap announced by one operator that has the code of
another. -/
theorem C77_not_bitmap_code :
    validated bitmapDesc [tempVar 27315, codeVar 1, marksVar (WR_VAR 2 23 0) "+"] = .ok 3 := by
  decide +kernel

/-- C77 fails for what is encoded: a variable with another code is written. -/
theorem C77_not_encoded : (bitsWritten [WR_VAR 0 12 101] [codeVar 1]).isOk = true ∧
    ¬ ∃ m, Follows (Validator.reading sampleCtx) Mode.start [WR_VAR 0 12 101]
      ([codeVar 1].map (·.toVarCore)) m := by
  refine ⟨by decide +kernel, ?_⟩
  rintro ⟨m, h⟩
  have := (C77_elements _ _ _ _ _ h rfl (by decide)).1
  exact absurd this (by decide +kernel)

/-- C77 fails for a CREX message whose replication factor is missing: it stands for
4294967295 times. -/
theorem C77_not_missing_factor :
    (do
      let r ← Crex.Decoder.read_variable Crex.crexCtx
        (.new noCaches ⟨crexInput "//// 27315 ++", []⟩) Crex.crexFactor
      return (r.1, r.2.tgt.out.map (·.toVarCore.view))) = Res.ok (4294967295, [none]) := by
  decide +kernel

end Wreport
