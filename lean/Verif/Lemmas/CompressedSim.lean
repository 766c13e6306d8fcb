import Verif.Lemmas.Compressed
import Verif.Lemmas.DataSim

/-!
# Compressed data: the decoder in step with the walk through all the subsets
-/

namespace Wreport

open Spec

/-! ## Numbers with associated fields -/

namespace AssociatedField

theorem fieldLoop_ok {C : Ctx} {f : AssociatedField} {q : Varcode} {info : Varinfo}
    (hq : qualityCode f.significance = some q) (h21 : f.significance ≠ 21)
    (hb : C.btable.query q = .ok info) (hn : info.IsNum)
    (h0 : 0 < f.bit_count) (h1 : f.bit_count ≤ 31) {base width : Nat} (hw : width ≤ 32)
    {ks : List Nat} (hk : ∀ k ∈ ks, base ≤ k ∧ k - base < 2 ^ width ∧ k < 2 ^ f.bit_count - 1 ∧
      info.imin ≤ (k : Int) ∧ (k : Int) ≤ info.imax)
    {i : Input} (hi : i.WF) {rest : List Bool} (hrest : 8 ≤ rest.length)
    (hrem : i.rem = (ks.flatMap fun k => Spec.bits width (k - base)) ++ rest) :
    ∃ i', Input.fieldLoop C f base width ks.length i =
      .ok (ks.map (fun k : Nat => some ((Var.new info).putInt (k : Int))), i') ∧ i'.WF ∧ i'.rem = rest := by
  have hp : 2 ^ f.bit_count ≤ 2 ^ 31 := Nat.pow_le_pow_right (by omega) h1
  induction ks generalizing i with
  | nil => exact ⟨i, rfl, hi, by simpa using hrem⟩
  | cons k ks ih =>
    obtain ⟨k1, k2, k3, k4⟩ := hk k (by simp)
    simp only [List.flatMap_cons, List.append_assoc] at hrem
    obtain ⟨i1, g1, g2, g3, -⟩ := Input.get_bits_ok hi hw k2 hrem (by simp; omega)
    obtain ⟨i2, l1, l2, l3⟩ := ih (fun k hk' => hk k (by simp [hk'])) g2 g3
    refine ⟨i2, ?_, l2, l3⟩
    have hu : toU32 ((base + (k - base) : Nat) : Int) = k := by unfold toU32; omega
    simp only [List.length_cons, Input.fieldLoop, g1, Res.ok_bind, hu,
      make_attribute_value hq h21 hb hn h0 h1 k3 k4, l1]
    rfl

end AssociatedField

/-- An attribute made of a number. -/
abbrev numAttr (info : Varinfo) (k : Nat) : Var := (Var.new info).putInt (k : Int)

/-- A number read with its associated field. -/
structure ReadWith (info ainfo : Varinfo) (x : Option Value) (k : Nat) (w : Var) : Prop where
  info : w.info = info
  wf : w.toVarCore.WF
  view : w.toVarCore.view = x
  attrs : w.attrs = [(numAttr ainfo k).toVarCore]

theorem attrs_addAttr {ainfo : Varinfo} {q : Varcode} (hc : ainfo.code = q)
    {v : Var} (k : Nat) (h : v.attrs = [] ∨ ∃ a, v.attrs = [a] ∧ a.code = q) :
    (Input.addAttr v (some (numAttr ainfo k))).attrs = [(numAttr ainfo k).toVarCore] := by
  have e : (numAttr ainfo k).toVarCore.code = q := hc
  rcases h with h | ⟨a, h, ha⟩
  · simp [Input.addAttr, Var.setaMove, h, Var.setaList]
  · simp [Input.addAttr, Var.setaMove, h, Var.setaList, e, ha]

theorem fieldDiffLoop_ok {C : Ctx} (hE : IsRounding C.E.fl) {info ainfo : Varinfo} {q : Varcode}
    (hm : info.Made C.E) (hn : info.IsNum) (hw : OnesOk C.E info.bit_len) {base dwidth : Nat}
    (hd : OnesOk C.E dwidth) (hb : base ≠ 2 ^ info.bit_len - 1)
    (hc : ainfo.code = q) (xs : List (Option Nat × Nat))
    (hincs : ∀ k, some k ∈ xs.map (·.1) → k < 2 ^ dwidth - 1 ∧ base + k < 2 ^ info.bit_len - 1 ∧
      info.imin ≤ (base + k : Nat) + info.bit_ref ∧ (base + k : Nat) + info.bit_ref ≤ info.imax)
    {i : Input} (hi : i.WF) {rest : List Bool} (hrest : 8 ≤ rest.length)
    (hrem : i.rem = ((xs.map (·.1)).flatMap fun
      | none => missingField dwidth
      | some k => bits dwidth k) ++ rest) {var : Var} (hv : var.info = info)
    (hvw : var.toVarCore.WF)
    (ha : var.attrs = [] ∨ ∃ a, var.attrs = [a] ∧ a.code = q) :
    ∃ vs i', Input.fieldDiffLoop C base dwidth var
        (xs.map fun x => some (numAttr ainfo x.2)) i = .ok (vs, i') ∧ i'.WF ∧ i'.rem = rest ∧
      List.Forall₂ (fun v x => ReadWith info ainfo
        (x.1.map fun k => .num ((base + k : Nat) + info.bit_ref)) x.2 v) vs xs := by
  have hpw : 2 ^ info.bit_len ≤ 2 ^ 32 := Nat.pow_le_pow_right (by omega) hw.le
  have hpos : 0 < 2 ^ dwidth := by positivity
  subst hv
  induction xs generalizing i var with
  | nil => exact ⟨[], i, rfl, hi, by simpa using hrem, .nil⟩
  | cons x xs ih =>
    obtain ⟨inc, k0⟩ := x
    have hincs' : ∀ k, some k ∈ xs.map (·.1) → _ := fun k hk => hincs k (List.mem_cons_of_mem _ hk)
    have key : ∀ w : Var, w.info = var.info → w.attrs = var.attrs → w.toVarCore.WF →
        ∀ i1 : Input, i1.WF → i1.rem = ((xs.map (·.1)).flatMap fun
          | none => missingField dwidth
          | some k => bits dwidth k) ++ rest →
        ∃ vs i', Input.fieldDiffLoop C base dwidth
            (Input.addAttr w (some (numAttr ainfo k0)))
            (xs.map fun x => some (numAttr ainfo x.2)) i1 = .ok (vs, i') ∧ i'.WF ∧
          i'.rem = rest ∧
          List.Forall₂ (fun v x => ReadWith var.info ainfo
            (x.1.map fun k => .num ((base + k : Nat) + var.info.bit_ref)) x.2 v) vs xs ∧
          ReadWith var.info ainfo w.toVarCore.view k0 (Input.addAttr w (some (numAttr ainfo k0))) := by
      intro w hwi hwa hww i1 hi1 hr1
      have e2 := attrs_addAttr (v := w) hc k0 (by rw [hwa]; exact ha)
      have hii : (Input.addAttr w (some (numAttr ainfo k0))).info = var.info := hwi
      have := ih (var := Input.addAttr w (some (numAttr ainfo k0)))
        hi1 hr1 hww (Or.inr ⟨_, e2, hc⟩)
        (by rw [hii]; exact hm) (by rw [hii]; exact hn) (by rw [hii]; exact hw)
        (by rw [hii]; exact hb) (by rw [hii]; exact hincs') (by rw [hii]; exact hpw)
      rw [hii] at this
      obtain ⟨vs, i', g1, g2, g3, g4⟩ := this
      exact ⟨vs, i', g1, g2, g3, g4, hii, hww, rfl, e2⟩
    cases inc with
    | none =>
      simp only [List.map_cons, List.flatMap_cons, List.append_assoc] at hrem
      obtain ⟨i1, g1, g2, g3, -⟩ := Input.get_bits_ok hi (n := dwidth) (v := 2 ^ dwidth - 1) hd.le
        (by omega) (by rw [hrem, bits_ones]; rfl) (by simp; omega)
      obtain ⟨vs, i2, k1, k2, k3, k4, k5⟩ := key var.unset rfl rfl (WF_isset_false hvw) i1 g2 g3
      refine ⟨_ :: vs, i2, ?_, k2, k3, .cons ⟨k5.info, k5.wf, ?_, k5.attrs⟩ k4⟩
      · simp only [List.map_cons, Input.fieldDiffLoop, Input.decode_compressed_diff, g1, Res.ok_bind,
          Input.diffMissing, Input.all_ones_ok hw.1 hw.2, Input.all_ones_ok hd.1 hd.2, if_neg hb, if_true,
          Input.setNumberOrMissing, Res.pure_def, k1]
      · rw [k5.view]
        exact view_unset rfl
    | some k =>
      obtain ⟨c1, c2, c3, c4⟩ := hincs k (by simp)
      simp only [List.map_cons, List.flatMap_cons, List.append_assoc] at hrem
      obtain ⟨i1, g1, g2, g3, -⟩ := Input.get_bits_ok hi (n := dwidth) (v := k) hd.le
        (by omega) hrem (by simp; omega)
      have hu : toU32 ((base + k : Nat) : Int) = base + k := by unfold toU32; omega
      have hset := setNumber_ok hE C.O (v := var) (i := (base + k : Nat) + var.info.bit_ref) hm hn hw.1
        (val := base + k) (by omega) (by omega) ⟨c3, c4⟩
      have hww : (var.putInt ((base + k : Nat) + var.info.bit_ref)).toVarCore.WF := by
        refine (WF_num (v := (var.putInt _).toVarCore) hn).mpr ⟨_, rfl, ?_⟩
        obtain ⟨l1, l2⟩ := hm.limits hn
        rw [inInt_iff] at *; omega
      obtain ⟨vs, i2, k1, k2, k3, k4, k5⟩ :=
        key (var.putInt ((base + k : Nat) + var.info.bit_ref)) rfl rfl hww i1 g2 g3
      refine ⟨_ :: vs, i2, ?_, k2, k3, .cons ⟨k5.info, k5.wf, ?_, k5.attrs⟩ k4⟩
      · simp only [List.map_cons, Input.fieldDiffLoop, Input.decode_compressed_diff, g1, Res.ok_bind,
          Input.diffMissing,
          Input.all_ones_ok hw.1 hw.2, Input.all_ones_ok hd.1 hd.2, if_neg hb,
          Input.setNumberOrMissing, Res.pure_def, if_neg (show ¬ k = 2 ^ dwidth - 1 by omega), hu,
          decide_eq_false (show ¬ base + k = 2 ^ var.info.bit_len - 1 by omega),
          Bool.false_eq_true, if_false, hset, k1]
      · rw [k5.view]
        exact view_num (v := (var.putInt _).toVarCore) hn rfl rfl

/-- A column of numbers is read with the associated fields already read. -/
theorem numbers_read (C : Ctx) (hE : IsRounding C.E.fl) {info ainfo : Varinfo} (hm : info.Made C.E)
    (hn : info.IsNum) {vs : List (Option Value)} {p : Plan} {f rest : List Bool}
    (hcol : numColumn info vs p = some f) {ks : List Nat} (hks : ks.length = vs.length)
    {i : Input} (hi : i.WF) (hrem : i.rem = f ++ rest) (hrest : 8 ≤ rest.length) :
    ∃ ws i', i.decode_compressed_number_attrs C info (ks.map fun k => some (numAttr ainfo k)) =
        .ok (ws, i') ∧ i'.WF ∧ i'.rem = rest ∧
      List.Forall₂ (fun w (x : Option Value × Nat) => ReadWith info ainfo x.1 x.2 w) ws (vs.zip ks) := by
  cases p with
  | texts _ _ => cases hcol
  | same =>
    obtain ⟨v, a, h1, rfl, h3, -⟩ := sameColumn_eq hcol
    obtain ⟨b1, b2, base, b3, rfl, b5, b6⟩ := numBase_eq h1
    rw [List.append_assoc] at hrem
    have hw : OnesOk C.E info.bit_len := ⟨b1, .inl b2⟩
    obtain ⟨i1, g1, g2, g3, -⟩ := decode_compressed_base_ok hi hw (base := base) (dwidth := 0)
      b3 (by omega) (by simp) hrem hrest
    have hzip : vs.zip ks = ks.map fun k => (v, k) := by
      rw [h3, ← hks]
      clear h3 hks
      induction ks with
      | nil => rfl
      | cons k ks ih => simp [List.replicate_succ, ih]
    have hall : ∀ u : Var, u.info = info → u.toVarCore.WF → u.toVarCore.view = v → u.attrs = [] →
        List.Forall₂ (fun w (x : Option Value × Nat) => ReadWith info ainfo x.1 x.2 w)
          ((ks.map fun k => some (numAttr ainfo k)).map (Input.addAttr u)) (vs.zip ks) := by
      intro u u1 u2 u3 u4
      rw [hzip, List.map_map, List.forall₂_map_left_iff, List.forall₂_map_right_iff]
      exact List.forall₂_same.mpr fun k _ => ⟨u1, u2, u3, attrs_addAttr rfl k (.inl u4)⟩
    unfold Input.decode_compressed_number_attrs
    simp only [g1, Res.ok_bind]
    by_cases hmiss : base = 2 ^ info.bit_len - 1
    · rw [if_pos (by simpa using hmiss)]
      rw [if_pos hmiss] at b6
      exact ⟨_, i1, rfl, g2, g3, hall _ rfl (WF_new _) ((view_unset rfl).trans b6) rfl⟩
    · rw [if_neg (by simpa using hmiss), if_pos trivial]
      rw [if_neg hmiss] at b6
      have hpw : 2 ^ info.bit_len ≤ 2 ^ 32 := Nat.pow_le_pow_right (by omega) hw.le
      have hr' := b5 (by omega)
      have hset := setNumber_ok hE C.O (v := Var.new info) (i := base + info.bit_ref) hm hn hw.1
          (val := base) (by show _ = _ - info.bit_ref; omega) (by omega) hr'
      rw [hset]
      refine ⟨_, i1, rfl, g2, g3, hall _ rfl (WF_newInt hn ?_) ((view_newInt hn _).trans b6) rfl⟩
      obtain ⟨l1, l2⟩ := hm.limits hn
      rw [inInt_iff] at *; omega
  | increments base width =>
    unfold numColumn at hcol
    simp only at hcol
    split at hcol
    · next hb =>
      obtain ⟨b1, b2, b3, b4, b5⟩ := hb
      obtain ⟨g, hg, rfl⟩ := Option.map_eq_some_iff.mp hcol
      obtain ⟨incs, j1, rfl, j3, j4⟩ := increments_of hg
      have hw : OnesOk C.E info.bit_len := ⟨b1, .inl b2⟩
      simp only [List.append_assoc] at hrem
      obtain ⟨i1, g1, g2, g3, -⟩ := decode_compressed_base_ok hi hw (base := base) (dwidth := width)
        (by omega) (by omega) (by omega) hrem (by simp; omega)
      have hfst : (incs.zip ks).map (·.1) = incs := by
        rw [List.map_fst_zip]
        omega
      have hsnd : (incs.zip ks).map (·.2) = ks := by
        rw [List.map_snd_zip]
        omega
      obtain ⟨ws, i2, k1, k2, k3, k4⟩ := fieldDiffLoop_ok hE hm hn hw (ainfo := ainfo)
        (base := base) (dwidth := width) ⟨b4, .inl b5⟩ (by omega)
        rfl (incs.zip ks) (by rw [hfst]; exact j4) g2 hrest (by rw [hfst]; exact g3)
        (var := Var.new info) rfl (WF_new _) (.inl rfl)
      refine ⟨ws, i2, ?_, k2, k3, ?_⟩
      · unfold Input.decode_compressed_number_attrs
        simp only [g1, Res.ok_bind]
        rw [decide_eq_false (by omega), if_neg (by simp), if_neg (by omega)]
        have : (incs.zip ks).map (fun x => some (numAttr ainfo x.2)) =
            ks.map fun k => some (numAttr ainfo k) := by
          conv_rhs => rw [← hsnd, List.map_map]
          rfl
        rw [← this]
        exact k1
      · rw [← j3]
        unfold compressedValues
        rw [List.zip_map_left, List.forall₂_map_right_iff]
        refine k4.imp fun a c h => ?_
        obtain ⟨_ | _, _⟩ := c <;> exact h
    · cases hcol

/-! ## Attributes -/

theorem attrShown_congr {x y : Var}
    (h : y.attrs.map (fun a => (a.info, a.isset, a.view)) =
      x.attrs.map (fun a => (a.info, a.isset, a.view))) (code : Varcode) :
    attrShown y code = attrShown x code := by
  unfold attrShown attrOf
  generalize y.attrs = l at h
  generalize x.attrs = m at h
  induction l generalizing m with
  | nil => cases m with
    | nil => rfl
    | cons _ _ => cases h
  | cons a l ih => cases m with
    | nil => cases h
    | cons b m =>
      simp only [List.map_cons, List.cons.injEq, Prod.mk.injEq] at h
      obtain ⟨⟨h1, -, h3⟩, h4⟩ := h
      have hc : decide (a.code = code ∧ a.view ≠ none) = decide (b.code = code ∧ b.view ≠ none) := by
        rw [h3]
        unfold VarCore.code
        rw [h1]
      rw [List.find?_cons, List.find?_cons, hc]
      split
      · simp [h1, h3]
      · exact ih m h4

/-- A copy shows the same. -/
theorem Shows.copy {c : List (Nat × Varcode)} {p : Nat} {x v : Var} (h : Shows c p x v) :
    ∃ w, x.copy = .ok w ∧ Shows c p w v := by
  obtain ⟨w, w1, w2, w3, -, w5, w6⟩ := copy_ok h.wf
  refine ⟨w, w1, w2, w3.trans h.info, w5.trans h.view, fun code => ?_⟩
  rw [attrShown_congr w6]
  exact h.attrs code

theorem copyAll_shows {c : List (Nat × Varcode)} {p : Nat} {ws vs : List Var}
    (h : List.Forall₂ (Shows c p) ws vs) :
    ∃ cs, CDecoder.copyAll ws = .ok cs ∧ List.Forall₂ (Shows c p) cs vs := by
  induction h with
  | nil => exact ⟨[], rfl, .nil⟩
  | cons h1 _ ih =>
    obtain ⟨w, w1, w2⟩ := h1.copy
    obtain ⟨cs, c1, c2⟩ := ih
    refine ⟨w :: cs, ?_, .cons w2 c2⟩
    unfold CDecoder.copyAll
    rw [w1, Res.ok_bind, c1]
    rfl

/-! ## The walk -/

/-- The variables at one position of all the subsets. -/
def At (pos : Nat) : List (List Var) → List Var → Prop :=
  List.Forall₂ fun s v => s[pos]? = some v

theorem allAt_ok {subsets : List (List Var)} {pos : Nat} {vs : List Var}
    (h : Walks.allAt pos subsets = some vs) : At pos subsets vs := by
  unfold At
  induction subsets generalizing vs with
  | nil => cases h; exact .nil
  | cons s subsets ih =>
    unfold Walks.allAt at h
    split at h
    · next v ws h1 h2 => cases h; exact .cons h1 (ih h2)
    · cases h

theorem next_ok {st : Interp Walks} {info : Varinfo} {vs : List Var}
    (h : Walks.next st info = some vs) :
    At st.tgt.pos st.tgt.subsets vs ∧ ∀ v ∈ vs, v.info = info := by
  unfold Walks.next at h
  split at h
  · next ws hw =>
    split at h
    · next ha =>
      cases h
      exact ⟨allAt_ok hw, fun v hv => by simpa using List.all_eq_true.mp ha v hv⟩
    · cases h
  · cases h

theorem At.mem {pos : Nat} {S : List (List Var)} {vs : List Var} (h : At pos S vs) :
    ∀ v ∈ vs, ∃ s ∈ S, v ∈ s := by
  unfold At at h
  induction h with
  | nil => simp
  | cons h1 _ ih =>
    intro v hv
    rcases List.mem_cons.mp hv with rfl | hv
    · exact ⟨_, List.mem_cons_self .., List.mem_of_getElem? h1⟩
    · obtain ⟨s, s1, s2⟩ := ih v hv
      exact ⟨s, List.mem_cons_of_mem _ s1, s2⟩

theorem Walks.element_ok {s s' : Interp Walks} {info : Varinfo} (h : Walks.element s info = .ok s') :
    ∃ vs p f, Walks.next s info = some vs ∧ column info (vs.map (·.toVarCore.view)) p = some f ∧
      s' = Walks.took s f := by
  unfold Walks.element at h
  split at h
  · next vs p _ h1 h2 =>
    split at h
    · next f hf => cases h; exact ⟨vs, p, f, h1, hf, rfl⟩
    · cases h
  · cases h

theorem Walks.factor_ok {s s' : Interp Walks} {info : Varinfo} {n : Nat}
    (h : Walks.factor s info = .ok (n, s')) :
    ∃ v vs k f, Walks.next s info = some (v :: vs) ∧ v.toVarCore.view = some (.num k) ∧
      numColumn info ((v :: vs).map (·.toVarCore.view)) .same = some f ∧ n = toU32 k ∧
      s' = Walks.took s f := by
  unfold Walks.factor at h
  split at h
  · next v vs _ h1 h2 =>
    split at h
    · next k f hk hf => cases h; exact ⟨v, vs, k, f, h1, hk, hf, rfl, rfl⟩
    · cases h
  · cases h

theorem Walks.significance_ok {s s' : Interp Walks} {info : Varinfo} {n : Nat}
    (h : Walks.significance s info = .ok (n, s')) :
    ∃ v vs k f, Walks.next s info = some (v :: vs) ∧
      (v.toVarCore.view = none ∧ info.IsNum ∧ k = 63 ∨ v.toVarCore.view = some (.num k)) ∧
      numColumn info ((v :: vs).map (·.toVarCore.view)) .same = some f ∧ n = toU32 k ∧
      s' = Walks.took s f := by
  unfold Walks.significance at h
  split at h
  · next v vs _ h1 h2 =>
    split at h
    · next f ht hk hf => cases h; exact ⟨v, vs, 63, f, h1, .inl ⟨hk, .inl ht, rfl⟩, hf, rfl, rfl⟩
    · next f ht hk hf => cases h; exact ⟨v, vs, 63, f, h1, .inl ⟨hk, .inr ht, rfl⟩, hf, rfl, rfl⟩
    · next k f hk hf => cases h; exact ⟨v, vs, k, f, h1, .inr hk, hf, rfl, rfl⟩
    · cases h
  · cases h

/-- The codes of the variables up to a bitmap. -/
def Walks.codes (s : Interp Walks) : List Varcode :=
  ((s.tgt.subsets.headD []).take (s.tgt.pos + 1)).map (·.code)

/-- The walk after a bitmap. -/
def Walks.marked (s : Interp Walks) (t : List Byte) (info : Varinfo) : Interp Walks :=
  { s with
    bitmaps := { s.bitmaps with
      current := some ⟨(selected (Walks.codes s) (s.tgt.pos + 1) t).reverse, 0⟩ }
    tgt := { s.tgt with
      pos := s.tgt.pos + 1
      bits := s.tgt.bits ++ Walks.marks t
      seen := if (s.tgt.seen.lookup t).isSome then s.tgt.seen else (t, info) :: s.tgt.seen } }

theorem Walks.bitmap_ok {C : Ctx} {s s' : Interp Walks} {size : Nat}
    (h : Walks.bitmap C s size = .ok s') :
    ∃ v vs t, At s.tgt.pos s.tgt.subsets (v :: vs) ∧ v.toVarCore.view = some (.text t) ∧
      (∀ w ∈ vs, w.info = v.info ∧ w.toVarCore.view = v.toVarCore.view) ∧ WR_VAR_F v.code = 2 ∧
      v.info.len = size ∧ t.length = size ∧ 1 ≤ size ∧ (∀ c ∈ t, c = 43 ∨ c = 45) ∧
      size ≤ (elementsBefore (Walks.codes s) (s.tgt.pos + 1)).length ∧
      Walk.bitmapKnown C s.tgt.seen s.bitmaps.pending_definitions t v.info = true ∧
      s' = Walks.marked s t v.info := by
  unfold Walks.bitmap at h
  split at h
  · next v vs hn =>
    split at h
    · next t ht =>
      simp only at h
      split at h
      · next hc =>
        obtain ⟨c1, c2, c3, c4, c5, c6, c7, c8⟩ := hc
        cases h
        refine ⟨v, vs, t, allAt_ok hn, ht, ?_, c2, c3, c4, c5, ?_, c7, c8, rfl⟩
        · intro w hw
          simpa using List.all_eq_true.mp c1 w hw
        · intro c hc
          simpa using List.all_eq_true.mp c6 c hc
      · cases h
    · cases h
  · cases h

/-- The walk after writing bits that belong to no variable of their own. -/
def Walks.wrote (s : Interp Walks) (plan : List Plan) (f : List Bool) (c : List (Nat × Varcode)) :
    Interp Walks :=
  { s with tgt := { s.tgt with
      plan := plan
      bits := s.tgt.bits ++ f
      carried := s.tgt.carried ++ c } }

theorem asMade_made {E : Env} {info : Varinfo} (h : Walk.asMade E info = true) : info.Made E := by
  unfold Walk.asMade at h
  simp only [decide_eq_true_eq] at h
  exact ⟨⟨info, h.1⟩, h.2.1, h.2.2.1, h.2.2.2⟩

theorem Walks.bitmapFactor_ok {C : Ctx} {s s' : Interp Walks} {info : Varinfo} {n : Nat}
    (h : Walks.bitmapFactor C s info = .ok (n, s')) :
    info.IsNum ∧ info.Made C.E ∧ n < 2 ^ 31 ∧ ∃ f, numColumn info [some (.num n)] .same = some f ∧
      s' = Walks.wrote s s.tgt.plan f [] := by
  unfold Walks.bitmapFactor at h
  split at h
  · next v vs hn =>
    split at h
    · next hc =>
      obtain ⟨c1, c2, c3, c4⟩ := hc
      cases h
      refine ⟨c1, asMade_made c2, c4, Spec.bits info.bit_len (v.info.len - info.bit_ref).toNat ++
        Spec.bits 6 0, ?_, ?_⟩
      · simp [numColumn, sameColumn, numBase, c3]
      · unfold Walks.wrote
        rw [List.append_nil]
    · cases h
  · cases h

theorem Walks.quality_ok {C : Ctx} {s s' : Interp Walks} {info : Varinfo} {pos : Nat}
    (h : Walks.quality C s info pos = .ok s') :
    ∃ vs p rest xs f, At pos s.tgt.subsets vs ∧ attrColumn info.code info vs = some xs ∧
      column info xs p = some f ∧ pos < s.tgt.pos ∧ info.Made C.E ∧
      s' = Walks.wrote s rest f [(pos, info.code)] := by
  unfold Walks.quality at h
  split at h
  · next vs p rest hn hp =>
    split at h
    · next xs hx =>
      split at h
      · next f hf =>
        split at h
        · next hc =>
          cases h
          exact ⟨vs, p, rest, xs, f, allAt_ok hn, hx, hf, hc.1, asMade_made hc.2, rfl⟩
        · cases h
      · cases h
    · cases h
  · cases h

theorem Walks.substituted_ok {C : Ctx} {s s' : Interp Walks} {pos : Nat}
    (h : Walks.substituted C s pos = .ok s') :
    ∃ v, (s.tgt.subsets.headD [])[pos]? = some v ∧ Walks.quality C s v.info pos = .ok s' := by
  unfold Walks.substituted at h
  split at h
  · cases h
  · next v hv => exact ⟨v, hv, h⟩

theorem Walks.withField_ok {C : Ctx} {s s' : Interp Walks} {info : Varinfo}
    (h : Walks.withField C s info = .ok s') :
    ∃ vs p p' rest f c g, Walks.next s info = some vs ∧ info.IsNum ∧
      numColumn info (vs.map (·.toVarCore.view)) p' = some g ∧
      assocColumn C s.associated_field.bit_count s.associated_field.significance vs p = .ok (f, c) ∧
      s' = { s with tgt := { s.tgt with
        plan := rest
        pos := s.tgt.pos + 1
        bits := s.tgt.bits ++ (f ++ g)
        carried := s.tgt.carried ++ (c.map fun q => (s.tgt.pos, q)).toList } } := by
  unfold Walks.withField at h
  split at h
  · next vs p p' rest hn hp =>
    split at h
    · next g ht hg =>
      obtain ⟨⟨f, c⟩, h1, h2⟩ := Res.bind_eq_ok.mp h
      cases h2
      exact ⟨vs, p, p', rest, f, c, g, hn, .inl ht, hg, h1, rfl⟩
    · next g ht hg =>
      obtain ⟨⟨f, c⟩, h1, h2⟩ := Res.bind_eq_ok.mp h
      cases h2
      exact ⟨vs, p, p', rest, f, c, g, hn, .inr ht, hg, h1, rfl⟩
    · cases h
  · cases h

/-! ## The decoder -/

/-- Subsets read so far, with the attributes carried so far. -/
def PartlyAll (c : List (Nat × Varcode)) (pos : Nat) : List (List Var) → List (List Var) → Prop :=
  List.Forall₂ fun out s => Partly c out (s.take pos)

theorem Partly.next {c c' : List (Nat × Varcode)} {out S : List Var} {pos : Nat} {v x : Var}
    (h : Partly c out (S.take pos)) (hn : S[pos]? = some v) (hc' : ∀ e ∈ c', e.1 = pos)
    (hx : Shows (c ++ c') pos x v) : Partly (c ++ c') (out ++ [x]) (S.take (pos + 1)) := by
  have hlt : pos < S.length := by
    by_contra hp
    rw [List.getElem?_eq_none (by omega)] at hn
    cases hn
  have hl : (S.take pos).length = pos := by rw [List.length_take]; omega
  rw [List.take_add_one, hn]
  exact h.snoc (by rw [hl]; exact hc') (by rw [hl]; exact hx)

theorem PartlyAll.step {c c' : List (Nat × Varcode)} {pos : Nat} {outs S : List (List Var)}
    {ws vs : List Var} (h : PartlyAll c pos outs S) (hat : At pos S vs)
    (hw : List.Forall₂ (Shows (c ++ c') pos) ws vs) (hc' : ∀ e ∈ c', e.1 = pos) :
    PartlyAll (c ++ c') (pos + 1) (List.zipWith (fun s v => s ++ [v]) outs ws) S := by
  unfold PartlyAll At at *
  induction h generalizing ws vs with
  | nil => exact .nil
  | cons h1 _ ih =>
    cases hat with
    | cons n1 n2 =>
      cases hw with
      | cons w1 w2 => exact .cons (h1.next n1 hc' w1) (ih n2 w2)

theorem shows_plain {c : List (Nat × Varcode)} {pos : Nat} {info : Varinfo} {ws vs : List Var}
    (hc : ∀ e ∈ c, e.1 < pos) (hw : ∀ w ∈ ws, w.info = info ∧ w.attrs = [] ∧ w.toVarCore.WF)
    (hv : ∀ v ∈ vs, v.info = info)
    (he : ws.map (·.toVarCore.view) = vs.map (·.toVarCore.view)) :
    List.Forall₂ (Shows c pos) ws vs := by
  induction ws generalizing vs with
  | nil => cases vs with
    | nil => exact .nil
    | cons _ _ => cases he
  | cons w ws ih => cases vs with
    | nil => cases he
    | cons v vs =>
      simp only [List.map_cons, List.cons.injEq] at he
      obtain ⟨a1, a2, a3⟩ := hw w (by simp)
      refine .cons (Shows.plain ⟨a3, by rw [a2]; simp, by rw [a2]; simp⟩
        (a1.trans (hv v (by simp)).symm) he.1 a2 hc)
        (ih (fun w h => hw w (by simp [h])) (fun v h => hv v (by simp [h])) he.2)

/-- What the attribute of one variable shows. -/
theorem attrColumn_cons {code : Varcode} {info : Varinfo} {v : Var} {vs : List Var}
    {xs : List (Option Value)} (h : attrColumn code info (v :: vs) = some xs) :
    ∃ x l, xs = x :: l ∧ attrColumn code info vs = some l ∧
      (attrShown v code = none ∧ x = none ∨ ∃ y, attrShown v code = some (info, some y) ∧ x = some y) := by
  unfold attrColumn at h
  split at h
  · next l h1 h2 => cases h; exact ⟨none, l, rfl, h2, .inl ⟨h1, rfl⟩⟩
  · next i x l h1 h2 =>
    split at h
    · next hi =>
      cases h
      subst hi
      refine ⟨x, l, rfl, h2, .inr ?_⟩
      cases x with
      | some y => exact ⟨y, h1, rfl⟩
      | none =>
        exfalso
        unfold attrShown at h1
        obtain ⟨a, a1, a2⟩ := Option.map_eq_some_iff.mp h1
        unfold attrOf at a1
        have := List.find?_some a1
        simp only [decide_eq_true_eq] at this
        simp only [Prod.mk.injEq] at a2
        exact this.2 a2.2
    · cases h
  · cases h

/-- Setting the attributes just read. -/
theorem PartlyAll.attr {c : List (Nat × Varcode)} {pos n : Nat} {outs S : List (List Var)}
    {ws vs : List Var} {xs : List (Option Value)} {info : Varinfo} (h : PartlyAll c n outs S)
    (hp : pos < n) (hat : At pos S vs) (hx : attrColumn info.code info vs = some xs)
    (hw : ∀ w ∈ ws, w.info = info ∧ w.attrs = [] ∧ w.toVarCore.WF)
    (hv : ws.map (·.toVarCore.view) = xs) :
    ∃ outs', CDecoder.setAttrs pos outs ws = .ok outs' ∧
      PartlyAll (c ++ [(pos, info.code)]) n outs' S := by
  unfold PartlyAll At at *
  induction h generalizing ws vs xs with
  | nil => exact ⟨[], rfl, .nil⟩
  | @cons out s outs S h1 h2 ih =>
    cases hat with
    | @cons _ v _ vs n1 n2 =>
      obtain ⟨x, l, rfl, l1, l2⟩ := attrColumn_cons hx
      cases ws with
      | nil => cases hv
      | cons w ws =>
        simp only [List.map_cons, List.cons.injEq] at hv
        obtain ⟨outs', o1, o2⟩ := ih n2 l1 (fun w h => hw w (by simp [h])) hv.2
        obtain ⟨a1, a2, a3⟩ := hw w (by simp)
        have hvp : (s.take n)[pos]? = some v := by
          rw [List.getElem?_take_of_lt hp]; exact n1
        obtain ⟨y, y1, y2⟩ := h1.get hvp
        rcases l2 with ⟨l2, rfl⟩ | ⟨z, l2, rfl⟩
        · have hu := unset_of_view a3 hv.1
          refine ⟨out :: outs', ?_, .cons ?_ o2⟩
          · unfold CDecoder.setAttrs
            simp only [hu, Bool.not_false, if_true, o1, Res.ok_bind]
            rfl
          · have hset : out.set pos y = out := by
              apply List.ext_getElem?
              intro p
              by_cases hpp : pos = p
              · subst hpp
                rw [List.getElem?_set_self', y1]
                rfl
              · rw [List.getElem?_set_ne hpp]
            rw [← hset]
            exact h1.set fun v' hv' => by
              rw [hvp] at hv'
              cases hv'
              exact y2.missing l2
        · obtain ⟨b, b1, b2, b3, b4, b5⟩ := copy_plain (v := w) ⟨a3, by rw [a2]; simp, by rw [a2]; simp⟩ a2
          have hbv : b.toVarCore.view = some z := b4.trans hv.1
          have hbc : b.code = info.code := by
            show b.info.code = _
            rw [b3, a1]
          have hsh := y2.attr b2.core (by rw [shownOf_view hbv, hbc, l2, b3, a1])
          rw [hbc] at hsh
          have hset : w.isset = true := (view_type hv.1).1
          refine ⟨out.set pos (y.setaMove b) :: outs', ?_, .cons ?_ o2⟩
          · unfold CDecoder.setAttrs
            simp only [hset, y1, Var.seta, b1, Res.ok_bind, o1]
            rfl
          · exact h1.set fun v' hv' => by
              rw [hvp] at hv'
              cases hv'
              exact hsh

/-- The decoder has the rest of the bits before it and has stored the variables taken so
far, with the attributes written so far. -/
def compRel (S : List (List Var)) (rest : List Bool) : Rel Walks CDec where
  le a F := a.bits <+: F.bits
  refl _ := List.prefix_refl _
  trans _ _ _ h h' := h.trans h'
  Q F a b _ c _ _ := a.subsets = S ∧ b.input.WF ∧
    (∃ w, F.bits = a.bits ++ w ∧ b.input.rem = w ++ rest) ∧ PartlyAll a.carried a.pos b.subsets S ∧
    (∀ e ∈ a.carried, e.1 < a.pos) ∧ c.bitmap_table = a.seen
  stable _ _ _ _ _ _ _ _ _ h := h

theorem walkNext {F : Walks} {a f w : List Bool} (h : F.bits = a ++ w) (h' : a ++ f <+: F.bits) :
    ∃ w', w = f ++ w' ∧ F.bits = a ++ f ++ w' := by
  obtain ⟨w', h'⟩ := h'
  refine ⟨w', ?_, h'.symm⟩
  rw [h, List.append_assoc] at h'
  exact (List.append_cancel_left h').symm

theorem At.sound {E : Env} {S : List (List Var)} (hS : ∀ s ∈ S, Sound E s) {pos : Nat}
    {vs : List Var} (h : At pos S vs) : ∀ v ∈ vs, v.toVarCore.WF ∧ v.info.Made E := by
  intro v hv
  obtain ⟨s, s1, s2⟩ := h.mem v hv
  exact hS s s1 v s2

theorem At.attrs {E : Env} {S : List (List Var)} (hA : ∀ s ∈ S, SoundAttrs E s) {pos : Nat}
    {vs : List Var} (h : At pos S vs) : ∀ v ∈ vs, v.WF ∧ ∀ a ∈ v.attrs, a.info.Made E := by
  intro v hv
  obtain ⟨s, s1, s2⟩ := h.mem v hv
  exact hA s s1 v s2

theorem held_views (E : Env) {info : Varinfo} {vs : List Var} (h : ∀ v ∈ vs, v.toVarCore.WF)
    (hi : ∀ v ∈ vs, v.info = info) : Held info.len (vs.map (·.toVarCore.view)) := by
  intro t ht
  obtain ⟨v, hv, hx⟩ := List.mem_map.mp ht
  obtain ⟨-, hn, hl, -⟩ := enqc_of_view (E := E) (h v hv) hx
  exact ⟨hn, hi v hv ▸ hl⟩

theorem held_attrs (E : Env) {code : Varcode} {info : Varinfo} {vs : List Var} {xs : List (Option Value)}
    (h : attrColumn code info vs = some xs) (hw : ∀ v ∈ vs, v.WF) : Held info.len xs := by
  induction vs generalizing xs with
  | nil => cases h; intro t ht; cases ht
  | cons v vs ih =>
    obtain ⟨x, l, rfl, l1, l2⟩ := attrColumn_cons h
    intro t ht
    rcases List.mem_cons.mp ht with rfl | ht
    · rcases l2 with ⟨-, l2⟩ | ⟨y, l2, l3⟩
      · cases l2
      · cases l3
        unfold attrShown at l2
        obtain ⟨a, a1, a2⟩ := Option.map_eq_some_iff.mp l2
        simp only [Prod.mk.injEq] at a2
        have hwa := (hw v (by simp)).attrs a (attrOf_some a1).1
        obtain ⟨-, hn, hl, -⟩ := enqc_of_view (E := E) hwa a2.2
        exact ⟨hn, a2.1 ▸ hl⟩
    · exact ih l1 (fun v hv => hw v (by simp [hv])) t ht

/-- The increments of associated fields. -/
theorem assocIncrements_of {n m : Nat} {q : Varcode} {info : Varinfo} {base width : Nat}
    {vs : List Var} {xs : List (Option Value)} {f : List Bool}
    (h : fieldsOf (assocIncrement n m info base width) xs = some f)
    (hx : attrColumn q info vs = some xs) :
    ∃ ks : List Nat, f = (ks.flatMap fun k => bits width (k - base)) ∧
      (∀ k ∈ ks, base ≤ k ∧ k - base < 2 ^ width ∧ k < 2 ^ n - 1 ∧
        info.imin ≤ (k : Int) ∧ (k : Int) ≤ info.imax) ∧
      List.Forall₂ (fun (v : Var) k => attrShown v q = some (info, some (.num (k : Nat)))) vs ks := by
  induction vs generalizing xs f with
  | nil =>
    cases hx
    cases h
    exact ⟨[], rfl, by simp, .nil⟩
  | cons v vs ih =>
    obtain ⟨x, l, rfl, l1, l2⟩ := attrColumn_cons hx
    obtain ⟨a, g, h1, h2, rfl⟩ := fieldsOf_cons h
    obtain ⟨ks, rfl, i2, i3⟩ := ih h2 l1
    rcases l2 with ⟨-, rfl⟩ | ⟨y, l2, rfl⟩
    · cases h1
    · cases y with
      | text _ => cases h1
      | bits _ => cases h1
      | num k =>
        unfold assocIncrement at h1
        simp only at h1
        split at h1
        · next hc =>
          obtain ⟨c1, c2, c3⟩ := hc
          cases h1
          simp only [Walk.assocFits, decide_eq_true_eq] at c1
          obtain ⟨f1, f2, f3, f4, -⟩ := c1
          obtain ⟨k, rfl⟩ := Int.eq_ofNat_of_zero_le f1
          have hp : 0 < 2 ^ n := Nat.two_pow_pos n
          have hq : 0 < 2 ^ width := Nat.two_pow_pos width
          have e1 : ((2 ^ n - 1 : Nat) : Int) = 2 ^ n - 1 := by
            rw [Nat.cast_sub (by omega)]; simp
          have e2 : ((2 ^ width - 1 : Nat) : Int) = 2 ^ width - 1 := by
            rw [Nat.cast_sub (by omega)]; simp
          refine ⟨k :: ks, ?_, ?_, .cons l2 i3⟩
          · rw [List.flatMap_cons]
            congr 2
            omega
          · intro j hj
            rcases List.mem_cons.mp hj with rfl | hj
            · exact ⟨by omega, by omega, by omega, f3, f4⟩
            · exact i2 j hj
        · cases h1

/-- A number with its associated field shows the attribute. -/
theorem ReadWith.shows {info ainfo : Varinfo} {w v : Var} {k : Nat} {c : List (Nat × Varcode)}
    {pos : Nat} (h : ReadWith info ainfo v.toVarCore.view k w) (hi : v.info = info)
    (hn : ainfo.IsNum) (hk : inInt (k : Int) = true)
    (hs : attrShown v ainfo.code = some (ainfo, some (.num (k : Nat))))
    (hc : ∀ e ∈ c, e.1 < pos) : Shows (c ++ [(pos, ainfo.code)]) pos w v := by
  have e : w = ({ w with attrs := [] } : Var).setaMove (numAttr ainfo k) := by
    obtain ⟨core, attrs⟩ := w
    have := h.attrs
    simp only at this
    subst this
    rfl
  have hp : Shows c pos ({ w with attrs := [] } : Var) v :=
    Shows.plain ⟨h.wf, by simp, by simp⟩ (h.info.trans hi.symm) h.view rfl hc
  rw [e]
  exact hp.attr (a := numAttr ainfo k) (WF_newInt hn hk)
    (by rw [shownOf_view (view_newInt hn _)]; exact hs.symm)

/-- Numbers are read with their associated fields. -/
theorem assoc_column_read (C : Ctx) (hE : IsRounding C.E.fl) {info : Varinfo} (hm : info.Made C.E)
    (hn : info.IsNum) {vs : List Var} (hne : vs ≠ []) (hi : ∀ v ∈ vs, v.info = info)
    (hvw : ∀ v ∈ vs, v.WF) {p p' : Plan} {f g rest : List Bool} {cq : Option Varcode}
    {st : CDecoder.St} (hlen : st.tgt.subsets.length = vs.length)
    (hf : assocColumn C st.associated_field.bit_count st.associated_field.significance vs p = .ok (f, cq))
    (hg : numColumn info (vs.map (·.toVarCore.view)) p' = some g) (hw : st.tgt.input.WF)
    (hrem : st.tgt.input.rem = f ++ (g ++ rest)) (hrest : 8 ≤ rest.length)
    {c : List (Nat × Varcode)} {pos : Nat} (hc : ∀ e ∈ c, e.1 < pos) :
    ∃ ws i', CDecoder.decode_b_value_af C st info = .ok (ws, i') ∧ i'.WF ∧ i'.rem = rest ∧
      List.Forall₂ (Shows (c ++ (cq.map fun q => (pos, q)).toList) pos) ws vs := by
  have e : CDecoder.decode_b_value_af C st info =
      st.tgt.input.decode_compressed_number_af C info st.associated_field st.tgt.subsets.length := by
    unfold CDecoder.decode_b_value_af
    rcases hn with h | h <;> rw [h]
  have hp31 : st.associated_field.bit_count ≤ 31 → 2 ^ st.associated_field.bit_count ≤ 2 ^ 31 :=
    fun h => Nat.pow_le_pow_right (by omega) h
  have hpos : 0 < 2 ^ st.associated_field.bit_count := by positivity
  rw [e]
  cases p with
  | texts _ _ => cases hf
  | same =>
    unfold assocColumn at hf
    simp only at hf
    split at hf
    · next hb =>
      have key : f = missingField st.associated_field.bit_count ++ bits 6 0 →
          (∀ ws, List.Forall₂ (Shows c pos) ws vs →
            List.Forall₂ (Shows (c ++ (cq.map fun q => (pos, q)).toList) pos) ws vs) →
          ∃ ws i', st.tgt.input.decode_compressed_number_af C info st.associated_field
              st.tgt.subsets.length = .ok (ws, i') ∧ i'.WF ∧ i'.rem = rest ∧
            List.Forall₂ (Shows (c ++ (cq.map fun q => (pos, q)).toList) pos) ws vs := by
        rintro rfl hk
        rw [List.append_assoc] at hrem
        have := hp31 hb.2
        obtain ⟨i1, g1, g2, g3, -⟩ := Input.get_bits_ok hw (n := st.associated_field.bit_count)
          (v := 2 ^ st.associated_field.bit_count - 1)
          (by omega) (by omega) (by rw [hrem, bits_ones]; rfl) (by simp; omega)
        obtain ⟨i2, k1, k2, k3, -⟩ := Input.get_bits_ok g2 (n := 6) (v := 0) (by omega) (by omega) g3
          (by rw [List.length_append]; omega)
        have hcol : column info (vs.map (·.toVarCore.view)) p' = some g := by
          unfold column
          rcases hn with h | h <;> (rw [h]; exact hg)
        obtain ⟨ws, i', r1, r2, r3, r4, r5⟩ := column_read C hE (st := CDecoder.setInput st i2) hm hcol
          (held_views C.E (fun v hv => (hvw v hv).core) hi) (by rw [List.length_map]; exact hlen) k2 k3 hrest
        have r1' : i2.decode_compressed_number C.E C.O info st.tgt.subsets.length = .ok (ws, i') := by
          rw [← r1]
          unfold CDecoder.decode_b_value
          rcases hn with h | h <;> (rw [h]; rfl)
        refine ⟨ws, i', ?_, r2, r3, hk ws (shows_plain hc r4 hi r5)⟩
        unfold Input.decode_compressed_number_af
        simp only [g1, Res.ok_bind, k1, Input.all_ones_ok hb.1 (.inl hb.2), if_true]
        exact r1'
      split at hf
      · cases hf
        exact key rfl fun ws h => by simpa using h
      · next q hq =>
        split at hf
        · next ha =>
          cases hf
          refine key rfl fun ws h => ?_
          clear key hrem e hg hlen hne hi hvw
          rw [List.all_eq_true] at ha
          induction h with
          | nil => exact .nil
          | @cons w v ws vs h1 _ ih =>
            refine .cons (h1.missing ?_) (ih fun v hv => ha v (by simp [hv]))
            simpa using ha v (by simp)
        · cases hf
    · cases hf
  | increments base width =>
    unfold assocColumn at hf
    simp only at hf
    split at hf
    · cases hf
    · next q hq =>
      obtain ⟨ainfo, hb, hf'⟩ := Res.bind_eq_ok.mp hf
      clear hf
      rename' hf' => hf
      split at hf
      · cases hf
      · next xs hxs =>
        split at hf
        · cases hf
        · next af haf =>
          split at hf
          · next hcond =>
            obtain ⟨n0, n1, rfl, h21, hbase, hwidth⟩ := hcond
            cases hf
            obtain ⟨ks, rfl, ks2, ks3⟩ := assocIncrements_of haf hxs
            have hp := hp31 n1
            have hna : ainfo.IsNum := by
              cases ks3 with
              | nil => exact absurd rfl hne
              | cons h1 _ =>
                unfold attrShown at h1
                obtain ⟨a, a1, a2⟩ := Option.map_eq_some_iff.mp h1
                simp only [Prod.mk.injEq] at a2
                exact a2.1 ▸ (view_type a2.2).2
            simp only [List.append_assoc] at hrem
            obtain ⟨i1, g1, g2, g3, -⟩ := Input.get_bits_ok hw (n := st.associated_field.bit_count)
              (v := base) (by omega) (by omega) hrem (by simp; omega)
            obtain ⟨i2, k1, k2, k3, -⟩ := Input.get_bits_ok g2 (n := 6) (v := width) (by omega) (by omega)
              g3 (by simp; omega)
            obtain ⟨i3, l1, l2, l3⟩ := AssociatedField.fieldLoop_ok hq h21 hb hna n0 n1 (by omega)
              (base := base) ks2 k2 (rest := g ++ rest) (by simp; omega) k3
            have hkl : ks.length = vs.length := ks3.length_eq.symm
            obtain ⟨ws, i', r1, r2, r3, r4⟩ := numbers_read C hE (ainfo := ainfo) hm hn hg (ks := ks)
              (by rw [List.length_map]; exact hkl) l2 l3 hrest
            refine ⟨ws, i', ?_, r2, r3, ?_⟩
            · unfold Input.decode_compressed_number_af
              rw [hlen, ← hkl]
              simp only [g1, Res.ok_bind, k1, Input.all_ones_ok n0 (.inl n1),
                if_neg (show ¬ base = 2 ^ st.associated_field.bit_count - 1 by omega), l1]
              exact r1
            · clear hrem e hg hlen hne hxs haf hvw g3 k3 l1 l3 r1 hkl
              have hk31 : ∀ k ∈ ks, inInt (k : Int) = true := fun k hk => by
                have := ks2 k hk
                rw [inInt_iff]
                omega
              clear ks2
              induction ks3 generalizing ws with
              | nil => cases r4; exact .nil
              | @cons v k vs ks h1 _ ih =>
                cases r4 with
                | cons q1 q2 =>
                  exact .cons (q1.shows (hi v (by simp)) hna (hk31 k (by simp)) h1 hc)
                    (ih (fun v hv => hi v (by simp [hv])) (ws := _) q2 (fun k hk => hk31 k (by simp [hk])))
          · cases hf

/-- The marks of a bitmap are read back. -/
theorem marks_read {t : List Byte} (ht : ∀ c ∈ t, c = 43 ∨ c = 45) {i : Input} (hi : i.WF)
    {rest : List Bool} (hrem : i.rem = Walks.marks t ++ rest) (hrest : 8 ≤ rest.length) :
    ∃ i', i.decode_compressed_bitmap t.length = .ok (t, i') ∧ i'.WF ∧ i'.rem = rest := by
  induction t generalizing i with
  | nil => exact ⟨i, rfl, hi, by simpa [Walks.marks] using hrem⟩
  | cons b t ih =>
    have hr : i.rem = Spec.bits 1 (if b = 43 then 0 else 1) ++
        (Spec.bits 6 0 ++ (Walks.marks t ++ rest)) := by
      rw [hrem]
      by_cases h43 : b = 43 <;> simp [h43, Spec.bits, Walks.marks]
    obtain ⟨i1, g1, g2, g3, -⟩ := Input.get_bits_ok hi (by omega) (by split <;> omega) hr
      (by simp only [List.length_append]; omega)
    obtain ⟨i2, k1, k2, k3, -⟩ := Input.get_bits_ok g2 (n := 6) (v := 0) (by omega) (by omega) g3
      (by simp only [List.length_append]; omega)
    obtain ⟨i3, e1, e2, e3⟩ := ih (fun c hc => ht c (by simp [hc])) k2 k3
    refine ⟨i3, ?_, e2, e3⟩
    show Input.decode_compressed_bitmap (t.length + 1) i = _
    unfold Input.decode_compressed_bitmap
    rw [g1, Res.ok_bind]
    simp only [k1, e1, Res.ok_bind, Res.pure_def]
    have hb := ht b (by simp)
    by_cases h43 : b = 43
    · simp [h43]
    · simp [hb.resolve_left h43]

/-- The same variable stored in all the subsets. -/
theorem shows_same {c : List (Nat × Varcode)} {pos : Nat} {w : Var} {vs : List Var} (hw : w.WF)
    (ha : w.attrs = []) (hc : ∀ e ∈ c, e.1 < pos)
    (hv : ∀ v ∈ vs, v.info = w.info ∧ v.toVarCore.view = w.toVarCore.view) :
    List.Forall₂ (Shows c pos) (List.replicate vs.length w) vs := by
  induction vs with
  | nil => exact .nil
  | cons v vs ih =>
    obtain ⟨h1, h2⟩ := hv v (by simp)
    exact .cons (Shows.plain hw h1.symm h2.symm ha hc) (ih fun v hv' => hv v (by simp [hv']))

theorem lastOfFirst_ok {t : CDecoder.St} {c : List (Nat × Varcode)} {pos : Nat}
    {cs : List Var} {v : Var} {vs : List Var} (hl : t.tgt.subsets.length = (v :: vs).length)
    (hcs : List.Forall₂ (Shows c pos) cs (v :: vs)) :
    ∃ x, CDecoder.lastOfFirst (CDecoder.storeAll t cs) = .ok x ∧ Shows c pos x v := by
  cases hcs with
  | @cons x _ cs _ h1 _ =>
    refine ⟨x, ?_, h1⟩
    unfold CDecoder.lastOfFirst CDecoder.storeAll
    cases hsub : t.tgt.subsets with
    | nil => rw [hsub] at hl; cases hl
    | cons o os =>
      simp only [List.zipWith_cons_cons, List.getLast?_append_of_ne_nil _ (by simp : [x] ≠ [])]
      rfl

/-- Storing one more variable in each subset keeps the decoder in step. -/
theorem compRel_step {S : List (List Var)} {rest : List Bool} {F : Walks} {s : Interp Walks}
    {t : CDecoder.St} (h : (compRel S rest).R F s t) (f : List Bool) {vs cs : List Var}
    {plan : List Plan} {c : List (Nat × Varcode)} {i' : Input} (hat : At s.tgt.pos S vs) (hi : i'.WF)
    (hw : ∃ w, F.bits = s.tgt.bits ++ f ++ w ∧ i'.rem = w ++ rest)
    (hcs : List.Forall₂ (Shows (s.tgt.carried ++ c) s.tgt.pos) cs vs)
    (hc : ∀ e ∈ c, e.1 = s.tgt.pos) :
    (compRel S rest).R F
      { s with tgt := { s.tgt with
        plan := plan
        pos := s.tgt.pos + 1
        bits := s.tgt.bits ++ f
        carried := s.tgt.carried ++ c } }
      (CDecoder.storeAll (CDecoder.setInput t i') cs) := by
  obtain ⟨h1, q1, q2, q3, q4, q5, q6⟩ := h
  refine ⟨⟨h1.bitmaps, h1.field, h1.meaning, h1.scale, h1.width, h1.increase, h1.string, h1.refs,
    h1.refBits, h1.unknown⟩, q1, hi, hw, q4.step hat hcs hc, ?_, q6⟩
  intro e he
  show e.1 < s.tgt.pos + 1
  rcases List.mem_append.mp he with he | he
  · have := q5 e he
    omega
  · have := hc e he
    omega

theorem compRel_took {S : List (List Var)} {rest : List Bool} {F : Walks} {s : Interp Walks}
    {t : CDecoder.St} (h : (compRel S rest).R F s t) (f : List Bool) {vs cs : List Var}
    {i' : Input} (hat : At s.tgt.pos S vs) (hi : i'.WF)
    (hw : ∃ w, F.bits = s.tgt.bits ++ f ++ w ∧ i'.rem = w ++ rest)
    (hcs : List.Forall₂ (Shows s.tgt.carried s.tgt.pos) cs vs) :
    (compRel S rest).R F (Walks.took s f) (CDecoder.storeAll (CDecoder.setInput t i') cs) := by
  have := compRel_step (c := []) (plan := s.tgt.plan.tail) h f hat hi hw
    (by rw [List.append_nil]; exact hcs) (by simp)
  rw [List.append_nil] at this
  exact this

/-- Reading a column of attributes. -/
theorem quality_column_read (C : Ctx) (hE : IsRounding C.E.fl) {S : List (List Var)}
    (hA : ∀ s ∈ S, SoundAttrs C.E s) {rest : List Bool} (hrest : 8 ≤ rest.length)
    {s s' : Interp Walks} {info : Varinfo} {pos : Nat} (hs : Walks.quality C s info pos = .ok s') :
    (compRel S rest).le s.tgt s'.tgt ∧ ∀ F t, (compRel S rest).le s'.tgt F →
      (compRel S rest).R F s t →
      ∃ t', CDecoder.decode_and_set_attribute C t info pos = .ok t' ∧ (compRel S rest).R F s' t' := by
  obtain ⟨vs, p, plan, xs, f, hat, hx, hf, hp, hm, rfl⟩ := Walks.quality_ok hs
  refine ⟨⟨_, rfl⟩, fun F t hF hr => ?_⟩
  obtain ⟨h1, q1, q2, ⟨w, w1, w2⟩, q4, q5, q6⟩ := hr
  obtain ⟨w', rfl, w3⟩ := walkNext w1 hF
  rw [q1] at hat
  rw [List.append_assoc] at w2
  have hxl : xs.length = vs.length := by
    clear hat hf
    induction vs generalizing xs with
    | nil => cases hx; rfl
    | cons v vs ih =>
      obtain ⟨x, l, rfl, l1, -⟩ := attrColumn_cons hx
      simp [ih _ l1]
  have hlen : t.tgt.subsets.length = xs.length := by
    rw [hxl]
    exact q4.length_eq.trans hat.length_eq
  obtain ⟨ws, i', g1, g2, g3, g4, g5⟩ := column_read C hE hm hf
    (held_attrs C.E hx fun v hv => (hat.attrs hA v hv).1) hlen q2 w2
    (by rw [List.length_append]; omega)
  obtain ⟨outs', o1, o2⟩ := q4.attr hp hat hx g4 g5
  refine ⟨{ t with tgt := ⟨i', outs'⟩ }, ?_, ?_⟩
  · unfold CDecoder.decode_and_set_attribute
    simp only [g1, Res.ok_bind, o1]
    rfl
  · refine ⟨⟨h1.bitmaps, h1.field, h1.meaning, h1.scale, h1.width, h1.increase, h1.string, h1.refs,
      h1.refBits, h1.unknown⟩, q1, g2, ⟨w', w3, g3⟩, o2, ?_, q6⟩
    intro e he
    rcases List.mem_append.mp he with he | he
    · exact q5 e he
    · simp only [List.mem_singleton] at he
      subst he
      exact hp

theorem compSims (C : Ctx) (hE : IsRounding C.E.fl) (S : List (List Var)) (hne : S ≠ [])
    (hS : ∀ s ∈ S, Sound C.E s) (hA : ∀ s ∈ S, SoundAttrs C.E s) (rest : List Bool)
    (hrest : 8 ≤ rest.length) :
    (compRel S rest).Sims (Walks.target C) (CDecoder.target C) where
  raw _ _ := Rel.Sim.err rfl
  refval _ _ := Rel.Sim.err rfl
  attr s info pos := by
    intro s' hs
    exact quality_column_read C hE hA hrest hs
  substituted s pos := by
    intro s' hs
    obtain ⟨v, hv, hq⟩ := Walks.substituted_ok hs
    obtain ⟨h1, h2⟩ := quality_column_read C hE hA hrest hq
    refine ⟨h1, fun F t hF hr => ?_⟩
    obtain ⟨t', e1, e2⟩ := h2 F t hF hr
    refine ⟨t', ?_, e2⟩
    obtain ⟨q1, -, -, q4, -⟩ := hr.tgt
    obtain ⟨-, -, -, -, -, -, -, -, hp, -⟩ := Walks.quality_ok hq
    show CDecoder.define_substituted_value C t pos = _
    unfold CDecoder.define_substituted_value
    rw [q1] at hv
    unfold PartlyAll at q4
    generalize t.tgt.subsets = outs at q4
    cases q4 with
    | nil => exact absurd rfl hne
    | @cons out s0 _ _ k1 _ =>
      have hvp : (s0.take s.tgt.pos)[pos]? = some v := by
        rw [List.getElem?_take_of_lt hp]; exact hv
      obtain ⟨x, x1, x2⟩ := k1.get hvp
      simp only [x1, x2.info]
      exact e1
  element s info := by
    intro s' hs
    obtain ⟨vs, p, f, hn, hf, rfl⟩ := Walks.element_ok hs
    obtain ⟨hat, hinfo⟩ := next_ok hn
    refine ⟨⟨_, rfl⟩, fun F t hF hr => ?_⟩
    obtain ⟨q1, q2, ⟨w, w1, w2⟩, q4, q5, q6⟩ := hr.tgt
    obtain ⟨w', rfl, w3⟩ := walkNext w1 hF
    rw [q1] at hat
    have hv := hat.sound hS
    have hlen : t.tgt.subsets.length = vs.length := q4.length_eq.trans hat.length_eq
    have hm : info.Made C.E := by
      cases vs with
      | nil =>
        cases hat
        exact absurd rfl hne
      | cons v _ =>
        have := (hv v (by simp)).2
        rwa [hinfo v (by simp)] at this
    rw [List.append_assoc] at w2
    obtain ⟨ws, i', g1, g2, g3, g4, g5⟩ := column_read C hE hm hf
      (held_views C.E (fun v h => (hv v h).1) hinfo) (by rw [List.length_map]; exact hlen) q2 w2
      (by rw [List.length_append]; omega)
    obtain ⟨cs, c1, c2⟩ := copyAll_shows (shows_plain q5 g4 hinfo g5)
    refine ⟨_, ?_, compRel_took hr f hat g2 ⟨w', w3, g3⟩ c2⟩
    show CDecoder.define_variable C t info = _
    unfold CDecoder.define_variable CDecoder.storeCopies
    simp only [g1, Res.ok_bind, c1]
    rfl
  associated s info := by
    intro s' hs
    obtain ⟨vs, p, p', plan, f, c, g, hn, hnum, hg, hf, rfl⟩ := Walks.withField_ok hs
    obtain ⟨hat, hinfo⟩ := next_ok hn
    refine ⟨⟨_, rfl⟩, fun F t hF hr => ?_⟩
    obtain ⟨q1, q2, ⟨w, w1, w2⟩, q4, q5, q6⟩ := hr.tgt
    obtain ⟨w', rfl, w3⟩ := walkNext w1 hF
    rw [q1] at hat
    have hv := hat.sound hS
    have hlen : t.tgt.subsets.length = vs.length := q4.length_eq.trans hat.length_eq
    have hvne : vs ≠ [] := by
      rintro rfl
      cases hat
      exact absurd rfl hne
    have hm : info.Made C.E := by
      cases vs with
      | nil => exact absurd rfl hvne
      | cons v _ =>
        have := (hv v (by simp)).2
        rwa [hinfo v (by simp)] at this
    rw [List.append_assoc, List.append_assoc] at w2
    obtain ⟨ws, i', g1, g2, g3, g4⟩ := assoc_column_read C hE hm hnum hvne hinfo
      (fun v hv => (hat.attrs hA v hv).1) hlen
      (by rw [hr.same.field, hr.same.meaning]; exact hf) hg q2 w2 (by rw [List.length_append]; omega) q5
    obtain ⟨cs, c1, c2⟩ := copyAll_shows g4
    refine ⟨_, ?_, compRel_step hr (f ++ g) hat g2 ⟨w', w3, g3⟩ c2 (by cases c <;> simp)⟩
    show CDecoder.define_variable_with_associated_field C t info = _
    unfold CDecoder.define_variable_with_associated_field CDecoder.storeCopies
    simp only [g1, Res.ok_bind, c1]
    rfl
  factor s info := by
    intro n s' hs
    obtain ⟨v, vs, k, f, hn, hk, hf, rfl, rfl⟩ := Walks.factor_ok hs
    obtain ⟨hat, hinfo⟩ := next_ok hn
    refine ⟨⟨_, rfl⟩, fun F t hF hr => ?_⟩
    obtain ⟨q1, q2, ⟨w, w1, w2⟩, q4, q5, q6⟩ := hr.tgt
    obtain ⟨w', rfl, w3⟩ := walkNext w1 hF
    rw [q1] at hat
    have hv0 := hat.sound hS v (by simp)
    have hi0 := hinfo v (by simp)
    have hm : info.Made C.E := hi0 ▸ hv0.2
    have hnum : info.IsNum := hi0 ▸ (view_type hk).2
    have hlen : t.tgt.subsets.length = (v :: vs).length := q4.length_eq.trans hat.length_eq
    rw [List.append_assoc] at w2
    obtain ⟨a, i', g1, g2, g3, g4, g5, g6, g7, g8⟩ := factor_read C hE hm hnum hf q2 w2
      (by rw [List.length_append]; omega)
    have haW : a.WF := ⟨g6, by rw [g5]; simp, by rw [g5]; simp⟩
    obtain ⟨cs, c1, c2⟩ := copyAll_shows (shows_same (vs := v :: vs) haW g5 q5 (by
      intro u hu
      refine ⟨(hinfo u hu).trans g4.symm, ?_⟩
      rw [g7]
      rcases List.mem_cons.mp hu with rfl | hu
      · rfl
      · exact g8 _ (List.mem_map_of_mem hu)))
    obtain ⟨x, x1, x2⟩ := lastOfFirst_ok (t := CDecoder.setInput t i') hlen c2
    refine ⟨_, ?_, compRel_took hr f hat g2 ⟨w', w3, g3⟩ c2⟩
    show CDecoder.define_delayed_replication_factor C t info = _
    unfold CDecoder.define_delayed_replication_factor CDecoder.decode_and_add_to_all
      CDecoder.storeCopies
    rw [← hlen] at c1
    simp only [g1, Res.ok_bind, c1, Res.pure_def, x1]
    rw [enqi_of_view x2.wf.core (x2.view.trans hk)]
    rfl
  significance s info := by
    intro n s' hs
    obtain ⟨v, vs, k, f, hn, hk, hf, rfl, rfl⟩ := Walks.significance_ok hs
    obtain ⟨hat, hinfo⟩ := next_ok hn
    refine ⟨⟨_, rfl⟩, fun F t hF hr => ?_⟩
    obtain ⟨q1, q2, ⟨w, w1, w2⟩, q4, q5, q6⟩ := hr.tgt
    obtain ⟨w', rfl, w3⟩ := walkNext w1 hF
    rw [q1] at hat
    have hv0 := hat.sound hS v (by simp)
    have hi0 := hinfo v (by simp)
    have hm : info.Made C.E := hi0 ▸ hv0.2
    have hnum : info.IsNum := by
      rcases hk with ⟨-, hk, -⟩ | hk
      · exact hk
      · exact hi0 ▸ (view_type hk).2
    have hlen : t.tgt.subsets.length = (v :: vs).length := q4.length_eq.trans hat.length_eq
    rw [List.append_assoc] at w2
    obtain ⟨a, i', g1, g2, g3, g4, g5, g6, g7, g8⟩ := factor_read C hE hm hnum hf q2 w2
      (by rw [List.length_append]; omega)
    have haW : a.WF := ⟨g6, by rw [g5]; simp, by rw [g5]; simp⟩
    obtain ⟨cs, c1, c2⟩ := copyAll_shows (shows_same (vs := v :: vs) haW g5 q5 (by
      intro u hu
      refine ⟨(hinfo u hu).trans g4.symm, ?_⟩
      rw [g7]
      rcases List.mem_cons.mp hu with rfl | hu
      · rfl
      · exact g8 _ (List.mem_map_of_mem hu)))
    obtain ⟨x, x1, x2⟩ := lastOfFirst_ok (t := CDecoder.setInput t i') hlen c2
    refine ⟨_, ?_, compRel_took hr f hat g2 ⟨w', w3, g3⟩ c2⟩
    show CDecoder.define_associated_field_significance C t info = _
    unfold CDecoder.define_associated_field_significance CDecoder.decode_and_add_to_all
      CDecoder.storeCopies
    rw [← hlen] at c1
    simp only [g1, Res.ok_bind, c1, Res.pure_def, x1]
    have h63 : x.toVarCore.view = none ∧ k = 63 ∨ x.toVarCore.view = some (.num k) := by
      rw [x2.view]
      rcases hk with ⟨h1, -, h2⟩ | h
      · exact .inl ⟨h1, h2⟩
      · exact .inr h
    rw [enq63_of_view x2.wf.core h63]
    rfl
  bitmapFactor s info := by
    intro n s' hs
    obtain ⟨hnum, hm, h31, f, hf, rfl⟩ := Walks.bitmapFactor_ok hs
    refine ⟨⟨_, rfl⟩, fun F t hF hr => ?_⟩
    obtain ⟨h1, q1, q2, ⟨w, w1, w2⟩, q4, q5, q6⟩ := hr
    obtain ⟨w', rfl, w3⟩ := walkNext w1 hF
    rw [List.append_assoc] at w2
    obtain ⟨a, i', g1, g2, g3, g4, g5, g6, g7, -⟩ := factor_read C hE hm hnum hf q2 w2
      (by rw [List.length_append]; omega)
    refine ⟨CDecoder.setInput t i', ?_, ⟨⟨h1.bitmaps, h1.field, h1.meaning, h1.scale, h1.width,
      h1.increase, h1.string, h1.refs, h1.refBits, h1.unknown⟩, q1, g2, ⟨w', w3, g3⟩, ?_, ?_, q6⟩⟩
    · show CDecoder.define_bitmap_delayed_replication_factor C t info = _
      unfold CDecoder.define_bitmap_delayed_replication_factor
      have hu : toU32 (n : Int) = n := by
        rw [toU32_toNat (by omega) (by omega)]
        rfl
      simp only [g1, Res.ok_bind, enqi_of_view g6 g7, hu]
      rfl
    · show PartlyAll (s.tgt.carried ++ []) _ _ _
      rw [List.append_nil]
      exact q4
    · show ∀ e ∈ s.tgt.carried ++ [], _
      rw [List.append_nil]
      exact q5
  bitmap s size := by
    intro s' hs
    obtain ⟨v, vs, x, hat, hx, hsm, hF2, hl, hlx, h1, h43, he, hk, rfl⟩ := Walks.bitmap_ok hs
    refine ⟨⟨_, rfl⟩, fun F t hF hr => ?_⟩
    obtain ⟨hsame, q1, q2, ⟨w, w1, w2⟩, q4, q5, q6⟩ := hr
    obtain ⟨w', rfl, w3⟩ := walkNext w1 hF
    rw [q1] at hat
    have hv := hat.sound hS v (by simp)
    have hlen : t.tgt.subsets.length = (v :: vs).length := q4.length_eq.trans hat.length_eq
    rw [List.append_assoc] at w2
    obtain ⟨-, hnul, -, -⟩ := enqc_of_view (E := C.E) hv.1 hx
    obtain ⟨i', g1, g2, g3⟩ := marks_read h43 q2 w2 (by rw [List.length_append]; omega)
    rw [hlx] at g1
    rw [← q6] at hk
    have hgb := get_bitmap_ok hk
    obtain ⟨u, u1, u2, u3, u4, u5⟩ := newStr_ok C.O (view_type hx).2 hnul (by omega)
    obtain ⟨cs, c1, c2⟩ := copyAll_shows (shows_same (vs := v :: vs) u2 u5 q5 (by
      intro y hy
      rw [u3, u4, ← hx]
      rcases List.mem_cons.mp hy with rfl | hy
      · exact ⟨rfl, rfl⟩
      · exact hsm y hy))
    obtain ⟨y, y1, y2⟩ := lastOfFirst_ok (t := CDecoder.setInput { t with caches :=
      { t.caches with bitmap_table := (Walks.marked s x v.info).tgt.seen } } i') hlen c2
    have hstep := q4.step (c' := []) hat (by rw [List.append_nil]; exact c2) (by simp)
    rw [List.append_nil] at hstep
    -- the codes of the first subset
    obtain ⟨s0, ss, rfl⟩ := List.exists_cons_of_ne_nil hne
    have hcodes : ((List.zipWith (fun s v => s ++ [v]) t.tgt.subsets cs).headD []).map (·.code) =
          Walks.codes s ∧
        ((List.zipWith (fun s v => s ++ [v]) t.tgt.subsets cs).headD []).length = s.tgt.pos + 1 := by
      unfold Walks.codes
      rw [q1]
      unfold PartlyAll at hstep
      generalize List.zipWith (fun s v => s ++ [v]) t.tgt.subsets cs = z at hstep
      cases hstep with
      | cons k1 _ =>
        refine ⟨k1.codes, ?_⟩
        simp only [List.headD_cons]
        rw [k1.1, List.length_take]
        cases hat with
        | cons n1 _ =>
          by_contra hx
          rw [List.getElem?_eq_none (by omega)] at n1
          cases n1
    have hd := define_ok (E := C.E) (bs := s.bitmaps) (codes := Walks.codes s)
      (anchor := s.tgt.pos + 1) y2.wf.core (y2.view.trans hx) (by rw [y2.info]; omega) (by omega)
      (by rw [← hcodes.1, List.length_map, hcodes.2]) (by omega)
    refine ⟨{ t with
      bitmaps := (Walks.marked s x v.info).bitmaps
      caches := { t.caches with bitmap_table := (Walks.marked s x v.info).tgt.seen }
      tgt := ⟨i', List.zipWith (fun s v => s ++ [v]) t.tgt.subsets cs⟩ }, ?_, ?_⟩
    · show CDecoder.define_bitmap C t size = _
      unfold CDecoder.define_bitmap CDecoder.storeCopies
      rw [g1, Res.ok_bind]
      rw [← hlen] at c1
      simp only [hsame.bitmaps, hgb, Res.ok_bind, u1, c1, Res.pure_def]
      rw [q6]
      have y1' := y1
      unfold Walks.marked at y1'
      simp only [hsame.bitmaps] at y1'
      rw [y1']
      simp only [Res.ok_bind, CDecoder.storeAll, CDecoder.setInput, hcodes.1, hcodes.2, hd]
      rfl
    · refine ⟨⟨rfl, hsame.field, hsame.meaning, hsame.scale, hsame.width, hsame.increase,
        hsame.string, hsame.refs, hsame.refBits, hsame.unknown⟩, q1, g2, ⟨w', w3, g3⟩, hstep, ?_, rfl⟩
      intro e he
      have := q5 e he
      show e.1 < s.tgt.pos + 1
      omega

end Wreport
