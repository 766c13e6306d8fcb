import Verif.Lemmas.CompressedSim
import Verif.Spec.Reread

/-!
# Data that can be written back
-/

namespace Wreport

open Spec

/-! ## Fields -/

theorem fits_congr {v w : VarCore} (hi : w.info = v.info) (hv : w.view = v.view) :
    fits w = fits v ∧ fieldOf w = fieldOf v := by
  unfold fits fieldOf
  rw [hi, hv]
  exact ⟨rfl, rfl⟩

/-- Bits that can be written back are the field of a value that fits. -/
theorem ownField_ok {info : Varinfo} {f : List Bool} (h : ownField info f = true) :
    ∃ v : VarCore, v.WF ∧ v.info = info ∧ fits v = true ∧ fieldOf v = f := by
  unfold ownField at h
  rw [Bool.or_eq_true] at h
  rcases h with h | h
  · rw [Bool.and_eq_true, decide_eq_true_eq] at h
    refine ⟨(Var.new info).toVarCore, WF_new _, rfl, ?_, ?_⟩
    · unfold fits
      rw [view_unset rfl]
      exact h.1
    · unfold fieldOf
      rw [view_unset rfl]
      exact h.2.symm
  · have hnum : ∀ (_ : info.IsNum) (_ : ((numFits info ((ofBits f : Int) + info.bit_ref) ||
          factorFits info ((ofBits f : Int) + info.bit_ref)) &&
          inInt ((ofBits f : Int) + info.bit_ref) && decide (f.length = info.bit_len)) = true),
        ∃ v : VarCore, v.WF ∧ v.info = info ∧ fits v = true ∧ fieldOf v = f := by
      intro hn h
      rw [Bool.and_eq_true, Bool.and_eq_true, decide_eq_true_eq] at h
      obtain ⟨⟨h1, h2⟩, h3⟩ := h
      obtain ⟨f1, f2⟩ := fits_newInt hn h1
      refine ⟨_, WF_newInt hn h2, rfl, f1, ?_⟩
      rw [f2, show ((ofBits f : Int) + info.bit_ref - info.bit_ref).toNat = ofBits f by omega, ← h3,
        bits_ofBits]
    split at h
    · next ht => exact hnum (.inl ht) h
    · next ht => exact hnum (.inr ht) h
    · next ht =>
      rw [List.any_eq_true] at h
      obtain ⟨n, -, h⟩ := h
      simp only [Bool.and_eq_true, decide_eq_true_eq, List.all_eq_true, bne_iff_ne] at h
      obtain ⟨⟨⟨h1, h2⟩, h3⟩, h4⟩ := h
      have hcs := cstr_c_str ((chunks f).take n)
        (List.replicate (info.len - ((chunks f).take n).length) none) h2
      have hv : (VarCore.mk info true (.mem (c_str ((chunks f).take n) ++
          List.replicate (info.len - ((chunks f).take n).length) none))).view =
          some (.text ((chunks f).take n)) := by
        unfold VarCore.view
        simp only [ht, hcs]
        rfl
      refine ⟨⟨info, true, .mem (c_str ((chunks f).take n) ++
        List.replicate (info.len - ((chunks f).take n).length) none)⟩, ?_, rfl, ?_, ?_⟩
      · unfold VarCore.WF
        simp only [ht]
        refine .inr ⟨_, rfl, ?_, fun _ => ⟨_, hcs⟩⟩
        simp only [c_str, toMem, List.length_append, List.length_map, List.length_replicate,
          List.length_singleton]
        omega
      · unfold fits
        rw [hv]
        exact h1
      · unfold fieldOf
        rw [hv]
        exact h4.symm
    · next ht =>
      simp only [Bool.and_eq_true, decide_eq_true_eq] at h
      obtain ⟨⟨h1, h2⟩, h3⟩ := h
      have htake : (toMem (chunks f) ++ [some 0]).take info.len = toMem (chunks f) := by
        rw [List.take_left']
        simp [toMem, h2]
      have hv : (VarCore.mk info true (.mem (toMem (chunks f) ++ [some 0]))).view =
          some (.bits (chunks f)) := by
        unfold VarCore.view
        simp only [ht, htake]
        simp [toMem, List.map_map, Function.comp_def]
      refine ⟨⟨info, true, .mem (toMem (chunks f) ++ [some 0])⟩, ?_, rfl, ?_, ?_⟩
      · unfold VarCore.WF
        simp only [ht]
        refine .inr ⟨_, rfl, ?_, fun _ => ?_⟩
        · simp [toMem, h2]
        · rw [htake]
          simp [toMem]
      · unfold fits
        rw [hv]
        exact h1
      · unfold fieldOf
        rw [hv]
        exact h3.symm

/-- A clean field is read as a value that fits and has that field. -/
theorem clean_read (C : Ctx) (hE : IsRounding C.E.fl) {i : Input} (hi : i.WF) {info : Varinfo}
    (h : clean C.E info i.rem = true) :
    info.Made C.E ∧ ∃ v i', Decoder.decode_uniform_b_value C i info = .ok (v, i') ∧ i'.WF ∧
      i.rem = fieldOf v.toVarCore ++ i'.rem ∧ v.info = info ∧ v.WF ∧
      fits v.toVarCore = true ∧ v.attrs = [] := by
  unfold clean at h
  simp only [Bool.and_eq_true, decide_eq_true_eq] at h
  obtain ⟨⟨h1, h2⟩, h3⟩ := h
  have hm := asMade_made h1
  obtain ⟨v, v1, rfl, v3, v4⟩ := ownField_ok h2
  have hrem : i.rem = fieldOf v ++ i.rem.drop v.info.bit_len := by
    rw [v4, List.take_append_drop]
  obtain ⟨v', i', g1, g2, g3, g4, g5, g6, g7⟩ := field_read C hE hi v1 hm v3 hrem h3
  obtain ⟨k1, k2⟩ := fits_congr g4 g6
  exact ⟨hm, v', i', g1, g2, by rw [k2, g3]; exact hrem, g4, g5, by rw [k1]; exact v3, g7⟩

theorem attrShown_none {v : Var} (h : v.attrs = []) (code : Varcode) : attrShown v code = none := by
  unfold attrShown attrOf
  rw [h]
  rfl

/-- A clean associated field is read as an attribute that is written as that field. -/
theorem cleanField_read (C : Ctx) {n m : Nat} {f : List Bool} (h : cleanField C n m f = true)
    {i : Input} (hi : i.WF) {rest : List Bool} (hrem : i.rem = f ++ rest) (hrest : 8 ≤ rest.length)
    {af : AssociatedField} (hn : af.bit_count = n) (hm : af.significance = m) :
    ∃ value i' a, i.get_bits n = .ok (value, i') ∧ i'.WF ∧ i'.rem = rest ∧
      af.make_attribute C.E C.O C.btable value = .ok a ∧
      ∀ x : Var, x.WF → x.attrs = [] → (withAttr x a).WF ∧
        (withAttr x a).toVarCore = x.toVarCore ∧
        (∀ y ∈ (withAttr x a).attrs, y.info.Made C.E) ∧
        (∀ code, attrShown (withAttr x a) code ≠ none → qualityCode m = some code) ∧
        ∀ w : Var, (∀ q, qualityCode m = some q → attrShown w q = attrShown (withAttr x a) q) →
          Walk.assocField C n m w = .ok (f, qualityCode m) := by
  unfold cleanField at h
  rw [Bool.and_eq_true, decide_eq_true_eq] at h
  obtain ⟨⟨n0, n1, hfl⟩, h⟩ := h
  have hpos : 0 < 2 ^ n := Nat.two_pow_pos n
  have hones : missingField n = bits n (2 ^ n - 1) := (bits_ones n).symm
  cases hq : qualityCode m with
  | none =>
    rw [hq] at h
    simp only [decide_eq_true_eq] at h
    obtain ⟨m1, m2, rfl⟩ := h
    rw [hones] at hrem
    obtain ⟨i', g1, g2, g3, -⟩ := Input.get_bits_ok hi (by omega) (by omega) hrem hrest
    refine ⟨_, i', none, g1, g2, g3, ?_, fun x hx ha => ⟨hx, rfl, ?_, ?_, fun w _ => ?_⟩⟩
    · obtain ⟨k1, k2, k3, k4, k5, k6⟩ := qualityCode_none hq
      unfold AssociatedField.make_attribute
      rw [hn, Input.all_ones_ok n0 (.inl n1), Res.ok_bind, hm]
      simp [k1, k2, k3, k4, k5, k6, m1, m2]
    · intro y hy
      simp only [withAttr, ha] at hy
      cases hy
    · intro code hc
      exact absurd (attrShown_none ha code) hc
    · unfold Walk.assocField
      simp only [hq]
      rw [if_pos ⟨n0, n1, m1, m2⟩]
  | some q =>
    rw [hq] at h
    cases hb : C.btable.query q with
    | err e => simp only [hb] at h; cases h
    | ub => simp only [hb] at h; cases h
    | ok info =>
      simp only [hb, Bool.and_eq_true, decide_eq_true_eq, Bool.or_eq_true] at h
      obtain ⟨⟨⟨rfl, hnum⟩, hmade⟩, h⟩ := h
      have hmd := asMade_made hmade
      rcases h with ⟨h21, rfl⟩ | hf
      · rw [hones] at hrem
        obtain ⟨i', g1, g2, g3, -⟩ := Input.get_bits_ok hi (by omega) (by omega) hrem hrest
        have hmk := AssociatedField.make_attribute_missing (E := C.E) (O := C.O) (f := af)
          (by rw [hm]; exact hq) (by rw [hm]; exact h21) hb (by omega) (by omega)
        rw [hn] at hmk
        have hfield : ∀ w : Var, attrShown w info.code = none →
            Walk.assocField C n m w = .ok (missingField n, some info.code) := by
          intro w hw
          unfold Walk.assocField
          simp only [hq, hb, Res.ok_bind, hw]
          rw [if_pos ⟨n0, n1, trivial, h21⟩]
        rcases hmk with hmk | hmk
        · refine ⟨_, i', none, g1, g2, g3, hmk, fun x hx ha => ⟨hx, rfl, ?_, ?_, fun w hw => ?_⟩⟩
          · intro y hy
            simp only [withAttr, ha] at hy
            cases hy
          · intro code hc
            exact absurd (attrShown_none ha code) hc
          · exact hfield w (by rw [hw _ rfl]; exact attrShown_none ha _)
        · have hsh : ∀ x : Var, x.WF → x.attrs = [] → ∀ code,
              attrShown (x.setaMove (Var.new info)) code = none := by
            intro x hx ha code
            rw [attrShown_setaMove hx (WF_new _), attrShown_none ha]
            split
            · unfold shownOf; rfl
            · rfl
          refine ⟨_, i', _, g1, g2, g3, hmk, fun x hx ha => ⟨WF_setaMove hx (WF_new _), rfl, ?_, ?_,
            fun w hw => ?_⟩⟩
          · intro y hy
            rcases setaList_mem hy with rfl | hy
            · exact hmd
            · rw [ha] at hy; cases hy
          · intro code hc
            exact absurd (hsh x hx ha code) hc
          · exact hfield w (by rw [hw _ rfl]; exact hsh x hx ha _)
      · have hf' := hf
        simp only [Walk.assocFits, decide_eq_true_eq] at hf'
        obtain ⟨f1, f2, f3, f4, f5⟩ := hf'
        have hkn : ofBits f < 2 ^ n - 1 := by
          have : ((2 ^ n - 1 : Nat) : Int) = 2 ^ n - 1 := by
            rw [Nat.cast_sub (by omega)]; simp
          omega
        have hp31 : 2 ^ n ≤ 2 ^ 31 := Nat.pow_le_pow_right (by omega) n1
        have hfb : f = bits n (ofBits f) := by rw [← hfl, bits_ofBits]
        have hrem' : i.rem = bits n (ofBits f) ++ rest := by rw [← hfb]; exact hrem
        obtain ⟨i', g1, g2, g3, -⟩ := Input.get_bits_ok hi (by omega) (by omega) hrem' hrest
        have hk : inInt (ofBits f : Int) = true := by rw [inInt_iff]; omega
        have hmk : af.make_attribute C.E C.O C.btable (ofBits f) =
            .ok (some ((Var.new info).putInt (ofBits f))) := by
          by_cases h21 : m = 21
          · have hk0 := f5 h21
            have hz : ofBits f = 0 := by omega
            rw [hz] at f3 f4 ⊢
            have hfa := AssociatedField.fieldAttr_ok (O := C.O) hb hnum (by omega : 0 < 2 ^ 31)
              ⟨f3, f4⟩
            have hq41 : info.code = WR_VAR 0 33 41 := by
              rw [h21] at hq
              exact (Option.some.inj (hq : some (WR_VAR 0 33 41) = some info.code)).symm
            rw [hq41] at hfa
            unfold AssociatedField.make_attribute
            rw [hn, Input.all_ones_ok n0 (.inl n1), Res.ok_bind, hm, h21]
            have hmiss : decide (0 = 2 ^ n - 1) = false := decide_eq_false (by omega)
            simp only [hmiss]
            simp
            exact hfa
          · exact AssociatedField.make_attribute_value (by rw [hm]; exact hq) (by rw [hm]; exact h21)
              hb hnum (by omega) (by omega) (by rw [hn]; exact hkn) ⟨f3, f4⟩
        have hsh : ∀ x : Var, x.WF → x.attrs = [] → ∀ code,
            attrShown (x.setaMove ((Var.new info).putInt (ofBits f))) code =
              if info.code = code then some (info, some (.num (ofBits f))) else none := by
          intro x hx ha code
          rw [attrShown_setaMove hx (WF_newInt hnum hk), attrShown_none ha,
            shownOf_view (view_newInt hnum _)]
          rfl
        refine ⟨_, i', _, g1, g2, g3, hmk, fun x hx ha => ⟨WF_setaMove hx (WF_newInt hnum hk), rfl, ?_, ?_,
          fun w hw => ?_⟩⟩
        · intro y hy
          rcases setaList_mem hy with rfl | hy
          · exact hmd
          · rw [ha] at hy; cases hy
        · intro code hc
          have := hsh x hx ha code
          by_cases he : info.code = code
          · rw [he]
          · rw [if_neg he] at this
            exact absurd this hc
        · have hw' := hw _ rfl
          rw [show withAttr x (some ((Var.new info).putInt (ofBits f))) =
            x.setaMove ((Var.new info).putInt (ofBits f)) from rfl, hsh x hx ha, if_pos rfl] at hw'
          unfold Walk.assocField
          simp only [hq, hb, Res.ok_bind, hw']
          rw [if_pos ⟨n0, n1, trivial, trivial, hf⟩, Int.toNat_natCast, ← hfb]

/-! ## The watching decoder and the walk -/

/-- What was read is as the library makes it, and its attributes are those read. -/
structure Spec.Watching.Inv (E : Env) (a : Watching) : Prop where
  input : a.dec.input.WF
  sound : ∀ v ∈ a.dec.out, v.WF ∧ v.info.Made E ∧ ∀ x ∈ v.attrs, x.info.Made E
  shown : ∀ p v code, a.dec.out[p]? = some v → attrShown v code ≠ none → (p, code) ∈ a.carried
  before : ∀ e ∈ a.carried, e.1 < a.dec.out.length

/-- Reading goes on: bits are taken, variables keep descriptor, value and the attributes
read so far, and a bitmap that was announced has come. -/
structure Spec.Watching.Grows (a b : Watching) : Prop where
  bits : ∃ f, a.dec.input.rem = f ++ b.dec.input.rem
  vars : ∀ p v, a.dec.out[p]? = some v → ∃ w, b.dec.out[p]? = some w ∧ w.info = v.info ∧
    w.toVarCore.view = v.toVarCore.view ∧
    ∀ code, (p, code) ∈ a.carried → attrShown w code = attrShown v code
  carried : ∀ e ∈ a.carried, e ∈ b.carried
  due : a = b ∨ ∀ n, a.due = some n → ∃ w, b.dec.out[a.dec.out.length]? = some w ∧ w.info.len = n

theorem Spec.Watching.Grows.refl (a : Watching) : Grows a a :=
  ⟨⟨[], rfl⟩, fun _ v h => ⟨v, h, rfl, rfl, fun _ _ => rfl⟩, fun _ h => h, .inl rfl⟩

theorem Spec.Watching.Grows.trans {a b c : Watching} (h : Grows a b) (h' : Grows b c) : Grows a c := by
  obtain ⟨f, hf⟩ := h.bits
  obtain ⟨g, hg⟩ := h'.bits
  refine ⟨⟨f ++ g, by rw [hf, hg, List.append_assoc]⟩, fun p v hv => ?_,
    fun e he => h'.carried e (h.carried e he), ?_⟩
  · obtain ⟨w, w1, w2, w3, w4⟩ := h.vars p v hv
    obtain ⟨u, u1, u2, u3, u4⟩ := h'.vars p w w1
    exact ⟨u, u1, u2.trans w2, u3.trans w3, fun code hc =>
      (u4 code (h.carried _ hc)).trans (w4 code hc)⟩
  · rcases h.due with rfl | hd
    · exact h'.due
    · refine .inr fun n hn => ?_
      obtain ⟨w, w1, w2⟩ := hd n hn
      obtain ⟨u, u1, u2, -⟩ := h'.vars _ w w1
      exact ⟨u, u1, by rw [u2, w2]⟩

/-- The walk goes through the variables that are read in the end; its fields are the
bits read. -/
def reRel (E : Env) (all : List Bool) : Rel Watching Walk where
  le a b := Watching.Inv E a → Watching.Inv E b ∧ Watching.Grows a b
  refl a h := ⟨h, .refl a⟩
  trans _ _ _ h h' ha := ⟨(h' (h ha).1).1, (h ha).2.trans (h' (h ha).1).2⟩
  Q F a b c _ _ _ := Watching.Inv E a ∧ F.due = none ∧ b.subset = F.dec.out ∧
    b.pos = a.dec.out.length ∧ all = b.bits ++ a.dec.input.rem ∧ b.carried = a.carried ∧
    b.seen = c.bitmap_table
  stable _ _ _ _ _ _ _ _ _ h := h

/-- After a variable was read. -/
def Spec.Watching.pushed (a : Watching) (i : Input) (x : Var) (c : List (Nat × Varcode)) : Watching :=
  ⟨⟨i, a.dec.out ++ [x]⟩, a.carried ++ c, none⟩

theorem Spec.Watching.pushed_ok {E : Env} {a : Watching} (h : a.Inv E) {i : Input} (hi : i.WF) {f : List Bool}
    (hf : a.dec.input.rem = f ++ i.rem) {x : Var}
    (hx : x.WF ∧ x.info.Made E ∧ ∀ y ∈ x.attrs, y.info.Made E) {c : List (Nat × Varcode)}
    (hc : ∀ e ∈ c, e.1 = a.dec.out.length)
    (hs : ∀ code, attrShown x code ≠ none → (a.dec.out.length, code) ∈ c)
    (hd : ∀ n, a.due = some n → x.info.len = n) :
    (a.pushed i x c).Inv E ∧ Grows a (a.pushed i x c) := by
  have hout : (a.pushed i x c).dec.out = a.dec.out ++ [x] := rfl
  refine ⟨⟨hi, ?_, ?_, ?_⟩, ⟨f, hf⟩, ?_, ?_, ?_⟩
  · intro v hv
    rw [hout, List.mem_append, List.mem_singleton] at hv
    rcases hv with hv | rfl
    · exact h.sound v hv
    · exact hx
  · intro p v code hp hv
    show (p, code) ∈ a.carried ++ c
    rw [hout] at hp
    rw [List.mem_append]
    by_cases hlt : p < a.dec.out.length
    · rw [List.getElem?_append_left hlt] at hp
      exact .inl (h.shown p v code hp hv)
    · rw [List.getElem?_append_right (by omega)] at hp
      have hz : p - a.dec.out.length = 0 := by
        by_contra hz
        rw [List.getElem?_eq_none (by simp only [List.length_singleton]; omega)] at hp
        cases hp
      rw [hz] at hp
      simp only [List.getElem?_cons_zero, Option.some.injEq] at hp
      subst hp
      have : p = a.dec.out.length := by omega
      subst this
      exact .inr (hs code hv)
  · intro e he
    rw [hout, List.length_append, List.length_singleton]
    rcases List.mem_append.mp he with he | he
    · have := h.before e he
      omega
    · rw [hc e he]
      omega
  · intro p v hv
    have hlt : p < a.dec.out.length := by
      by_contra hlt
      rw [List.getElem?_eq_none (by omega)] at hv
      cases hv
    exact ⟨v, by rw [hout, List.getElem?_append_left hlt]; exact hv, rfl, rfl, fun _ _ => rfl⟩
  · intro e he
    exact List.mem_append_left _ he
  · refine .inr fun n hn => ⟨x, ?_, hd n hn⟩
    rw [hout, List.getElem?_append_right (by omega)]
    simp

/-- The variable just read, as it is in the end. -/
theorem Spec.Watching.pushed_next {E : Env} {a F : Watching} {i : Input} {x : Var} {c : List (Nat × Varcode)}
    (hI : (a.pushed i x c).Inv E)
    (h : (a.pushed i x c).Inv E → F.Inv E ∧ Grows (a.pushed i x c) F) :
    ∃ w, F.dec.out[a.dec.out.length]? = some w ∧ w.info = x.info ∧
      w.toVarCore.view = x.toVarCore.view ∧
      ∀ code, (a.dec.out.length, code) ∈ c → attrShown w code = attrShown x code := by
  obtain ⟨w, w1, w2, w3, w4⟩ := (h hI).2.vars a.dec.out.length x (by simp [Watching.pushed])
  exact ⟨w, w1, w2, w3, fun code hc => w4 code (List.mem_append_right _ hc)⟩

/-- After bits were read that belong to no variable of their own. -/
theorem Spec.Watching.due_ok {E : Env} {a : Watching} (h : a.Inv E) {i : Input} (hi : i.WF) {f : List Bool}
    (hf : a.dec.input.rem = f ++ i.rem) (hd : a.due = none) (due : Option Nat) :
    Watching.Inv E ⟨⟨i, a.dec.out⟩, a.carried, due⟩ ∧ Grows a ⟨⟨i, a.dec.out⟩, a.carried, due⟩ :=
  ⟨⟨hi, h.sound, h.shown, h.before⟩, ⟨f, hf⟩, fun _ v hv => ⟨v, hv, rfl, rfl, fun _ _ => rfl⟩,
    fun _ he => he, .inr fun n hn => by rw [hd] at hn; cases hn⟩

/-- After an attribute was read for the variable at a position. -/
theorem Spec.Watching.set_ok {E : Env} {a : Watching} (h : a.Inv E) {i : Input} (hi : i.WF) {f : List Bool}
    (hf : a.dec.input.rem = f ++ i.rem) (hd : a.due = none) {pos : Nat} {code : Varcode} {v x : Var}
    (hv : a.dec.out[pos]? = some v) (hn : (pos, code) ∉ a.carried)
    (hx : x.WF ∧ x.info.Made E ∧ ∀ y ∈ x.attrs, y.info.Made E) (hi' : x.info = v.info)
    (hview : x.toVarCore.view = v.toVarCore.view)
    (ha : ∀ q, q ≠ code → attrShown x q = attrShown v q) :
    Watching.Inv E ⟨⟨i, a.dec.out.set pos x⟩, a.carried ++ [(pos, code)], none⟩ ∧
      Grows a ⟨⟨i, a.dec.out.set pos x⟩, a.carried ++ [(pos, code)], none⟩ := by
  have hlt : pos < a.dec.out.length := by
    by_contra hlt
    rw [List.getElem?_eq_none (by omega)] at hv
    cases hv
  have hself : (a.dec.out.set pos x)[pos]? = some x := by
    rw [List.getElem?_set_self hlt]
  refine ⟨⟨hi, ?_, ?_, ?_⟩, ⟨f, hf⟩, ?_, ?_, ?_⟩
  · intro y hy
    rcases List.mem_or_eq_of_mem_set hy with hy | rfl
    · exact h.sound y hy
    · exact hx
  · intro p y q hp hy
    show (p, q) ∈ a.carried ++ [(pos, code)]
    simp only at hp
    rw [List.mem_append]
    by_cases he : p = pos
    · subst he
      rw [hself] at hp
      cases hp
      by_cases hq : q = code
      · subst hq
        exact .inr (by simp)
      · rw [ha q hq] at hy
        exact .inl (h.shown p v q hv hy)
    · rw [List.getElem?_set_ne (Ne.symm he)] at hp
      exact .inl (h.shown p y q hp hy)
  · intro e he
    show e.1 < (a.dec.out.set pos x).length
    rw [List.length_set]
    rcases List.mem_append.mp he with he | he
    · exact h.before e he
    · rw [List.mem_singleton] at he
      subst he
      exact hlt
  · intro p y hy
    by_cases he : p = pos
    · subst he
      rw [hv] at hy
      cases hy
      refine ⟨x, hself, hi', hview, fun q hq => ha q ?_⟩
      rintro rfl
      exact hn hq
    · exact ⟨y, by rw [List.getElem?_set_ne (Ne.symm he)]; exact hy, rfl, rfl, fun _ _ => rfl⟩
  · intro e he
    exact List.mem_append_left _ he
  · exact .inr fun n hn => by rw [hd] at hn; cases hn

/-- The walk stays in step over a variable. -/
theorem reRel_took {E : Env} {all : List Bool} {F : Watching} {s : Watching.St} {t : Interp Walk}
    (hr : (reRel E all).R F s t) {f : List Bool} {i : Input} {x : Var} {c : List (Nat × Varcode)}
    (hI : (s.tgt.pushed i x c).Inv E) (hf : s.tgt.dec.input.rem = f ++ i.rem)
    {b : TableCaches} (hb : b.bitmap_table = s.caches.bitmap_table)
    (hu : b.unknown_table = s.caches.unknown_table) :
    (reRel E all).R F { s with caches := b, tgt := s.tgt.pushed i x c }
      { t with tgt := { t.tgt with
          pos := t.tgt.pos + 1, bits := t.tgt.bits ++ f, carried := t.tgt.carried ++ c } } := by
  obtain ⟨h1, q1, q2, q3, q4, q5, q6, q7⟩ := hr
  refine ⟨⟨h1.bitmaps, h1.field, h1.meaning, h1.scale, h1.width, h1.increase, h1.string, h1.refs,
    h1.refBits, h1.unknown.trans hu.symm⟩, hI, q2, q3, ?_, ?_, ?_, q7.trans hb.symm⟩
  · show t.tgt.pos + 1 = (s.tgt.dec.out ++ [x]).length
    rw [List.length_append, q4]
    rfl
  · show all = (t.tgt.bits ++ f) ++ i.rem
    rw [q5, hf, List.append_assoc]
  · show t.tgt.carried ++ c = s.tgt.carried ++ c
    rw [q6]

/-- An element that is accepted. -/
theorem Spec.Watching.element_read (C : Ctx) (hE : IsRounding C.E.fl) {s s' : Watching.St}
    {info : Varinfo} (hI : s.tgt.Inv C.E) (h : Watching.element C s info = .ok s') :
    ∃ x i, s' = { s with tgt := s.tgt.pushed i x [] } ∧ i.WF ∧
      s.tgt.dec.input.rem = fieldOf x.toVarCore ++ i.rem ∧ x.info = info ∧
      fits x.toVarCore = true ∧ (s.tgt.pushed i x []).Inv C.E ∧ Grows s.tgt (s.tgt.pushed i x []) := by
  unfold Watching.element at h
  split at h
  · next hc =>
    obtain ⟨hm, v, i, g1, g2, g3, g4, g5, g6, g7⟩ := clean_read C hE hI.input hc.2
    obtain ⟨x, c1, c2, c3, c4, c5⟩ := copy_plain g5 g7
    obtain ⟨k1, k2⟩ := fits_congr c3 c4
    rw [← k2] at g3
    rw [← k1] at g6
    have hdef : Decoder.define_variable C (Watching.down s) info =
        .ok (Decoder.store (Decoder.setInput (Watching.down s) i) x) := by
      unfold Decoder.define_variable Decoder.storeCopy
      rw [show (Watching.down s).tgt.input = s.tgt.dec.input from rfl, g1]
      simp only [Res.ok_bind, c1]
      rfl
    rw [hdef, Res.ok_bind] at h
    cases h
    obtain ⟨p1, p2⟩ := Watching.pushed_ok hI g2 g3 (x := x)
      ⟨c2, by rw [c3, g4]; exact hm, by rw [c5]; simp⟩ (c := []) (by simp)
      (fun code hc => absurd (attrShown_none c5 code) hc) (by rw [hc.1]; simp)
    refine ⟨x, i, ?_, g2, g3, c3.trans g4, g6, p1, p2⟩
    unfold Watching.pushed
    rw [List.append_nil]
    rfl
  · cases h

/-- A number that is accepted, kept as a variable. -/
theorem Spec.Watching.number_read (C : Ctx) (hE : IsRounding C.E.fl) {s : Watching.St}
    {info : Varinfo} (hI : s.tgt.Inv C.E) (h : Watching.cleanNumber C s info = true) :
    ∃ x i, Decoder.decode_uniform_b_value C s.tgt.dec.input info = .ok (x, i) ∧ i.WF ∧
      s.tgt.dec.input.rem = fieldOf x.toVarCore ++ i.rem ∧ x.info = info ∧ x.WF ∧
      fits x.toVarCore = true ∧ s.tgt.due = none ∧ info.IsNum ∧
      Walk.asMade C.E info = true ∧
      (s.tgt.pushed i x []).Inv C.E ∧ Grows s.tgt (s.tgt.pushed i x []) := by
  unfold Watching.cleanNumber at h
  rw [Bool.and_eq_true, decide_eq_true_eq] at h
  obtain ⟨⟨hd, hn⟩, hc⟩ := h
  obtain ⟨hm, v, i, g1, g2, g3, g4, g5, g6, g7⟩ := clean_read C hE hI.input hc
  have hmade : Walk.asMade C.E info = true := by
    unfold clean at hc
    rw [Bool.and_eq_true, Bool.and_eq_true] at hc
    exact hc.1.1
  obtain ⟨p1, p2⟩ := Watching.pushed_ok hI g2 g3 (x := v)
    ⟨g5, by rw [g4]; exact hm, by rw [g7]; simp⟩ (c := []) (by simp)
    (fun code hc => absurd (attrShown_none g7 code) hc) (by rw [hd]; simp)
  exact ⟨v, i, g1, g2, g3, g4, g5, g6, hd, hn, hmade, p1, p2⟩

/-- The walk takes the variable just read. -/
theorem Spec.Walk.element_next {t : Interp Walk} {info : Varinfo} {w x : Var} (hn : Walk.next t = some w)
    (hi : w.info = x.info) (hv : w.toVarCore.view = x.toVarCore.view) (hx : x.info = info)
    (hf : fits x.toVarCore = true) :
    Walk.element t info = .ok (Walk.took t (fieldOf x.toVarCore)) := by
  obtain ⟨k1, k2⟩ := fits_congr hi hv
  unfold Walk.element
  rw [hn]
  simp only
  rw [if_pos ⟨hi.trans hx, by rw [k1]; exact hf⟩, k2]

theorem view_num_or_none {v : VarCore} (hn : v.info.IsNum) : v.view = none ∨ ∃ k, v.view = some (.num k) := by
  cases hx : v.view with
  | none => exact .inl rfl
  | some x =>
    obtain ⟨-, ht⟩ := view_type hx
    cases x with
    | num k => exact .inr ⟨k, rfl⟩
    | text t => simp only at ht; rcases hn with hn | hn <;> rw [ht] at hn <;> cases hn
    | bits w => simp only at ht; rcases hn with hn | hn <;> rw [ht] at hn <;> cases hn

theorem enqi_view {v : VarCore} (hv : v.WF) (hn : v.info.IsNum) {k : Int} (h : v.enqi = .ok k) :
    v.view = some (.num k) := by
  rcases view_num_or_none hn with hx | ⟨k', hx⟩
  · unfold VarCore.enqi at h
    rw [unset_of_view hv hx] at h
    cases h
  · rw [enqi_of_view hv hx] at h
    cases h
    exact hx

theorem enq63_view {v : VarCore} (hv : v.WF) (hn : v.info.IsNum) {k : Int} (h : Enc.enq63 v = .ok k) :
    v.view = none ∧ k = 63 ∨ v.view = some (.num k) := by
  rcases view_num_or_none hn with hx | ⟨k', hx⟩
  · rw [enq63_of_view hv (.inl ⟨hx, rfl⟩)] at h
    cases h
    exact .inl ⟨hx, rfl⟩
  · rw [enq63_of_view hv (.inr hx)] at h
    cases h
    exact .inr hx

theorem toU32_of_lt {k : Int} (hk : inInt k = true) (h : toU32 k < 2 ^ 31) : (toU32 k : Int) = k := by
  rw [inInt_iff] at hk
  unfold toU32 at h ⊢
  omega

theorem chunks_bytes {n : Nat} {l : List Bool} (h : l.length = n * 8) :
    bytesBits (chunks l) = l ∧ (chunks l).length = n := by
  have hlen : (l.length + 7) / 8 = n := by omega
  refine ⟨?_, by rw [chunks, List.length_map, List.length_range, hlen]⟩
  unfold chunks
  rw [hlen]
  induction n generalizing l with
  | zero =>
    have : l = [] := List.length_eq_zero_iff.mp (by omega)
    subst this
    rfl
  | succ n ih =>
    rw [List.range_succ_eq_map, List.map_cons, List.map_map, bytesBits_cons]
    have hd : (l.drop 8).length = n * 8 := by rw [List.length_drop]; omega
    have := ih hd (by omega)
    have he : (fun i => UInt8.ofNat (ofBits (List.take 8 (List.drop (8 * i) l)))) ∘ Nat.succ =
        fun i => UInt8.ofNat (ofBits (List.take 8 (List.drop (8 * i) (l.drop 8)))) := by
      funext i
      simp only [Function.comp_apply, List.drop_drop]
      rw [show 8 * i.succ = 8 + 8 * i by omega]
    rw [he, this]
    have h8 : (l.take 8).length = 8 := by rw [List.length_take]; omega
    have hlt : ofBits (l.take 8) < 256 := by
      have := ofBits_lt (l.take 8)
      rw [h8] at this
      exact this
    rw [Nat.mul_zero, List.drop_zero, UInt8.toNat_ofNat_of_lt' hlt]
    conv_lhs => rw [show bits 8 = bits (l.take 8).length by rw [h8]]
    rw [bits_ofBits, List.take_append_drop]

theorem marks_bits (l : List Bool) : (Watching.marks l).map (fun c => decide (c ≠ 43)) = l := by
  unfold Watching.marks
  rw [List.map_map]
  conv_rhs => rw [← List.map_id l]
  apply List.map_congr_left
  intro b _
  cases b <;> simp

theorem marks_mem {l : List Bool} : ∀ c ∈ Watching.marks l, c = 43 ∨ c = 45 := by
  intro c hc
  unfold Watching.marks at hc
  rw [List.mem_map] at hc
  obtain ⟨b, -, rfl⟩ := hc
  cases b <;> simp

theorem set_getElem?_self {α : Type} {l : List α} {p : Nat} {x : α} (h : l[p]? = some x) : l.set p x = l := by
  apply List.ext_getElem?
  intro q
  by_cases hpp : p = q
  · subst hpp
    rw [List.getElem?_set_self', h]
    rfl
  · rw [List.getElem?_set_ne hpp]

/-- An attribute that is accepted is taken by the walk. -/
theorem quality_reread (C : Ctx) (hE : IsRounding C.E.fl) (all : List Bool) (s : Watching.St)
    (info : Varinfo) (pos : Nat) :
    (reRel C.E all).Sim s (Watching.quality C s info pos) (fun t => Walk.quality t info pos) := by
  intro s' hs
  unfold Watching.quality at hs
  split at hs
  · next hc =>
    obtain ⟨hd, hp, hnc, hcl⟩ := hc
    have key : s.tgt.Inv C.E → ∃ v x i f, s.tgt.dec.out[pos]? = some v ∧
        s' = { s with tgt := ⟨⟨i, s.tgt.dec.out.set pos x⟩, s.tgt.carried ++ [(pos, info.code)], none⟩ } ∧
        Watching.Inv C.E s'.tgt ∧ Watching.Grows s.tgt s'.tgt ∧ s.tgt.dec.input.rem = f ++ i.rem ∧
        ∀ w : Var, attrShown w info.code = attrShown x info.code →
          (attrOf w info.code = none ∧ missingFits info = true ∧ f = missingField info.bit_len) ∨
          ∃ a, attrOf w info.code = some a ∧ a.info = info ∧ fits a = true ∧ f = fieldOf a := by
      intro hI
      obtain ⟨hm, v, i, g1, g2, g3, g4, g5, g6, g7⟩ := clean_read C hE hI.input hcl
      obtain ⟨v0, hv0⟩ : ∃ v0, s.tgt.dec.out[pos]? = some v0 := ⟨_, List.getElem?_eq_getElem hp⟩
      have hsound := hI.sound v0 (List.mem_of_getElem? hv0)
      have hno : attrShown v0 info.code = none := by
        by_contra hx
        exact hnc (hI.shown pos v0 info.code hv0 hx)
      cases hset : v.isset with
      | false =>
        have hdef : Decoder.decode_and_set_attribute C (Watching.down s) info pos =
            .ok (Decoder.setInput (Watching.down s) i) := by
          unfold Decoder.decode_and_set_attribute
          rw [show (Watching.down s).tgt.input = s.tgt.dec.input from rfl, g1]
          simp only [Res.ok_bind, hset]
          rfl
        rw [hdef, Res.ok_bind] at hs
        cases hs
        obtain ⟨p1, p2⟩ := Watching.set_ok hI g2 g3 hd hv0 hnc hsound rfl rfl (fun _ _ => rfl)
        refine ⟨v0, v0, i, _, hv0, ?_, ?_, ?_, g3, ?_⟩
        · rw [set_getElem?_self hv0]
          rfl
        · rw [set_getElem?_self hv0] at p1
          exact p1
        · rw [set_getElem?_self hv0] at p2
          exact p2
        · intro w hw
          left
          have hvn := view_unset hset
          refine ⟨?_, ?_, ?_⟩
          · rw [hno] at hw
            unfold attrShown at hw
            exact Option.map_eq_none_iff.mp hw
          · unfold fits at g6
            rw [hvn, g4] at g6
            exact g6
          · unfold fieldOf
            rw [hvn, g4]
      | true =>
        obtain ⟨b, b1, b2, b3, b4, b5⟩ := copy_plain g5 g7
        have hbc : b.code = info.code := by
          show b.info.code = _
          rw [b3, g4]
        have hdef : Decoder.decode_and_set_attribute C (Watching.down s) info pos =
            .ok (Decoder.setAt (Decoder.setInput (Watching.down s) i) pos (v0.setaMove b)) := by
          unfold Decoder.decode_and_set_attribute
          rw [show (Watching.down s).tgt.input = s.tgt.dec.input from rfl,
            show (Watching.down s).tgt.out = s.tgt.dec.out from rfl, g1]
          simp only [Res.ok_bind, hset, hv0, Var.seta, b1]
          rfl
        rw [hdef, Res.ok_bind] at hs
        cases hs
        have hsh := fun code => attrShown_setaMove hsound.1 b2.core (a := b) code
        obtain ⟨p1, p2⟩ := Watching.set_ok hI g2 g3 hd hv0 hnc (x := v0.setaMove b)
          ⟨WF_setaMove hsound.1 b2.core, hsound.2.1, by
            intro y hy
            rcases setaList_mem hy with rfl | hy
            · rw [b3, g4]; exact hm
            · exact hsound.2.2 y hy⟩ rfl rfl
          (fun q hq => by rw [hsh, if_neg (by rw [hbc]; exact Ne.symm hq)])
        refine ⟨v0, v0.setaMove b, i, _, hv0, rfl, p1, p2, g3, fun w hw => ?_⟩
        right
        rw [hsh, if_pos hbc] at hw
        have hbset : b.isset = true := by
          by_contra hx
          have h1 := view_unset (by simpa using hx)
          rw [h1] at b4
          have := unset_of_view g5.core b4.symm
          rw [hset] at this
          cases this
        unfold shownOf at hw
        rw [if_pos hbset] at hw
        unfold attrShown at hw
        obtain ⟨a, a1, a2⟩ := Option.map_eq_some_iff.mp hw
        simp only [Prod.mk.injEq] at a2
        obtain ⟨k1, k2⟩ := fits_congr (a2.1.trans b3) (a2.2.trans b4)
        exact ⟨a, a1, a2.1.trans (b3.trans g4), by rw [k1]; exact g6, k2.symm⟩
    refine ⟨fun hI => ?_, fun F t hF hr => ?_⟩
    · obtain ⟨v, x, i, f, -, -, p1, p2, -⟩ := key hI
      exact ⟨p1, p2⟩
    · obtain ⟨hsame, q1, q2, q3, q4, q5, q6, q7⟩ := hr
      obtain ⟨v, x, i, f, hv, rfl, p1, p2, hf, hw⟩ := key q1
      obtain ⟨w, w1, w2, w3, w4⟩ := (hF p1).2.vars pos x (by
        show (s.tgt.dec.out.set pos x)[pos]? = some x
        rw [List.getElem?_set_self hp])
      have hws := hw w (w4 _ (List.mem_append_right _ (by simp)))
      refine ⟨Walk.wrote t f [(pos, info.code)], ?_, ⟨hsame.bitmaps, hsame.field, hsame.meaning,
        hsame.scale, hsame.width, hsame.increase, hsame.string, hsame.refs, hsame.refBits,
        hsame.unknown⟩, p1, q2, q3, ?_, ?_, ?_, q7⟩
      · have hlt : pos < t.tgt.pos := by rw [q4]; exact hp
        show Walk.quality t info pos = _
        unfold Walk.quality
        rw [q3, w1]
        simp only [hlt, if_true]
        rcases hws with ⟨e1, e2, e3⟩ | ⟨a, e1, e2, e3, e4⟩
        · rw [e1]
          simp only [e2, if_true, e3]
          rfl
        · rw [e1]
          simp only [e2, e3, and_self, if_true, e4]
          rfl
      · show t.tgt.pos = (s.tgt.dec.out.set pos x).length
        rw [List.length_set, q4]
      · show all = (t.tgt.bits ++ f) ++ i.rem
        rw [q5, hf, List.append_assoc]
      · show t.tgt.carried ++ _ = s.tgt.carried ++ _
        rw [q6]
  · cases hs

/-- A replication factor or a significance that is accepted is taken by the walk. -/
theorem number_reread (C : Ctx) (hE : IsRounding C.E.fl) (all : List Bool) {s : Watching.St}
    {info : Varinfo} (hI : s.tgt.Inv C.E) (hc : Watching.cleanNumber C s info = true) :
    ∃ x i, Decoder.decode_and_add_to_all C (Watching.down s) info =
        .ok (x, Decoder.store (Decoder.setInput (Watching.down s) i) x) ∧ x.WF ∧ x.info.IsNum ∧
      Watching.up (Decoder.store (Decoder.setInput (Watching.down s) i) x) s.tgt.carried none =
        { s with tgt := s.tgt.pushed i x [] } ∧
      (s.tgt.pushed i x []).Inv C.E ∧ Watching.Grows s.tgt (s.tgt.pushed i x []) ∧
      ∀ F t, (reRel C.E all).le (s.tgt.pushed i x []) F → (reRel C.E all).R F s t →
        ∃ w, Walk.next t = some w ∧ w.toVarCore.view = x.toVarCore.view ∧
          Walk.element t info = .ok (Walk.took t (fieldOf x.toVarCore)) ∧
          (reRel C.E all).R F { s with tgt := s.tgt.pushed i x [] } (Walk.took t (fieldOf x.toVarCore)) := by
  obtain ⟨x, i, g1, g2, g3, g4, g5, g6, hd, hn, -, p1, p2⟩ := Watching.number_read C hE hI hc
  refine ⟨x, i, ?_, g5, by rw [g4]; exact hn, ?_, p1, p2, fun F t hF hr => ?_⟩
  · unfold Decoder.decode_and_add_to_all
    rw [show (Watching.down s).tgt.input = s.tgt.dec.input from rfl, g1]
    rfl
  · unfold Watching.pushed
    rw [List.append_nil]
    rfl
  · obtain ⟨w, w1, w2, w3, -⟩ := Watching.pushed_next p1 hF
    have hnext : Walk.next t = some w := by
      obtain ⟨-, q2, q3, q4, -⟩ := hr.tgt
      unfold Walk.next
      rw [q3, q4]
      exact w1
    refine ⟨w, hnext, w3, Walk.element_next hnext w2 w3 g4 g6, ?_⟩
    have := reRel_took hr p1 g3 (b := s.caches) rfl rfl
    rw [List.append_nil] at this
    exact this

theorem reSims (C : Ctx) (hE : IsRounding C.E.fl) (all : List Bool) :
    (reRel C.E all).Sims (Watching.target C) (Walk.target C) where
  element s info := by
    intro s' hs
    refine ⟨fun hI => ?_, fun F t hF hr => ?_⟩
    · obtain ⟨x, i, rfl, -, -, -, -, p1, p2⟩ := Watching.element_read C hE hI hs
      exact ⟨p1, p2⟩
    · obtain ⟨x, i, rfl, g2, g3, g4, g6, p1, p2⟩ := Watching.element_read C hE hr.tgt.1 hs
      obtain ⟨w, w1, w2, w3, -⟩ := Watching.pushed_next p1 hF
      have hnext : Walk.next t = some w := by
        obtain ⟨-, q2, q3, q4, -⟩ := hr.tgt
        unfold Walk.next
        rw [q3, q4]
        exact w1
      refine ⟨_, Walk.element_next hnext w2 w3 g4 g6, ?_⟩
      have := reRel_took hr p1 g3 (b := s.caches) rfl rfl
      rw [List.append_nil] at this
      exact this
  factor s info := by
    intro n s' hs
    have hs : Watching.factor C s info = .ok (n, s') := hs
    unfold Watching.factor at hs
    split at hs
    · next hc =>
      have hdef : ∀ x st, Decoder.decode_and_add_to_all C (Watching.down s) info = .ok (x, st) →
          ∃ k, VarCore.enqi x.toVarCore = .ok k ∧ n = toU32 k ∧ s' = Watching.up st s.tgt.carried none := by
        intro x st hx
        unfold Decoder.define_delayed_replication_factor at hs
        rw [hx, Res.ok_bind] at hs
        obtain ⟨r, h1, h2⟩ := Res.bind_eq_ok.mp hs
        obtain ⟨k, h3, h4⟩ := Res.bind_eq_ok.mp h1
        cases h4
        cases h2
        exact ⟨k, h3, rfl, rfl⟩
      refine ⟨fun hI => ?_, fun F t hF hr => ?_⟩
      · obtain ⟨x, i, d1, -, -, d2, p1, p2, -⟩ := number_reread C hE all hI hc
        obtain ⟨k, -, -, e⟩ := hdef _ _ d1
        rw [e, d2]
        exact ⟨p1, p2⟩
      · obtain ⟨x, i, d1, hx, hn, d2, p1, p2, d3⟩ := number_reread C hE all hr.tgt.1 hc
        obtain ⟨k, e1, rfl, e3⟩ := hdef _ _ d1
        rw [d2] at e3
        subst e3
        obtain ⟨w, w1, w2, w3, w4⟩ := d3 F t hF hr
        refine ⟨_, ?_, w4⟩
        have hk := enqi_view hx.core hn e1
        show Walk.factor t info = _
        unfold Walk.factor
        rw [w1]
        simp only [w2, w3, Res.ok_bind]
        rw [hk]
        rfl
    · cases hs
  significance s info := by
    intro n s' hs
    have hs : Watching.significance C s info = .ok (n, s') := hs
    unfold Watching.significance at hs
    split at hs
    · next hc =>
      have hdef : ∀ x st, Decoder.decode_and_add_to_all C (Watching.down s) info = .ok (x, st) →
          ∃ k, Enc.enq63 x.toVarCore = .ok k ∧ n = toU32 k ∧ s' = Watching.up st s.tgt.carried none := by
        intro x st hx
        unfold Decoder.define_associated_field_significance at hs
        rw [hx, Res.ok_bind] at hs
        obtain ⟨r, h1, h2⟩ := Res.bind_eq_ok.mp hs
        obtain ⟨k, h3, h4⟩ := Res.bind_eq_ok.mp h1
        cases h4
        cases h2
        exact ⟨k, h3, rfl, rfl⟩
      refine ⟨fun hI => ?_, fun F t hF hr => ?_⟩
      · obtain ⟨x, i, d1, -, -, d2, p1, p2, -⟩ := number_reread C hE all hI hc
        obtain ⟨k, -, -, e⟩ := hdef _ _ d1
        rw [e, d2]
        exact ⟨p1, p2⟩
      · obtain ⟨x, i, d1, hx, hn, d2, p1, p2, d3⟩ := number_reread C hE all hr.tgt.1 hc
        obtain ⟨k, e1, rfl, e3⟩ := hdef _ _ d1
        rw [d2] at e3
        subst e3
        obtain ⟨w, w1, w2, w3, w4⟩ := d3 F t hF hr
        refine ⟨_, ?_, w4⟩
        have hk := enq63_view hx.core hn e1
        show Walk.significance t info = _
        unfold Walk.significance
        rw [w1]
        simp only [w2, w3, Res.ok_bind]
        rcases hk with ⟨hk, rfl⟩ | hk
        · rw [hk]
          rfl
        · rw [hk]
          rfl
    · cases hs
  bitmapFactor s info := by
    intro n s' hs
    have hs : Watching.bitmapFactor C s info = .ok (n, s') := hs
    unfold Watching.bitmapFactor at hs
    split at hs
    · next hc =>
      obtain ⟨r, h1, h2⟩ := Res.bind_eq_ok.mp hs
      split at h2
      · next hlt =>
        cases h2
        have key : s.tgt.Inv C.E → ∃ (x : Var) (i : Input) (k : Int), r = (toU32 k, Decoder.setInput (Watching.down s) i) ∧
            x.toVarCore.view = some (.num k) ∧ x.WF ∧ x.info = info ∧ fits x.toVarCore = true ∧ i.WF ∧
            s.tgt.dec.input.rem = fieldOf x.toVarCore ++ i.rem ∧ s.tgt.due = none ∧ info.IsNum ∧
            Walk.asMade C.E info = true := by
          intro hI
          obtain ⟨x, i, g1, g2, g3, g4, g5, g6, hd, hn, hm, -⟩ := Watching.number_read C hE hI hc
          unfold Decoder.define_bitmap_delayed_replication_factor at h1
          rw [show (Watching.down s).tgt.input = s.tgt.dec.input from rfl, g1, Res.ok_bind] at h1
          obtain ⟨k, h3, h4⟩ := Res.bind_eq_ok.mp h1
          cases h4
          exact ⟨x, i, k, rfl, enqi_view g5.core (by rw [g4]; exact hn) h3, g5, g4, g6, g2, g3, hd, hn, hm⟩
        refine ⟨fun hI => ?_, fun F t hF hr => ?_⟩
        · obtain ⟨x, i, k, rfl, -, -, -, -, g2, g3, hd, -, -⟩ := key hI
          exact Watching.due_ok hI g2 g3 hd _
        · obtain ⟨hsame, q1, q2, q3, q4, q5, q6, q7⟩ := hr
          obtain ⟨x, i, k, rfl, hx, x1, rfl, x3, g2, g3, hd, hn, hm⟩ := key q1
          obtain ⟨p1, -⟩ := Watching.due_ok q1 g2 g3 hd (some (toU32 k))
          rcases (hF p1).2.due with he | he
          · rw [← he] at q2
            cases q2
          · obtain ⟨w, w1, w2⟩ := he (toU32 k) rfl
            have w1 : F.dec.out[s.tgt.dec.out.length]? = some w := w1
            have hnext : Walk.next t = some w := by
              unfold Walk.next
              rw [q3, q4]
              exact w1
            have hki : inInt k = true := by
              obtain ⟨c, hc, hci⟩ := (WF_num hn).mp x1.core
              rw [view_num hn hc (view_type hx).1] at hx
              simp only [Option.some.injEq, Value.num.injEq] at hx
              rw [← hx]
              exact hci
            have hku : (toU32 k : Int) = k := toU32_of_lt hki hlt
            unfold fits at x3
            rw [hx] at x3
            unfold fieldOf at g3
            rw [hx] at g3
            refine ⟨Walk.wrote t (bits x.info.bit_len (k - x.info.bit_ref).toNat) [], ?_,
              ⟨hsame.bitmaps, hsame.field, hsame.meaning, hsame.scale, hsame.width, hsame.increase,
                hsame.string, hsame.refs, hsame.refBits, hsame.unknown⟩, p1, q2, q3, q4, ?_, ?_, q7⟩
            · show Walk.bitmapFactor C t x.info = _
              unfold Walk.bitmapFactor
              rw [hnext]
              simp only [w2, hku]
              rw [if_pos ⟨hn, hm, x3, hlt⟩]
              simp [Walk.wrote]
            · show all = (t.tgt.bits ++ _) ++ i.rem
              rw [q5, g3, List.append_assoc]
            · show t.tgt.carried ++ [] = s.tgt.carried
              rw [List.append_nil, q6]
      · cases h2
    · cases hs
  bitmap s size := by
    intro s' hs
    have hs : Watching.bitmap C s size = .ok s' := hs
    unfold Watching.bitmap at hs
    simp only at hs
    split at hs
    · next info hinfo =>
      split at hs
      · next hc =>
        obtain ⟨hd, h1, hl, hty, hma, hF2, hlen, hk, he⟩ := hc
        obtain ⟨st, d1, d2⟩ := Res.bind_eq_ok.mp hs
        cases d2
        generalize ht : Watching.marks ((Watching.rem s).take size) = x at *
        have hxl : x.length = size := by
          rw [← ht, Watching.marks, List.length_map, List.length_take]
          omega
        have h43 : ∀ c ∈ x, c = 43 ∨ c = 45 := by rw [← ht]; exact marks_mem
        have hnul : NulFree x := by
          intro b hb
          rcases h43 b hb with rfl | rfl <;> decide
        have hrem : s.tgt.dec.input.rem =
            (x.map fun c => decide (c ≠ 43)) ++ (Watching.rem s).drop size := by
          rw [← ht, marks_bits, List.take_append_drop]
          rfl
        have hgb := get_bitmap_ok hk
        have hcodes : ∀ u : Var, u.info = info → (s.tgt.dec.out ++ [u]).map (·.code) =
            s.tgt.dec.out.map (·.code) ++ [info.code] := by
          intro u hu
          rw [List.map_append]
          simp [VarCore.code, hu]
        have key : s.tgt.Inv C.E → ∃ u i, st = { Watching.down s with
              bitmaps := { s.bitmaps with current := some ⟨(selected
                (s.tgt.dec.out.map (·.code) ++ [info.code]) (s.tgt.dec.out.length + 1) x).reverse, 0⟩ }
              caches := { s.caches with bitmap_table :=
                if (s.caches.bitmap_table.lookup x).isSome then s.caches.bitmap_table
                else (x, info) :: s.caches.bitmap_table }
              tgt := ⟨i, s.tgt.dec.out ++ [u]⟩ } ∧
            s.tgt.dec.input.rem = (x.map fun c => decide (c ≠ 43)) ++ i.rem ∧ u.info = info ∧
            u.toVarCore.view = some (.text x) ∧
            (s.tgt.pushed i u []).Inv C.E ∧ Watching.Grows s.tgt (s.tgt.pushed i u []) := by
          intro hI
          obtain ⟨i, g1, g2, g3⟩ := bitmap_read h43 hI.input hrem (by rw [List.length_drop]; omega)
          rw [hxl] at g1
          rw [← g3] at hrem
          obtain ⟨u, u1, u2, u3, u4, u5⟩ := newStr_ok C.O hty hnul (by omega)
          have hd' := define_ok (E := C.E) (bs := s.bitmaps)
            (codes := s.tgt.dec.out.map (·.code) ++ [info.code])
            (anchor := s.tgt.dec.out.length + 1) u2.core u4 (by rw [u3]; omega) (by omega)
            (by simp) (by rw [List.length_map] at he; omega)
          obtain ⟨p1, p2⟩ := Watching.pushed_ok hI g2 hrem (x := u)
            ⟨u2, by rw [u3]; exact asMade_made hma, by rw [u5]; simp⟩ (c := []) (by simp)
            (fun code hc => absurd (attrShown_none u5 code) hc) (by
              intro n hn
              rw [u3, hlen]
              rcases hd with hd | hd <;> rw [hd] at hn <;> cases hn
              rfl)
          refine ⟨u, i, ?_, hrem, u3, u4, p1, p2⟩
          unfold Decoder.define_bitmap at d1
          rw [show (Watching.down s).tgt.input = s.tgt.dec.input from rfl, g1, Res.ok_bind] at d1
          simp only [show (Watching.down s).caches = s.caches from rfl,
            show (Watching.down s).bitmaps = s.bitmaps from rfl, hgb, Res.ok_bind, u1, Decoder.store,
            Decoder.setInput, show (Watching.down s).tgt.out = s.tgt.dec.out from rfl, hcodes u u3,
            List.length_append, List.length_singleton, hd'] at d1
          cases d1
          rfl
        refine ⟨fun hI => ?_, fun F t hF hr => ?_⟩
        · obtain ⟨u, i, rfl, -, -, -, p1, p2⟩ := key hI
          unfold Watching.pushed at p1 p2
          rw [List.append_nil] at p1 p2
          exact ⟨p1, p2⟩
        · obtain ⟨hsame, q1, q2, q3, q4, q5, q6, q7⟩ := hr
          obtain ⟨u, i, rfl, g3, u1, u2, p1, p2⟩ := key q1
          have hF' : (reRel C.E all).le (s.tgt.pushed i u []) F := by
            unfold Watching.pushed
            rw [List.append_nil]
            exact hF
          obtain ⟨w, w1, w2, w3, -⟩ := Watching.pushed_next p1 hF'
          have hnext : Walk.next t = some w := by
            unfold Walk.next
            rw [q3, q4]
            exact w1
          have hwc : Walk.codes t = s.tgt.dec.out.map (·.code) ++ [info.code] := by
            rw [← hcodes u u1]
            unfold Walk.codes
            rw [q3, q4]
            apply List.ext_getElem?
            intro p
            rw [List.getElem?_map, List.getElem?_map]
            by_cases hp : p < s.tgt.dec.out.length + 1
            · obtain ⟨y, hy⟩ : ∃ y, (s.tgt.dec.out ++ [u])[p]? = some y :=
                ⟨_, List.getElem?_eq_getElem (by simp; omega)⟩
              obtain ⟨z, z1, z2, -⟩ := (hF' p1).2.vars p y hy
              rw [List.getElem?_take_of_lt hp, z1, hy]
              simp [VarCore.code, z2]
            · rw [List.getElem?_eq_none (by rw [List.length_take]; omega),
                List.getElem?_eq_none (by simp; omega)]
          refine ⟨Walk.marked t x w.info, ?_, ⟨?_, hsame.field, hsame.meaning, hsame.scale, hsame.width,
            hsame.increase, hsame.string, hsame.refs, hsame.refBits, hsame.unknown⟩, ?_, q2, q3, ?_, ?_,
            q6, ?_⟩
          · show Walk.bitmap C t size = _
            unfold Walk.bitmap
            rw [hnext]
            simp only [w3, u2]
            rw [if_pos]
            · rfl
            · refine ⟨?_, ?_, hxl, h1, ?_, ?_, ?_⟩
              · show WR_VAR_F w.info.code = 2
                rw [w2, u1]; exact hF2
              · rw [w2, u1]; exact hlen
              · rw [List.all_eq_true]
                intro c hc
                simpa using h43 c hc
              · rw [show List.map (fun x => x.code) (List.take (t.tgt.pos + 1) t.tgt.subset) =
                  Walk.codes t from rfl, hwc, q4]
                rw [List.length_map] at he
                exact he
              · rw [q7, hsame.bitmaps, w2, u1]; exact hk
          · unfold Walk.marked
            simp only [hwc, q4, hsame.bitmaps]
            rfl
          · unfold Watching.pushed at p1
            rw [List.append_nil] at p1
            exact p1
          · show t.tgt.pos + 1 = (s.tgt.dec.out ++ [u]).length
            rw [List.length_append, q4]
            rfl
          · show all = (t.tgt.bits ++ _) ++ i.rem
            rw [q5, g3, List.append_assoc]
          · show (Walk.marked t x w.info).tgt.seen = _
            unfold Walk.marked
            simp only [q7, w2, u1]
            rfl
      · cases hs
    · cases hs
  associated s info := by
    intro s' hs
    have hs : Watching.withField C s info = .ok s' := hs
    unfold Watching.withField at hs
    split at hs
    · next hc =>
      obtain ⟨hd, hcf, hcl⟩ := hc
      obtain ⟨st, h1, h2⟩ := Res.bind_eq_ok.mp hs
      cases h2
      generalize hn : s.associated_field.bit_count = n at *
      generalize hm : s.associated_field.significance = m at *
      generalize hcc : ((qualityCode m).map fun q => (s.tgt.dec.out.length, q)).toList = c
      have key : s.tgt.Inv C.E → ∃ x i g, st = Decoder.store (Decoder.setInput (Watching.down s) i) x ∧
          s.tgt.dec.input.rem = ((Watching.rem s).take n ++ g) ++ i.rem ∧ x.info = info ∧
          fits x.toVarCore = true ∧ fieldOf x.toVarCore = g ∧
          (∀ w : Var, (∀ q, qualityCode m = some q → attrShown w q = attrShown x q) →
            Walk.assocField C n m w = .ok ((Watching.rem s).take n, qualityCode m)) ∧
          (s.tgt.pushed i x c).Inv C.E ∧ Watching.Grows s.tgt (s.tgt.pushed i x c) := by
        intro hI
        have hrem : s.tgt.dec.input.rem = (Watching.rem s).take n ++ (Watching.rem s).drop n := by
          rw [List.take_append_drop]
          rfl
        have h8 : 8 ≤ ((Watching.rem s).drop n).length := by
          unfold clean at hcl
          simp only [Bool.and_eq_true, decide_eq_true_eq, List.length_drop] at hcl
          rw [List.length_drop]
          omega
        obtain ⟨value, i1, a, e1, e2, e3, e4, e5⟩ := cleanField_read C hcf hI.input hrem h8 hn hm
        rw [← e3] at hcl
        obtain ⟨hmd, v, i, g1, g2, g3, g4, g5, g6, g7⟩ := clean_read C hE e2 hcl
        obtain ⟨b, c1, c2, c3, c4, c5⟩ := copy_plain g5 g7
        obtain ⟨k1, k2⟩ := fits_congr c3 c4
        obtain ⟨x1, x2, x3, x4, x5⟩ := e5 b c2 c5
        have hrem' : s.tgt.dec.input.rem = ((Watching.rem s).take n ++ fieldOf v.toVarCore) ++ i.rem := by
          rw [List.append_assoc, ← g3, e3]
          exact hrem
        obtain ⟨p1, p2⟩ := Watching.pushed_ok hI g2 hrem' (x := withAttr b a)
          ⟨x1, by rw [x2, c3, g4]; exact hmd, x3⟩ (c := c)
          (by
            intro e he
            rw [← hcc] at he
            cases hq : qualityCode m with
            | none => rw [hq] at he; simp at he
            | some q => rw [hq] at he; simp at he; rw [he])
          (fun code hc => by
            rw [← hcc, x4 code hc]
            simp) (by rw [hd]; simp)
        refine ⟨withAttr b a, i, fieldOf v.toVarCore, ?_, hrem', ?_, ?_, ?_, x5, p1, p2⟩
        · unfold Decoder.define_variable_with_associated_field Decoder.storeCopy at h1
          rw [show (Watching.down s).associated_field = s.associated_field from rfl,
            show (Watching.down s).tgt.input = s.tgt.dec.input from rfl, hn, e1, Res.ok_bind] at h1
          simp only [e4, Res.ok_bind, g1, c1, Res.pure_def] at h1
          unfold Decoder.setLast at h1
          cases a with
          | none => cases h1; rfl
          | some a =>
            simp [Decoder.setAt, Decoder.store] at h1
            rw [← h1]
            simp [Decoder.store, withAttr, Decoder.setInput]
        · rw [x2, c3, g4]
        · rw [x2, k1]; exact g6
        · rw [x2, k2]
      refine ⟨fun hI => ?_, fun F t hF hr => ?_⟩
      · obtain ⟨x, i, g, rfl, -, -, -, -, -, p1, p2⟩ := key hI
        exact ⟨p1, p2⟩
      · obtain ⟨x, i, g, rfl, g3, x1, x2, rfl, x4, p1, p2⟩ := key hr.tgt.1
        obtain ⟨w, w1, w2, w3, w4⟩ := Watching.pushed_next p1 hF
        have hnext : Walk.next t = some w := by
          obtain ⟨-, q2, q3, q4, -⟩ := hr.tgt
          unfold Walk.next
          rw [q3, q4]
          exact w1
        obtain ⟨k1, k2⟩ := fits_congr w2 w3
        refine ⟨_, ?_, reRel_took hr p1 g3 (b := s.caches) rfl rfl⟩
        show Walk.withField C t info = _
        unfold Walk.withField
        rw [hnext]
        simp only
        rw [if_pos ⟨w2.trans x1, by rw [k1]; exact x2⟩, hr.same.field, hr.same.meaning, hn, hm,
          x4 w (fun q hq => w4 q (by rw [← hcc, hq]; simp)), Res.ok_bind, k2, hr.tgt.2.2.2.1, hcc]
    · cases hs
  substituted s pos := by
    intro s' hs
    have hs : Watching.substituted C s pos = .ok s' := hs
    unfold Watching.substituted at hs
    split at hs
    · cases hs
    · next v hv =>
      obtain ⟨h1, h2⟩ := quality_reread C hE all s v.info pos s' hs
      refine ⟨h1, fun F t hF hr => ?_⟩
      obtain ⟨t', e1, e2⟩ := h2 F t hF hr
      refine ⟨t', ?_, e2⟩
      obtain ⟨w, w1, w2, -⟩ := (h1 hr.tgt.1).2.vars pos v hv
      obtain ⟨u, u1, u2, -⟩ := (hF (h1 hr.tgt.1).1).2.vars pos w w1
      show Walk.substituted t pos = _
      unfold Walk.substituted
      rw [hr.tgt.2.2.1, u1]
      simp only [u2, w2]
      exact e1
  attr s info pos := quality_reread C hE all s info pos
  raw s code := by
    intro s' hs
    have hs : Watching.characters C s code = .ok s' := hs
    unfold Watching.characters at hs
    split at hs
    · next hc =>
      obtain ⟨hd, hl, hinfo, hnul⟩ := hc
      obtain ⟨st, h1, h2⟩ := Res.bind_eq_ok.mp hs
      cases h2
      unfold Decoder.define_raw_character_data at h1
      obtain ⟨info, h3, h4⟩ := Res.bind_eq_ok.mp h1
      have h3' : Varinfo.set_string C.E code (WR_VAR_Y code) = .ok info := by
        rw [← hinfo]; exact h3
      obtain ⟨f1, f2, f3⟩ := chardata_fields h3'
      have hmade : info.Made C.E := by
        refine ⟨⟨_, h3'⟩, ?_, ?_, ?_⟩
        · unfold Varinfo.set_string Varinfo.compute_range at h3'
          simp only [Varinfo.raw] at h3'
          cases h3'
          rfl
        · rw [f3]; nofun
        · rw [f3]; nofun
      obtain ⟨l1, l2⟩ := chunks_bytes (n := WR_VAR_Y code) (l := (Watching.rem s).take (WR_VAR_Y code * 8))
        (by rw [List.length_take]; omega)
      generalize ht : chunks ((Watching.rem s).take (WR_VAR_Y code * 8)) = tx at l1 l2 hnul
      have hnul' : NulFree tx := by
        intro b hb
        have := List.all_eq_true.mp hnul b hb
        simpa using this
      have hrem : s.tgt.dec.input.rem = bytesBits tx ++ (Watching.rem s).drop (WR_VAR_Y code * 8) := by
        rw [l1, List.take_append_drop]
        rfl
      have hcache : (s.caches.get_chardata C.E code (WR_VAR_Y code)).1.bitmap_table =
            s.caches.bitmap_table ∧
          (s.caches.get_chardata C.E code (WR_VAR_Y code)).1.unknown_table = s.caches.unknown_table := by
        exact ⟨rfl, rfl⟩
      have key : s.tgt.Inv C.E → ∃ x i, st = Decoder.store (Decoder.setInput { Watching.down s with
            caches := (s.caches.get_chardata C.E code (WR_VAR_Y code)).1 } i) x ∧
          i.WF ∧ s.tgt.dec.input.rem = bytesBits tx ++ i.rem ∧ x.info = info ∧
          x.toVarCore.view = some (.text tx) ∧
          (s.tgt.pushed i x []).Inv C.E ∧ Watching.Grows s.tgt (s.tgt.pushed i x []) := by
        intro hI
        obtain ⟨i, g1, g2, g3⟩ := getChars_ok hI.input hrem
          (by rw [List.length_drop]; omega)
        obtain ⟨u, u1, u2, u3, u4, u5⟩ := newStr_ok C.O f3 hnul' (by omega)
        obtain ⟨a, c1, c2, c3, c4, c5⟩ := copy_plain u2 u5
        rw [← g3] at hrem
        obtain ⟨p1, p2⟩ := Watching.pushed_ok hI g2 hrem (x := a)
          ⟨c2, by rw [c3, u3]; exact hmade, by rw [c5]; simp⟩ (c := []) (by simp)
          (fun code hc => absurd (attrShown_none c5 code) hc) (by rw [hd]; simp)
        refine ⟨a, i, ?_, g2, hrem, c3.trans u3, c4.trans u4, p1, p2⟩
        rw [l2, ← f2] at g1
        rw [show (Watching.down s).tgt.input = s.tgt.dec.input from rfl] at h4
        rw [g1] at h4
        unfold Decoder.storeCopy at h4
        simp only [Res.ok_bind, u1, c1] at h4
        cases h4
        rfl
      refine ⟨fun hI => ?_, fun F t hF hr => ?_⟩
      · obtain ⟨x, i, rfl, -, -, -, -, p1, p2⟩ := key hI
        unfold Watching.pushed at p1 p2
        rw [List.append_nil] at p1 p2
        exact ⟨p1, p2⟩
      · obtain ⟨x, i, rfl, g2, g3, x1, x2, p1, p2⟩ := key hr.tgt.1
        have hF' : (reRel C.E all).le (s.tgt.pushed i x []) F := by
          unfold Watching.pushed
          rw [List.append_nil]
          exact hF
        obtain ⟨w, w1, w2, w3, -⟩ := Watching.pushed_next p1 hF'
        have hnext : Walk.next t = some w := by
          obtain ⟨-, q2, q3, q4, -⟩ := hr.tgt
          unfold Walk.next
          rw [q3, q4]
          exact w1
        refine ⟨Walk.took t (bytesBits tx), ?_, ?_⟩
        · show Walk.characters C.E t code = _
          unfold Walk.characters
          rw [hnext]
          simp only [w3, x2]
          rw [if_pos ⟨by rw [w2, x1]; exact h3', l2⟩]
        · have := reRel_took hr p1 g3 hcache.1 hcache.2
          unfold Watching.pushed at this
          rw [List.append_nil, List.append_nil] at this
          exact this
    · cases hs
  refval s code := by
    intro s' hs
    cases hs

/-! ## The watching decoder and the decoder -/

/-- The decoder is in the same state. -/
def downRel : Rel Watching Dec where
  le _ _ := True
  refl _ := trivial
  trans _ _ _ _ _ := trivial
  Q _ a b c c' x y := b = a.dec ∧ c'.bitmap_table = c.bitmap_table ∧
    c'.chardata_table = c.chardata_table ∧ y = x
  stable _ _ _ _ _ _ _ _ _ h := h

theorem downRel_eq {F : Watching} {s : Watching.St} {t : Decoder.St} (h : downRel.R F s t) :
    t = Watching.down s := by
  obtain ⟨⟨h1, h2, h3, h4, h5, h6, h7, h8, h9, h10⟩, q1, q2, q3, q4⟩ := h
  have e1 : t.caches = s.caches := by
    cases hc : t.caches
    cases hc' : s.caches
    rw [hc, hc'] at q2 q3 h10
    simp only at q2 q3 h10
    rw [q2, q3, h10]
  have e2 : t.associated_field = s.associated_field := by
    cases hc : t.associated_field
    cases hc' : s.associated_field
    rw [hc, hc'] at q4 h2 h3
    simp only at q4 h2 h3
    rw [q4, h2, h3]
  unfold Watching.down
  rw [← e1, ← e2, ← h1, ← h4, ← h5, ← h6, ← h7, ← h8, ← h9, ← q1]

theorem downRel_down (F : Watching) (s : Watching.St) : downRel.R F s (Watching.down s) :=
  ⟨⟨rfl, rfl, rfl, rfl, rfl, rfl, rfl, rfl, rfl, rfl⟩, rfl, rfl, rfl, rfl⟩

theorem downRel_up (F : Watching) (s : Decoder.St) (c : List (Nat × Varcode)) (d : Option Nat) :
    downRel.R F (Watching.up s c d) s :=
  ⟨⟨rfl, rfl, rfl, rfl, rfl, rfl, rfl, rfl, rfl, rfl⟩, rfl, rfl, rfl, rfl⟩

theorem down_sim {s : Watching.St} {P : Prop} [Decidable P] {g : Decoder.St → Res Decoder.St}
    {c : List (Nat × Varcode)} :
    downRel.Sim s (if P then (do
      let st ← g (Watching.down s)
      return Watching.up st c none) else .err .consistency) g := by
  intro s' hs
  split at hs
  · obtain ⟨st, h1, h2⟩ := Res.bind_eq_ok.mp hs
    cases h2
    refine ⟨trivial, fun F t _ hr => ⟨st, ?_, downRel_up _ _ _ _⟩⟩
    rw [downRel_eq hr]
    exact h1
  · cases hs

theorem down_simV {s : Watching.St} {P : Prop} [Decidable P] {g : Decoder.St → Res (Nat × Decoder.St)}
    {c : List (Nat × Varcode)} :
    downRel.SimV s (if P then (do
      let r ← g (Watching.down s)
      return (r.1, Watching.up r.2 c none)) else .err .consistency) g := by
  intro n s' hs
  split at hs
  · obtain ⟨r, h1, h2⟩ := Res.bind_eq_ok.mp hs
    cases h2
    refine ⟨trivial, fun F t _ hr => ⟨r.2, ?_, downRel_up _ _ _ _⟩⟩
    rw [downRel_eq hr]
    exact h1
  · cases hs

/-- Where the watching decoder goes on, the decoder does the same. -/
theorem downSims (C : Ctx) : downRel.Sims (Watching.target C) (Decoder.target C) where
  bitmap s n := by
    show downRel.Sim s (Watching.bitmap C s n) (fun t => Decoder.define_bitmap C t n)
    unfold Watching.bitmap
    dsimp only
    split
    · exact down_sim (g := fun t => Decoder.define_bitmap C t n)
    · exact Rel.Sim.err rfl
  element s i := down_sim (g := fun t => Decoder.define_variable C t i)
  associated s i := down_sim (g := fun t => Decoder.define_variable_with_associated_field C t i)
  factor s i := down_simV (g := fun t => Decoder.define_delayed_replication_factor C t i)
  bitmapFactor s i := by
    intro n s' hs
    have hs : Watching.bitmapFactor C s i = .ok (n, s') := hs
    unfold Watching.bitmapFactor at hs
    split at hs
    · obtain ⟨r, h1, h2⟩ := Res.bind_eq_ok.mp hs
      split at h2
      · cases h2
        refine ⟨trivial, fun F t _ hr => ⟨r.2, ?_, downRel_up _ _ _ _⟩⟩
        rw [downRel_eq hr]
        exact h1
      · cases h2
    · cases hs
  significance s i := down_simV (g := fun t => Decoder.define_associated_field_significance C t i)
  substituted s p := by
    show downRel.Sim s (Watching.substituted C s p) (fun t => Decoder.define_substituted_value C t p)
    unfold Watching.substituted
    split
    · exact Rel.Sim.err rfl
    · next v hv =>
      refine Rel.Sim.congr (down_sim (g := fun t => Decoder.decode_and_set_attribute C t v.info p))
        fun F t hr => ?_
      rw [downRel_eq hr]
      unfold Decoder.define_substituted_value
      rw [show (Watching.down s).tgt.out = s.tgt.dec.out from rfl, hv]
  attr s i p := down_sim (g := fun t => Decoder.decode_and_set_attribute C t i p)
  raw s c := down_sim (g := fun t => Decoder.define_raw_character_data C t c)
  refval s c := Rel.Sim.err rfl

/-! ## Subsets -/

/-- What is read from a subset that can be written back matches the descriptors, and
its fields are the bits read. -/
theorem rewritable_ok (C : Ctx) (hE : IsRounding C.E.fl) {add_undef : Bool} {depth : Nat}
    {datadesc : List Varcode} {cd cw : TableCaches} {i : Input}
    (h : rewritable C add_undef depth datadesc cd i = true) (hi : i.WF)
    (hu : cw.unknown_table = cd.unknown_table) (hb : cw.bitmap_table = cd.bitmap_table) :
    ∃ out cd' i' b cw', Decoder.decodeSubset C add_undef depth datadesc cd i = .ok (out, cd', i') ∧
      i'.WF ∧ i.rem = b ++ i'.rem ∧ Sound C.E out ∧ SoundAttrs C.E out ∧
      Matches C depth datadesc out cw b cw' ∧
      cw'.unknown_table = cd'.unknown_table ∧ cw'.bitmap_table = cd'.bitmap_table := by
  unfold rewritable at h
  cases hrun : Interp.run C (Watching.target C) depth datadesc (Watching.start add_undef cd i) with
  | ub => rw [hrun] at h; cases h
  | err e => rw [hrun] at h; cases h
  | ok s =>
    rw [hrun] at h
    have hdue : s.tgt.due = none := by simpa using h
    obtain ⟨-, hdn⟩ := Interp.sim_run C (downSims C) depth datadesc _ s hrun
    obtain ⟨t, t1, t2⟩ := hdn s.tgt _ trivial (downRel_up s.tgt (Decoder.start add_undef cd i) [] none)
    have ht := downRel_eq t2
    subst ht
    obtain ⟨hle, hre⟩ := Interp.sim_run C (reSims C hE i.rem) depth datadesc _ s hrun
    have hI0 : (Watching.start add_undef cd i).tgt.Inv C.E :=
      ⟨hi, by simp [Watching.start, Watching.up, Decoder.start, Interp.new],
        by simp [Watching.start, Watching.up, Decoder.start, Interp.new],
        by simp [Watching.start, Watching.up]⟩
    obtain ⟨hI, hG⟩ := hle hI0
    obtain ⟨w, w1, w2⟩ := hre s.tgt (.new cw (Walk.start s.tgt.dec.out cw.bitmap_table))
      ((reRel C.E i.rem).refl _)
      ⟨⟨rfl, rfl, rfl, rfl, rfl, rfl, rfl, rfl, rfl, hu⟩, hI0, hdue, rfl, rfl, rfl, rfl, hb⟩
    obtain ⟨hsame, -, -, q3, q4, q5, q6, q7⟩ := w2
    refine ⟨s.tgt.dec.out, s.caches, s.tgt.dec.input, w.tgt.bits, _, ?_, hI.input, q5, fun v hv => ?_,
      fun v hv => ?_, ⟨w, w1, q4, rfl, ?_, rfl⟩, hsame.unknown, q7⟩
    · unfold Decoder.decodeSubset
      rw [t1]
      rfl
    · exact ⟨(hI.sound v hv).1.core, (hI.sound v hv).2.1⟩
    · exact ⟨(hI.sound v hv).1, (hI.sound v hv).2.2⟩
    · unfold Walk.allCarried
      rw [q3, q6]
      simp only [List.all_eq_true, List.mem_range, Bool.or_eq_true, decide_eq_true_eq]
      intro p hp a ha
      have hv : s.tgt.dec.out[p]? = some s.tgt.dec.out[p] := List.getElem?_eq_getElem hp
      rw [hv] at ha
      simp only [Option.map_some, Option.getD_some] at ha
      cases hav : a.view with
      | none => simp
      | some y =>
        right
        refine hI.shown p _ a.code hv ?_
        unfold attrShown attrOf
        intro hnone
        rw [Option.map_eq_none_iff, List.find?_eq_none] at hnone
        exact hnone a ha (by simp [hav])

/-- The same for many subsets. -/
theorem rewritableAll_ok (C : Ctx) (hE : IsRounding C.E.fl) {add_undef : Bool} {depth : Nat}
    {datadesc : List Varcode} {n : Nat} {cd cw : TableCaches} {i : Input}
    (h : rewritableAll C add_undef depth datadesc n cd i = true) (hi : i.WF)
    (hu : cw.unknown_table = cd.unknown_table) (hb : cw.bitmap_table = cd.bitmap_table) :
    ∃ outs cd' i' b, Decoder.decodeSubsets C add_undef depth datadesc n cd i = .ok (outs, cd', i') ∧
      outs.length = n ∧ i'.WF ∧ i.rem = b ++ i'.rem ∧ (∀ S ∈ outs, Sound C.E S) ∧
      (∀ S ∈ outs, SoundAttrs C.E S) ∧ MatchesAll C depth datadesc outs cw b := by
  induction n generalizing cd cw i with
  | zero => exact ⟨[], cd, i, [], rfl, rfl, hi, rfl, by simp, by simp, .nil _⟩
  | succ n ih =>
    unfold rewritableAll at h
    simp only [Bool.and_eq_true] at h
    obtain ⟨out, cd', i', b, cw', d1, d2, d3, d4, d5, d6, d7, d8⟩ := rewritable_ok C hE h.1 hi hu hb
    rw [d1] at h
    obtain ⟨outs, cd'', i'', b', e1, e2, e3, e4, e5, e6, e7⟩ := ih h.2 d2 d7 d8
    refine ⟨out :: outs, cd'', i'', b ++ b', ?_, by simp [e2], e3, by rw [d3, e4, List.append_assoc],
      ?_, ?_, .cons _ _ _ _ _ _ d6 e7⟩
    · unfold Decoder.decodeSubsets
      rw [d1, Res.ok_bind, e1]
      rfl
    · intro S hS
      rcases List.mem_cons.mp hS with rfl | hS
      · exact d4
      · exact e5 S hS
    · intro S hS
      rcases List.mem_cons.mp hS with rfl | hS
      · exact d5
      · exact e6 S hS

end Wreport
