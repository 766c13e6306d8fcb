import Verif.Spec.Assoc
import Verif.Lemmas.Codec
import Verif.Lemmas.VarCopy
import Verif.Props.Interp

/-!
# C37: associated fields
-/

namespace Wreport

open Spec

theorem enqaList_setaList (a : VarCore) (l : List VarCore) :
    Var.enqaList a.code (Var.setaList a l) = some a := by
  induction l with
  | nil => simp [Var.setaList, Var.enqaList]
  | cons b l ih =>
    unfold Var.setaList
    split
    · simp [Var.enqaList]
    · split
      · simp [Var.enqaList]
      · rw [Var.enqaList, if_pos (by omega), if_neg (by assumption), ih]

/-- A variable with the attribute that the decoder made, if any. -/
def withAttr (v : Var) : Option Var → Var
  | none => v
  | some a => v.setaMove a

namespace AssociatedField

theorem get_attribute_eq {f : AssociatedField} {q : Varcode} (v : Var)
    (hq : qualityCode f.significance = some q) : f.get_attribute v = .ok (v.enqa q) := by
  obtain ⟨sm, bc, s⟩ := f
  simp only at hq
  unfold qualityCode at hq
  split at hq <;> cases hq <;> rfl

theorem fieldAttr_ok {O : Opts} {btable : Vartable} {q : Varcode} {info : Varinfo} {value : Nat}
    (hb : btable.query q = .ok info) (hn : info.IsNum) (hv : value < 2 ^ 31)
    (hr : info.imin ≤ (value : Int) ∧ (value : Int) ≤ info.imax) :
    fieldAttr O btable q false value = .ok (some ((Var.new info).putInt value)) := by
  have hu : ofU32 value = value := by
    unfold ofU32
    exact wrapInt_eq (by rw [inInt_iff]; omega)
  unfold fieldAttr
  rw [hb, Res.ok_bind]
  simp only [Bool.false_eq_true, if_false, hu, Var.newInt]
  have hs : (Var.new info).seti O (value : Int) = ((Var.new info).putInt value, .ok ()) := by
    unfold Var.seti
    have ha : (Var.new info).assign_i_checked O (value : Int) =
        ((Var.new info).putInt value, .ok ()) := by
      unfold Var.assign_i_checked
      exact if_neg (by show ¬ ((value : Int) < info.imin ∨ info.imax < value); omega)
    rcases hn with h | h <;> simp only [show (Var.new info).info.type = info.type from rfl, h, ha]
  rw [hs]
  rfl

theorem make_attribute_value {E : Env} {O : Opts} {btable : Vartable} {f : AssociatedField}
    {q : Varcode} {info : Varinfo} {value : Nat}
    (hq : qualityCode f.significance = some q) (h21 : f.significance ≠ 21)
    (hb : btable.query q = .ok info) (hn : info.IsNum)
    (h0 : 0 < f.bit_count) (h1 : f.bit_count ≤ 31) (hv : value < 2 ^ f.bit_count - 1)
    (hr : info.imin ≤ (value : Int) ∧ (value : Int) ≤ info.imax) :
    f.make_attribute E O btable value = .ok (some ((Var.new info).putInt value)) := by
  have hp : 2 ^ f.bit_count ≤ 2 ^ 31 := Nat.pow_le_pow_right (by omega) h1
  have ha := fieldAttr_ok (O := O) hb hn (by omega : value < 2 ^ 31) hr
  unfold make_attribute
  rw [Input.all_ones_ok h0 (.inl h1), Res.ok_bind]
  have hm : decide (value = 2 ^ f.bit_count - 1) = false := decide_eq_false (by omega)
  simp only [hm, Bool.false_and, Bool.false_eq_true, if_false]
  obtain ⟨sm, bc, s⟩ := f
  simp only at hq h21 ⊢
  unfold qualityCode at hq
  split at hq <;> cases hq <;> first | exact ha | exact absurd rfl h21

theorem make_attribute_missing {E : Env} {O : Opts} {btable : Vartable} {f : AssociatedField}
    {q : Varcode} {info : Varinfo}
    (hq : qualityCode f.significance = some q) (h21 : f.significance ≠ 21)
    (hb : btable.query q = .ok info) (h0 : 0 < f.bit_count) (h1 : f.bit_count ≤ 31) :
    f.make_attribute E O btable (2 ^ f.bit_count - 1) = .ok none ∨
    f.make_attribute E O btable (2 ^ f.bit_count - 1) = .ok (some (Var.new info)) := by
  have ha : fieldAttr O btable q true (2 ^ f.bit_count - 1) = .ok (some (Var.new info)) := by
    unfold fieldAttr
    rw [hb, Res.ok_bind]
    rfl
  unfold make_attribute
  rw [Input.all_ones_ok h0 (.inl h1), Res.ok_bind]
  simp only [decide_true, Bool.true_and]
  obtain ⟨sm, bc, s⟩ := f
  simp only at hq h21 ha ⊢
  unfold qualityCode at hq
  split at hq <;> cases hq
  · exact .inr ha
  · exact .inr ha
  · cases sm
    · exact .inr ha
    · exact .inl rfl
  · exact .inr ha
  · cases sm
    · exact .inr ha
    · exact .inl rfl
  · exact absurd rfl h21

end AssociatedField

/-! ## C37 -/

/-- C37 (part): the attribute made from an associated field of up to 31 bits is the
one that the encoder reads for the same significance, and it holds the same value,
for each significance that has a quality element except 21. Missing from the full
property: significance 21 (`C37_not_21`), reserved significances
(`C37_not_reserved`), and the value with all bits set, which is the only way to say
"suspect" in a field of one bit (`C37_not_one_bit`). -/
theorem C37_value_partial (E : Env) (O : Opts) (btable : Vartable) (dec enc : AssociatedField)
    (q : Varcode) (info : Varinfo) (value : Nat) (v : Var)
    (hs : enc.significance = dec.significance)
    (hq : qualityCode dec.significance = some q) (h21 : dec.significance ≠ 21)
    (hb : btable.query q = .ok info) (hc : info.code = q) (hn : info.IsNum)
    (h0 : 0 < dec.bit_count) (h1 : dec.bit_count ≤ 31) (hv : value < 2 ^ dec.bit_count - 1)
    (hr : info.imin ≤ (value : Int) ∧ (value : Int) ≤ info.imax) :
    ∃ a, dec.make_attribute E O btable value = .ok (some a) ∧ a.info = info ∧
      enc.get_attribute (v.setaMove a) = .ok (some a.toVarCore) ∧
      a.toVarCore.enqi = .ok (value : Int) := by
  refine ⟨_, AssociatedField.make_attribute_value hq h21 hb hn h0 h1 hv hr, rfl, ?_, ?_⟩
  · rw [AssociatedField.get_attribute_eq _ (by rw [hs]; exact hq)]
    have := enqaList_setaList ((Var.new info).putInt value).toVarCore v.attrs
    rw [show ((Var.new info).putInt value).toVarCore.code = q from hc] at this
    exact congrArg Res.ok this
  · unfold VarCore.enqi
    rcases hn with h | h <;>
      simp only [show ((Var.new info).putInt value).info.type = info.type from rfl, h] <;> rfl

/-- C37 (part): the encoder writes the associated field back with the bits that the
decoder read, whether they are a value or all ones (missing). Missing as in
`C37_value_partial`. -/
theorem C37_field_partial (E : Env) (O : Opts) (btable : Vartable) (dec : AssociatedField)
    (st : Enc.St BitOut) (q : Varcode) (info : Varinfo) (value : Nat) (v : Var)
    (ho : st.tgt.ob.WF) (hs : st.associated_field.significance = dec.significance)
    (hw : st.associated_field.bit_count = dec.bit_count)
    (hq : qualityCode dec.significance = some q) (h21 : dec.significance ≠ 21)
    (hb : btable.query q = .ok info) (hc : info.code = q) (hn : info.IsNum)
    (h0 : 0 < dec.bit_count) (h1 : dec.bit_count ≤ 31)
    (hv : value < 2 ^ dec.bit_count - 1 ∧ info.imin ≤ (value : Int) ∧ (value : Int) ≤ info.imax ∨
      value = 2 ^ dec.bit_count - 1 ∧ v.enqa q = none) :
    ∃ a st', dec.make_attribute E O btable value = .ok a ∧
      DDSEncoder.encode_associated_field st (withAttr v a) = .ok st' ∧ st'.tgt.ob.WF ∧
      st'.tgt.ob.bits = st.tgt.ob.bits ++ bits dec.bit_count value := by
  have hq' : qualityCode st.associated_field.significance = some q := by rw [hs]; exact hq
  rcases hv with ⟨hv, hr⟩ | ⟨rfl, hnone⟩
  · obtain ⟨a, a1, -, a3, a4⟩ := C37_value_partial E O btable dec st.associated_field q info value v
      hs hq h21 hb hc hn h0 h1 hv hr
    have ha : a.isset = true := by
      by_contra hx
      unfold VarCore.enqi at a4
      rw [if_pos (by simpa using hx)] at a4
      cases a4
    obtain ⟨o', b1, b2, b3⟩ := BitOut.add_bits_ok ho value (n := dec.bit_count) h0 (by omega)
    have hp : 2 ^ dec.bit_count ≤ 2 ^ 31 := Nat.pow_le_pow_right (by omega) h1
    have hu : toU32 (value : Int) = value := by unfold toU32; omega
    refine ⟨some a, Enc.put st o', a1, ?_, b2, b3⟩
    unfold DDSEncoder.encode_associated_field withAttr
    simp only [a3, Res.ok_bind, Option.filter, ha, if_true, a4, hu, hw, b1]
    rfl
  · obtain ⟨o', b1, b2, b3⟩ := BitOut.append_missing_ok ho h0 (by omega : dec.bit_count ≤ 32)
    rw [bits_ones]
    rcases AssociatedField.make_attribute_missing (E := E) (O := O) hq h21 hb h0 h1 with h | h
    · refine ⟨none, Enc.put st o', h, ?_, b2, b3⟩
      unfold DDSEncoder.encode_associated_field withAttr
      rw [AssociatedField.get_attribute_eq _ hq', hnone]
      simp only [Res.ok_bind, Option.filter, hw, b1]
      rfl
    · refine ⟨some (Var.new info), Enc.put st o', h, ?_, b2, b3⟩
      unfold DDSEncoder.encode_associated_field withAttr
      rw [AssociatedField.get_attribute_eq _ hq']
      have := enqaList_setaList (Var.new info).toVarCore v.attrs
      rw [show (Var.new info).toVarCore.code = q from hc] at this
      simp only [Res.ok_bind, Var.enqa, Var.setaMove, this, Option.filter, hw]
      rw [if_neg (by simp [Var.new])]
      simp only [b1]
      rfl

/-- Hypotheses of C37 met with significance 8 and two bits. -/
example : qualityCode 8 = some (WR_VAR 0 33 2) ∧
    sampleB.query (WR_VAR 0 33 2) = .ok sampleQuality ∧ sampleQuality.code = WR_VAR 0 33 2 ∧
    sampleQuality.IsNum ∧ 2 < 2 ^ 2 - 1 ∧ sampleQuality.imin ≤ ((2 : Nat) : Int) ∧
    ((2 : Nat) : Int) ≤ sampleQuality.imax ∧ (tempVar 5).enqa (WR_VAR 0 33 2) = none :=
  ⟨rfl, by decide +kernel, rfl, .inl rfl, by decide, by decide +kernel, by decide +kernel, rfl⟩

/-- B33041, attribute of following value, 2 bits. -/
def sampleFollowing : Varinfo :=
  made (Varinfo.raw (WR_VAR 0 33 41) .integer (ascii "CODE TABLE") 0 1 0 2)

/-- Quality elements. -/
def qualityB : Vartable := ⟨[sampleQuality, sampleFollowing].map fun i => ⟨i, []⟩⟩

/-- Value of the attribute read back by the encoder. -/
def fieldValue (significance bit_count value : Nat) : Res (Option (Option Value)) := do
  let f : AssociatedField := ⟨true, bit_count, significance⟩
  let a ← f.make_attribute Env0 .default qualityB value
  let r ← f.get_attribute (withAttr (tempVar 27315) a)
  return r.map (·.view)

/-- C37 fails for significance 21: any value becomes 0. -/
theorem C37_not_21 : fieldValue 21 2 2 = .ok (some (some (.num 0))) ∧
    fieldValue 21 2 1 = .ok (some (some (.num 0))) := by decide +kernel

/-- C37 fails for reserved significances: the value is dropped. -/
theorem C37_not_reserved : fieldValue 3 2 1 = .ok none ∧ fieldValue 62 2 1 = .ok none := by
  decide +kernel

/-- C37 fails for one bit fields: 1 is taken as missing. The same field with two
bits is kept. -/
theorem C37_not_one_bit : fieldValue 1 1 1 = .ok (some none) ∧
    fieldValue 1 2 1 = .ok (some (some (.num 1))) := by decide +kernel

end Wreport
