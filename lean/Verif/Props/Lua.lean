import Verif.Props.Python
import Verif.Props.Format
import Verif.Spec.Lua

/-! # C106: variables from Lua -/

namespace Wreport

open Spec

/-- C106: what Lua reads from a variable as the library keeps them, of every kind but
binary. Missing from the full property: binary variables (`C106_not_binary`) and the least
`int`, whose text is undefined (see C08). -/
theorem C106_values_partial (E : Env) (hE : IsRounding E.fl) (v : Var) (hv : v.Sane E)
    (ht : v.info.type ≠ .binary) (hlow : v.info.IsNum → -2147483648 < v.info.imin) :
    LuaShows v.info v.toVarCore.view (Lua.enqi v.toVarCore) (Lua.enqd E v.toVarCore)
      (Lua.enqc E v.toVarCore) (Lua.tostring E v.toVarCore) := by
  cases hs : v.isset with
  | false =>
    have : v.toVarCore.view = none := by unfold VarCore.view; simp [hs]
    rw [this]
    unfold Lua.enqi Lua.enqd Lua.enqc Lua.tostring VarCore.format
    simp only [hs, Bool.false_eq_true, if_false, Bool.not_false, if_true]
    exact ⟨rfl, rfl, rfl, rfl⟩
  | true =>
    rcases Py.type_cases ht with hn | ht
    · obtain ⟨i, hc, hi, hr⟩ := hv.core.word hn
      have hview : v.toVarCore.view = some (.num i) := by
        unfold VarCore.view
        rcases hn with ht | ht <;> simp [hs, ht, hc]
      obtain ⟨s, -, h2, m, h3, h4⟩ := C08_text_is_decimal E v i hn hs hc hi (by
        have := (hr hs).1
        have e : v.toVarCore.info = v.info := rfl
        rw [e] at this
        have := hlow hn
        omega)
      obtain ⟨d, h5, h6⟩ := enqd_decode (v := v.toVarCore) hv.core.made hn hs hc
      rw [hview]
      unfold Lua.enqi Lua.enqd Lua.enqc Lua.tostring
      simp only [hs, if_true]
      rw [enqi_num (v := v.toVarCore) hn hc hs, h5, h3]
      simp only [Res.ok_bind, h4]
      refine ⟨rfl, ⟨d, rfl, decode_decimal_err hE h6⟩, ⟨s, rfl, h2⟩, fun hb => ?_⟩
      obtain ⟨t, h7, -, h8⟩ := C70_number_partial E hE v.toVarCore i (ascii "(undef)") hv.core.made hn hs hc hi hb
      rw [h7]
      exact ⟨t, rfl, h8⟩
    · obtain ⟨t, m, h1, h2, h3⟩ := Py.sane_text hv.core ht hs
      rw [h1]
      have hf : v.toVarCore.format E (ascii "(undef)") = .ok t := by
        have h2' := h2
        unfold VarCore.enqc at h2'
        simp only [hs, ht, Bool.not_true, Bool.false_eq_true, if_false] at h2'
        unfold VarCore.format
        simp [hs, ht, h2', h3]
      unfold Lua.enqi Lua.enqd Lua.enqc Lua.tostring
      simp only [hs, if_true]
      rw [Py.enqi_string (v := v.toVarCore) hs ht, Py.enqd_string (v := v.toVarCore) hs ht, h2, hf]
      simp only [Res.ok_bind, h3]
      exact ⟨rfl, rfl, rfl, rfl⟩

/-- C106, the code: the text of the descriptor. -/
theorem C106_code (v : VarCore) (h : v.info.code < 65536) :
    ∃ s, Lua.code v = .ok (.str s) ∧
      IsDescriptorText s (v.info.code / 16384) (v.info.code / 256 % 64) (v.info.code % 256) := by
  have hF := WR_VAR_F_eq _ h
  have hlt : v.info.code / 16384 < 4 := by omega
  refine ⟨varcode_format v.info.code, ?_, C01_format_is_text _ h⟩
  unfold Lua.code varcode_format
  rw [hF]
  match v.info.code / 16384, hlt with
  | 0, _ => rfl
  | 1, _ => rfl
  | 2, _ => rfl
  | 3, _ => rfl

/-- C106, unset variables of every type, also binary: `nil`, and nothing else is `nil`. -/
theorem C106_nil (E : Env) (v : VarCore) :
    (Lua.enqi v = .ok .nil ↔ v.isset = false) ∧ (Lua.enqd E v = .ok .nil ↔ v.isset = false) ∧
    (Lua.enqc E v = .ok .nil ↔ v.isset = false) := by
  unfold Lua.enqi Lua.enqd Lua.enqc
  cases hs : v.isset with
  | false => simp
  | true =>
    simp only [if_true, reduceCtorEq, iff_false]
    refine ⟨fun h => ?_, fun h => ?_, fun h => ?_⟩
    · obtain ⟨a, -, h⟩ := Res.bind_eq_ok.mp h; cases h
    · obtain ⟨a, -, h⟩ := Res.bind_eq_ok.mp h; cases h
    · obtain ⟨a, -, h⟩ := Res.bind_eq_ok.mp h
      obtain ⟨b, -, h⟩ := Res.bind_eq_ok.mp h
      cases h

/-- C106 fails for binary variables: contents with a zero byte are cut, contents without
one are read past their end. -/
theorem C106_not_binary :
    let b := fun (l : List Byte) => Py.get! (Py.initInfo Env0 .default sampleBin (some (.bytes l)))
    (b [0, 7]).toVarCore.view = some (.bits [0, 7]) ∧ Lua.enqc Env0 (b [0, 7]).toVarCore = .ok (.str []) ∧
    (b [255, 7]).toVarCore.view = some (.bits [255, 7]) ∧ Lua.enqc Env0 (b [255, 7]).toVarCore = .ub := by
  decide +kernel

/-- C106 applies: a temperature, a text and an unset variable. -/
example :
    (Lua.enqi ((Var.new sampleTemp).putInt 27315).toVarCore = .ok (.int 27315)) ∧
    (Lua.enqc Env0 ((Var.new sampleTemp).putInt (-27315)).toVarCore = .ok (.str (ascii "-27315"))) ∧
    (Lua.code (Var.new sampleTemp).toVarCore = .ok (.str (ascii "B12101"))) ∧
    (Lua.tostring Env0 (Var.new sampleStr).toVarCore = .ok (.str (ascii "(undef)"))) ∧
    (-2147483648 < sampleTemp.imin) ∧ sampleTemp.type ≠ .binary := by
  decide +kernel

end Wreport
