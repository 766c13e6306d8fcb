import Verif.Lemmas.Codec
import Verif.Props.Varinfo

/-!
# C19, C20, C21, C22: fields of the data section

Writers start from any state of the bit buffer and readers from any state of the
input whose next bits are the field; so all alignments are covered. As for C17,
eight more bits must follow in the message (Section 5 always does).
-/

namespace Wreport

open Spec

/-! ## C19 -/

/-- C19: a string variable is written as its text padded with blanks, and a text
that is not empty, has no trailing blank (or is a single character), fits the field and
does not fill it with 0xff bytes only is read back unchanged. -/
theorem C19_round_trip (E : Env) (O : Opts) (o : BitOut) (v : VarCore) (t : List Byte)
    (ho : o.WF) (hv : v.WF) (ht : v.info.type = .string) (hview : v.view = some (.text t))
    (hfit : t.length ≤ v.info.bit_len / 8) :
    (∃ o', o.append_var E v.info v = .ok o' ∧ o'.WF ∧
      o'.bits = o.bits ++ textField v.info.bit_len t) ∧
    ∀ (i : Input) (rest : List Bool), i.WF → i.rem = textField v.info.bit_len t ++ rest →
      8 ≤ rest.length → (t.length = 1 ∨ NoTrailingBlank t) →
      ((∃ b ∈ t, b ≠ 0xff) ∨ t.length < v.info.bit_len / 8) →
      ∃ v' i', i.decode_string_var O (Var.new v.info) = .ok (v', i') ∧ i'.WF ∧ i'.rem = rest ∧
        v'.info = v.info ∧ v'.toVarCore.WF ∧ v'.toVarCore.view = some (.text t) ∧
        v'.attrs = [] := by
  have hset : v.isset = true := by
    by_contra hc
    rw [view_unset (by simpa using hc)] at hview
    cases hview
  obtain ⟨tn, -⟩ | ⟨-, m, s, ci, hl, hcs, h⟩ | ⟨tn, -⟩ := WF_set hv hset
  · rcases tn with tn | tn <;> rw [ht] at tn <;> cases tn
  · rw [hview] at h
    simp only [Option.some.injEq, Value.text.injEq] at h
    subst h
    obtain ⟨hnul, r, rfl⟩ := cstr_eq_ok hcs
    constructor
    · obtain ⟨o', a1, a2, a3⟩ := BitOut.append_string_ok ho hnul r v.info.bit_len
      refine ⟨o', ?_, a2, ?_⟩
      · unfold BitOut.append_var
        rw [if_neg (by simp [hset]), ht]
        simp only [VarCore.enqc, hset, ht, VarCore.ptr, ci, Bool.not_true, Bool.false_eq_true,
          if_false, Res.ok_bind]
        exact a1
      · rw [a3, List.take_of_length_le hfit]
    · intro i rest hi hrem hrest hnb hff
      obtain ⟨i', g1, g2, g3, -⟩ := Input.decode_string_ok hi hnb hfit hnul hff hrem hrest
      obtain ⟨v', s1, s2, s3, s4, s5⟩ := Input.setDecoded_ok (O := O) (dest := Var.new v.info)
        (WF_new _) ht hnul
      refine ⟨v', i', ?_, g2, g3, s3, s2, ?_, s4⟩
      · unfold Input.decode_string_var
        simp only [show (Var.new v.info).info.bit_len = v.info.bit_len from rfl, g1, Res.ok_bind, s1]
        rfl
      · rw [s5]
        have := cstr_length hcs
        have hle : t.length ≤ v.info.len := by omega
        simp only [show (Var.new v.info).info.len = v.info.len from rfl]
        rw [List.take_of_length_le hle]
  · rw [ht] at tn; cases tn

/-- A string variable holding "Bologna". -/
def sampleName : VarCore := ((Var.new sampleStr).sets .default (ascii "Bologna")).1.toVarCore

example : (BitOut.mk [0x42] 5 3).WF ∧ sampleName.WF ∧ sampleName.info.type = .string ∧
    sampleName.view = some (.text (ascii "Bologna")) ∧
    (ascii "Bologna").length ≤ sampleName.info.bit_len / 8 ∧ NoTrailingBlank (ascii "Bologna") ∧
    ∃ b ∈ ascii "Bologna", b ≠ 0xff :=
  ⟨⟨by decide, by decide⟩, Or.inr ⟨_, rfl, by decide +kernel, fun _ => ⟨ascii "Bologna", by decide +kernel⟩⟩,
    rfl, by decide +kernel, by decide, ⟨ascii "Bologn", 97, by decide, by decide, by decide⟩,
    66, by decide, by decide⟩

/-- A text of one blank in a field of two characters. -/
example : (((Var.new (made (Varinfo.raw (WR_VAR 0 1 40) .string (ascii "CCITTIA5") 0 2 0 16))).sets
      .default (ascii " ")).1.toVarCore.view = some (.text (ascii " "))) ∧
    (ascii " ").length ≤ 16 / 8 ∧ (ascii " ").length = 1 ∧ ∃ b ∈ ascii " ", b ≠ 0xff := by
  refine ⟨by decide +kernel, by decide, by decide, 32, by decide, by decide⟩

/-- Outside C19: the empty text comes back as one blank. -/
theorem C19_not_empty :
    (do let o ← (BitOut.new []).append_string (c_str []) 16
        let r ← (Input.new (o.out ++ ascii "7777")).decode_string 16
        return r.1) = Res.ok (some [32]) := by decide +kernel

/-! ## C20 -/

/-- C20 (part), numbers: a missing number of 1 to 31 bits (32 where signed
overflow wraps) is written as that many ones and is read back as missing. Missing
from the full property: widths 0 and over 32, and the delayed replication
factors, which have no missing value. -/
theorem C20_number_partial (E : Env) (O : Opts) (o : BitOut) (v : VarCore) (ho : o.WF)
    (hset : v.isset = false) (hb0 : 0 < v.info.bit_len)
    (hb1 : v.info.bit_len ≤ 31 ∨ (v.info.bit_len = 32 ∧ E.wrapv = true))
    (hc : ¬ v.info.code ∈ [WR_VAR 0 31 0, WR_VAR 0 31 1, WR_VAR 0 31 2, WR_VAR 0 31 11, WR_VAR 0 31 12])
    (hcode : v.info.code < 65536) :
    (∃ o', o.append_var E v.info v = .ok o' ∧ o'.WF ∧
      o'.bits = o.bits ++ missingField v.info.bit_len) ∧
    ∀ (i : Input) (rest : List Bool) (dest : Var), i.WF → dest.info = v.info →
      i.rem = missingField v.info.bit_len ++ rest → 8 ≤ rest.length →
      ∃ v' i', i.decode_number E O dest = .ok (v', i') ∧ i'.WF ∧ i'.rem = rest ∧
        v'.isset = false ∧ v' = dest.unset := by
  constructor
  · obtain ⟨o', a1, a2, a3⟩ := BitOut.append_missing_ok ho hb0 (by omega)
    refine ⟨o', ?_, a2, a3⟩
    unfold BitOut.append_var
    rw [if_pos (by simp [hset])]
    exact a1
  · intro i rest dest hi hd hrem hrest
    have hpos : 0 < 2 ^ v.info.bit_len := by positivity
    obtain ⟨i', g1, g2, g3, -⟩ := Input.get_bits_ok hi (n := v.info.bit_len)
      (v := 2 ^ v.info.bit_len - 1) (rest := rest) (by omega) (by omega)
      (by rw [hrem, bits_ones]; rfl) hrest
    have hnm : Input.neverMissing v.info.code = false := by
      by_contra hx
      simp only [Input.neverMissing, Bool.not_eq_false, Bool.and_eq_true, Bool.or_eq_true,
        decide_eq_true_eq] at hx
      apply hc
      simp only [WR_VAR_F, WR_VAR_X, WR_VAR_Y, Nat.shiftRight_eq_div_pow] at hx
      rw [show WR_VAR 0 31 0 = 7936 from rfl, show WR_VAR 0 31 1 = 7937 from rfl,
        show WR_VAR 0 31 2 = 7938 from rfl, show WR_VAR 0 31 11 = 7947 from rfl,
        show WR_VAR 0 31 12 = 7948 from rfl]
      have : v.info.code = 7936 ∨ v.info.code = 7937 ∨ v.info.code = 7938 ∨ v.info.code = 7947 ∨
          v.info.code = 7948 := by
        omega
      simpa using this
    refine ⟨dest.unset, i', ?_, g2, g3, rfl, rfl⟩
    unfold Input.decode_number
    rw [hd, g1]
    simp only [Res.ok_bind]
    rw [isMissing_ok hb0 hb1, hnm]
    simp [Input.setNumberOrMissing]

example : (Var.new sampleTemp).isset = false ∧ sampleTemp.bit_len = 16 ∧
    ¬ sampleTemp.code ∈ [WR_VAR 0 31 0, WR_VAR 0 31 1, WR_VAR 0 31 2, WR_VAR 0 31 11, WR_VAR 0 31 12] := by
  decide

/-- C20 (part), strings and binary values: a missing one of 8, 16, 24 or 32 bits
is written as that many ones and is read back as missing. Missing from the full
property: all other widths, for which it fails (see below). -/
theorem C20_text_partial (E : Env) (O : Opts) (o : BitOut) (v : VarCore) (ho : o.WF)
    (hset : v.isset = false) (hb0 : 0 < v.info.bit_len) (hb1 : v.info.bit_len ≤ 32)
    (hb8 : v.info.bit_len % 8 = 0) :
    (∃ o', o.append_var E v.info v = .ok o' ∧ o'.WF ∧
      o'.bits = o.bits ++ missingField v.info.bit_len) ∧
    ∀ (i : Input) (rest : List Bool), i.WF →
      i.rem = missingField v.info.bit_len ++ rest → 8 ≤ rest.length →
      (∃ v' i', i.decode_string_var O (Var.new v.info) = .ok (v', i') ∧ i'.WF ∧ i'.rem = rest ∧
        v'.isset = false ∧ v' = Var.new v.info) ∧
      (∃ v' i', i.decode_binary O (Var.new v.info) = .ok (v', i') ∧ i'.WF ∧ i'.rem = rest ∧
        v'.isset = false ∧ v' = Var.new v.info) := by
  constructor
  · obtain ⟨o', a1, a2, a3⟩ := BitOut.append_missing_ok ho hb0 hb1
    refine ⟨o', ?_, a2, a3⟩
    unfold BitOut.append_var
    rw [if_pos (by simp [hset])]
    exact a1
  · intro i rest hi hrem hrest
    obtain ⟨i', g1, g2, g3, -⟩ := Input.decode_string_missing hi hb8 hrem hrest
    refine ⟨⟨Var.new v.info, i', ?_, g2, g3, rfl, rfl⟩, ?_⟩
    · unfold Input.decode_string_var
      simp only [show (Var.new v.info).info.bit_len = v.info.bit_len from rfl, g1, Res.ok_bind]
      rfl
    · obtain ⟨i', g1, g2, g3, -⟩ := Input.getBytes_ones hi hb8 hrem hrest
      refine ⟨Var.new v.info, i', ?_, g2, g3, rfl, rfl⟩
      unfold Input.decode_binary
      simp only [show (Var.new v.info).info.bit_len = v.info.bit_len from rfl, g1, Res.ok_bind]
      rw [if_pos (by simp)]
      rfl

/-- A string of two characters. -/
def sampleStr2 : Varinfo := made (Varinfo.raw (WR_VAR 0 1 40) .string (ascii "CCITTIA5") 0 2 0 16)

example : (Var.new sampleStr2).isset = false ∧ sampleStr2.bit_len = 16 := by decide

/-- C20 fails: writing a missing value wider than 32 bits, such as any string of
five or more characters, is undefined behaviour. -/
theorem C20_not_wide (E : Env) (o : BitOut) (v : VarCore) (hset : v.isset = false)
    (h : 32 < v.info.bit_len) : o.append_var E v.info v = .ub := by
  unfold BitOut.append_var BitOut.append_missing
  rw [if_pos (by simp [hset])]
  unfold BitOut.add_bits
  rw [if_pos (Or.inr h)]

example : (Var.new sampleStr).isset = false ∧ 32 < sampleStr.bit_len := by decide

/-- C20 fails: a missing binary value of 11 bits is read back as 11 set bits. -/
theorem C20_not_binary :
    (do let o ← (BitOut.new []).append_var Env0 sampleBin (Var.new sampleBin).toVarCore
        let r ← (Input.new (o.flush.out ++ ascii "7777")).decode_binary .default (Var.new sampleBin)
        return r.1.toVarCore.view) = Res.ok (some (.bits [0xff, 0x07])) := by decide +kernel

/-- C20 fails: a missing delayed replication factor is read back as 255. -/
theorem C20_not_replication :
    (do let o ← (BitOut.new []).append_var Env0 sampleRepl (Var.new sampleRepl).toVarCore
        let r ← (Input.new (o.flush.out ++ ascii "7777")).decode_number Env0 .default (Var.new sampleRepl)
        return r.1.toVarCore.view) = Res.ok (some (.num 255)) := by decide +kernel

/-! ## C21 -/

/-- C21: a binary variable is written as its declared bits and, unless all of
them are ones, is read back with the same declared bits and no others. -/
theorem C21_round_trip (E : Env) (O : Opts) (o : BitOut) (v : VarCore) (w : List Byte)
    (ho : o.WF) (hv : v.WF) (hm : v.info.Made E) (ht : v.info.type = .binary)
    (hview : v.view = some (.bits w)) :
    (∃ o', o.append_var E v.info v = .ok o' ∧ o'.WF ∧
      o'.bits = o.bits ++ binField v.info.bit_len w) ∧
    ∀ (i : Input) (rest : List Bool), i.WF → i.rem = binField v.info.bit_len w ++ rest →
      8 ≤ rest.length →
      (∃ k j, j < 8 ∧ DeclaredBit v.info.bit_len k j ∧ (w.getD k 0).toNat.testBit j = false) →
      ∃ v' i' w', i.decode_binary O (Var.new v.info) = .ok (v', i') ∧ i'.WF ∧ i'.rem = rest ∧
        v'.info = v.info ∧ v'.toVarCore.WF ∧ v'.toVarCore.view = some (.bits w') ∧ v'.attrs = [] ∧
        w'.length = w.length ∧
        ∀ k j, j < 8 → ((w'.getD k 0).toNat.testBit j = true ↔
          DeclaredBit v.info.bit_len k j ∧ (w.getD k 0).toNat.testBit j = true) := by
  have hlen := hm.2.2.2 ht
  have hset : v.isset = true := by
    by_contra hc
    rw [view_unset (by simpa using hc)] at hview
    cases hview
  obtain ⟨tn, -⟩ | ⟨tn, -⟩ | ⟨-, m, ci, hl, hnone, h⟩ := WF_set hv hset
  · rcases tn with tn | tn <;> rw [ht] at tn <;> cases tn
  · rw [ht] at tn; cases tn
  · rw [hview] at h
    simp only [Option.some.injEq, Value.bits.injEq] at h
    have hb : m.take v.info.len = toMem w := by
      rw [h, toMem, List.map_map]
      conv_lhs => rw [← List.map_id (m.take v.info.len)]
      apply List.map_congr_left
      intro x hx
      cases x with
      | none => exact absurd hx hnone
      | some x => rfl
    have hbl : w.length = v.info.len := by rw [h]; simp; omega
    constructor
    · obtain ⟨o', a1, a2, a3⟩ := BitOut.append_binary_ok ho (w := w) (m.drop v.info.len)
        (left := v.info.bit_len) (by omega)
      refine ⟨o', ?_, a2, a3⟩
      unfold BitOut.append_var
      rw [if_neg (by simp [hset]), ht]
      simp only [VarCore.enqc, hset, ht, VarCore.ptr, ci, Bool.not_true, Bool.false_eq_true,
          if_false, Res.ok_bind]
      rw [← a1, ← hb, List.take_append_drop]
    · intro i rest hi hrem hrest hff
      obtain ⟨v', i', g1, g2, g3, -, g5, g6, g7, g8⟩ := Input.decode_binary_ok (O := O) hi
        (dest := Var.new v.info) (WF_new _) ht hlen (w := w) (rest := rest)
        (by show v.info.len ≤ _; omega) hff hrem hrest
      have hle : (v.info.bit_len + 7) / 8 ≤ w.length := by omega
      have hdl := Input.length_declared hle
      refine ⟨v', i', _, g1, g2, g3, g5, g7, g8, g6, ?_, ?_⟩
      · exact hdl.trans (by omega)
      · intro k j hj
        by_cases hk : k < (v.info.bit_len + 7) / 8
        · exact Input.getD_declared hle hk
        · constructor
          · intro hbit
            rw [List.getD, List.getElem?_eq_none (by
              show (Input.declared v.info.bit_len w).length ≤ k; omega)] at hbit
            simp at hbit
          · rintro ⟨hd, -⟩
            unfold DeclaredBit at hd
            omega

/-- An 11-bit binary variable. -/
def sampleBits : VarCore := ((Var.new sampleBin).sets .default [0xa5, 0x06]).1.toVarCore

example : sampleBits.WF ∧ sampleBits.info.Made Env0 ∧ sampleBits.info.type = .binary ∧
    sampleBits.view = some (.bits [0xa5, 0x06]) ∧
    (∃ k j, j < 8 ∧ DeclaredBit sampleBits.info.bit_len k j ∧
      (([0xa5, 0x06] : List Byte).getD k 0).toNat.testBit j = false) :=
  ⟨Or.inr ⟨_, rfl, by decide +kernel, fun _ => by decide +kernel⟩, sampleBin_made, rfl,
    by decide +kernel, 1, 0, by decide, Or.inr ⟨by decide, by decide⟩, by decide⟩

/-! ## C22 -/

theorem neverMissing_of_mem {code : Varcode} (h : code ∈ factorCodes) :
    Input.neverMissing code = true := by
  simp only [factorCodes, List.mem_cons, List.not_mem_nil, or_false] at h
  rcases h with rfl | rfl | rfl | rfl | rfl <;> decide

/-- C22 (part): a numeric variable whose value fits the field (the pattern is
not too large, and is all ones only for the replication factors, which have no missing
value) is written as that pattern and read back with the same value. Missing from the full property: descriptors of 10 digits or more and
of class 31 accept values that do not fit, and 32-bit fields need signed overflow
to wrap. -/
theorem C22_round_trip_partial (E : Env) (hE : IsRounding E.fl) (O : Opts) (o : BitOut)
    (v : VarCore) (k : Int) (ho : o.WF) (hv : v.WF) (hm : v.info.Made E) (hn : v.info.IsNum)
    (hview : v.view = some (.num k)) (hr : v.info.imin ≤ k ∧ k ≤ v.info.imax)
    (hb0 : 0 < v.info.bit_len)
    (hb1 : v.info.bit_len ≤ 31 ∨ (v.info.bit_len = 32 ∧ E.wrapv = true))
    (hfit : 0 ≤ k - v.info.bit_ref ∧ (k - v.info.bit_ref < 2 ^ v.info.bit_len - 1 ∨
      k - v.info.bit_ref = 2 ^ v.info.bit_len - 1 ∧ v.info.code ∈ factorCodes)) :
    ∃ pattern : Nat, (pattern : Int) = k - v.info.bit_ref ∧
    (∃ o', o.append_var E v.info v = .ok o' ∧ o'.WF ∧
      o'.bits = o.bits ++ bits v.info.bit_len pattern) ∧
    ∀ (i : Input) (rest : List Bool), i.WF → i.rem = bits v.info.bit_len pattern ++ rest →
      8 ≤ rest.length →
      ∃ v' i', i.decode_number E O (Var.new v.info) = .ok (v', i') ∧ i'.WF ∧ i'.rem = rest ∧
        v'.info = v.info ∧ v'.toVarCore.WF ∧ v'.toVarCore.view = some (.num k) ∧
        v'.attrs = [] := by
  have hset : v.isset = true := by
    by_contra hc
    rw [view_unset (by simpa using hc)] at hview
    cases hview
  obtain ⟨c, hc, hci⟩ := (WF_num hn).mp hv
  have hk : c = k := by
    rw [view_num hn hc hset] at hview
    simpa using hview
  subst hk
  obtain ⟨pattern, hpat⟩ := Int.eq_ofNat_of_zero_le hfit.1
  have hpc : ((2 ^ v.info.bit_len : Nat) : Int) = 2 ^ v.info.bit_len := by push_cast; rfl
  have hpos : 0 < 2 ^ v.info.bit_len := by positivity
  have hlt : pattern < 2 ^ v.info.bit_len := by omega
  have hmiss : (!Input.neverMissing v.info.code && decide (pattern = 2 ^ v.info.bit_len - 1)) = false := by
    rcases hfit.2 with h | ⟨h, h2⟩
    · rw [decide_eq_false (by omega), Bool.and_false]
    · rw [neverMissing_of_mem h2]; rfl
  have hpw : 2 ^ v.info.bit_len ≤ 2 ^ 32 := Nat.pow_le_pow_right (by omega) (by omega)
  refine ⟨pattern, hpat.symm, ?_, ?_⟩
  · exact append_var_num hE ho hm hn hset hc hci hb0 (by omega) hpat.symm (by omega)
  · intro i rest hi hrem hrest
    obtain ⟨i', g1, g2, g3, -⟩ := Input.get_bits_ok hi (n := v.info.bit_len)
      (v := pattern) (rest := rest) (by omega) (by omega) hrem hrest
    refine ⟨(Var.new v.info).putInt c, i', ?_, g2, g3, rfl, ?_, ?_, rfl⟩
    · unfold Input.decode_number
      simp only [show (Var.new v.info).info = v.info from rfl, g1, Res.ok_bind]
      rw [isMissing_ok hb0 hb1]
      simp only [Res.ok_bind]
      rw [hmiss]
      unfold Input.setNumberOrMissing
      rw [if_neg (by simp), setNumber_ok hE O (v := Var.new v.info) hm hn hb0 hpat.symm (by omega) hr]
      rfl
    · exact (WF_num (v := ((Var.new v.info).putInt c).toVarCore) hn).mpr ⟨c, rfl, hci⟩
    · exact view_num (v := ((Var.new v.info).putInt c).toVarCore) hn rfl rfl

/-- C22 (part): for descriptors of less than 10 digits outside class 31 every
accepted value survives. -/
theorem C22_accepted_partial (E : Env) (hE : IsRounding E.fl) (O : Opts) (o : BitOut)
    (v : VarCore) (k : Int) (ho : o.WF) (hv : v.WF) (hm : v.info.Made E) (hn : v.info.IsNum)
    (hview : v.view = some (.num k)) (hr : v.info.imin ≤ k ∧ k ≤ v.info.imax)
    (hb0 : 0 < v.info.bit_len) (hlen : v.info.len < 10) (hX : WR_VAR_X v.info.code ≠ 31) :
    ∃ pattern : Nat, (pattern : Int) = k - v.info.bit_ref ∧
    (∃ o', o.append_var E v.info v = .ok o' ∧ o'.WF ∧
      o'.bits = o.bits ++ bits v.info.bit_len pattern) ∧
    ∀ (i : Input) (rest : List Bool), i.WF → i.rem = bits v.info.bit_len pattern ++ rest →
      8 ≤ rest.length →
      ∃ v' i', i.decode_number E O (Var.new v.info) = .ok (v', i') ∧ i'.WF ∧ i'.rem = rest ∧
        v'.info = v.info ∧ v'.toVarCore.WF ∧ v'.toVarCore.view = some (.num k) ∧
        v'.attrs = [] := by
  obtain ⟨f1, f2, f3, f4, f5⟩ := intRange_fits (hm.range hn).2.2 hlen (by omega) hX hm.2.1 hr.1 hr.2
  exact C22_round_trip_partial E hE O o v k ho hv hm hn hview hr hb0 (Or.inl f3) ⟨f1, .inl f2⟩

/-- A latitude of -45 degrees. -/
def sampleSouth : VarCore := ((Var.new sampleLat).seti .default (-4500)).1.toVarCore

example : sampleSouth.WF ∧ sampleSouth.info.Made Env0 ∧ sampleSouth.info.IsNum ∧
    sampleSouth.view = some (.num (-4500)) ∧ sampleSouth.info.imin ≤ -4500 ∧
    -4500 ≤ sampleSouth.info.imax ∧ 0 < sampleSouth.info.bit_len ∧ sampleSouth.info.bit_len ≤ 31 ∧
    0 ≤ -4500 - sampleSouth.info.bit_ref ∧
    -4500 - sampleSouth.info.bit_ref < 2 ^ sampleSouth.info.bit_len - 1 :=
  ⟨⟨-4500, rfl, by decide⟩, sampleLat_made, Or.inr rfl, by decide, by decide, by decide, by decide,
    by decide, by decide, by decide⟩

/-- C22 fails for descriptors of 10 digits or more: an accepted value that does
not fit is written without an error and comes back as another one. -/
theorem C22_not_wide :
    (do let r := (Var.new sampleWide).seti .default (2 ^ 24 + 5)
        let _ ← r.2
        let o ← (BitOut.new []).append_var Env0 sampleWide r.1.toVarCore
        let d ← (Input.new (o.flush.out ++ ascii "7777")).decode_number Env0 .default (Var.new sampleWide)
        return d.1.toVarCore.view) = Res.ok (some (.num 5)) := by decide +kernel

example : sampleRepl.IsNum ∧
    ((Var.new sampleRepl).seti .default 255).1.toVarCore.view = some (.num 255) ∧
    sampleRepl.imin ≤ 255 ∧ (255 : Int) ≤ sampleRepl.imax ∧
    (255 : Int) - sampleRepl.bit_ref = 2 ^ sampleRepl.bit_len - 1 ∧
    sampleRepl.code ∈ factorCodes := by
  refine ⟨Or.inl rfl, by decide +kernel, by decide +kernel, by decide +kernel, by decide +kernel,
    by decide +kernel⟩

/-- C22 fails for replication factors: their range allows one more than their field,
and that value is written without an error and comes back as 0. -/
theorem C22_not_factor :
    (do let r := (Var.new sampleRepl).seti .default 256
        let _ ← r.2
        let o ← (BitOut.new []).append_var Env0 sampleRepl r.1.toVarCore
        let d ← (Input.new (o.flush.out ++ ascii "7777")).decode_number Env0 .default
          (Var.new sampleRepl)
        return d.1.toVarCore.view) = Res.ok (some (.num 0)) := by decide +kernel

end Wreport
