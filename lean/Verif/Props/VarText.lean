import Verif.Spec.Field
import Verif.Props.Samples
import Verif.Lemmas.VarCopy

/-!
# C10, C11: string and binary variables
-/

namespace Wreport

open Spec

/-! ## C10 -/

/-- The ways of setting a string variable from text. -/
inductive TextOp where
  | setc (s : List Byte) (following : Mem)
  | setc_truncate (s : List Byte) (following : Mem)
  | sets (s : List Byte)
  | setf (s : List Byte)
  | unset

/-- Apply one operation; the C string arguments are a text, its NUL, and whatever
follows in memory. -/
def TextOp.apply (E : Env) (O : Opts) (v : Var) : TextOp → Var × Res Unit
  | .setc s r => v.setc O (c_str s ++ r)
  | .setc_truncate s r => v.setc_truncate (c_str s ++ r)
  | .sets s => v.sets O s
  | .setf s => v.setf E O (some s)
  | .unset => (v.unset, .ok ())

/-- The text an operation carries. -/
def TextOp.arg : TextOp → List Byte
  | .setc s _ | .setc_truncate s _ | .sets s | .setf s => s
  | .unset => []

/-- What the variable must show after an operation on a field of `len` bytes. -/
def TextOp.expected (len : Nat) : TextOp → Option Value
  | .setc s _ | .setc_truncate s _ | .sets s => some (.text (s.take len))
  | .setf s => if s = [] then none else some (.text (s.take len))
  | .unset => none

/-- Apply operations in turn; the list of outcomes. -/
def TextOp.run (E : Env) (O : Opts) : Var → List TextOp → Var × List (Res Unit)
  | v, [] => (v, [])
  | v, op :: ops =>
    let r := op.apply E O v
    let r' := TextOp.run E O r.1 ops
    (r'.1, r.2 :: r'.2)

theorem TextOp.apply_ok (E : Env) (O : Opts) {v : Var} (h : v.toVarCore.WF)
    (ht : v.info.type = .string) (op : TextOp) (hs : NulFree op.arg) :
    (op.apply E O v).2 = .ok () ∧ (op.apply E O v).1.toVarCore.WF ∧
      (op.apply E O v).1.info = v.info ∧
      (op.apply E O v).1.toVarCore.view = op.expected v.info.len := by
  have key : ∀ (s : List Byte) (r : Mem) (size : Nat), NulFree s → min s.length v.info.len ≤ size →
      (v.assign_c_checked (c_str s ++ r) size).2 = .ok () ∧
      (v.assign_c_checked (c_str s ++ r) size).1.toVarCore.WF ∧
      (v.assign_c_checked (c_str s ++ r) size).1.info = v.info ∧
      (v.assign_c_checked (c_str s ++ r) size).1.toVarCore.view =
        some (.text (s.take v.info.len)) := by
    intro s r size hs hsize
    obtain ⟨m, h1, h2, h3⟩ := assign_c_ok h ht s r hs size
    rw [h1]
    refine ⟨rfl, Var.WF_putMem_string ht h2 h3, rfl, ?_⟩
    have : s.take (min size v.info.len) = s.take v.info.len := by
      by_cases hle : s.length ≤ v.info.len
      · rw [List.take_of_length_le hle, List.take_of_length_le (by omega)]
      · rw [show min size v.info.len = v.info.len by omega]
    rw [this] at h3
    exact Var.view_putMem_string ht h3
  cases op with
  | setc s r =>
    simp only [TextOp.apply, TextOp.expected, Var.setc, ht]
    exact key s r _ hs (by omega)
  | setc_truncate s r =>
    simp only [TextOp.apply, TextOp.expected, Var.setc_truncate, ht, cstr_c_str s r hs]
    exact key s r _ hs (by omega)
  | sets s =>
    simp only [TextOp.apply, TextOp.expected, Var.sets, ht]
    have := key s [] s.length hs (by omega)
    simpa using this
  | setf s =>
    cases s with
    | nil =>
      simp only [TextOp.apply, TextOp.expected, Var.setf, if_true]
      exact ⟨trivial, WF_isset_false h, rfl, view_unset rfl⟩
    | cons b s =>
      simp only [TextOp.apply, TextOp.expected, Var.setf, ht, reduceCtorEq, if_false]
      have := key (b :: s) [] v.info.len hs (by omega)
      simpa using this
  | unset =>
    exact ⟨rfl, WF_isset_false h, rfl, view_unset rfl⟩

/-- C10: over any sequence of text sets on a string variable, none fails, and
afterwards the variable shows exactly what the last operation asked for: the text
if it fits, otherwise its first `len` bytes. -/
theorem C10_last_set (E : Env) (O : Opts) (v : Var) (ops : List TextOp) (op : TextOp)
    (h : v.toVarCore.WF) (ht : v.info.type = .string) (hs : ∀ o ∈ ops ++ [op], NulFree o.arg) :
    let r := TextOp.run E O v (ops ++ [op])
    (∀ x ∈ r.2, x = .ok ()) ∧ r.1.toVarCore.WF ∧ r.1.info = v.info ∧
      r.1.toVarCore.view = op.expected v.info.len := by
  induction ops generalizing v with
  | nil =>
    obtain ⟨h1, h2, h3, h4⟩ := TextOp.apply_ok E O h ht op (hs op (by simp))
    simp only [List.nil_append, TextOp.run]
    exact ⟨by simpa using h1, h2, h3, h4⟩
  | cons o ops ih =>
    obtain ⟨h1, h2, h3, h4⟩ := TextOp.apply_ok E O h ht o (hs o (by simp))
    have := ih (o.apply E O v).1 h2 (by rw [h3]; exact ht)
      (fun x hx => hs x (by simp at hx ⊢; tauto))
    simp only [List.cons_append, TextOp.run] at this ⊢
    rw [h3] at this
    refine ⟨?_, this.2⟩
    intro x hx
    rcases List.mem_cons.mp hx with rfl | hx
    · exact h1
    · exact this.1 x hx

/-- C10: a set string variable reads back as the text it shows, through every
text accessor, and the text never exceeds the declared length. -/
theorem C10_read_back (E : Env) (v : VarCore) (h : v.WF) (ht : v.info.type = .string)
    (hset : v.isset = true) :
    ∃ s, v.view = some (.text s) ∧ v.enqs E = .ok s ∧ s.length ≤ v.info.len ∧ NulFree s ∧
      ∃ m, v.enqc E = .ok m ∧ cstr m = .ok s := by
  obtain ⟨tn, -⟩ | ⟨-, m, s, ci, hl, hcs, h⟩ | ⟨tn, -⟩ := WF_set h hset
  · rcases tn with tn | tn <;> rw [ht] at tn <;> cases tn
  · refine ⟨s, h, ?_, ?_, (cstr_eq_ok hcs).1, m, ?_, hcs⟩
    · unfold VarCore.enqs; simp [hset, ht, VarCore.ptr, ci, hcs]
    · have := cstr_length hcs; omega
    · unfold VarCore.enqc; simp [hset, ht, VarCore.ptr, ci]
  · rw [ht] at tn; cases tn

example : (Var.new sampleStr).toVarCore.WF ∧ sampleStr.type = .string ∧ sampleStr.len = 32 ∧
    NulFree (ascii "Bologna/Borgo Panigale aeroporto Marconi") ∧
    (ascii "Bologna/Borgo Panigale aeroporto Marconi").length = 40 :=
  ⟨WF_new _, rfl, rfl, by unfold NulFree; decide, by decide⟩

/-! ## C11 -/

theorem toNat_and_mask (b : Byte) (k : Nat) (hk : k < 8) (j : Nat) :
    (b &&& UInt8.ofNat (2 ^ k - 1)).toNat.testBit j = (b.toNat.testBit j && decide (j < k)) := by
  have h1 : 2 ^ k - 1 < 256 := by
    have : 2 ^ k ≤ 2 ^ 7 := Nat.pow_le_pow_right (by omega) (by omega)
    omega
  rw [UInt8.toNat_and, Nat.testBit_and]
  congr 1
  have : (UInt8.ofNat (2 ^ k - 1)).toNat = 2 ^ k - 1 := by
    simp; omega
  rw [this, Nat.testBit_two_pow_sub_one]

/-- C11: after setting a binary variable from any byte string it has exactly the
declared number of bytes; every declared bit is the input bit (zero where the
input is too short), and every other bit is zero. Missing: setting from a C string, for which
see `C11_setc_partial` and `C11_not_setc_short`. -/
theorem C11_bits_partial (E : Env) (O : Opts) (v : Var) (val : List Byte) (hm : v.info.Made E)
    (h : v.toVarCore.WF) (ht : v.info.type = .binary) :
    (v.sets O val).2 = .ok () ∧ (v.sets O val).1.toVarCore.WF ∧
      ∃ bs, (v.sets O val).1.toVarCore.view = some (.bits bs) ∧ bs.length = v.info.len ∧
        ∀ i j, i < v.info.len → j < 8 →
          ((bs.getD i 0).toNat.testBit j = true ↔
            DeclaredBit v.info.bit_len i j ∧ (val.getD i 0).toNat.testBit j = true) := by
  have hlen := hm.2.2.2 ht
  obtain ⟨m0, a1, a2⟩ := WF_allocate h (Or.inr ht)
  have fin : ∀ (bs : List Byte), bs.length = v.info.len →
      (∀ i j, i < v.info.len → j < 8 → ((bs.getD i 0).toNat.testBit j = true ↔
        DeclaredBit v.info.bit_len i j ∧ (val.getD i 0).toNat.testBit j = true)) →
      v.sets O val = (v.putMem (toMem bs ++ m0.drop v.info.len), .ok ()) →
      (v.sets O val).2 = .ok () ∧ (v.sets O val).1.toVarCore.WF ∧
      ∃ bs, (v.sets O val).1.toVarCore.view = some (.bits bs) ∧ bs.length = v.info.len ∧
        ∀ i j, i < v.info.len → j < 8 →
          ((bs.getD i 0).toNat.testBit j = true ↔
            DeclaredBit v.info.bit_len i j ∧ (val.getD i 0).toNat.testBit j = true) := by
    intro bs hb hbits he
    have htk : (toMem bs ++ m0.drop v.info.len).take v.info.len = toMem bs := by
      rw [List.take_append_of_le_length (by simp [toMem]; omega)]
      exact List.take_of_length_le (by simp [toMem]; omega)
    rw [he]
    refine ⟨rfl, ?_, bs, ?_, hb, hbits⟩
    · unfold VarCore.WF Var.putMem
      simp only [ht]
      right
      refine ⟨_, rfl, by simp [toMem]; omega, fun _ => ?_⟩
      rw [htk]
      simp [toMem]
    · unfold VarCore.view Var.putMem
      simp only [ht, Bool.not_true, Bool.false_eq_true, if_false]
      rw [htk]
      simp [toMem, List.map_map, Function.comp_def]
  by_cases hsz : val.length < v.info.len
  · apply fin (val ++ List.replicate (v.info.len - val.length) 0) (by simp; omega)
    · intro i j hi hj
      by_cases hiv : i < val.length
      · have e : (val ++ List.replicate (v.info.len - val.length) 0).getD i 0 = val.getD i 0 := by
          simp [List.getD, List.getElem?_append_left hiv]
        rw [e]
        constructor
        · intro hbit
          exact ⟨Or.inl (by omega), hbit⟩
        · exact fun hbit => hbit.2
      · have e : (val ++ List.replicate (v.info.len - val.length) 0).getD i 0 = 0 := by
          rw [List.getD, List.getElem?_append_right (by omega), List.getElem?_replicate]
          split <;> rfl
        have e' : val.getD i 0 = 0 := by
          rw [List.getD, List.getElem?_eq_none (by omega)]; rfl
        rw [e, e']
        simp
    · unfold Var.sets Var.assign_b_checked
      simp only [ht, a1, Res.ok_bind]
      rw [if_pos hsz, memRead_of_le (by simp [c_str, toMem])]
      simp only [Res.ok_bind]
      have e : (c_str val).take val.length = toMem val := by
        simp [c_str, toMem]
      rw [e, memWrite_of_le (by simp [toMem]; omega)]
      simp only [Res.ok_bind, Res.pure_def, Var.ofRes]
      congr 2
      simp only [toMem, List.length_append, List.length_map, List.length_replicate, List.map_append,
        List.map_replicate]
      rw [show val.length + (v.info.len - val.length) = v.info.len by omega]
  · have hcp : memRead (c_str val) v.info.len = .ok (toMem (val.take v.info.len)) := by
      rw [memRead_of_le (by simp [c_str, toMem]; omega)]
      unfold c_str toMem
      rw [← List.map_take, List.take_append_of_le_length (by omega)]
    have hmw : memWrite m0 (toMem (val.take v.info.len)) =
        .ok (toMem (val.take v.info.len) ++ m0.drop v.info.len) := by
      rw [memWrite_of_le (by simp [toMem]; omega)]
      congr 3
      simp [toMem]; omega
    have hget : ∀ i, i < v.info.len → (val.take v.info.len).getD i 0 = val.getD i 0 := by
      intro i hi
      simp [List.getD, hi]
    by_cases hb8 : v.info.bit_len % 8 = 0
    · apply fin (val.take v.info.len) (by simp; omega)
      · intro i j hi hj
        rw [hget i hi]
        constructor
        · exact fun hbit => ⟨Or.inl (by omega), hbit⟩
        · exact fun hbit => hbit.2
      · unfold Var.sets Var.assign_b_checked
        simp only [ht, a1, Res.ok_bind]
        rw [if_neg hsz, hcp]
        simp only [Res.ok_bind, hmw]
        unfold Var.maskLast
        rw [if_pos hb8]
        rfl
    · have hl0 : 0 < v.info.len := by omega
      apply fin ((val.take v.info.len).set (v.info.len - 1)
        (val.getD (v.info.len - 1) 0 &&& UInt8.ofNat (2 ^ (v.info.bit_len % 8) - 1)))
        (by simp; omega)
      · intro i j hi hj
        by_cases hil : i = v.info.len - 1
        · have e : ((val.take v.info.len).set (v.info.len - 1)
              (val.getD (v.info.len - 1) 0 &&& UInt8.ofNat (2 ^ (v.info.bit_len % 8) - 1))).getD i 0 =
              (val.getD i 0 &&& UInt8.ofNat (2 ^ (v.info.bit_len % 8) - 1)) := by
            rw [List.getD, hil, List.getElem?_set_self (by simp; omega)]
            rfl
          rw [e, toNat_and_mask _ _ (by omega)]
          simp only [Bool.and_eq_true, decide_eq_true_eq]
          unfold DeclaredBit
          constructor
          · exact fun hbit => ⟨Or.inr ⟨by omega, hbit.2⟩, hbit.1⟩
          · rintro ⟨hd | hd, hbit⟩
            · omega
            · exact ⟨hbit, hd.2⟩
        · have e : ((val.take v.info.len).set (v.info.len - 1)
              (val.getD (v.info.len - 1) 0 &&& UInt8.ofNat (2 ^ (v.info.bit_len % 8) - 1))).getD i 0 =
              val.getD i 0 := by
            rw [List.getD, List.getElem?_set_ne (by omega)]
            exact hget i hi
          rw [e]
          constructor
          · exact fun hbit => ⟨Or.inl (by omega), hbit⟩
          · exact fun hbit => hbit.2
      · unfold Var.sets Var.assign_b_checked
        simp only [ht, a1, Res.ok_bind]
        rw [if_neg hsz, hcp]
        simp only [Res.ok_bind, hmw]
        unfold Var.maskLast
        rw [if_neg hb8, if_neg (by omega)]
        have hget2 : (toMem (val.take v.info.len) ++ m0.drop v.info.len)[v.info.len - 1]? =
            some (some (val.getD (v.info.len - 1) 0)) := by
          rw [List.getElem?_append_left (by simp [toMem]; omega)]
          rw [← hget _ (by omega)]
          simp only [toMem, List.getElem?_map, List.getD]
          rw [List.getElem?_eq_getElem (by simp; omega)]
          rfl
        rw [hget2]
        simp only [Res.ok_bind, Res.pure_def, Var.ofRes]
        congr 2
        rw [List.set_append_left _ _ (by simp [toMem]; omega)]
        simp [toMem, List.map_set]

example : sampleBin.Made Env0 ∧ (Var.new sampleBin).toVarCore.WF ∧ sampleBin.type = .binary ∧
    sampleBin.len = 2 ∧
    ((Var.new sampleBin).sets .default [0xa5, 0xff]).1.toVarCore.view = some (.bits [0xa5, 0x07]) :=
  ⟨sampleBin_made, WF_new _, rfl, rfl, by decide⟩

/-- C11 for `setc`: with as many bytes as the variable has it does what `sets` does, whatever
follows them. Missing: shorter values. -/
theorem C11_setc_partial (O : Opts) (v : Var) (val : List Byte) (rest : Mem) (ht : v.info.type = .binary)
    (hl : val.length = v.info.len) : v.setc O (toMem val ++ rest) = v.sets O val := by
  have h : ∀ r : Mem, memRead (toMem val ++ r) v.info.len = .ok (toMem val) := by
    intro r
    have h1 : (toMem val).length = v.info.len := by rw [toMem, List.length_map, hl]
    unfold memRead
    rw [if_pos (by simp [h1]), ← h1, List.take_left]
  have hc : c_str val = toMem val ++ [some 0] := by simp [c_str, toMem]
  unfold Var.setc Var.sets
  simp only [ht]
  unfold Var.assign_b_checked
  rw [hl, hc, h, h]

example : ((Var.new sampleBin).setc .default (toMem [0xa5, 0xff] ++ [none])).1.toVarCore.view =
    some (.bits [0xa5, 0x07]) := by decide

/-- C11 does not extend to `setc` of a shorter value: it reads as many bytes as the variable has
even when the C string ends earlier. -/
theorem C11_not_setc_short : ((Var.new sampleBin).setc .default (c_str [])).2 = .ub := by decide

end Wreport
