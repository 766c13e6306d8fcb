import Verif.Model.Bits
import Verif.Model.Input
import Verif.Spec.Bits
import Mathlib.Tactic.Ring
import Mathlib.Data.List.Induction

/-! # Facts about bit buffers -/

namespace Wreport

open Spec

@[simp] theorem length_bits (n v : Nat) : (bits n v).length = n := by
  induction n with
  | zero => rfl
  | succ n ih => simp [bits, ih]

@[simp] theorem length_bytesBits (s : List Byte) : (bytesBits s).length = 8 * s.length := by
  induction s with
  | nil => rfl
  | cons b s ih => simp only [bytesBits, List.flatMap_cons, List.length_append, length_bits] at ih ⊢
                   rw [ih]; simp; omega

theorem bytesBits_append (s t : List Byte) : bytesBits (s ++ t) = bytesBits s ++ bytesBits t := by
  simp [bytesBits]

theorem bytesBits_cons (b : Byte) (t : List Byte) : bytesBits (b :: t) = bits 8 b.toNat ++ bytesBits t := by
  simp [bytesBits]

theorem bits_congr {n v w : Nat} (h : ∀ i < n, v.testBit i = w.testBit i) : bits n v = bits n w := by
  induction n with
  | zero => rfl
  | succ n ih => simp only [bits, h n (by omega), ih (fun i hi => h i (by omega))]

theorem bits_mod {n v k : Nat} (h : n ≤ k) : bits n (v % 2 ^ k) = bits n v :=
  bits_congr fun i hi => by rw [Nat.testBit_mod_two_pow]; simp; omega

theorem bits_snoc (n v : Nat) : bits (n + 1) v = bits n (v / 2) ++ [v.testBit 0] := by
  induction n with
  | zero => rfl
  | succ n ih =>
    rw [bits, ih, bits, Nat.testBit_succ]
    rfl

theorem bits_append (m n v : Nat) : bits (m + n) v = bits m (v / 2 ^ n) ++ bits n v := by
  induction m with
  | zero => simp [bits]
  | succ m ih =>
    rw [show m + 1 + n = (m + n) + 1 by omega, bits, bits, ih, Nat.testBit_div_two_pow]
    rfl

@[simp] theorem ofBits_nil : ofBits [] = 0 := rfl

theorem ofBits_snoc (l : List Bool) (b : Bool) : ofBits (l ++ [b]) = 2 * ofBits l + b.toNat := by
  simp [ofBits]

theorem ofBits_append (l m : List Bool) : ofBits (l ++ m) = ofBits l * 2 ^ m.length + ofBits m := by
  induction m using List.reverseRecOn with
  | nil => simp
  | append_singleton m b ih =>
    rw [← List.append_assoc, ofBits_snoc, ofBits_snoc, ih]
    simp only [List.length_append, List.length_singleton, pow_succ]
    ring

theorem ofBits_cons (b : Bool) (m : List Bool) : ofBits (b :: m) = b.toNat * 2 ^ m.length + ofBits m := by
  have := ofBits_append [b] m
  simpa [ofBits] using this

theorem ofBits_lt (l : List Bool) : ofBits l < 2 ^ l.length := by
  induction l with
  | nil => simp
  | cons b l ih =>
    rw [ofBits_cons, List.length_cons, pow_succ]
    cases b <;> simp <;> omega

theorem ofBits_bits (n v : Nat) : ofBits (bits n v) = v % 2 ^ n := by
  induction n generalizing v with
  | zero => simp [bits, Nat.mod_one]
  | succ n ih =>
    rw [bits_snoc, ofBits_snoc, ih, Nat.testBit_zero, pow_succ]
    have h1 : v % (2 ^ n * 2) = 2 * (v / 2 % 2 ^ n) + v % 2 := by
      rw [Nat.mul_comm, Nat.mod_mul]
      omega
    rw [h1]
    rcases Nat.mod_two_eq_zero_or_one v with h | h <;> simp [h]

theorem bits_ofBits (l : List Bool) : bits l.length (ofBits l) = l := by
  induction l using List.reverseRecOn with
  | nil => rfl
  | append_singleton l b ih =>
    rw [List.length_append, List.length_singleton, bits_snoc, ofBits_snoc]
    have h1 : (2 * ofBits l + b.toNat) / 2 = ofBits l := by cases b <;> simp; omega
    have h2 : (2 * ofBits l + b.toNat).testBit 0 = b := by
      rw [Nat.testBit_zero]; cases b <;> simp
    rw [h1, h2, ih]

theorem bits_inj {n v w : Nat} (hv : v < 2 ^ n) (hw : w < 2 ^ n) (h : bits n v = bits n w) : v = w := by
  have := congrArg ofBits h
  rwa [ofBits_bits, ofBits_bits, Nat.mod_eq_of_lt hv, Nat.mod_eq_of_lt hw] at this

theorem bytesBits_inj {s t : List Byte} (h : bytesBits s = bytesBits t) : s = t := by
  induction s generalizing t with
  | nil =>
    cases t with
    | nil => rfl
    | cons b t => simpa [bytesBits, bits] using congrArg List.length h
  | cons a s ih =>
    cases t with
    | nil => simpa [bytesBits, bits] using congrArg List.length h
    | cons b t =>
      rw [bytesBits_cons, bytesBits_cons] at h
      have := List.append_inj h (by simp)
      rw [ih this.2]
      have := bits_inj (n := 8) a.toNat_lt b.toNat_lt this.1
      rw [UInt8.toNat_inj.mp this]

theorem bits_zero (n : Nat) : bits n 0 = List.replicate n false := by
  induction n with
  | zero => rfl
  | succ n ih => simp [bits, ih, List.replicate_succ]

theorem bits_ones (n : Nat) : bits n (2 ^ n - 1) = List.replicate n true := by
  have key : ∀ k, k ≤ n → bits k (2 ^ n - 1) = List.replicate k true := by
    intro k hk
    induction k with
    | zero => rfl
    | succ k ih =>
      rw [bits, ih (by omega), Nat.testBit_two_pow_sub_one, List.replicate_succ]
      simp; omega
  exact key n le_rfl

/-! ## Output -/

namespace BitOut

/-- Everything written so far. -/
def bits (o : BitOut) : List Bool := bytesBits o.out ++ Spec.bits o.pbyte_len o.pbyte

/-- What holds between calls. -/
structure WF (o : BitOut) : Prop where
  len : o.pbyte_len < 8
  val : o.pbyte < 2 ^ o.pbyte_len

theorem WF_new (out : List Byte) : (BitOut.new out).WF := ⟨by simp [new], by simp [new]⟩

theorem bits_new (out : List Byte) : (BitOut.new out).bits = bytesBits out := by
  simp [bits, new, Spec.bits]

theorem shl1_or (p : Nat) (b : Bool) : p <<< 1 ||| b.toNat = 2 * p + b.toNat := by
  rw [← Nat.shiftLeft_add_eq_or_of_lt (by cases b <;> simp), Nat.shiftLeft_eq]
  omega

theorem step_ok {o : BitOut} (h : o.WF) (b : Bool) :
    (o.step b).WF ∧ (o.step b).bits = o.bits ++ [b] := by
  obtain ⟨h1, h2⟩ := h
  have hlt : 2 * o.pbyte + b.toNat < 2 ^ (o.pbyte_len + 1) := by
    rw [pow_succ]; cases b <;> simp <;> omega
  have hle : 2 ^ (o.pbyte_len + 1) ≤ 2 ^ 8 := Nat.pow_le_pow_right (by omega) (by omega)
  have hdiv : (2 * o.pbyte + b.toNat) / 2 = o.pbyte := by cases b <;> simp; omega
  have hbit : (2 * o.pbyte + b.toNat).testBit 0 = b := by
    rw [Nat.testBit_zero]; cases b <;> simp
  have hb : Spec.bits (o.pbyte_len + 1) (2 * o.pbyte + b.toNat) =
      Spec.bits o.pbyte_len o.pbyte ++ [b] := by
    rw [bits_snoc, hdiv, hbit]
  unfold step
  simp only [shl1_or]
  rw [Nat.mod_eq_of_lt (by omega)]
  split
  · next h8 =>
    unfold flush
    rw [if_neg (by simp only; omega)]
    refine ⟨⟨by simp, by simp⟩, ?_⟩
    simp only [bits, h8, Nat.sub_self, Nat.shiftLeft_zero]
    rw [bytesBits_append, bytesBits_cons]
    have : (UInt8.ofNat ((2 * o.pbyte + b.toNat) % 256)).toNat = 2 * o.pbyte + b.toNat := by
      simp; omega
    rw [this, ← h8, hb]
    simp [bytesBits, Spec.bits]
  · next h8 =>
    refine ⟨⟨by simp only; omega, hlt⟩, ?_⟩
    simp only [bits, hb, List.append_assoc]

theorem decide_and_two_pow (v k : Nat) : decide (v &&& 2 ^ k ≠ 0) = v.testBit k := by
  rw [Bool.eq_iff_iff, decide_eq_true_eq]
  constructor
  · intro h
    by_contra hc
    apply h
    apply Nat.eq_of_testBit_eq
    intro j
    rw [Nat.testBit_and, Nat.testBit_two_pow, Nat.zero_testBit]
    by_cases hj : k = j
    · subst hj; simpa using hc
    · simp [hj]
  · intro h he
    have := congrArg (fun x => x.testBit k) he
    simp [Nat.testBit_and, h] at this

theorem addLoop_ok {n : Nat} (hn : n ≤ 32) (val : Nat) (i : Nat) (hi : i ≤ n) (o : BitOut) (h : o.WF) :
    (addLoop (2 ^ (n - 1)) i (val <<< (n - i) % 2 ^ 32) o).WF ∧
      (addLoop (2 ^ (n - 1)) i (val <<< (n - i) % 2 ^ 32) o).bits = o.bits ++ Spec.bits i val := by
  induction i generalizing o with
  | zero => exact ⟨h, by simp [addLoop, Spec.bits]⟩
  | succ i ih =>
    rw [addLoop]
    have hbit : decide (val <<< (n - (i + 1)) % 2 ^ 32 &&& 2 ^ (n - 1) ≠ 0) = val.testBit i := by
      rw [decide_and_two_pow]
      have : (val <<< (n - (i + 1)) % 2 ^ 32).testBit (n - 1) = val.testBit i := by
        rw [Nat.testBit_mod_two_pow, Nat.testBit_shiftLeft]
        rw [show n - 1 - (n - (i + 1)) = i by omega]
        have h1 : n - 1 < 32 := by omega
        have h2 : n - 1 ≥ n - (i + 1) := by omega
        simp [h1, h2]
      rw [this]
    have hval : (val <<< (n - (i + 1)) % 2 ^ 32) <<< 1 % 2 ^ 32 = val <<< (n - i) % 2 ^ 32 := by
      rw [show n - i = (n - (i + 1)) + 1 by omega, Nat.shiftLeft_add]
      simp only [Nat.shiftLeft_eq _ 1]
      omega
    rw [hbit, hval]
    obtain ⟨s1, s2⟩ := step_ok h (val.testBit i)
    obtain ⟨r1, r2⟩ := ih (by omega) _ s1
    refine ⟨r1, ?_⟩
    rw [r2, s2, List.append_assoc]
    rfl

theorem add_bits_ok {o : BitOut} (h : o.WF) (val : Nat) {n : Nat} (h1 : 0 < n) (h2 : n ≤ 32) :
    ∃ o', o.add_bits val n = .ok o' ∧ o'.WF ∧ o'.bits = o.bits ++ Spec.bits n val := by
  obtain ⟨r1, r2⟩ := addLoop_ok h2 val n le_rfl o h
  rw [Nat.sub_self, Nat.shiftLeft_zero] at r1 r2
  refine ⟨_, ?_, r1, r2⟩
  unfold add_bits
  rw [if_neg (by omega)]

theorem add_bits_eq_ok {o o' : BitOut} (h : o.WF) {val n : Nat} (he : o.add_bits val n = .ok o') :
    0 < n ∧ n ≤ 32 ∧ o'.WF ∧ o'.bits = o.bits ++ Spec.bits n val := by
  by_cases hn : n = 0 ∨ 32 < n
  · unfold add_bits at he; rw [if_pos hn] at he; cases he
  · obtain ⟨o'', e, w, b⟩ := add_bits_ok h val (n := n) (by omega) (by omega)
    rw [e] at he
    simp only [Res.ok.injEq] at he
    subst he
    exact ⟨by omega, by omega, w, b⟩

/-- `flush` pads to a whole byte with zeros. -/
theorem flush_ok {o : BitOut} (h : o.WF) :
    o.flush.pbyte_len = 0 ∧ o.flush.pbyte = 0 ∧
      ∃ k, k < 8 ∧ bytesBits o.flush.out = o.bits ++ List.replicate k false := by
  obtain ⟨h1, h2⟩ := h
  unfold flush
  split
  · next h0 =>
    refine ⟨h0, ?_, 0, by omega, ?_⟩
    · rw [h0] at h2; simpa using h2
    · simp [bits, h0, Spec.bits]
  · next h0 =>
    refine ⟨rfl, rfl, 8 - o.pbyte_len, by omega, ?_⟩
    rw [bytesBits_append, bytesBits_cons, bits, List.append_assoc]
    congr 1
    have hlt : o.pbyte * 2 ^ (8 - o.pbyte_len) < 2 ^ 8 := by
      have e : (2 : Nat) ^ 8 = 2 ^ o.pbyte_len * 2 ^ (8 - o.pbyte_len) := by
        rw [← pow_add]; congr 1; omega
      rw [e]
      exact Nat.mul_lt_mul_of_pos_right h2 (by positivity)
    have : (UInt8.ofNat (o.pbyte <<< (8 - o.pbyte_len) % 256)).toNat =
        o.pbyte * 2 ^ (8 - o.pbyte_len) := by
      rw [Nat.shiftLeft_eq]
      simp only [UInt8.toNat_ofNat']
      omega
    rw [this]
    have e8 : 8 = o.pbyte_len + (8 - o.pbyte_len) := by omega
    conv_lhs => rw [show Spec.bits 8 = Spec.bits (o.pbyte_len + (8 - o.pbyte_len)) by rw [← e8]]
    rw [bits_append, Nat.mul_div_cancel _ (by positivity), List.append_assoc]
    congr 1
    rw [← bits_mod (k := 8 - o.pbyte_len) le_rfl, Nat.mul_mod_left, bits_zero]
    simp [bytesBits]

end BitOut

/-! ## Input -/

namespace Input

/-- Bits still to be read. -/
def rem (i : Input) : List Bool :=
  (Spec.bits 8 i.pbyte).take i.pbyte_len ++ bytesBits (i.data.drop i.s4_cursor)

/-- What holds between calls. -/
structure WF (i : Input) : Prop where
  len : i.pbyte_len < 8
  val : i.pbyte < 256

theorem fill_ok {i : Input} (h : i.WF) (hr : i.rem ≠ []) :
    ∃ i', i.fill = .ok i' ∧ 0 < i'.pbyte_len ∧ i'.pbyte_len ≤ 8 ∧ i'.pbyte < 256 ∧
      i'.rem = i.rem ∧ i'.data = i.data := by
  unfold fill
  split
  · next h0 =>
    have hc : i.s4_cursor < i.data.length := by
      by_contra hc
      apply hr
      unfold rem
      rw [h0, List.drop_of_length_le (by omega)]
      simp [bytesBits]
    have hb : byteAt i.data i.s4_cursor = .ok (i.data[i.s4_cursor].toNat) := by
      unfold byteAt
      rw [List.getElem?_eq_getElem hc]
    rw [hb]
    refine ⟨_, rfl, by simp, by simp, UInt8.toNat_lt _, ?_, rfl⟩
    unfold rem
    rw [h0]
    simp only [List.take_zero, List.nil_append]
    rw [List.drop_eq_getElem_cons hc, bytesBits_cons, List.take_of_length_le (by simp)]
  · exact ⟨i, rfl, by omega, by have := h.len; omega, h.val, rfl, rfl⟩

theorem and80 (p : Nat) : decide (p &&& 0x80 ≠ 0) = p.testBit 7 := by
  exact BitOut.decide_and_two_pow p 7

/-- Reading the top bit of `pbyte`. -/
theorem shift_ok {i : Input} (h0 : 0 < i.pbyte_len) (h1 : i.pbyte_len ≤ 8) :
    ({ i with pbyte := i.pbyte <<< 1 % 256, pbyte_len := i.pbyte_len - 1 } : Input).WF ∧
    i.rem = i.pbyte.testBit 7 ::
      ({ i with pbyte := i.pbyte <<< 1 % 256, pbyte_len := i.pbyte_len - 1 } : Input).rem := by
  refine ⟨⟨by simp only; omega, by simp only; omega⟩, ?_⟩
  unfold rem
  simp only
  obtain ⟨k, hk⟩ : ∃ k, i.pbyte_len = k + 1 := ⟨i.pbyte_len - 1, by omega⟩
  have e : Spec.bits 8 i.pbyte = i.pbyte.testBit 7 :: Spec.bits 7 i.pbyte := rfl
  have e2 : (Spec.bits 8 (i.pbyte <<< 1 % 256)).take k = (Spec.bits 7 i.pbyte).take k := by
    rw [bits_snoc]
    have : Spec.bits 7 (i.pbyte <<< 1 % 256 / 2) = Spec.bits 7 i.pbyte := by
      apply bits_congr
      intro j hj
      rw [Nat.testBit_div_two, show (256 : Nat) = 2 ^ 8 by rfl, Nat.testBit_mod_two_pow,
        Nat.testBit_shiftLeft]
      simp; omega
    rw [this, List.take_append_of_le_length (by simp; omega)]
  rw [hk, e, Nat.add_sub_cancel, e2]
  simp

theorem getLoop_ok (n : Nat) (r : Nat) {i : Input} (h : i.WF) (hn : n ≤ i.rem.length) :
    ∃ i', getLoop n r i = .ok (if n = 0 then r else (r * 2 ^ n + ofBits (i.rem.take n)) % 2 ^ 32, i') ∧
      i'.WF ∧ i'.rem = i.rem.drop n ∧ i'.data = i.data := by
  induction n generalizing r i with
  | zero => exact ⟨i, rfl, h, rfl, rfl⟩
  | succ n ih =>
    obtain ⟨i1, f1, f2, f3, f4, f5, f6⟩ := fill_ok h (by intro e; rw [e] at hn; simp at hn)
    obtain ⟨s1, s2⟩ := shift_ok f2 f3
    rw [f5] at s2
    have hn' : n ≤ ({ i1 with pbyte := i1.pbyte <<< 1 % 256, pbyte_len := i1.pbyte_len - 1 } : Input).rem.length := by
      rw [s2] at hn; simpa using hn
    obtain ⟨i2, g1, g2, g3, g4⟩ := ih ((r <<< 1 ||| (i1.pbyte.testBit 7).toNat) % 2 ^ 32) s1 hn'
    refine ⟨i2, ?_, g2, ?_, ?_⟩
    · rw [getLoop, f1]
      simp only [Res.ok_bind, and80]
      rw [g1, s2]
      simp only [Nat.add_eq_zero_iff, one_ne_zero, and_false, if_false, List.take_succ_cons]
      congr 2
      rw [BitOut.shl1_or, ofBits_cons]
      split
      · next h0 => subst h0; simp [Nat.mul_comm]
      · rw [List.length_take, min_eq_left hn']
        rw [Nat.add_mod, Nat.mul_mod, Nat.mod_mod, ← Nat.mul_mod, ← Nat.add_mod]
        congr 1
        ring
    · rw [g3, s2]; rfl
    · rw [g4]; exact f6

/-- Reading bits that are there. -/
theorem get_bits_ok {i : Input} (h : i.WF) {n v : Nat} {rest : List Bool} (hn : n ≤ 32)
    (hv : v < 2 ^ n) (hrem : i.rem = Spec.bits n v ++ rest) (hrest : 8 ≤ rest.length) :
    ∃ i', i.get_bits n = .ok (v, i') ∧ i'.WF ∧ i'.rem = rest ∧ i'.data = i.data := by
  have hlen : n ≤ i.rem.length := by rw [hrem]; simp
  obtain ⟨i', g1, g2, g3, g4⟩ := getLoop_ok n 0 h hlen
  refine ⟨i', ?_, g2, ?_, g4⟩
  · unfold get_bits
    rw [if_neg, g1]
    · congr 2
      split
      · next h0 => subst h0; simp at hv; exact hv.symm
      · rw [hrem, List.take_left' (by simp), ofBits_bits]
        have h32 : (2 : Nat) ^ n ≤ 2 ^ 32 := Nat.pow_le_pow_right (by omega) hn
        rw [Nat.mod_eq_of_lt hv]
        simp only [Nat.zero_mul, Nat.zero_add]
        exact Nat.mod_eq_of_lt (by omega)
    · intro hc
      have := congrArg List.length hrem
      unfold rem at this
      rw [hc] at this
      have hl := h.len
      simp only [List.drop_length, List.length_append, List.length_take, length_bits] at this
      simp [bytesBits] at this
      omega
  · rw [g3, hrem, List.drop_left' (by simp)]

theorem skipLoop_ok (n : Nat) {i : Input} (h : i.WF) (hn : n ≤ i.rem.length) :
    ∃ i', skipLoop n i = .ok i' ∧ i'.WF ∧ i'.rem = i.rem.drop n ∧ i'.data = i.data := by
  induction n generalizing i with
  | zero => exact ⟨i, rfl, h, rfl, rfl⟩
  | succ n ih =>
    obtain ⟨i1, f1, f2, f3, f4, f5, f6⟩ := fill_ok h (by intro e; rw [e] at hn; simp at hn)
    obtain ⟨s1, s2⟩ := shift_ok f2 f3
    rw [f5] at s2
    obtain ⟨i2, g1, g2, g3, g4⟩ := ih s1 (by rw [s2] at hn; simpa using hn)
    refine ⟨i2, ?_, g2, ?_, by rw [g4]; exact f6⟩
    · rw [skipLoop, f1]; exact g1
    · rw [g3, s2]; rfl

end Input

end Wreport
