import Verif.Lemmas.Bits

/-!
# C16, C17, C18: bit buffers
-/

namespace Wreport

open Spec

/-- Write a sequence of (value, width) pairs. -/
def BitOut.addAll : BitOut → List (Nat × Nat) → Res BitOut
  | o, [] => .ok o
  | o, (v, n) :: l => do
    let o ← o.add_bits v n
    o.addAll l

/-- Read a sequence of widths. -/
def Input.getAll : Input → List Nat → Res (List Nat × Input)
  | i, [] => .ok ([], i)
  | i, n :: l => do
    let r ← i.get_bits n
    let r' ← r.2.getAll l
    return (r.1 :: r'.1, r'.2)

theorem BitOut.addAll_ok {o : BitOut} (h : o.WF) (l : List (Nat × Nat))
    (hl : ∀ p ∈ l, 1 ≤ p.2 ∧ p.2 ≤ 32) :
    ∃ o', o.addAll l = .ok o' ∧ o'.WF ∧ o'.bits = o.bits ++ l.flatMap fun p => Spec.bits p.2 p.1 := by
  induction l generalizing o with
  | nil => exact ⟨o, rfl, h, by simp⟩
  | cons p l ih =>
    obtain ⟨v, n⟩ := p
    have := hl (v, n) (by simp)
    obtain ⟨o1, e1, w1, b1⟩ := BitOut.add_bits_ok h v (n := n) this.1 this.2
    obtain ⟨o2, e2, w2, b2⟩ := ih w1 (fun p hp => hl p (List.mem_cons_of_mem _ hp))
    refine ⟨o2, ?_, w2, ?_⟩
    · rw [BitOut.addAll, e1]; exact e2
    · rw [b2, b1]; simp

/-- C16: a sequence of writes to a buffer followed by `flush` leaves the previous
contents followed by the concatenation of the low bits of each value, most
significant first, and fewer than eight zero bits of padding. -/
theorem C16_writer (out : List Byte) (l : List (Nat × Nat)) (hl : ∀ p ∈ l, 1 ≤ p.2 ∧ p.2 ≤ 32) :
    ∃ o, (BitOut.new out).addAll l = .ok o ∧ ∃ k, k < 8 ∧
      bytesBits o.flush.out =
        bytesBits out ++ (l.flatMap fun p => bits p.2 p.1) ++ List.replicate k false := by
  obtain ⟨o, e, w, b⟩ := BitOut.addAll_ok (BitOut.WF_new out) l hl
  obtain ⟨-, -, k, hk, hf⟩ := BitOut.flush_ok w
  refine ⟨o, e, k, hk, ?_⟩
  rw [hf, b, BitOut.bits_new]

example : ∀ p ∈ [(5, 3), (1000, 10), (0xffffffff, 32), (1, 1)], 1 ≤ p.2 ∧ p.2 ≤ 32 := by decide

example : (do let o ← (BitOut.new []).addAll [(5, 3), (1000, 10)]; return o.flush.out) =
    Res.ok [0xbf, 0x40] := by decide +kernel

/-- C16: widths outside 1..32 are undefined behaviour, not silently accepted. -/
theorem C16_width_limits (o : BitOut) (v n : Nat) (h : n = 0 ∨ 32 < n) : o.add_bits v n = .ub := by
  unfold BitOut.add_bits
  rw [if_pos h]

theorem Input.getAll_ok {i : Input} (h : i.WF) (l : List (Nat × Nat)) (rest : List Bool)
    (hl : ∀ p ∈ l, p.2 ≤ 32) (hr : i.rem = (l.flatMap fun p => Spec.bits p.2 p.1) ++ rest)
    (hrest : 8 ≤ rest.length) :
    ∃ i', i.getAll (l.map (·.2)) = .ok (l.map (fun p => p.1 % 2 ^ p.2), i') ∧ i'.WF ∧
      i'.rem = rest := by
  induction l generalizing i with
  | nil => exact ⟨i, rfl, h, by simpa using hr⟩
  | cons p l ih =>
    obtain ⟨v, n⟩ := p
    rw [List.flatMap_cons, List.append_assoc] at hr
    simp only at hr
    rw [← bits_mod (k := n) le_rfl] at hr
    obtain ⟨i1, e1, w1, r1, -⟩ := Input.get_bits_ok h (hl (v, n) (by simp))
      (Nat.mod_lt _ (by positivity)) hr (by simp; omega)
    obtain ⟨i2, e2, w2, r2⟩ := ih w1 (fun p hp => hl p (List.mem_cons_of_mem _ hp)) r1
    refine ⟨i2, ?_, w2, r2⟩
    simp only [List.map_cons, Input.getAll, e1, Res.ok_bind, e2]
    rfl

/-- C17 (part): values written at any byte offset with at least one byte
following are read back, in order. Missing: values at the very end of the buffer,
for which it fails (`C17_not_at_end`); in a BUFR message the end section always
follows. -/
theorem C17_read_back_partial (before after : List Byte) (l : List (Nat × Nat)) (o : BitOut)
    (hl : ∀ p ∈ l, 1 ≤ p.2 ∧ p.2 ≤ 32) (ho : (BitOut.new before).addAll l = .ok o)
    (ha : after ≠ []) :
    ∃ i', ({ data := o.flush.out ++ after, s4_cursor := before.length, pbyte := 0, pbyte_len := 0 }
        : Input).getAll (l.map (·.2)) = .ok (l.map (fun p => p.1 % 2 ^ p.2), i') := by
  obtain ⟨o', e, w, b⟩ := BitOut.addAll_ok (BitOut.WF_new before) l hl
  rw [ho] at e
  simp only [Res.ok.injEq] at e
  subst e
  obtain ⟨-, -, k, hk, hf⟩ := BitOut.flush_ok w
  rw [b, BitOut.bits_new, List.append_assoc] at hf
  have hdrop : bytesBits ((o.flush.out ++ after).drop before.length) =
      (l.flatMap fun p => bits p.2 p.1) ++ (List.replicate k false ++ bytesBits after) := by
    have hd : ∀ (s t : List Byte) (u : List Bool), bytesBits s = bytesBits t ++ u →
        bytesBits (s.drop t.length) = u := by
      intro s t u h
      have hlen := congrArg List.length h
      simp only [List.length_append, length_bytesBits] at hlen
      have := bytesBits_append (s.take t.length) (s.drop t.length)
      rw [List.take_append_drop, h] at this
      refine (List.append_inj this ?_).2.symm
      simp; omega
    rw [← List.append_assoc]
    apply hd
    rw [bytesBits_append, hf]
    simp
  have hw : ({ data := o.flush.out ++ after, s4_cursor := before.length, pbyte := 0, pbyte_len := 0 }
      : Input).WF := ⟨by simp, by simp⟩
  obtain ⟨i', e', -, -⟩ := Input.getAll_ok hw l (List.replicate k false ++ bytesBits after)
    (fun p hp => (hl p hp).2) (by unfold Input.rem; simpa using hdrop)
    (by
      cases after with
      | nil => exact absurd rfl ha
      | cons a l => simp; omega)
  exact ⟨i', e'⟩

/-- C17 applies: two fields of 13 bits in all, after a byte of something else. -/
example : ∃ o, (BitOut.new [7]).addAll [(5, 3), (1000, 10)] = .ok o ∧
    (∀ p ∈ [(5, 3), (1000, 10)], 1 ≤ p.2 ∧ p.2 ≤ 32) ∧ o.flush.out = [7, 0xbf, 0x40] :=
  ⟨_, rfl, by decide, by decide +kernel⟩

/-- C17 fails for the last bits of a buffer: after the last byte was fetched,
asking for the bits still in it is an error. -/
theorem C17_not_at_end :
    (do let o ← (BitOut.new []).addAll [(1, 4), (2, 4)]; return o.flush.out) = Res.ok [0x12] ∧
    (Input.new [0x12]).getAll [4, 4] = .err .parse := by decide +kernel

/-! ## C18 -/

/-- C18 (part): a request for bits that are inside the message returns exactly
them, or an error when the byte cursor is at the end; a request when no whole
byte is left is a parse error. Missing: requests that begin inside the message
and end outside, for which it fails (`C18_not_overrun`). -/
theorem C18_in_bounds_partial (i : Input) (n : Nat) (h : i.WF) (hn : n ≤ 32)
    (hin : n ≤ i.rem.length ∨ i.s4_cursor = i.data.length) :
    (∃ i', i.get_bits n = .ok (ofBits (i.rem.take n), i') ∧ i'.WF ∧ i'.rem = i.rem.drop n ∧
      i'.data = i.data) ∨ i.get_bits n = .err .parse := by
  by_cases hc : i.s4_cursor = i.data.length
  · right
    unfold Input.get_bits
    rw [if_pos hc]
  · left
    have hin : n ≤ i.rem.length := by tauto
    obtain ⟨i', g1, g2, g3, g4⟩ := Input.getLoop_ok n 0 h hin
    refine ⟨i', ?_, g2, g3, g4⟩
    unfold Input.get_bits
    rw [if_neg hc, g1]
    congr 2
    split
    · next h0 => subst h0; simp
    · have h1 := ofBits_lt (i.rem.take n)
      rw [List.length_take, min_eq_left hin] at h1
      have h32 : (2 : Nat) ^ n ≤ 2 ^ 32 := Nat.pow_le_pow_right (by omega) hn
      simp only [Nat.zero_mul, Nat.zero_add]
      exact Nat.mod_eq_of_lt (by omega)

/-- C18 (part): any sequence of requests that together ask for no more than the
message holds is free of undefined behaviour. -/
theorem C18_sequence_partial (i : Input) (l : List Nat) (h : i.WF) (hl : ∀ n ∈ l, n ≤ 32)
    (hin : l.sum ≤ i.rem.length) : i.getAll l ≠ .ub := by
  induction l generalizing i with
  | nil => simp [Input.getAll]
  | cons n l ih =>
    rw [List.sum_cons] at hin
    rw [Input.getAll]
    rcases C18_in_bounds_partial i n h (hl n (by simp)) (Or.inl (by omega)) with ⟨i', e, w, r, -⟩ | e
    · rw [e]
      simp only [Res.ok_bind]
      have := ih i' w (fun m hm => hl m (List.mem_cons_of_mem _ hm)) (by rw [r]; simp; omega)
      cases hx : i'.getAll l with
      | ok a => simp
      | err e => simp
      | ub => exact absurd hx this
    · rw [e]; simp

example : (Input.new [0x12, 0x34]).WF ∧ (Input.new [0x12, 0x34]).rem.length = 16 ∧
    [3, 5, 8].sum ≤ (Input.new [0x12, 0x34]).rem.length :=
  ⟨⟨by decide, by decide⟩, by decide, by decide⟩

/-- C18 fails: a request that begins inside the message and is longer than what is
left reads memory outside the buffer. -/
theorem C18_not_overrun : (Input.new [0x12]).get_bits 32 = .ub := by decide +kernel

/-- C18 fails: a slightly longer request succeeds and returns bits that are not in
the message. -/
theorem C18_not_overread :
    ∃ i', (Input.new [0x12]).get_bits 16 = .ok (0x1200, i') :=
  ⟨{ data := [0x12], s4_cursor := 2, pbyte := 0, pbyte_len := 0 }, by decide +kernel⟩

/-- C18 fails: after such a request the end of the buffer is not detected any
more. -/
theorem C18_not_detected_later : (Input.new [0x12]).getAll [16, 8] = .ub := by decide +kernel

end Wreport
