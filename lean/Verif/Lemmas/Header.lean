import Verif.Model.Header
import Verif.Spec.Message
import Verif.Lemmas.Codec

/-! # Lemmas about BUFR sections -/

namespace Wreport

open Spec

@[simp] theorem length_be (k v : Nat) : (be k v).length = k := by
  induction k with
  | zero => rfl
  | succ k ih => simp [be, ih]

theorem bits_be (k v : Nat) : bytesBits (be k v) = bits (8 * k) v := by
  induction k with
  | zero => rfl
  | succ k ih =>
    rw [be, bytesBits_cons, ih, show 8 * (k + 1) = 8 + 8 * k by ring, bits_append]
    congr 1
    rw [show (256 : Nat) ^ k = 2 ^ (8 * k) by rw [pow_mul]; norm_num]
    simp only [UInt8.toNat_ofNat']
    exact bits_mod le_rfl

theorem be_succ_mod (k v : Nat) (n : Nat) (h : k ≤ n) : be k (v % 256 ^ n) = be k v := by
  apply bytesBits_inj
  rw [bits_be, bits_be]
  rw [show (256 : Nat) ^ n = 2 ^ (8 * n) by rw [pow_mul]; norm_num]
  exact bits_mod (by omega)

theorem be_one (v : Nat) : be 1 v = [UInt8.ofNat v] := by simp [be]

theorem be_three (v : Nat) : be 3 v =
    [UInt8.ofNat (v / 65536), UInt8.ofNat (v / 256), UInt8.ofNat v] := by simp [be]

theorem be_two (v : Nat) : be 2 v = [UInt8.ofNat (v / 256), UInt8.ofNat v] := by simp [be]

namespace BitOut

theorem WF_aligned {o : BitOut} (h : o.WF) {s : List Byte} (hb : o.bits = bytesBits s) :
    o = BitOut.new s := by
  obtain ⟨h1, h2⟩ := h
  have hl := congrArg List.length hb
  simp [bits] at hl
  have h0 : o.pbyte_len = 0 := by omega
  rw [h0] at h2
  have hs : o.out = s := by
    apply bytesBits_inj
    rw [← hb, bits, h0]; simp [Spec.bits]
  cases o
  simp only at h0 h2 hs
  subst hs h0
  simp [new]
  simpa using h2

theorem add_bits_aligned (s : List Byte) (v : Nat) {k : Nat} (h0 : 0 < k) (h1 : k ≤ 4) :
    (BitOut.new s).add_bits v (8 * k) = .ok (BitOut.new (s ++ be k v)) := by
  obtain ⟨o', e, w, b⟩ := add_bits_ok (WF_new s) v (n := 8 * k) (by omega) (by omega)
  rw [e, WF_aligned w (s := s ++ be k v)]
  rw [b, bits_new, bytesBits_append, bits_be]

theorem add_24 (s : List Byte) (v : Nat) :
    (BitOut.new s).add_bits v 24 = .ok (BitOut.new (s ++ be 3 v)) :=
  add_bits_aligned s v (k := 3) (by omega) (by omega)

theorem append_byte_aligned (s : List Byte) (v : Nat) :
    (BitOut.new s).append_byte v = .ok (BitOut.new (s ++ [UInt8.ofNat v])) := by
  rw [append_byte, add_bits_aligned s _ (k := 1) (by omega) (by omega)]
  rw [show (2 : Nat) ^ 8 = 256 ^ 1 by norm_num, be_succ_mod 1 v 1 le_rfl, be_one]

theorem append_short_aligned (s : List Byte) (v : Nat) :
    (BitOut.new s).append_short v = .ok (BitOut.new (s ++ be 2 v)) := by
  rw [append_short, add_bits_aligned s _ (k := 2) (by omega) (by omega)]
  rw [show (2 : Nat) ^ 16 = 256 ^ 2 by norm_num, be_succ_mod 2 v 2 le_rfl]

theorem add_24_bind {α : Type} (s : List Byte) (v : Nat) (f : BitOut → Res α) :
    ((BitOut.new s).add_bits v 24 >>= f) = f (BitOut.new (s ++ be 3 v)) := by
  rw [add_24, Res.ok_bind]

theorem byte_bind {α : Type} (s : List Byte) (v : Nat) (f : BitOut → Res α) :
    ((BitOut.new s).append_byte v >>= f) = f (BitOut.new (s ++ [UInt8.ofNat v])) := by
  rw [append_byte_aligned, Res.ok_bind]

theorem short_bind {α : Type} (s : List Byte) (v : Nat) (f : BitOut → Res α) :
    ((BitOut.new s).append_short v >>= f) = f (BitOut.new (s ++ be 2 v)) := by
  rw [append_short_aligned, Res.ok_bind]

theorem raw_append_aligned (s t : List Byte) :
    (BitOut.new s).raw_append t = BitOut.new (s ++ t) := rfl

end BitOut

namespace BufrEnc

open BitOut

/-- Section 1 of editions 2 and 3. -/
def sec1ed3 (h : Header) : List Byte :=
  be 3 18 ++ [h.master_table_number, UInt8.ofNat h.originating_subcentre.toNat,
    UInt8.ofNat h.originating_centre.toNat, h.update_sequence_number, UInt8.ofNat (optFlag h),
    h.data_category, h.data_subcategory_local, h.master_table_version_number,
    h.master_table_version_number_local, UInt8.ofNat (yearOfCentury h.rep_year.toNat),
    h.rep_month, h.rep_day, h.rep_hour, h.rep_minute, UInt8.ofNat (h.rep_year.toNat / 100)]

/-- Section 1 of edition 4. -/
def sec1ed4 (h : Header) : List Byte :=
  be 3 22 ++ ([0] ++ (be 2 h.originating_centre.toNat ++ (be 2 h.originating_subcentre.toNat ++
    ([h.update_sequence_number, UInt8.ofNat (optFlag h), h.data_category, h.data_subcategory,
      h.data_subcategory_local, h.master_table_version_number,
      h.master_table_version_number_local] ++ (be 2 h.rep_year.toNat ++
    [h.rep_month, h.rep_day, h.rep_hour, h.rep_minute, h.rep_second])))))

/-- Section 1. -/
def sec1 (h : Header) : List Byte := if h.edition_number = 4 then sec1ed4 h else sec1ed3 h

/-- Section 2. -/
def sec2 (h : Header) : List Byte :=
  if h.optional_section = [] then []
  else be 3 (4 + h.optional_section.length + h.optional_section.length % 2) ++ ([0] ++
    (h.optional_section ++ List.replicate (h.optional_section.length % 2) 0))

/-- Section 3. -/
def sec3 (h : Header) (subsets : Nat) : List Byte :=
  be 3 (8 + 2 * h.datadesc.length) ++ ([0] ++ (be 2 subsets ++ ([128] ++
    (h.datadesc.flatMap (be 2) ++ [0]))))

theorem encode_sec1_ok (h : Header) (s : List Byte)
    (he : h.edition_number = 2 ∨ h.edition_number = 3 ∨ h.edition_number = 4) :
    encode_sec1 h (BitOut.new s) = .ok (BitOut.new (s ++ sec1 h)) := by
  unfold encode_sec1 sec1
  by_cases h4 : h.edition_number = 4
  · have h2 : ¬ (h.edition_number = 2 ∨ h.edition_number = 3) := by rw [h4]; decide
    rw [if_neg h2, if_pos h4, if_pos h4, encode_sec1ed4]
    simp only [↓add_24_bind, ↓byte_bind, ↓short_bind, append_byte_aligned]
    simp [sec1ed4]
  · have h2 : h.edition_number = 2 ∨ h.edition_number = 3 := by tauto
    rw [if_pos h2, if_neg h4, encode_sec1ed3]
    simp only [↓add_24_bind, ↓byte_bind, append_byte_aligned]
    simp [sec1ed3]

theorem encode_sec2_ok (h : Header) (s : List Byte) :
    encode_sec2 h (BitOut.new s) = .ok (BitOut.new (s ++ sec2 h)) := by
  unfold encode_sec2 sec2
  by_cases h0 : h.optional_section = []
  · simp [h0]
  · rw [if_neg (by simpa using h0), if_neg h0]
    split
    · next h1 =>
      simp only [add_24, append_byte_aligned, Res.ok_bind, raw_append_aligned]
      simp [h1]
    · next h1 =>
      have : h.optional_section.length % 2 = 0 := by omega
      simp only [add_24, append_byte_aligned, Res.ok_bind, raw_append_aligned, Res.pure_def]
      simp [this]

theorem encode_descriptors_ok (l : List Varcode) (s : List Byte) :
    encode_descriptors l (BitOut.new s) = .ok (BitOut.new (s ++ l.flatMap (be 2))) := by
  induction l generalizing s with
  | nil => simp [encode_descriptors]
  | cons c t ih =>
    simp only [encode_descriptors, append_short_aligned, Res.ok_bind, ih]
    simp

theorem encode_sec3_ok (h : Header) {n : Nat} (s : List Byte) (hn : n ≠ 0) (hd : h.datadesc ≠ []) :
    encode_sec3 h n (BitOut.new s) = .ok (BitOut.new (s ++ sec3 h n)) := by
  unfold encode_sec3 sec3
  rw [if_neg hn, if_neg (by simpa using hd)]
  simp only [add_24, append_byte_aligned, append_short_aligned, encode_descriptors_ok, Res.ok_bind]
  simp

theorem patch3_eq (a b c : List Byte) (v : Nat) (hb : b.length = 3) :
    patch3 (a ++ (b ++ c)) a.length v = a ++ (be 3 v ++ c) := by
  unfold patch3
  rw [List.take_left, ← List.drop_drop, List.drop_left, show (3 : Nat) = b.length from hb.symm,
    List.drop_left]
  rw [hb, be_three]
  have e (x : Nat) : UInt8.ofNat (x % 256) = UInt8.ofNat x := by
    apply UInt8.toNat_inj.mp; simp
  simp [e]

/-- A writer of data only appends. -/
def Appends (body : BitOut → Res BitOut) : Prop :=
  ∀ o o', o.WF → body o = .ok o' → o'.WF ∧ ∃ t, o'.bits = o.bits ++ t

theorem padEven_ok (s : List Byte) :
    padEven (BitOut.new s) = .ok (BitOut.new (s ++ List.replicate (s.length % 2) 0)) := by
  unfold padEven
  split
  · next h1 =>
    rw [append_byte_aligned]
    have : s.length % 2 = 1 := h1
    simp [this]
  · next h1 =>
    have : s.length % 2 = 0 := by have : ¬ s.length % 2 = 1 := h1; omega
    simp [this]

theorem flush_aligned (s : List Byte) : (BitOut.new s).flush = BitOut.new s := by
  simp [flush, new]

/-- Section 4: length, reserved byte, and bytes holding the data bits and fewer
than 16 zero bits. -/
theorem encode_sec4_ok {body : BitOut → Res BitOut} (hb : Appends body) {s : List Byte}
    {o : BitOut} (h : encode_sec4 body (BitOut.new s) = .ok o) :
    ∃ (ob : BitOut) (t : List Bool) (d : List Byte) (k : Nat),
      body (BitOut.new (s ++ [0, 0, 0, 0])) = .ok ob ∧
      ob.bits = bytesBits (s ++ [0, 0, 0, 0]) ++ t ∧
      bytesBits d = t ++ List.replicate k false ∧ k < 16 ∧ (s.length + d.length) % 2 = 0 ∧
      o = BitOut.new (s ++ (be 3 (4 + d.length) ++ ([0] ++ d))) := by
  unfold encode_sec4 at h
  simp only [add_24, append_byte_aligned, Res.ok_bind] at h
  rw [show s ++ be 3 0 ++ [UInt8.ofNat 0] = s ++ [0, 0, 0, 0] by rw [be_three]; simp] at h
  obtain ⟨ob, e1, h⟩ := Res.bind_eq_ok.mp h
  obtain ⟨w, t, ht⟩ := hb _ _ (BitOut.WF_new _) e1
  rw [bits_new] at ht
  obtain ⟨f1, f2, k, hk, f3⟩ := flush_ok w
  have hf : ob.flush = BitOut.new ob.flush.out := by
    cases hx : ob.flush; rw [hx] at f1 f2; simp only at f1 f2; subst f1 f2; rfl
  rw [ht, List.append_assoc] at f3
  -- the flushed bytes start with what was there
  have hlen := congrArg List.length f3
  simp at hlen
  obtain ⟨d, hd⟩ : ∃ d, ob.flush.out = (s ++ [0, 0, 0, 0]) ++ d := by
    refine ⟨ob.flush.out.drop (s ++ [0, 0, 0, 0]).length, ?_⟩
    have hl4 : (s ++ [0, 0, 0, 0] : List Byte).length = s.length + 4 := by simp
    have := List.take_append_drop (s ++ [0, 0, 0, 0] : List Byte).length ob.flush.out
    rw [← this, bytesBits_append] at f3
    have h1 := (List.append_inj f3 (by
      simp only [length_bytesBits, List.length_take]; rw [hl4]; omega)).1
    have h2 := bytesBits_inj h1
    conv_lhs => rw [← this]
    rw [h2]
  rw [hd, bytesBits_append] at f3
  have f4 := List.append_cancel_left f3
  rw [hf, padEven_ok, Res.ok_bind, flush_aligned] at h
  rw [hd] at h
  simp only [Res.pure_def, Res.ok.injEq] at h
  set p := ((s ++ [0, 0, 0, 0] ++ d).length % 2) with hp
  refine ⟨ob, t, d ++ List.replicate p 0, k + 8 * p, e1, ht, ?_, ?_, ?_, ?_⟩
  · rw [bytesBits_append, f4, List.append_assoc, List.replicate_add]
    congr 1
    congr 1
    have : p = 0 ∨ p = 1 := by omega
    rcases this with h | h <;> rw [h] <;> simp [bytesBits, Spec.bits]
  · omega
  · simp only [List.length_append, List.length_replicate, List.length_cons, List.length_nil] at hp ⊢
    omega
  · rw [← h]
    have e2 : s ++ [0, 0, 0, 0] ++ d ++ List.replicate p 0 =
        s ++ ([0, 0, 0] ++ ([0] ++ (d ++ List.replicate p 0))) := by simp
    show BitOut.new (patch3 (s ++ [0, 0, 0, 0] ++ d ++ List.replicate p 0) s.length
      ((s ++ [0, 0, 0, 0] ++ d ++ List.replicate p 0).length - s.length)) = _
    rw [e2, patch3_eq _ _ _ _ rfl]
    congr 4
    simp
    omega

/-- The start of a message. -/
def head (h : Header) (subsets : Nat) : List Byte :=
  ascii "BUFR" ++ ([0, 0, 0] ++ ([h.edition_number] ++ (sec1 h ++ (sec2 h ++ sec3 h subsets))))

/-- The whole message. -/
theorem encode_ok {h : Header} {n : Nat} {body : BitOut → Res BitOut} (hb : Appends body)
    {msg : List Byte} (he : encode h n body = .ok msg) :
    (h.edition_number = 2 ∨ h.edition_number = 3 ∨ h.edition_number = 4) ∧ n ≠ 0 ∧
    h.datadesc ≠ [] ∧
    ∃ (ob : BitOut) (t : List Bool) (d : List Byte) (k : Nat),
      body (BitOut.new (head h n ++ [0, 0, 0, 0])) = .ok ob ∧
      ob.bits = bytesBits (head h n ++ [0, 0, 0, 0]) ++ t ∧
      bytesBits d = t ++ List.replicate k false ∧ k < 16 ∧ msg.length % 2 = 0 ∧
      msg = ascii "BUFR" ++ (be 3 msg.length ++ ([h.edition_number] ++ (sec1 h ++ (sec2 h ++
        (sec3 h n ++ ((be 3 (4 + d.length) ++ ([0] ++ d)) ++ ascii "7777")))))) := by
  unfold encode encode_sec0 at he
  rw [raw_append_aligned, append_byte_aligned, Res.ok_bind] at he
  have hed : h.edition_number = 2 ∨ h.edition_number = 3 ∨ h.edition_number = 4 := by
    by_contra hc
    rw [encode_sec1, if_neg (by tauto), if_neg (by tauto)] at he
    cases he
  rw [encode_sec1_ok h _ hed, Res.ok_bind, encode_sec2_ok, Res.ok_bind] at he
  have hn : n ≠ 0 := by
    rintro rfl
    rw [encode_sec3, if_pos rfl] at he
    cases he
  have hd : h.datadesc ≠ [] := by
    intro hc
    rw [encode_sec3, if_neg hn, if_pos (by simp [hc])] at he
    cases he
  rw [encode_sec3_ok h _ hn hd, Res.ok_bind] at he
  have e1 : [] ++ (ascii "BUFR" ++ [0, 0, 0]) ++ [UInt8.ofNat h.edition_number.toNat] ++ sec1 h ++
      sec2 h ++ sec3 h n = head h n := by simp [head]
  rw [e1] at he
  obtain ⟨o4, e4, he⟩ := Res.bind_eq_ok.mp he
  obtain ⟨ob, t, d, k, a1, a2, a3, a4, a5, a6⟩ := encode_sec4_ok hb e4
  subst a6
  simp only [Res.pure_def, Res.ok.injEq, encode_sec5, raw_append_aligned] at he
  have e5 : (BitOut.new (head h n ++ (be 3 (4 + d.length) ++ ([0] ++ d)) ++ ascii "7777")).out =
      ascii "BUFR" ++ ([0, 0, 0] ++ ([h.edition_number] ++ (sec1 h ++ (sec2 h ++
        (sec3 h n ++ ((be 3 (4 + d.length) ++ ([0] ++ d)) ++ ascii "7777")))))) := by
    simp [head, new]
  rw [e5] at he
  have e6 := patch3_eq (ascii "BUFR") [0, 0, 0] ([h.edition_number] ++ (sec1 h ++ (sec2 h ++
        (sec3 h n ++ ((be 3 (4 + d.length) ++ ([0] ++ d)) ++ ascii "7777"))))) 
    (ascii "BUFR" ++ ([0, 0, 0] ++ ([h.edition_number] ++ (sec1 h ++ (sec2 h ++
        (sec3 h n ++ ((be 3 (4 + d.length) ++ ([0] ++ d)) ++ ascii "7777"))))))).length rfl
  rw [show (ascii "BUFR").length = 4 from rfl] at e6
  rw [e6] at he
  have hl : msg.length = (ascii "BUFR" ++ ([0, 0, 0] ++ ([h.edition_number] ++ (sec1 h ++ (sec2 h ++
        (sec3 h n ++ ((be 3 (4 + d.length) ++ ([0] ++ d)) ++ ascii "7777"))))))).length := by
    rw [← he]; simp; omega
  refine ⟨hed, hn, hd, ob, t, d, k, a1, a2, a3, a4, ?_, ?_⟩
  · rw [hl]
    have : (ascii "7777").length = 4 := rfl
    simp only [head, List.length_append, length_be, this, List.length_cons, List.length_nil] at a5 ⊢
    omega
  · rw [hl, ← he]

/-- When encoding succeeds. -/
theorem encode_isOk {h : Header} {n : Nat} {body : BitOut → Res BitOut}
    (hed : h.edition_number = 2 ∨ h.edition_number = 3 ∨ h.edition_number = 4) (hn : n ≠ 0)
    (hd : h.datadesc ≠ []) {ob : BitOut}
    (hb : body (BitOut.new (head h n ++ [0, 0, 0, 0])) = .ok ob) (hw : ob.WF) :
    ∃ msg, encode h n body = .ok msg := by
  unfold encode encode_sec0
  rw [raw_append_aligned, append_byte_aligned, Res.ok_bind, encode_sec1_ok h _ hed, Res.ok_bind,
    encode_sec2_ok, Res.ok_bind, encode_sec3_ok h _ hn hd, Res.ok_bind]
  have e1 : [] ++ (ascii "BUFR" ++ [0, 0, 0]) ++ [UInt8.ofNat h.edition_number.toNat] ++ sec1 h ++
      sec2 h ++ sec3 h n = head h n := by simp [head]
  rw [e1]
  unfold encode_sec4
  simp only [↓add_24_bind, ↓byte_bind]
  rw [show head h n ++ be 3 0 ++ [UInt8.ofNat 0] = head h n ++ [0, 0, 0, 0] by
    rw [be_three]; simp, hb, Res.ok_bind]
  obtain ⟨f1, f2, -⟩ := flush_ok hw
  have hf : ob.flush = BitOut.new ob.flush.out := by
    cases hx : ob.flush; rw [hx] at f1 f2; simp only at f1 f2; subst f1 f2; rfl
  rw [hf, padEven_ok, Res.ok_bind]
  exact ⟨_, rfl⟩

end BufrEnc

/-- A section that starts with its own length in three bytes, truncated. -/
def BePrefixed (s : List Byte) : Prop := ∃ t, s = be 3 s.length ++ t

namespace BufrDec

theorem byteAt_drop {data l : List Byte} {pos : Nat} {b : Byte} (h : data.drop pos = b :: l) :
    Input.byteAt data pos = .ok b.toNat := by
  have : data[pos]? = some b := by
    rw [← List.head?_drop, h]; rfl
  simp [Input.byteAt, this]

theorem drop_succ_of {data l : List Byte} {pos : Nat} {b : Byte} (h : data.drop pos = b :: l) :
    data.drop (pos + 1) = l := by
  rw [← List.drop_drop, h]; rfl

theorem drop_append_of {data l m : List Byte} {pos : Nat} (h : data.drop pos = l ++ m) (k : Nat)
    (hk : k = l.length) : data.drop (pos + k) = m := by
  rw [← List.drop_drop, h, hk, List.drop_left]

theorem byteAt_index {data l : List Byte} {pos k : Nat} {b : Byte} (h : data.drop pos = l)
    (hk : l[k]? = some b) : Input.byteAt data (pos + k) = .ok b.toNat := by
  have : data[pos + k]? = some b := by rw [← hk, ← h, List.getElem?_drop]
  simp [Input.byteAt, this]

theorem read_byte_index {data l : List Byte} {pos k : Nat} {b : Byte} (h : data.drop pos = l)
    (hk : l[k]? = some b) : read_byte data (pos + k) = .ok b := by
  simp [read_byte, byteAt_index h hk]

theorem shl8_or (r : Nat) (b : Byte) : r <<< 8 ||| b.toNat = 256 * r + b.toNat := by
  rw [← Nat.shiftLeft_add_eq_or_of_lt (by simpa using b.toNat_lt), Nat.shiftLeft_eq]
  omega

theorem read_number_loop_ok {data l m : List Byte} {pos r : Nat} (h : data.drop pos = l ++ m)
    (hl : l.foldl (fun acc b => 256 * acc + b.toNat) r < 2 ^ 32) :
    read_number_loop data pos l.length r =
      .ok (l.foldl (fun acc b => 256 * acc + b.toNat) r) := by
  induction l generalizing pos r with
  | nil => rfl
  | cons b l ih =>
    simp only [List.length_cons, read_number_loop]
    rw [byteAt_drop h, Res.ok_bind, shl8_or]
    simp only [List.foldl_cons] at hl ⊢
    have hmono : ∀ (l : List Byte) (r : Nat),
        r ≤ l.foldl (fun acc b => 256 * acc + b.toNat) r := by
      intro l
      induction l with
      | nil => intro r; exact le_rfl
      | cons b l ih => intro r; rw [List.foldl_cons]; exact le_trans (by omega) (ih _)
    have := hmono l (256 * r + b.toNat)
    rw [Nat.mod_eq_of_lt (by omega)]
    exact ih (drop_succ_of h) hl

theorem ofBe_lt (l : List Byte) : ofBe l < 256 ^ l.length := by
  have key : ∀ (l : List Byte) (r : Nat), l.foldl (fun acc b => 256 * acc + b.toNat) r <
      256 ^ l.length * (r + 1) := by
    intro l
    induction l with
    | nil => intro r; simp
    | cons b l ih =>
      intro r
      rw [List.foldl_cons]
      refine lt_of_lt_of_le (ih _) ?_
      rw [List.length_cons, pow_succ, mul_assoc]
      apply Nat.mul_le_mul_left
      have := b.toNat_lt
      omega
  simpa [ofBe] using key l 0

theorem read_number_ok {data l m : List Byte} {pos k : Nat} (h : data.drop pos = l ++ m)
    (hk : k = l.length) (h4 : k ≤ 4) : read_number data pos k = .ok (ofBe l) := by
  have hlt : ofBe l < 2 ^ 32 := by
    refine lt_of_lt_of_le (ofBe_lt l) ?_
    rw [show (2 : Nat) ^ 32 = 256 ^ 4 by norm_num]
    exact Nat.pow_le_pow_right (by omega) (by omega)
  rw [read_number, hk]
  exact read_number_loop_ok h hlt

theorem ofBe_be (k v : Nat) : ofBe (be k v) = v % 256 ^ k := by
  have key : ∀ (k v r : Nat), (be k v).foldl (fun acc b => 256 * acc + b.toNat) r =
      256 ^ k * r + v % 256 ^ k := by
    intro k
    induction k with
    | zero => intro v r; simp [be, Nat.mod_one]
    | succ k ih =>
      intro v r
      rw [be, List.foldl_cons, ih, pow_succ]
      simp only [UInt8.toNat_ofNat']
      have := Nat.mod_mul (x := v) (a := 256 ^ k) (b := 256)
      rw [this]
      ring
  simpa [ofBe] using key k v 0

theorem read_number_be {data m : List Byte} {pos k v : Nat} (h : data.drop pos = be k v ++ m)
    (h4 : k ≤ 4) : read_number data pos k = .ok (v % 256 ^ k) := by
  rw [read_number_ok h (by simp) h4, ofBe_be]

theorem read_short_be {data m : List Byte} {pos : Nat} {v : UInt16}
    (h : data.drop pos = be 2 v.toNat ++ m) : read_short data pos = .ok v := by
  rw [read_short, read_number_be h (by omega), Res.ok_bind]
  have := v.toNat_lt
  rw [Nat.mod_eq_of_lt (by norm_num; omega)]
  simp

theorem scan_section_length_ok {data s m : List Byte} {pos : Nat} (h : data.drop pos = s ++ m)
    (hp : BePrefixed s) (hl : s.length < 2 ^ 24) (hpos : pos ≤ data.length) :
    scan_section_length data pos = .ok (pos + s.length) := by
  obtain ⟨t, ht⟩ := hp
  have hlen := congrArg List.length h
  simp only [List.length_drop, List.length_append] at hlen
  have h3 : 3 ≤ s.length := by
    have := congrArg List.length ht
    simp at this; omega
  unfold scan_section_length check
  rw [if_neg (by omega), Res.ok_bind]
  rw [ht, List.append_assoc] at h
  rw [read_number_be h (by omega), Nat.mod_eq_of_lt (by simpa using hl), Res.ok_bind,
    if_neg (by omega)]
  rfl

theorem read_bytes_ok {data l m : List Byte} {pos : Nat} (h : data.drop pos = l ++ m) :
    read_bytes data pos l.length = .ok l := by
  induction l generalizing pos with
  | nil => rfl
  | cons b l ih =>
    simp only [List.length_cons, read_bytes, read_byte]
    rw [byteAt_drop h]
    simp [ih (drop_succ_of h)]

theorem read_descriptors_ok {data m : List Byte} {l : List Varcode} {pos : Nat}
    (h : data.drop pos = l.flatMap (be 2) ++ m) (hl : ∀ c ∈ l, c < 65536) :
    read_descriptors data pos l.length = .ok l := by
  induction l generalizing pos with
  | nil => rfl
  | cons c l ih =>
    simp only [List.length_cons, read_descriptors]
    rw [List.flatMap_cons, List.append_assoc] at h
    have hc : c < 65536 := hl c (by simp)
    rw [read_number_be h (by omega), Nat.mod_eq_of_lt (by norm_num; omega), Res.ok_bind,
      ih (drop_append_of h 2 (by simp)) (fun c hc => hl c (by simp [hc]))]
    rfl

end BufrDec

end Wreport
