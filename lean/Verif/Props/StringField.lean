import Verif.Props.Field
import Verif.Spec.StringField

/-!
# C82: what any string or binary field is read as

C19 to C21 start from what the encoder writes. Here the bits of the field are any.
-/

namespace Wreport

open Spec

/-- The bytes of a field as the reading loop gives them. -/
theorem Input.getBytes_field {i : Input} (h : i.WF) {w : List Byte} {width : Nat}
    {rest : List Bool} (hw : w.length = (width + 7) / 8)
    (hl : (w.getD (width / 8) 0).toNat < 2 ^ (width % 8))
    (hrem : i.rem = binField width w ++ rest) (hrest : 8 ≤ rest.length) :
    ∃ i', i.getBytes width = .ok (w, i') ∧ i'.WF ∧ i'.rem = rest ∧ i'.data = i.data := by
  obtain ⟨i', g1, g2⟩ := getBytes_ok h (w := w.take (width / 8))
    (last := (w.getD (width / 8) 0).toNat) (width := width) (rest := rest)
    (by rw [List.length_take]; omega) hl (by rw [hrem, binField, List.append_assoc]) hrest
  refine ⟨i', ?_, g2⟩
  rw [g1]
  congr 2
  unfold chunks
  split
  · rename_i h0
    rw [List.append_nil, List.take_of_length_le (by omega)]
  · rename_i h0
    have hlt : width / 8 < w.length := by omega
    rw [List.getD, List.getElem?_eq_getElem hlt, Option.getD_some, UInt8.ofNat_toNat,
      List.take_append_getElem, List.take_of_length_le (by omega)]

/-- Dropping the bytes at the end that pass a test. -/
theorem dropWhile_reverse_split (p : Byte → Bool) (t : List Byte) :
    ∃ pad, t = (t.reverse.dropWhile p).reverse ++ pad ∧ (∀ b ∈ pad, p b = true) ∧
      ∀ s b, (t.reverse.dropWhile p).reverse = s ++ [b] → p b = false := by
  refine ⟨(t.reverse.takeWhile p).reverse, ?_, ?_, ?_⟩
  · rw [← List.reverse_append, List.takeWhile_append_dropWhile, List.reverse_reverse]
  · intro b hb
    have := List.all_takeWhile (p := p) (l := t.reverse)
    rw [List.all_eq_true] at this
    exact this b (by simpa using hb)
  · intro s b hs
    have hd : t.reverse.dropWhile p = b :: s.reverse := by
      rw [← List.reverse_reverse (t.reverse.dropWhile p), hs]; simp
    have := List.head_dropWhile_not p (l := t.reverse) (by rw [hd]; simp)
    simpa [hd] using this

/-- What is left of a text in the buffer. -/
theorem Input.trimEnd_holds {w : List Byte} (hw : w ≠ []) :
    HoldsText w ((trimEnd w).takeWhile (· ≠ 0)) := by
  cases w with
  | nil => exact absurd rfl hw
  | cons b t =>
    obtain ⟨pad, h1, h2, h3⟩ := dropWhile_reverse_split (fun c => c = 0 || isSpace c) t
    refine ⟨trimEnd (b :: t), pad, ?_, ?_, ?_, rfl⟩
    · show b :: t = b :: _ ++ pad
      rw [List.cons_append, ← h1]
    · intro x hx
      have := h2 x hx
      simpa [Blank] using this
    · show (b :: _).length = 1 ∨ NoTrailingBlank (b :: _)
      rcases List.eq_nil_or_concat (t.reverse.dropWhile fun c => c = 0 || isSpace c).reverse with
        h | ⟨s, x, h⟩
      · left; rw [h]; rfl
      · right
        rw [List.concat_eq_append] at h
        have := h3 s x h
        rw [h]
        simp only [Bool.or_eq_false_iff, decide_eq_false_iff_not] at this
        exact ⟨b :: s, x, rfl, this.2, this.1⟩

/-- Memory holding text holds, terminated, the bytes before the first NUL. -/
theorem c_str_split (w : List Byte) :
    ∃ r : Mem, c_str w = c_str (w.takeWhile (· ≠ 0)) ++ r := by
  induction w with
  | nil => exact ⟨[], rfl⟩
  | cons b w ih =>
    obtain ⟨r, hr⟩ := ih
    by_cases hb : b = 0
    · subst hb
      exact ⟨c_str w, by simp [c_str, toMem]⟩
    · refine ⟨r, ?_⟩
      rw [List.takeWhile_cons_of_pos (by simpa using hb)]
      show some b :: c_str w = some b :: c_str _ ++ r
      rw [hr]; rfl

/-- The text held by bytes is only one. -/
theorem Spec.HoldsText.unique {w t t' : List Byte} (h : HoldsText w t) (h' : HoldsText w t') :
    t = t' := by
  obtain ⟨k, p, rfl, hp, hk, rfl⟩ := h
  obtain ⟨k', p', he, hp', hk', rfl⟩ := h'
  have key : ∀ {a b p p' : List Byte}, a ++ p = b ++ p' → a.length < b.length →
      (∀ x ∈ p, Blank x) → NoTrailingBlank b → False := by
    intro a b p p' he hl hp hb
    obtain ⟨s, x, rfl, h1, h2⟩ := hb
    have hx : x ∈ p := by
      have h3 : (a ++ p)[s.length]? = some x := by rw [he]; simp
      rw [List.getElem?_append_right (by simpa using Nat.lt_succ_iff.mp (by simpa using hl))] at h3
      exact List.mem_of_getElem? h3
    rcases hp x hx with h | h
    · exact h2 h
    · rw [h1] at h; cases h
  have pos : ∀ {a : List Byte}, NoTrailingBlank a → 1 ≤ a.length := by
    rintro a ⟨s, x, rfl, -⟩; simp
  have hl : k.length = k'.length := by
    rcases Nat.lt_trichotomy k.length k'.length with h | h | h
    · rcases hk' with h1 | h1
      · rcases hk with h2 | h2
        · omega
        · have := pos h2; omega
      · exact (key he h hp h1).elim
    · exact h
    · rcases hk with h1 | h1
      · rcases hk' with h2 | h2
        · omega
        · have := pos h2; omega
      · exact (key he.symm h hp' h1).elim
  rw [(List.append_inj he hl).1]

/-- C82, strings: any field is read, taking up its bits; the variable is missing if and
only if all bytes are 0 or 0xff, and otherwise it holds the text of the bytes, cut to the
length of the variable. -/
theorem C82_string (O : Opts) (info : Varinfo) (ht : info.type = .string) (w : List Byte)
    (hw : w.length = (info.bit_len + 7) / 8)
    (hl : (w.getD (info.bit_len / 8) 0).toNat < 2 ^ (info.bit_len % 8))
    (i : Input) (rest : List Bool) (hi : i.WF) (hrem : i.rem = binField info.bit_len w ++ rest)
    (hrest : 8 ≤ rest.length) :
    ∃ v i', i.decode_string_var O (Var.new info) = .ok (v, i') ∧ i'.WF ∧ i'.rem = rest ∧
      v.info = info ∧ v.attrs = [] ∧
      ((∀ b ∈ w, b = 0 ∨ b = 0xff) → v = Var.new info) ∧
      (∀ b ∈ w, b ≠ 0 → b ≠ 0xff → ∃ t, HoldsText w t ∧
        v.toVarCore.view = some (.text (t.take info.len))) := by
  obtain ⟨i', g1, g2, g3, -⟩ := Input.getBytes_field hi hw hl hrem hrest
  unfold Input.decode_string_var Input.decode_string
  simp only [show (Var.new info).info.bit_len = info.bit_len from rfl, g1, Res.ok_bind]
  by_cases hm : ∀ b ∈ w, b = 0 ∨ b = 0xff
  · rw [if_pos (by
      rw [List.all_eq_true]
      intro b hb
      rcases hm b hb with rfl | rfl <;> decide)]
    refine ⟨Var.new info, i', rfl, g2, g3, rfl, rfl, fun _ => rfl, ?_⟩
    intro b hb h0 h1
    rcases hm b hb with h | h
    · exact absurd h h0
    · exact absurd h h1
  · rw [if_neg (by
      intro hall
      apply hm
      intro b hb
      rw [List.all_eq_true] at hall
      have := hall b hb
      simp only [Bool.or_eq_true, decide_eq_true_eq] at this
      exact this.symm)]
    have hne : w ≠ [] := by rintro rfl; exact hm (by simp)
    obtain ⟨r, hr⟩ := c_str_split (Input.trimEnd w)
    obtain ⟨m, s1, s2, s3⟩ := assign_c_ok (v := Var.new info) (WF_new _) ht
      ((Input.trimEnd w).takeWhile (· ≠ 0)) r (nulFree_takeWhile _) info.len
    have hs : (Var.new info).setc O (c_str (Input.trimEnd w)) = ((Var.new info).putMem m, .ok ()) := by
      unfold Var.setc
      simp only [show (Var.new info).info.type = .string from ht]
      rw [hr]
      exact s1
    refine ⟨(Var.new info).putMem m, i', ?_, g2, g3, rfl, rfl, fun h => absurd h hm, ?_⟩
    · simp only [Res.pure_def, Res.ok_bind, Input.setDecoded, hs]
    · intro b _ _ _
      refine ⟨_, Input.trimEnd_holds hne, ?_⟩
      rw [Var.view_putMem_string ht s3]
      simp [show (Var.new info).info.len = info.len from rfl]

example : sampleStr2.type = .string ∧
    ([65, 32] : List Byte).length = (sampleStr2.bit_len + 7) / 8 ∧
    (([65, 32] : List Byte).getD (sampleStr2.bit_len / 8) 0).toNat < 2 ^ (sampleStr2.bit_len % 8) ∧
    (65 : Byte) ∈ ([65, 32] : List Byte) ∧ HoldsText [65, 32] [65] ∧
    (∀ b ∈ ([0, 0] : List Byte), b = 0 ∨ b = 0xff) ∧
    (do let r ← (Input.new ([0, 0] ++ ascii "7777")).decode_string_var .default (Var.new sampleStr2)
        return r.1.isset) = Res.ok false :=
  ⟨rfl, rfl, by decide +kernel, by decide, ⟨[65], [32], rfl, by simp [Blank, isSpace], Or.inl rfl, rfl⟩,
    by decide, by decide +kernel⟩

/-- C82, binary values of whole bytes: any field is read, taking up its bits; the
variable is missing if all bytes are 0xff, and otherwise holds the bytes. -/
theorem C82_binary (E : Env) (O : Opts) (info : Varinfo) (hm : info.Made E)
    (ht : info.type = .binary) (h8 : info.bit_len % 8 = 0) (w : List Byte)
    (hw : w.length = info.bit_len / 8) (i : Input) (rest : List Bool) (hi : i.WF)
    (hrem : i.rem = bytesBits w ++ rest) (hrest : 8 ≤ rest.length) :
    ∃ v i', i.decode_binary O (Var.new info) = .ok (v, i') ∧ i'.WF ∧ i'.rem = rest ∧
      v.info = info ∧ v.attrs = [] ∧
      ((∀ b ∈ w, b = 0xff) → v = Var.new info) ∧
      (∀ b ∈ w, b ≠ 0xff → v.toVarCore.view = some (.bits w)) := by
  have hlen := hm.2.2.2 ht
  have hf : binField info.bit_len w = bytesBits w := by
    unfold binField
    rw [h8, List.take_of_length_le (by omega)]
    simp [Spec.bits]
  by_cases ha : ∀ b ∈ w, b = 0xff
  · obtain ⟨i', g1, g2, g3, -⟩ := Input.getBytes_field hi (w := w) (width := info.bit_len)
      (by omega) (by rw [List.getD, List.getElem?_eq_none (by omega)]; simp)
      (by rw [hf]; exact hrem) hrest
    refine ⟨Var.new info, i', ?_, g2, g3, rfl, rfl, fun _ => rfl, fun b hb h => absurd (ha b hb) h⟩
    unfold Input.decode_binary
    simp only [show (Var.new info).info.bit_len = info.bit_len from rfl, g1, Res.ok_bind]
    rw [if_pos (by rw [List.all_eq_true]; intro b hb; simpa using ha b hb)]
    rfl
  · have hd : Input.declared info.bit_len w = w := by
      unfold Input.declared Input.chunks
      rw [if_pos h8, List.append_nil, List.take_of_length_le (by omega)]
    obtain ⟨v, i', g1, g2, g3, -, g5, g6, g7, g8⟩ := Input.decode_binary_ok (O := O) hi
      (dest := Var.new info) (WF_new _) ht hlen (w := w) (rest := rest)
      (by show info.len ≤ _; omega) (by
        push Not at ha
        obtain ⟨b, hb, hne⟩ := ha
        obtain ⟨k, hk, rfl⟩ := List.getElem_of_mem hb
        by_contra hc
        push Not at hc
        apply hne
        apply UInt8.toNat_inj.mp
        apply Nat.eq_of_testBit_eq
        intro j
        by_cases hj : j < 8
        · have := hc k j hj (Or.inl (by show _ ≤ info.bit_len; omega))
          rw [List.getD, List.getElem?_eq_getElem hk, Option.getD_some] at this
          rw [Bool.eq_true_of_not_eq_false this]
          symm
          clear this
          interval_cases j <;> decide
        · have h1 : ∀ x : Byte, x.toNat.testBit j = false := fun x =>
            Nat.testBit_lt_two_pow (lt_of_lt_of_le x.toNat_lt
              (Nat.pow_le_pow_right (n := 2) (by omega) (by omega)))
          rw [h1, h1]) (by show i.rem = binField info.bit_len w ++ rest; rw [hf]; exact hrem) hrest
    refine ⟨v, i', g1, g2, g3, g5, g6, fun h => absurd h ha, fun _ _ _ => ?_⟩
    rw [g8]
    show some (Value.bits (Input.declared info.bit_len w)) = _
    rw [hd]

/-- A binary value of two bytes. -/
def sampleBin16 : Varinfo := made (Varinfo.raw (WR_VAR 0 63 2) .binary (ascii "UNKNOWN") 0 2 0 16)

example : sampleBin16.Made Env0 ∧ sampleBin16.type = .binary ∧ sampleBin16.bit_len % 8 = 0 ∧
    ([0xff, 0] : List Byte).length = sampleBin16.bit_len / 8 ∧
    (0 : Byte) ∈ ([0xff, 0] : List Byte) ∧ (0 : Byte) ≠ 0xff :=
  ⟨⟨⟨Varinfo.raw (WR_VAR 0 63 2) .binary (ascii "UNKNOWN") 0 2 0 16, rfl⟩, rfl, nofun, fun _ => rfl⟩,
    rfl, rfl, rfl, by decide, by decide⟩

end Wreport
