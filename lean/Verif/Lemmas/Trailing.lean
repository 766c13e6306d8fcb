import Verif.Lemmas.HeaderDec
import Verif.Lemmas.Local
import Verif.Model.Message

/-!
# What decoding a message does not look at

Reading inside some data gives the same in longer data that begins with it.
-/

namespace Wreport

namespace BufrDec

variable {d e : List Byte}

theorem byteAt_grows (h : d <+: e) {pos : Nat} (hl : pos < d.length) :
    Input.byteAt e pos = Input.byteAt d pos := (Input.byteAt_prefix h hl).symm

theorem read_number_loop_grows (h : d <+: e) (n : Nat) : ∀ pos res, pos + n ≤ d.length →
    read_number_loop e pos n res = read_number_loop d pos n res := by
  induction n with
  | zero => exact fun _ _ _ => rfl
  | succ n ih =>
    intro pos res hl
    unfold read_number_loop
    rw [byteAt_grows h (by omega)]
    congr 1
    funext b
    exact ih _ _ (by omega)

theorem read_number_grows (h : d <+: e) {pos n : Nat} (hl : pos + n ≤ d.length) :
    read_number e pos n = read_number d pos n := read_number_loop_grows h n pos 0 hl

theorem read_byte_grows (h : d <+: e) {pos : Nat} (hl : pos < d.length) :
    read_byte e pos = read_byte d pos := by
  unfold read_byte
  rw [byteAt_grows h hl]

theorem read_short_grows (h : d <+: e) {pos : Nat} (hl : pos + 2 ≤ d.length) :
    read_short e pos = read_short d pos := by
  unfold read_short
  rw [read_number_grows h hl]

theorem read_bytes_grows (h : d <+: e) (n : Nat) : ∀ pos, pos + n ≤ d.length →
    read_bytes e pos n = read_bytes d pos n := by
  induction n with
  | zero => exact fun _ _ => rfl
  | succ n ih =>
    intro pos hl
    unfold read_bytes
    rw [read_byte_grows h (by omega), ih _ (by omega)]

theorem read_descriptors_grows (h : d <+: e) (n : Nat) : ∀ pos, pos + 2 * n ≤ d.length →
    read_descriptors e pos n = read_descriptors d pos n := by
  induction n with
  | zero => exact fun _ _ => rfl
  | succ n ih =>
    intro pos hl
    unfold read_descriptors
    rw [read_number_grows h (by omega), ih _ (by omega)]

theorem check_ok {a b c : Nat} {u : Unit} (h : check a b c = .ok u) : a + b ≤ c := by
  unfold check at h
  split at h
  · cases h
  · omega

theorem check_of_le {a b c : Nat} (h : a + b ≤ c) : check a b c = .ok () := by
  unfold check
  rw [if_neg (by omega)]

theorem scan_section_length_grows (h : d <+: e) {s r : Nat} (hr : scan_section_length d s = .ok r) :
    scan_section_length e s = .ok r ∧ r ≤ d.length ∧ s ≤ r := by
  have hle := h.length_le
  unfold scan_section_length at hr ⊢
  obtain ⟨u, h1, hr⟩ := Res.bind_eq_ok.mp hr
  have c1 := check_ok h1
  obtain ⟨n, h2, hr⟩ := Res.bind_eq_ok.mp hr
  obtain ⟨u, h3, hr⟩ := Res.bind_eq_ok.mp hr
  have c2 := check_ok h3
  cases hr
  rw [check_of_le (by omega), Res.ok_bind, read_number_grows h c1, h2, Res.ok_bind,
    check_of_le (by omega)]
  exact ⟨rfl, c2, by omega⟩

theorem scan_other_sections_grows (h : d <+: e) {s1 s2 : Nat} {o : Bool} {s : Secs}
    (hs : s2 ≤ d.length) (hr : scan_other_sections d s1 s2 o = .ok s) :
    scan_other_sections e s1 s2 o = .ok s ∧ s.s2 = s2 ∧ s.s3 ≤ d.length ∧ s.s4 ≤ d.length ∧
      s.s5 ≤ d.length ∧ s.s2 ≤ s.s3 ∧ s.s3 ≤ s.s4 ∧ s.s4 ≤ s.s5 := by
  unfold scan_other_sections at hr ⊢
  obtain ⟨s3, h1, hr⟩ := Res.bind_eq_ok.mp hr
  obtain ⟨s4, h2, hr⟩ := Res.bind_eq_ok.mp hr
  obtain ⟨s5, h3, hr⟩ := Res.bind_eq_ok.mp hr
  cases hr
  have g1 : scan_optional e s2 o = .ok s3 ∧ s3 ≤ d.length ∧ s2 ≤ s3 := by
    unfold scan_optional at h1 ⊢
    split at h1
    · next ho =>
      rw [if_pos ho]
      exact scan_section_length_grows h h1
    · next ho =>
      rw [if_neg ho]
      cases h1
      exact ⟨rfl, hs, le_rfl⟩
  obtain ⟨a2, b2, c2⟩ := scan_section_length_grows h h2
  obtain ⟨a3, b3, c3⟩ := scan_section_length_grows h h3
  rw [g1.1, Res.ok_bind, a2, Res.ok_bind, a3, Res.ok_bind]
  exact ⟨rfl, rfl, g1.2.1, b2, b3, g1.2.2, c2, c3⟩

/-- The sections found are inside the data, in order. -/
def Secs.Inside (s : Secs) (n : Nat) : Prop :=
  s.s2 ≤ s.s3 ∧ s.s3 ≤ s.s4 ∧ s.s4 ≤ s.s5 ∧ s.s5 ≤ n

theorem decode_sec1_grows (h : d <+: e) {ed : UInt8} {s2 : Nat} {r : Header × Secs × Nat}
    (hl : 8 + (if ed = 4 then 22 else 18) ≤ d.length) (hs : s2 ≤ d.length)
    (hr : decode_sec1 d ed 8 s2 = .ok r) :
    decode_sec1 e ed 8 s2 = .ok r ∧ r.2.1.Inside d.length := by
  unfold decode_sec1 at hr ⊢
  split at hr
  · next h4 =>
    rw [if_pos h4] at hl ⊢
    unfold decode_sec1ed4 at hr ⊢
    obtain ⟨x1, y1, hr⟩ := Res.bind_eq_ok.mp hr
    obtain ⟨x2, y2, hr⟩ := Res.bind_eq_ok.mp hr
    obtain ⟨x3, y3, hr⟩ := Res.bind_eq_ok.mp hr
    obtain ⟨x4, y4, hr⟩ := Res.bind_eq_ok.mp hr
    obtain ⟨x5, y5, hr⟩ := Res.bind_eq_ok.mp hr
    obtain ⟨s, hsc, hr⟩ := Res.bind_eq_ok.mp hr
    obtain ⟨g1, g2, g3, g4, g5, g6, g7, g8⟩ := scan_other_sections_grows h hs hsc
    rw [read_byte_grows h (by omega), y1, Res.ok_bind, read_short_grows h (by omega), y2, Res.ok_bind,
      read_short_grows h (by omega), y3, Res.ok_bind, read_byte_grows h (by omega), y4, Res.ok_bind,
      read_byte_grows h (by omega), y5, Res.ok_bind, g1, Res.ok_bind]
    simp only [read_byte_grows h (show 8 + 10 < d.length by omega),
      read_byte_grows h (show 8 + 11 < d.length by omega),
      read_byte_grows h (show 8 + 12 < d.length by omega),
      read_byte_grows h (show 8 + 13 < d.length by omega),
      read_byte_grows h (show 8 + 14 < d.length by omega),
      read_short_grows h (show 8 + 15 + 2 ≤ d.length by omega),
      read_byte_grows h (show 8 + 17 < d.length by omega),
      read_byte_grows h (show 8 + 18 < d.length by omega),
      read_byte_grows h (show 8 + 19 < d.length by omega),
      read_byte_grows h (show 8 + 20 < d.length by omega),
      read_byte_grows h (show 8 + 21 < d.length by omega)]
    refine ⟨hr, ?_⟩
    have : r.2.1 = s := by
      simp only [Res.bind_eq_ok] at hr
      obtain ⟨_, -, _, -, _, -, _, -, _, -, _, -, _, -, _, -, _, -, _, -, _, -, _, -, hr⟩ := hr
      cases hr
      rfl
    rw [this]
    exact ⟨g6, g7, g8, g5⟩
  · next h4 =>
    rw [if_neg h4] at hl ⊢
    unfold decode_sec1ed3 at hr ⊢
    obtain ⟨x1, y1, hr⟩ := Res.bind_eq_ok.mp hr
    obtain ⟨x2, y2, hr⟩ := Res.bind_eq_ok.mp hr
    obtain ⟨s, hsc, hr⟩ := Res.bind_eq_ok.mp hr
    obtain ⟨g1, g2, g3, g4, g5, g6, g7, g8⟩ := scan_other_sections_grows h hs hsc
    rw [read_byte_grows h (by omega), y1, Res.ok_bind, read_byte_grows h (by omega), y2, Res.ok_bind,
      g1, Res.ok_bind]
    simp only [read_byte_grows h (show 8 + 4 < d.length by omega),
      read_byte_grows h (show 8 + 5 < d.length by omega),
      read_byte_grows h (show 8 + 6 < d.length by omega),
      read_byte_grows h (show 8 + 8 < d.length by omega),
      read_byte_grows h (show 8 + 9 < d.length by omega),
      read_byte_grows h (show 8 + 10 < d.length by omega),
      read_byte_grows h (show 8 + 11 < d.length by omega),
      read_byte_grows h (show 8 + 12 < d.length by omega),
      read_byte_grows h (show 8 + 13 < d.length by omega),
      read_byte_grows h (show 8 + 14 < d.length by omega),
      read_byte_grows h (show 8 + 15 < d.length by omega),
      read_byte_grows h (show 8 + 16 < d.length by omega)]
    refine ⟨hr, ?_⟩
    have : r.2.1 = s := by
      simp only [Res.bind_eq_ok] at hr
      obtain ⟨_, -, _, -, _, -, _, -, _, -, _, -, _, -, _, -, _, -, _, -, _, -, _, -, hr⟩ := hr
      cases hr
      rfl
    rw [this]
    exact ⟨g6, g7, g8, g5⟩

theorem decode_sec2_grows (h : d <+: e) {s : Secs} (hs : s.Inside d.length) {ol : Nat} {r : List Byte}
    (hr : decode_sec2 d s ol = .ok r) : decode_sec2 e s ol = .ok r := by
  obtain ⟨a1, a2, a3, a4⟩ := hs
  unfold decode_sec2 at hr ⊢
  split at hr
  · next h0 => rwa [if_pos h0]
  · next h0 =>
    rw [if_neg h0]
    obtain ⟨u, h1, hr⟩ := Res.bind_eq_ok.mp hr
    have c1 := check_ok h1
    obtain ⟨n, h2, hr⟩ := Res.bind_eq_ok.mp hr
    obtain ⟨u, h3, hr⟩ := Res.bind_eq_ok.mp hr
    have c2 := check_ok h3
    rw [h1, Res.ok_bind, read_number_grows h (by omega), h2, Res.ok_bind, h3, Res.ok_bind]
    split at hr
    · cases hr
    · next h4 =>
      rw [if_neg h4, read_bytes_grows h _ _ (by omega)]
      exact hr

theorem decode_sec3_grows (h : d <+: e) {s : Secs} (hs : s.Inside d.length)
    {r : Nat × Bool × List Varcode} (hr : decode_sec3 d s = .ok r) : decode_sec3 e s = .ok r := by
  obtain ⟨a1, a2, a3, a4⟩ := hs
  unfold decode_sec3 at hr ⊢
  split at hr
  · cases hr
  · next h0 =>
    rw [if_neg h0]
    obtain ⟨u, h1, hr⟩ := Res.bind_eq_ok.mp hr
    have c1 := check_ok h1
    rw [h1, Res.ok_bind, read_number_grows h (by omega), read_byte_grows h (by omega),
      read_descriptors_grows h _ _ (by omega)]
    exact hr

/-- The header is read the same from longer data. -/
theorem decode_header_grows (h : d <+: e) {r : Head} (hr : decode_header d = .ok r) :
    decode_header e = .ok r ∧ r.secs.Inside d.length := by
  have hle := h.length_le
  unfold decode_header at hr ⊢
  obtain ⟨u, h1, hr⟩ := Res.bind_eq_ok.mp hr
  have c1 := check_ok h1
  obtain ⟨sig, h2, hr⟩ := Res.bind_eq_ok.mp hr
  rw [check_of_le (by omega), Res.ok_bind, read_bytes_grows h _ _ (by omega), h2, Res.ok_bind]
  split at hr
  · cases hr
  · next h3 =>
    rw [if_neg h3]
    obtain ⟨ed, h4, hr⟩ := Res.bind_eq_ok.mp hr
    rw [read_byte_grows h (by omega), h4, Res.ok_bind]
    split at hr
    · cases hr
    · next h5 =>
      rw [if_neg h5]
      unfold decode_sections at hr ⊢
      obtain ⟨s2, g1, hr⟩ := Res.bind_eq_ok.mp hr
      obtain ⟨u, g2, hr⟩ := Res.bind_eq_ok.mp hr
      obtain ⟨t, g3, hr⟩ := Res.bind_eq_ok.mp hr
      obtain ⟨o, g4, hr⟩ := Res.bind_eq_ok.mp hr
      obtain ⟨w, g5, hr⟩ := Res.bind_eq_ok.mp hr
      obtain ⟨k1, k2, -⟩ := scan_section_length_grows h g1
      have c2 := check_ok g2
      obtain ⟨k3, k4⟩ := decode_sec1_grows h c2 k2 g3
      rw [k1, Res.ok_bind, check_of_le (c2.trans hle), Res.ok_bind, k3, Res.ok_bind,
        decode_sec2_grows h k4 g4, Res.ok_bind, decode_sec3_grows h k4 g5, Res.ok_bind]
      cases hr
      exact ⟨rfl, k4⟩

theorem decode_end_grows (h : d <+: e) {s : Secs} {r : List Nat} (hr : decode_end d s = .ok r) :
    decode_end e s = .ok r ∧ s.s5 + 4 ≤ d.length := by
  have hle := h.length_le
  unfold decode_end at hr ⊢
  obtain ⟨u, h1, hr⟩ := Res.bind_eq_ok.mp hr
  have c1 := check_ok h1
  rw [check_of_le (by omega), Res.ok_bind, read_bytes_grows h _ _ (by omega)]
  exact ⟨hr, c1⟩

end BufrDec

/-- Decoding the data depends only on what it reads. -/
theorem decodeBody_local (add_undef : Bool) (depth : Nat) (t : Ctx × TableCaches)
    (hd : BufrDec.Head) (n : Nat) : Input.Local (decodeBody add_undef depth t hd n) := by
  unfold decodeBody
  refine .ite ?_ ?_
  · have := Input.Local.bind (g := fun a j => Res.ok (a.1, j))
      (CDecoder.decodeSubsets_local t.1 add_undef depth hd.header.datadesc n t.2) fun a => .pure _
    simpa only [Res.bind_assoc, Res.ok_bind, Res.pure_def] using this
  · have := Input.Local.bind (g := fun a j => Res.ok (a.1, j))
      (Decoder.decodeSubsets_local t.1 add_undef depth hd.header.datadesc n t.2) fun a => .pure _
    simpa only [Res.bind_assoc, Res.ok_bind, Res.pure_def] using this

end Wreport
