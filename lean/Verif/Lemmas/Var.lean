import Verif.Lemmas.Decimal

namespace Wreport

open Spec

/-! ## Memory -/

theorem cstr_c_str (s : List Byte) (m : Mem) (h : NulFree s) : cstr (c_str s ++ m) = .ok s := by
  induction s with
  | nil => simp [c_str, toMem, cstr]
  | cons b s ih =>
    have hb : b ≠ 0 := h b (by simp)
    have := ih (fun x hx => h x (List.mem_cons_of_mem _ hx))
    simp only [c_str, toMem, List.cons_append, List.map_cons] at this ⊢
    rw [cstr, if_neg hb, this]
    rfl

theorem cstr_eq_ok {m : Mem} {s : List Byte} (h : cstr m = .ok s) :
    NulFree s ∧ ∃ r, m = c_str s ++ r := by
  induction m generalizing s with
  | nil => simp [cstr] at h
  | cons x m ih =>
    cases x with
    | none => simp [cstr] at h
    | some b =>
      rw [cstr] at h
      split at h
      · next hb =>
        simp only [Res.ok.injEq] at h
        subst h hb
        exact ⟨by simp [NulFree], m, by simp [c_str, toMem]⟩
      · next hb =>
        obtain ⟨t, h1, h2⟩ := Res.bind_eq_ok.mp h
        simp only [Res.pure_def, Res.ok.injEq] at h2
        subst h2
        obtain ⟨h3, r, h4⟩ := ih h1
        refine ⟨?_, r, ?_⟩
        · intro y hy
          rcases List.mem_cons.mp hy with rfl | hy
          · exact hb
          · exact h3 y hy
        · rw [h4]; simp [c_str, toMem]

theorem cstr_length {m : Mem} {s : List Byte} (h : cstr m = .ok s) : s.length < m.length := by
  obtain ⟨-, r, rfl⟩ := cstr_eq_ok h
  simp [c_str, toMem]

/-- `strncpy` of a terminated string. -/
theorem strncpy_c_str (s : List Byte) (r : Mem) (n : Nat) (h : NulFree s) :
    strncpy (c_str s ++ r) n = .ok (s.take n ++ List.replicate (n - s.length) 0) := by
  induction s generalizing n with
  | nil =>
    cases n with
    | zero => simp [strncpy, c_str, toMem]
    | succ n => simp [strncpy, c_str, toMem]
  | cons b s ih =>
    have hb : b ≠ 0 := h b (by simp)
    cases n with
    | zero => simp [strncpy]
    | succ n =>
      have := ih n (fun x hx => h x (List.mem_cons_of_mem _ hx))
      simp only [c_str, toMem, List.cons_append, List.map_cons] at this ⊢
      rw [strncpy, if_neg hb, this]
      simp

theorem strncpy_length {m : Mem} {n : Nat} {w : List Byte} (h : strncpy m n = .ok w) :
    w.length = n := by
  induction m generalizing n w with
  | nil => cases n <;> simp [strncpy] at h; subst h; rfl
  | cons x m ih =>
    cases n with
    | zero => simp [strncpy] at h; subst h; rfl
    | succ n =>
      cases x with
      | none => simp [strncpy] at h
      | some b =>
        rw [strncpy] at h
        split at h
        · simp only [Res.ok.injEq] at h; subst h; simp
        · obtain ⟨t, h1, h2⟩ := Res.bind_eq_ok.mp h
          simp only [Res.pure_def, Res.ok.injEq] at h2
          subst h2
          simp [ih h1]

theorem memWrite_ok {dst w m : Mem} (h : memWrite dst w = .ok m) :
    m = w ++ dst.drop w.length ∧ m.length = dst.length ∧ w.length ≤ dst.length := by
  unfold memWrite at h
  split at h
  · simp only [Res.ok.injEq] at h
    subst h
    refine ⟨rfl, ?_, by assumption⟩
    simp; omega
  · cases h

theorem memWrite_of_le {dst w : Mem} (h : w.length ≤ dst.length) :
    memWrite dst w = .ok (w ++ dst.drop w.length) := by
  unfold memWrite; rw [if_pos h]

theorem memRead_of_le {src : Mem} {n : Nat} (h : n ≤ src.length) :
    memRead src n = .ok (src.take n) := by unfold memRead; rw [if_pos h]

theorem memRead_ok {src w : Mem} {n : Nat} (h : memRead src n = .ok w) :
    w = src.take n ∧ n ≤ src.length := by
  unfold memRead at h
  split at h
  · exact ⟨by simpa using h.symm, by assumption⟩
  · cases h

/-- A NUL-terminated buffer starting with bytes reads as the text before the
first NUL. -/
theorem cstr_toMem (w : List Byte) (r : Mem) :
    cstr (toMem w ++ (some 0 :: r)) = .ok (w.takeWhile (· ≠ 0)) := by
  induction w with
  | nil => simp [toMem, cstr]
  | cons b w ih =>
    simp only [toMem, List.map_cons, List.cons_append] at ih ⊢
    rw [cstr]
    by_cases hb : b = 0
    · simp [hb]
    · rw [if_neg hb, ih]
      simp [hb]

theorem takeWhile_nulFree {s : List Byte} (h : NulFree s) : s.takeWhile (· ≠ 0) = s := by
  have := List.takeWhile_append_of_pos (p := fun x : Byte => decide (x ≠ 0)) (l₁ := s) (l₂ := [])
    (by intro b hb; simpa using h b hb)
  simpa using this

theorem nulFree_takeWhile (s : List Byte) : NulFree (s.takeWhile (· ≠ 0)) := by
  intro b hb
  have := List.all_takeWhile (p := fun x : Byte => decide (x ≠ 0)) (l := s)
  rw [List.all_eq_true] at this
  simpa using this b hb

theorem nulFree_take {s : List Byte} (h : NulFree s) (n : Nat) : NulFree (s.take n) :=
  fun b hb => h b (List.mem_of_mem_take hb)

theorem takeWhile_append_replicate {s : List Byte} (h : NulFree s) (k : Nat) :
    (s ++ List.replicate k 0).takeWhile (· ≠ 0) = s := by
  rw [List.takeWhile_append_of_pos (by intro b hb; simpa using h b hb)]
  cases k <;> simp [List.replicate]

/-! ## Setters of text and bytes -/

/-- A buffer that can be written is available. -/
theorem WF_allocate {v : VarCore} (h : v.WF) (ht : v.info.type = .string ∨ v.info.type = .binary) :
    ∃ m, v.allocate = .ok m ∧ m.length = v.info.len + 1 := by
  unfold VarCore.WF at h
  unfold VarCore.allocate
  rcases ht with ht | ht <;> rw [ht] at h <;> simp only at h <;>
    rcases h with ⟨-, h⟩ | ⟨m, h, hl, -⟩ <;> rw [h] <;> simp [*]

/-- Setting a string from terminated memory. -/
theorem assign_c_ok {v : Var} (h : v.toVarCore.WF) (ht : v.info.type = .string) (s : List Byte)
    (r : Mem) (hs : NulFree s) (size : Nat) :
    ∃ m, v.assign_c_checked (c_str s ++ r) size = (v.putMem m, .ok ()) ∧
      m.length = v.info.len + 1 ∧ cstr m = .ok (s.take (min size v.info.len)) := by
  obtain ⟨m0, h1, h2⟩ := WF_allocate h (Or.inl ht)
  have hn : (if size < v.info.len then size else v.info.len) = min size v.info.len := by
    split <;> omega
  unfold Var.assign_c_checked
  rw [h1, hn]
  simp only [Res.ok_bind]
  rw [strncpy_c_str s r _ hs]
  simp only [Res.ok_bind]
  set n := min size v.info.len with hnn
  set w := s.take n ++ List.replicate (n - s.length) 0 with hw
  have hwl : w.length = n := by simp [hw]; omega
  have hle : (toMem w ++ [some 0]).length ≤ m0.length := by
    simp [toMem, hwl]; omega
  rw [memWrite_of_le hle]
  refine ⟨_, rfl, ?_, ?_⟩
  · rw [← h2]; simp; simp at hle; omega
  · rw [List.append_assoc, List.singleton_append, cstr_toMem, hw,
      takeWhile_append_replicate (nulFree_take hs n)]

theorem Var.WF_putMem_string {v : Var} {m : Mem} (ht : v.info.type = .string)
    (hl : m.length = v.info.len + 1) {s : List Byte} (hs : cstr m = .ok s) :
    (v.putMem m).toVarCore.WF := by
  unfold VarCore.WF Var.putMem
  simp only [ht]
  right
  exact ⟨m, rfl, hl, fun _ => ⟨s, hs⟩⟩

theorem Var.view_putMem_string {v : Var} {m : Mem} (ht : v.info.type = .string)
    {s : List Byte} (hs : cstr m = .ok s) :
    (v.putMem m).toVarCore.view = some (.text s) := by
  unfold VarCore.view Var.putMem
  simp [ht, hs]

/-! ## Values of numeric variables -/

theorem WF_num {v : VarCore} (h : v.info.IsNum) : v.WF ↔ ∃ i, v.cell = .word i ∧ inInt i = true := by
  unfold VarCore.WF
  rcases h with h | h <;> rw [h]

theorem view_num {v : VarCore} (h : v.info.IsNum) {i : Int} (hc : v.cell = .word i)
    (hs : v.isset = true) : v.view = some (.num i) := by
  unfold VarCore.view
  rcases h with h | h <;> simp [h, hc, hs]

theorem enqi_num {v : VarCore} (h : v.info.IsNum) {i : Int} (hc : v.cell = .word i)
    (hs : v.isset = true) : v.enqi = .ok i := by
  unfold VarCore.enqi
  rcases h with h | h <;> simp [h, hc, hs]

theorem enqi_putInt {v : Var} (h : v.info.IsNum) (i : Int) : (v.putInt i).enqi = .ok i :=
  enqi_num (v := (v.putInt i).toVarCore) h rfl rfl

theorem enqs_num {E : Env} {v : VarCore} (h : v.info.IsNum) {i : Int} (hc : v.cell = .word i)
    (hs : v.isset = true) : v.enqs E = int32_to_stdstr E i := by
  unfold VarCore.enqs
  rcases h with h | h <;> simp [h, hc, hs]

theorem enqd_num {E : Env} {v : VarCore} (h : v.info.IsNum) {i : Int} (hc : v.cell = .word i)
    (hs : v.isset = true) :
    v.enqd E = if v.info.type = .integer then .ok (i : ℚ) else v.info.decode_decimal E i := by
  unfold VarCore.enqd
  rcases h with h | h <;> simp [h, hc, hs]

/-! ## Descriptors as made by the library -/

theorem Varinfo.Made.range {E : Env} {info : Varinfo} (h : info.Made E) (hn : info.IsNum) :
    info.decode_decimal E info.imin = .ok info.dmin ∧
      info.decode_decimal E info.imax = .ok info.dmax ∧
      info.intRange E = .ok (info.imin, info.imax) := by
  obtain ⟨⟨raw, hr⟩, -⟩ := h
  have hraw : raw.type = .integer ∨ raw.type = .decimal := by
    unfold Varinfo.compute_range at hr
    cases ht : raw.type with
    | integer => exact Or.inl rfl
    | decimal => exact Or.inr rfl
    | string =>
      simp only [ht, Res.ok.injEq] at hr
      unfold Varinfo.IsNum at hn
      rw [← hr] at hn; simp at hn
    | binary =>
      simp only [ht, Res.ok.injEq] at hr
      unfold Varinfo.IsNum at hn
      rw [← hr] at hn; simp at hn
  obtain ⟨h1, h2, h3, h4⟩ := compute_range_num hraw hr
  have e1 : info.decode_decimal E = raw.decode_decimal E := by rw [h4]; rfl
  have e2 : info.intRange E = raw.intRange E := by rw [h4]; rfl
  rw [e1, e2]
  exact ⟨h2, h3, h1⟩

theorem wrapInt_in (i : Int) : inInt (wrapInt i) = true := by
  rw [inInt_iff]; unfold wrapInt; omega

theorem wrapInt_eq {i : Int} (h : inInt i = true) : wrapInt i = i := by
  rw [inInt_iff] at h; unfold wrapInt; omega

/-- The limits are 32-bit integers. -/
theorem intRange_in {E : Env} {info : Varinfo} {lo hi : Int} (hr : inInt info.bit_ref = true)
    (h : info.intRange E = .ok (lo, hi)) : inInt lo = true ∧ inInt hi = true := by
  unfold Varinfo.intRange at h
  split at h
  · simp only [Res.ok.injEq, Prod.mk.injEq] at h
    obtain ⟨rfl, rfl⟩ := h
    decide
  · split at h
    · obtain ⟨p, hp, h⟩ := Res.bind_eq_ok.mp h
      obtain ⟨hp1, hp2, -⟩ := intexp10_eq hp
      simp only [Res.pure_def, Res.ok.injEq, Prod.mk.injEq] at h
      obtain ⟨rfl, rfl⟩ := h
      rw [inInt_iff, inInt_iff]; omega
    · obtain ⟨bm2, hb2, h⟩ := Res.bind_eq_ok.mp h
      unfold Varinfo.bitMax at hb2
      obtain ⟨one, ho, hb2⟩ := Res.bind_eq_ok.mp hb2
      obtain ⟨bm, hbm, hbm2⟩ := Res.bind_eq_ok.mp hb2
      obtain ⟨p, hp, h⟩ := Res.bind_eq_ok.mp h
      obtain ⟨hp1, hp2, -⟩ := intexp10_eq hp
      simp only [Res.pure_def, Res.ok.injEq, Prod.mk.injEq] at h
      obtain ⟨rfl, rfl⟩ := h
      have sint_in' : ∀ {a b : Int}, E.sint a = .ok b → inInt b = true := by
        intro a b h
        unfold Env.sint at h
        split at h
        · simp only [Res.ok.injEq] at h; subst h; assumption
        · split at h
          · simp only [Res.ok.injEq] at h; subst h; exact wrapInt_in _
          · cases h
      have hb1 := sint_in' hbm
      have hb2 : inInt bm2 = true := by
        split at hbm2
        · exact sint_in' hbm2
        · simp only [Res.ok.injEq] at hbm2; subst hbm2; exact hb1
      rw [inInt_iff] at *
      rw [inInt_iff]
      omega

theorem Varinfo.Made.limits {E : Env} {info : Varinfo} (h : info.Made E) (hn : info.IsNum) :
    inInt info.imin = true ∧ inInt info.imax = true :=
  intRange_in h.2.1 (h.range hn).2.2

/-! ## Rounding is monotone -/

theorem rint_mono {a b : ℚ} (h : a ≤ b) : rint a ≤ rint b := by
  by_contra hc
  push Not at hc
  have h1 := abs_le.mp (rint_near a)
  have h2 := abs_le.mp (rint_near b)
  have hc' : (rint b : ℚ) + 1 ≤ rint a := by exact_mod_cast hc
  -- both are at distance exactly one half from the common value
  have hab : a = b := by linarith
  subst hab
  omega

/-- A number between the limits is encoded as an integer between the limits. -/
theorem encode_decimal_between {E : Env} (hE : IsRounding E.fl) {info : Varinfo} {lo hi : Int}
    {dlo dhi q : ℚ} (hlo : inInt lo = true) (hhi : inInt hi = true)
    (h1 : info.decode_decimal E lo = .ok dlo) (h2 : info.decode_decimal E hi = .ok dhi)
    (hq1 : dlo ≤ q) (hq2 : q ≤ dhi) :
    ∃ i, info.encode_decimal E (.fin q) = .ok i ∧ lo ≤ i ∧ i ≤ hi := by
  have hsc := decode_decimal_scale h1
  obtain ⟨p1, n1, z1⟩ := scale_back E hE info lo dlo h1
  obtain ⟨p2, n2, z2⟩ := scale_back E hE info hi dhi h2
  have hL := abs_int_le hlo
  have hH := abs_int_le hhi
  rw [inInt_iff] at hlo hhi
  unfold Varinfo.encode_decimal
  simp only
  split
  · next hs =>
    rw [scales_ok (by omega)]
    simp only [Res.ok_bind]
    have e1 := rint_eq_of_near _ lo (IsRounding.near_of_err _ _ hL (p1 hs))
    have e2 := rint_eq_of_near _ hi (IsRounding.near_of_err _ _ hH (p2 hs))
    have hp := pow10_pos info.scale.toNat
    have m1 : lo ≤ rint (E.fl (q * 10 ^ info.scale.toNat)) := by
      rw [← e1]
      exact rint_mono (hE.mono _ _ (by gcongr))
    have m2 : rint (E.fl (q * 10 ^ info.scale.toNat)) ≤ hi := by
      rw [← e2]
      exact rint_mono (hE.mono _ _ (by gcongr))
    refine ⟨_, ?_, m1, m2⟩
    unfold dblToInt
    rw [if_pos (by rw [inInt_iff]; omega)]
  · split
    · next hs =>
      rw [scales_ok (by omega)]
      simp only [Res.ok_bind]
      have e1 := rint_eq_of_near _ lo (IsRounding.near_of_err _ _ hL (n1 hs))
      have e2 := rint_eq_of_near _ hi (IsRounding.near_of_err _ _ hH (n2 hs))
      have hp := pow10_pos (-info.scale).toNat
      have m1 : lo ≤ rint (E.fl (q / 10 ^ (-info.scale).toNat)) := by
        rw [← e1]
        exact rint_mono (hE.mono _ _ (by gcongr))
      have m2 : rint (E.fl (q / 10 ^ (-info.scale).toNat)) ≤ hi := by
        rw [← e2]
        exact rint_mono (hE.mono _ _ (by gcongr))
      refine ⟨_, ?_, m1, m2⟩
      unfold dblToInt
      rw [if_pos (by rw [inInt_iff]; omega)]
    · next hs1 hs2 =>
      rw [z1 (by omega)] at hq1
      rw [z2 (by omega)] at hq2
      have m1 : lo ≤ rint q := by rw [← rint_intCast lo]; exact rint_mono hq1
      have m2 : rint q ≤ hi := by rw [← rint_intCast hi]; exact rint_mono hq2
      refine ⟨_, ?_, m1, m2⟩
      unfold dblToInt
      rw [if_pos (by rw [inInt_iff]; omega)]

/-- The integer stored for a number is the nearest one to the scaled number, up
to the rounding of one multiplication or division. -/
theorem encode_decimal_near {E : Env} (hE : IsRounding E.fl) {info : Varinfo} {q : ℚ} {i : Int}
    (h : info.encode_decimal E (.fin q) = .ok i) :
    |q * (10 : ℚ) ^ info.scale - i| ≤ 1 / 2 + |q * (10 : ℚ) ^ info.scale| / 2 ^ 53 := by
  unfold Varinfo.encode_decimal at h
  simp only at h
  have fin : ∀ (w x : ℚ), |w - x| ≤ |x| / 2 ^ 53 → dblToInt (rint w) = .ok i →
      |x - i| ≤ 1 / 2 + |x| / 2 ^ 53 := by
    intro w x hw hi
    unfold dblToInt at hi
    split at hi
    · simp only [Res.ok.injEq] at hi
      have h1 := rint_near w
      rw [hi] at h1
      calc |x - i| = |(w - i) + -(w - x)| := by ring_nf
        _ ≤ |w - i| + |-(w - x)| := abs_add_le _ _
        _ ≤ 1 / 2 + |x| / 2 ^ 53 := by rw [abs_neg]; gcongr
    · cases hi
  split at h
  · next hs =>
    obtain ⟨s, h1, h2⟩ := Res.bind_eq_ok.mp h
    obtain ⟨-, rfl⟩ := scales_eq_ok h1
    have e : (10 : ℚ) ^ info.scale = 10 ^ info.scale.toNat := by
      conv => lhs; rw [← Int.toNat_of_nonneg hs.le]
      rfl
    rw [e]
    exact fin _ _ (hE.err _) h2
  · split at h
    · next hs =>
      obtain ⟨s, h1, h2⟩ := Res.bind_eq_ok.mp h
      obtain ⟨-, rfl⟩ := scales_eq_ok h1
      have e : (10 : ℚ) ^ info.scale = (10 ^ (-info.scale).toNat)⁻¹ := by
        have : info.scale = -((-info.scale).toNat : Int) := by omega
        conv => lhs; rw [this]
        rw [zpow_neg, zpow_natCast]
      rw [e, ← div_eq_mul_inv]
      exact fin _ _ (hE.err _) h2
    · have : info.scale = 0 := by omega
      rw [this]
      simp only [zpow_zero, mul_one]
      exact fin q q (by simp; positivity) h

end Wreport
