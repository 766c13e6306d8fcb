import Verif.Props.Field

/-!
# C23, C24, C25: compressed data
-/

namespace Wreport

open Spec

/-! ## C23 -/

/-- Compressed numbers on the wire: the base value, the width of the increments,
and an increment for each subset, all ones where the value is missing. -/
def Spec.compressedNumbers (width base dwidth : Nat) (incs : List (Option Nat)) : List Bool :=
  bits width base ++ (bits 6 dwidth ++ incs.flatMap fun
    | none => missingField dwidth
    | some k => bits dwidth k)

/-- The values of the subsets: base plus increment plus reference. -/
def Spec.compressedValues (base : Nat) (ref : Int) (incs : List (Option Nat)) : List (Option Value) :=
  incs.map fun
    | none => none
    | some k => some (.num ((base + k : Nat) + ref))

/-- A width for which `all_ones` is defined. -/
def OnesOk (E : Env) (n : Nat) : Prop := 0 < n ∧ (n ≤ 31 ∨ (n = 32 ∧ E.wrapv = true))

theorem OnesOk.le {E : Env} {n : Nat} (h : OnesOk E n) : n ≤ 32 := by
  obtain ⟨-, h | h⟩ := h <;> omega

theorem decode_compressed_base_ok {E : Env} {i : Input} (hi : i.WF) {info : Varinfo}
    (hw : OnesOk E info.bit_len) {base dwidth : Nat} (hb : base < 2 ^ info.bit_len)
    (hd : dwidth < 64) (hmd : base = 2 ^ info.bit_len - 1 → dwidth = 0) {rest : List Bool}
    (hrem : i.rem = bits info.bit_len base ++ (bits 6 dwidth ++ rest)) (hrest : 8 ≤ rest.length) :
    ∃ i', i.decode_compressed_base E info =
        .ok ((decide (base = 2 ^ info.bit_len - 1), base, dwidth), i') ∧
      i'.WF ∧ i'.rem = rest ∧ i'.data = i.data := by
  obtain ⟨i1, g1, g2, g3, g4⟩ := Input.get_bits_ok hi hw.le hb hrem (by simp; omega)
  obtain ⟨i2, k1, k2, k3, k4⟩ := Input.get_bits_ok g2 (n := 6) (v := dwidth) (by omega) (by omega) g3 hrest
  refine ⟨i2, ?_, k2, k3, k4.trans g4⟩
  unfold Input.decode_compressed_base
  simp only [g1, Res.ok_bind, Input.all_ones_ok hw.1 hw.2, k1]
  rw [if_neg (by rintro ⟨h1, h2⟩; exact h2 (hmd h1))]
  rfl

theorem diffLoop_ok {E : Env} (hE : IsRounding E.fl) (O : Opts) {info : Varinfo}
    (hm : info.Made E) (hn : info.IsNum) (hw : OnesOk E info.bit_len) {base dwidth : Nat}
    (hd : OnesOk E dwidth) (hb : base ≠ 2 ^ info.bit_len - 1) (incs : List (Option Nat))
    (hincs : ∀ k, some k ∈ incs → k < 2 ^ dwidth - 1 ∧ base + k < 2 ^ info.bit_len - 1 ∧
      info.imin ≤ (base + k : Nat) + info.bit_ref ∧ (base + k : Nat) + info.bit_ref ≤ info.imax)
    {i : Input} (hi : i.WF) {rest : List Bool} (hrest : 8 ≤ rest.length)
    (hrem : i.rem = (incs.flatMap fun
      | none => missingField dwidth
      | some k => bits dwidth k) ++ rest)
    {v : Var} (hvi : v.info = info) (hva : v.attrs = []) (hvw : v.toVarCore.WF) :
    ∃ vs i', Input.diffLoop E O base dwidth incs.length v i = .ok (vs, i') ∧ i'.WF ∧
      i'.rem = rest ∧ (∀ v ∈ vs, v.info = info ∧ v.attrs = [] ∧ v.toVarCore.WF) ∧
      vs.map (fun v => v.toVarCore.view) = compressedValues base info.bit_ref incs := by
  have hpw : 2 ^ info.bit_len ≤ 2 ^ 32 := Nat.pow_le_pow_right (by omega) hw.le
  have hpos : 0 < 2 ^ dwidth := by positivity
  induction incs generalizing i v with
  | nil => exact ⟨[], i, rfl, hi, by simpa using hrem, by simp, rfl⟩
  | cons inc incs ih =>
    have hincs' : ∀ k, some k ∈ incs → _ := fun k hk => hincs k (List.mem_cons_of_mem _ hk)
    cases inc with
    | none =>
      simp only [List.flatMap_cons, List.append_assoc] at hrem
      obtain ⟨i1, g1, g2, g3, -⟩ := Input.get_bits_ok hi (n := dwidth) (v := 2 ^ dwidth - 1) hd.le
        (by omega) (by rw [hrem, bits_ones]; rfl) (by simp; omega)
      have hu : v.unset.toVarCore.WF := WF_isset_false hvw
      obtain ⟨vs, i2, k1, k2, k3, k4, k5⟩ := ih hincs' g2 g3 (v := v.unset) hvi hva hu
      refine ⟨v.unset :: vs, i2, ?_, k2, k3, ?_, ?_⟩
      · simp only [List.length_cons, Input.diffLoop, Input.decode_compressed_diff, g1, Res.ok_bind,
          Input.diffMissing, hvi,
          Input.all_ones_ok hw.1 hw.2, Input.all_ones_ok hd.1 hd.2, if_neg hb, if_true,
          Input.setNumberOrMissing, Res.pure_def, k1]
      · intro w hw
        rcases List.mem_cons.mp hw with rfl | hw
        · exact ⟨hvi, hva, hu⟩
        · exact k4 w hw
      · simp only [List.map_cons, compressedValues] at k5 ⊢
        rw [k5, view_unset rfl]
    | some k =>
      obtain ⟨c1, c2, c3, c4⟩ := hincs k (by simp)
      simp only [List.flatMap_cons, List.append_assoc] at hrem
      obtain ⟨i1, g1, g2, g3, -⟩ := Input.get_bits_ok hi (n := dwidth) (v := k) hd.le
        (by omega) hrem (by simp; omega)
      have hu : toU32 ((base + k : Nat) : Int) = base + k := by unfold toU32; omega
      have hset := setNumber_ok hE O (v := v) (i := (base + k : Nat) + info.bit_ref) (hvi ▸ hm)
        (hvi ▸ hn) (hvi ▸ hw.1) (val := base + k) (by rw [hvi]; omega) (by omega)
        (by rw [hvi]; exact ⟨c3, c4⟩)
      have hp : (v.putInt ((base + k : Nat) + info.bit_ref)).toVarCore.WF := by
        refine (WF_num (v := (v.putInt _).toVarCore) (by show v.info.IsNum; rw [hvi]; exact hn)).mpr
          ⟨_, rfl, ?_⟩
        obtain ⟨l1, l2⟩ := hm.limits hn
        rw [inInt_iff] at *; omega
      obtain ⟨vs, i2, k1, k2, k3, k4, k5⟩ := ih hincs' g2 g3
        (v := v.putInt ((base + k : Nat) + info.bit_ref)) hvi hva hp
      refine ⟨v.putInt ((base + k : Nat) + info.bit_ref) :: vs, i2, ?_, k2, k3, ?_, ?_⟩
      · simp only [List.length_cons, Input.diffLoop, Input.decode_compressed_diff, g1, Res.ok_bind,
          Input.diffMissing, hvi,
          Input.all_ones_ok hw.1 hw.2, Input.all_ones_ok hd.1 hd.2, if_neg hb,
          Input.setNumberOrMissing, Res.pure_def, if_neg (show ¬ k = 2 ^ dwidth - 1 by omega), hu,
          decide_eq_false (show ¬ base + k = 2 ^ info.bit_len - 1 by omega),
          Bool.false_eq_true, if_false, hset, k1]
      · intro w hw
        rcases List.mem_cons.mp hw with rfl | hw
        · exact ⟨hvi, hva, hp⟩
        · exact k4 w hw
      · simp only [List.map_cons, compressedValues] at k5 ⊢
        rw [k5, view_num (v := (v.putInt _).toVarCore) (by show v.info.IsNum; rw [hvi]; exact hn)
          rfl rfl]

/-- C23 (part): with increments of 1 to 31 bits, each subset gets base plus its
increment, and is missing where the increment is all ones; exactly the wire bits
are consumed. Missing from the full property: base or increments of 32 bits
unless signed overflow wraps (the comparison with all ones overflows). -/
theorem C23_increments_partial (E : Env) (hE : IsRounding E.fl) (O : Opts) (info : Varinfo)
    (hm : info.Made E) (hn : info.IsNum) (hw : OnesOk E info.bit_len) (base dwidth : Nat)
    (hd : OnesOk E dwidth) (hb : base < 2 ^ info.bit_len - 1) (incs : List (Option Nat))
    (hincs : ∀ k, some k ∈ incs → k < 2 ^ dwidth - 1 ∧ base + k < 2 ^ info.bit_len - 1 ∧
      info.imin ≤ (base + k : Nat) + info.bit_ref ∧ (base + k : Nat) + info.bit_ref ≤ info.imax)
    (i : Input) (hi : i.WF) (rest : List Bool) (hrest : 8 ≤ rest.length)
    (hrem : i.rem = compressedNumbers info.bit_len base dwidth incs ++ rest) :
    ∃ vs i', i.decode_compressed_number E O info incs.length = .ok (vs, i') ∧ i'.WF ∧
      i'.rem = rest ∧ (∀ v ∈ vs, v.info = info ∧ v.attrs = [] ∧ v.toVarCore.WF) ∧
      vs.map (fun v => v.toVarCore.view) = compressedValues base info.bit_ref incs := by
  unfold compressedNumbers at hrem
  simp only [List.append_assoc] at hrem
  obtain ⟨i1, g1, g2, g3, -⟩ := decode_compressed_base_ok hi hw (base := base) (dwidth := dwidth)
    (by omega) (by have := hd.le; omega) (by omega) hrem (by simp; omega)
  obtain ⟨vs, i2, k⟩ := diffLoop_ok hE O hm hn hw hd (by omega) incs hincs g2 hrest g3
    (v := Var.new info) rfl rfl (WF_new _)
  refine ⟨vs, i2, ?_, k.2⟩
  unfold Input.decode_compressed_number
  simp only [g1, Res.ok_bind]
  rw [decide_eq_false (by omega), if_neg (by simp), if_neg (by have := hd.1; omega)]
  exact k.1

example : sampleTemp.Made Env0 ∧ sampleTemp.IsNum ∧ OnesOk Env0 sampleTemp.bit_len ∧
    OnesOk Env0 10 ∧ 27000 < 2 ^ sampleTemp.bit_len - 1 ∧
    (∀ k, some k ∈ [some 315, none, some 0] → k < 2 ^ 10 - 1 ∧ 27000 + k < 2 ^ sampleTemp.bit_len - 1 ∧
      sampleTemp.imin ≤ (27000 + k : Nat) + sampleTemp.bit_ref ∧
      (27000 + k : Nat) + sampleTemp.bit_ref ≤ sampleTemp.imax) := by
  refine ⟨sampleTemp_made, Or.inr rfl, ⟨by decide, Or.inl (by decide)⟩, ⟨by decide, Or.inl (by decide)⟩,
    by decide, ?_⟩
  intro k hk
  have h : k = 315 ∨ k = 0 := by simpa using hk
  rcases h with rfl | rfl <;> decide

/-- C23: with increments of no bits every subset gets the base value, or is
missing if the base is all ones. -/
theorem C23_constant (E : Env) (hE : IsRounding E.fl) (O : Opts) (info : Varinfo)
    (hm : info.Made E) (hn : info.IsNum) (hw : OnesOk E info.bit_len) (base subsets : Nat)
    (hb : base < 2 ^ info.bit_len)
    (hr : base < 2 ^ info.bit_len - 1 → info.imin ≤ base + info.bit_ref ∧ base + info.bit_ref ≤ info.imax)
    (i : Input) (hi : i.WF) (rest : List Bool) (hrest : 8 ≤ rest.length)
    (hrem : i.rem = bits info.bit_len base ++ (bits 6 0 ++ rest)) :
    ∃ v i', i.decode_compressed_number E O info subsets = .ok (List.replicate subsets v, i') ∧ i'.WF ∧
      i'.rem = rest ∧ v.info = info ∧ v.attrs = [] ∧ v.toVarCore.WF ∧
      v.toVarCore.view =
        if base = 2 ^ info.bit_len - 1 then none else some (.num (base + info.bit_ref)) := by
  obtain ⟨i1, g1, g2, g3, -⟩ := decode_compressed_base_ok hi hw (base := base) (dwidth := 0)
    hb (by omega) (by simp) hrem hrest
  unfold Input.decode_compressed_number
  simp only [g1, Res.ok_bind]
  by_cases hmiss : base = 2 ^ info.bit_len - 1
  · rw [if_pos (by simpa using hmiss), if_pos hmiss]
    exact ⟨Var.new info, i1, rfl, g2, g3, rfl, rfl, WF_new _, view_unset rfl⟩
  · rw [if_neg (by simpa using hmiss), if_neg hmiss]
    have hpw : 2 ^ info.bit_len ≤ 2 ^ 32 := Nat.pow_le_pow_right (by omega) hw.le
    have hr' := hr (by omega)
    have hset := setNumber_ok hE O (v := Var.new info) (i := base + info.bit_ref) hm hn hw.1
        (val := base) (by show _ = _ - info.bit_ref; omega) (by omega) hr'
    refine ⟨(Var.new info).putInt (base + info.bit_ref), i1, ?_, g2, g3, rfl, rfl,
      (WF_num (v := ((Var.new info).putInt _).toVarCore) hn).mpr ⟨_, rfl, ?_⟩,
      view_num (v := ((Var.new info).putInt _).toVarCore) hn rfl rfl⟩
    · simp only [if_true, hset, Res.ok_bind, Res.pure_def]
    · obtain ⟨l1, l2⟩ := hm.limits hn
      rw [inInt_iff] at *; omega

example : sampleLat.Made Env0 ∧ sampleLat.IsNum ∧ OnesOk Env0 sampleLat.bit_len ∧
    13500 < 2 ^ sampleLat.bit_len ∧ sampleLat.imin ≤ (13500 : Nat) + sampleLat.bit_ref ∧
    (13500 : Nat) + sampleLat.bit_ref ≤ sampleLat.imax :=
  ⟨sampleLat_made, Or.inr rfl, ⟨by decide, Or.inl (by decide)⟩, by decide, by decide, by decide⟩

/-- C23: increments are refused when the base is missing. -/
theorem C23_missing_base (E : Env) (O : Opts) (info : Varinfo) (hw : OnesOk E info.bit_len)
    (dwidth subsets : Nat) (hd : 0 < dwidth ∧ dwidth < 64) (i : Input) (hi : i.WF)
    (rest : List Bool) (hrest : 8 ≤ rest.length)
    (hrem : i.rem = missingField info.bit_len ++ (bits 6 dwidth ++ rest)) :
    i.decode_compressed_number E O info subsets = .err .consistency := by
  have hpos : 0 < 2 ^ info.bit_len := by positivity
  obtain ⟨i1, g1, g2, g3, -⟩ := Input.get_bits_ok hi (n := info.bit_len) (v := 2 ^ info.bit_len - 1)
    hw.le (by omega) (by rw [hrem, bits_ones]; rfl) (by simp; omega)
  obtain ⟨i2, k1, -⟩ := Input.get_bits_ok g2 (n := 6) (v := dwidth) (by omega) (by omega) g3 hrest
  unfold Input.decode_compressed_number Input.decode_compressed_base
  simp only [g1, Res.ok_bind, Input.all_ones_ok hw.1 hw.2, k1]
  rw [if_pos ⟨trivial, by omega⟩]
  rfl

/-- C23 is false in the code for elements of 32 bits, unless signed overflow wraps:
comparing the base with all ones overflows, whatever the data. -/
theorem C23_not_wide (E : Env) (hE : E.wrapv = false) (O : Opts) (info : Varinfo)
    (hw : info.bit_len = 32) (base subsets : Nat) (hb : base < 2 ^ 32) (i : Input) (hi : i.WF)
    (rest : List Bool) (hrest : 8 ≤ rest.length) (hrem : i.rem = bits 32 base ++ rest) :
    i.decode_compressed_number E O info subsets = .ub := by
  obtain ⟨i1, g1, -⟩ := Input.get_bits_ok hi (n := 32) (v := base) (by omega) hb hrem hrest
  have ho : all_ones E 32 = .ub := by
    unfold all_ones Env.sint
    rw [hE]
    decide +kernel
  unfold Input.decode_compressed_number Input.decode_compressed_base
  simp only [hw, g1, Res.ok_bind, ho, Res.ub_bind]

example : (made (Varinfo.raw (WR_VAR 0 12 101) .decimal (ascii "K") 2 10 0 32)).bit_len = 32 ∧
    (Input.new [0, 0, 0x6a, 0xb3, 0, 0, 0]).WF ∧ Env0.wrapv = false ∧
    (Input.new [0, 0, 0x6a, 0xb3, 0, 0, 0]).rem = bits 32 27315 ++ List.replicate 24 false :=
  ⟨by decide +kernel, ⟨by decide, by decide⟩, rfl, by decide +kernel⟩

/-! ## C24 -/

/-- One compressed string of `n` bytes: padded text, or all ones if missing. -/
def Spec.stringField (n : Nat) : Option (List Byte) → List Bool
  | none => missingField (8 * n)
  | some t => textField (8 * n) t

/-- What a subset shows for an optional text in a variable of `len` bytes. -/
def Spec.stringValue (len : Nat) : Option (List Byte) → Option Value
  | none => none
  | some t => some (.text (t.take len))

/-- A text that a field of `n` bytes can carry (see C19). -/
def Spec.Carried (n : Nat) (t : List Byte) : Prop :=
  NoTrailingBlank t ∧ NulFree t ∧ t.length ≤ n ∧ ∃ b ∈ t, b ≠ 0xff

theorem decode_string_field {i : Input} (hi : i.WF) {n width : Nat} (hw : width = 8 * n)
    {t : Option (List Byte)} (ht : ∀ s, t = some s → Carried n s) {rest : List Bool}
    (hrem : i.rem = stringField n t ++ rest) (hrest : 8 ≤ rest.length) :
    ∃ i', i.decode_string width = .ok (t, i') ∧ i'.WF ∧ i'.rem = rest := by
  subst hw
  cases t with
  | none =>
    obtain ⟨i', g1, g2, g3, -⟩ := Input.decode_string_missing hi (width := 8 * n) (by omega) hrem hrest
    exact ⟨i', g1, g2, g3⟩
  | some s =>
    obtain ⟨c1, c2, c3, c4⟩ := ht s rfl
    obtain ⟨i', g1, g2, g3, -⟩ := Input.decode_string_ok hi (width := 8 * n) (Or.inr c1) (by omega) c2
      (Or.inl c4) hrem hrest
    exact ⟨i', g1, g2, g3⟩

theorem setDecoded_opt {O : Opts} {dest : Var} (h : dest.toVarCore.WF)
    (hs : dest.isset = false) (ht : dest.info.type = .string)
    {t : Option (List Byte)} (hnul : ∀ s, t = some s → NulFree s) :
    ∃ v, Input.setDecoded O dest t = .ok v ∧ v.toVarCore.WF ∧ v.info = dest.info ∧
      v.attrs = dest.attrs ∧ v.toVarCore.view = stringValue dest.info.len t := by
  cases t with
  | none => exact ⟨dest, rfl, h, rfl, rfl, view_unset hs⟩
  | some s => exact Input.setDecoded_ok h ht (hnul s rfl)

/-- C24: with increments of no bytes every subset gets the base text. -/
theorem C24_constant (O : Opts) (info : Varinfo) (ht : info.type = .string) (n subsets : Nat)
    (hn : info.bit_len = 8 * n) (t : Option (List Byte)) (hc : ∀ s, t = some s → Carried n s)
    (i : Input) (hi : i.WF) (rest : List Bool) (hrest : 8 ≤ rest.length)
    (hrem : i.rem = stringField n t ++ (bits 6 0 ++ rest)) :
    ∃ v i', i.decode_compressed_string O info subsets = .ok (List.replicate subsets v, i') ∧
      i'.WF ∧ i'.rem = rest ∧ v.info = info ∧ v.attrs = [] ∧ v.toVarCore.WF ∧
      v.toVarCore.view = stringValue info.len t := by
  obtain ⟨i1, g1, g2, g3⟩ := decode_string_field hi hn hc hrem (by simp; omega)
  obtain ⟨i2, k1, k2, k3, -⟩ := Input.get_bits_ok g2 (n := 6) (v := 0) (by omega) (by omega) g3 hrest
  obtain ⟨v, s1, s2, s3, s4, s5⟩ := setDecoded_opt (O := O) (dest := Var.new info) (WF_new _) rfl ht
    (fun s hs => (hc s hs).2.1)
  refine ⟨v, i2, ?_, k2, k3, s3, s4, s2, s5⟩
  unfold Input.decode_compressed_string
  simp only [g1, Res.ok_bind, k1, if_true, s1, Res.pure_def]

theorem stringLoop_ok (O : Opts) {info : Varinfo} (ht : info.type = .string) {n : Nat}
    (ts : List (Option (List Byte))) (hc : ∀ s, some s ∈ ts → Carried n s)
    {i : Input} (hi : i.WF) {rest : List Bool} (hrest : 8 ≤ rest.length)
    (hrem : i.rem = ts.flatMap (stringField n) ++ rest) :
    ∃ vs i', Input.stringLoop O info n ts.length i = .ok (vs, i') ∧ i'.WF ∧ i'.rem = rest ∧
      (∀ v ∈ vs, v.info = info ∧ v.attrs = [] ∧ v.toVarCore.WF) ∧
      vs.map (fun v => v.toVarCore.view) = ts.map (stringValue info.len) := by
  induction ts generalizing i with
  | nil => exact ⟨[], i, rfl, hi, by simpa using hrem, by simp, rfl⟩
  | cons t ts ih =>
    simp only [List.flatMap_cons, List.append_assoc] at hrem
    have hc0 : ∀ s, t = some s → Carried n s := fun s hs => hc s (by simp [hs])
    obtain ⟨i1, g1, g2, g3⟩ := decode_string_field hi (Nat.mul_comm n 8) hc0 hrem (by simp; omega)
    obtain ⟨v, s1, s2, s3, s4, s5⟩ := setDecoded_opt (O := O) (dest := Var.new info) (WF_new _) rfl ht
      (fun s hs => (hc0 s hs).2.1)
    obtain ⟨vs, i2, k1, k2, k3, k4, k5⟩ := ih (fun s hs => hc s (List.mem_cons_of_mem _ hs)) g2 g3
    refine ⟨v :: vs, i2, ?_, k2, k3, ?_, ?_⟩
    · simp only [List.length_cons, Input.stringLoop, g1, Res.ok_bind, s1, k1, Res.pure_def]
    · intro x hx
      rcases List.mem_cons.mp hx with rfl | hx
      · exact ⟨s3, s4, s2⟩
      · exact k4 x hx
    · simp only [List.map_cons, k5, s5]
      rfl

/-- C24: with increments of `n` bytes each subset gets its own text (cut to the
declared length), or is missing if its bytes are all ones; the base is ignored. -/
theorem C24_per_subset (O : Opts) (info : Varinfo) (ht : info.type = .string) (n m : Nat)
    (hm : info.bit_len = 8 * m) (hn : 0 < n ∧ n < 64 ∧ n ≤ m)
    (base : Option (List Byte)) (hbase : ∀ s, base = some s → Carried m s)
    (ts : List (Option (List Byte))) (hc : ∀ s, some s ∈ ts → Carried n s)
    (i : Input) (hi : i.WF) (rest : List Bool) (hrest : 8 ≤ rest.length)
    (hrem : i.rem = stringField m base ++ (bits 6 n ++ (ts.flatMap (stringField n) ++ rest))) :
    ∃ vs i', i.decode_compressed_string O info ts.length = .ok (vs, i') ∧ i'.WF ∧ i'.rem = rest ∧
      (∀ v ∈ vs, v.info = info ∧ v.attrs = [] ∧ v.toVarCore.WF) ∧
      vs.map (fun v => v.toVarCore.view) = ts.map (stringValue info.len) := by
  obtain ⟨i1, g1, g2, g3⟩ := decode_string_field hi hm hbase hrem (by simp; omega)
  obtain ⟨i2, k1, k2, k3, -⟩ := Input.get_bits_ok g2 (n := 6) (v := n) (by omega) (by omega) g3
    (by simp; omega)
  obtain ⟨vs, i3, l⟩ := stringLoop_ok O ht ts hc k2 hrest k3
  refine ⟨vs, i3, ?_, l.2⟩
  unfold Input.decode_compressed_string
  simp only [g1, Res.ok_bind, k1]
  rw [if_neg (by omega), if_neg (by omega)]
  exact l.1

theorem decode_string_any {i : Input} (hi : i.WF) {w : List Byte} {width : Nat}
    (hw : width = 8 * w.length) {rest : List Bool} (hrem : i.rem = bytesBits w ++ rest)
    (hrest : 8 ≤ rest.length) :
    ∃ t i', i.decode_string width = .ok (t, i') ∧ i'.WF ∧ i'.rem = rest := by
  obtain ⟨i1, g1, g2, g3, -⟩ := Input.getBytes_ok hi (w := w) (last := 0) (width := width)
    (rest := rest) (by omega) (by positivity)
    (by rw [hrem, hw, Nat.mul_mod_right]; simp [Spec.bits]) hrest
  unfold Input.decode_string
  rw [g1]
  simp only [Res.ok_bind]
  split
  · exact ⟨none, i1, rfl, g2, g3⟩
  · exact ⟨_, i1, rfl, g2, g3⟩

/-- C24: whatever the bytes of the base (zeros, as encoders usually write, or
others), each subset gets its own text. -/
theorem C24_any_base (O : Opts) (info : Varinfo) (ht : info.type = .string) (n : Nat)
    (base : List Byte) (hm : info.bit_len = 8 * base.length) (hn : 0 < n ∧ n < 64 ∧ n ≤ base.length)
    (ts : List (Option (List Byte))) (hc : ∀ s, some s ∈ ts → Carried n s)
    (i : Input) (hi : i.WF) (rest : List Bool) (hrest : 8 ≤ rest.length)
    (hrem : i.rem = bytesBits base ++ (bits 6 n ++ (ts.flatMap (stringField n) ++ rest))) :
    ∃ vs i', i.decode_compressed_string O info ts.length = .ok (vs, i') ∧ i'.WF ∧ i'.rem = rest ∧
      (∀ v ∈ vs, v.info = info ∧ v.attrs = [] ∧ v.toVarCore.WF) ∧
      vs.map (fun v => v.toVarCore.view) = ts.map (stringValue info.len) := by
  obtain ⟨t, i1, g1, g2, g3⟩ := decode_string_any hi hm hrem (by simp; omega)
  obtain ⟨i2, k1, k2, k3, -⟩ := Input.get_bits_ok g2 (n := 6) (v := n) (by omega) (by omega) g3
    (by simp; omega)
  obtain ⟨vs, i3, l⟩ := stringLoop_ok O ht ts hc k2 hrest k3
  refine ⟨vs, i3, ?_, l.2⟩
  unfold Input.decode_compressed_string
  simp only [g1, Res.ok_bind, k1]
  rw [if_neg (by omega), if_neg (by omega)]
  exact l.1

example : sampleStr.type = .string ∧ sampleStr.bit_len = 8 * 32 ∧ (0 < 7 ∧ 7 < 64 ∧ 7 ≤ 32) ∧
    Carried 7 (ascii "Bologna") ∧ Carried 7 (ascii "Parma") :=
  ⟨rfl, rfl, by omega,
    ⟨⟨ascii "Bologn", 97, by decide, by decide, by decide⟩, by unfold NulFree; decide, by decide, 66,
      by decide, by decide⟩,
    ⟨⟨ascii "Parm", 97, by decide, by decide, by decide⟩, by unfold NulFree; decide, by decide, 80,
      by decide, by decide⟩⟩

/-! ## C25 -/

/-- C25: a steering number is accepted only when the width of its increments is
zero; it is then the common base value, or missing. -/
theorem C25_semantic (E : Env) (hE : IsRounding E.fl) (O : Opts) (info : Varinfo)
    (hm : info.Made E) (hn : info.IsNum) (hw : OnesOk E info.bit_len) (base dwidth : Nat)
    (hb : base < 2 ^ info.bit_len) (hd : dwidth < 64)
    (hr : base < 2 ^ info.bit_len - 1 → info.imin ≤ base + info.bit_ref ∧ base + info.bit_ref ≤ info.imax)
    (i : Input) (hi : i.WF) (rest : List Bool) (hrest : 8 ≤ rest.length)
    (hrem : i.rem = bits info.bit_len base ++ (bits 6 dwidth ++ rest)) :
    if dwidth = 0 then
      ∃ v i', i.decode_compressed_semantic_number E O (Var.new info) = .ok (v, i') ∧ i'.WF ∧
        i'.rem = rest ∧ v.info = info ∧ v.attrs = [] ∧ v.toVarCore.WF ∧
        v.toVarCore.view =
          if base = 2 ^ info.bit_len - 1 then none else some (.num (base + info.bit_ref))
    else i.decode_compressed_semantic_number E O (Var.new info) = .err .consistency := by
  obtain ⟨i1, g1, g2, g3, g4⟩ := Input.get_bits_ok hi hw.le hb hrem (by simp; omega)
  obtain ⟨i2, k1, k2, k3, k4⟩ := Input.get_bits_ok g2 (n := 6) (v := dwidth) (by omega) (by omega) g3 hrest
  have e : (Var.new info).info = info := rfl
  split
  · next h0 =>
    subst h0
    unfold Input.decode_compressed_semantic_number
    simp only [e, g1, Res.ok_bind, Input.all_ones_ok hw.1 hw.2, k1, ne_eq, not_true_eq_false, if_false]
    unfold Input.setNumberOrMissing
    by_cases hmiss : base = 2 ^ info.bit_len - 1
    · rw [if_pos (by simpa using hmiss), if_pos hmiss]
      exact ⟨(Var.new info).unset, i2, rfl, k2, k3, rfl, rfl, WF_isset_false (WF_new _), view_unset rfl⟩
    · rw [if_neg (by simpa using hmiss), if_neg hmiss]
      have hpw : 2 ^ info.bit_len ≤ 2 ^ 32 := Nat.pow_le_pow_right (by omega) hw.le
      have hr' := hr (by omega)
      have hset := setNumber_ok hE O (v := Var.new info) (i := base + info.bit_ref) hm hn hw.1
          (val := base) (by show _ = _ - info.bit_ref; omega) (by omega) hr'
      refine ⟨(Var.new info).putInt (base + info.bit_ref), i2, ?_, k2, k3, rfl, rfl,
        (WF_num (v := ((Var.new info).putInt _).toVarCore) hn).mpr ⟨_, rfl, ?_⟩,
        view_num (v := ((Var.new info).putInt _).toVarCore) hn rfl rfl⟩
      · rw [hset]; rfl
      · obtain ⟨l1, l2⟩ := hm.limits hn
        rw [inInt_iff] at *; omega
  · next h0 =>
    unfold Input.decode_compressed_semantic_number
    simp only [e, g1, Res.ok_bind, Input.all_ones_ok hw.1 hw.2, k1, ne_eq, h0, not_false_eq_true, if_true]

example : sampleRepl.Made Env0 ∧ sampleRepl.IsNum ∧ OnesOk Env0 sampleRepl.bit_len ∧
    5 < 2 ^ sampleRepl.bit_len ∧ sampleRepl.imin ≤ (5 : Nat) + sampleRepl.bit_ref ∧
    (5 : Nat) + sampleRepl.bit_ref ≤ sampleRepl.imax :=
  ⟨⟨⟨Varinfo.raw (WR_VAR 0 31 1) .integer (ascii "NUMERIC") 0 3 0 8, rfl⟩, rfl, fun _ => rfl, nofun⟩,
    Or.inl rfl, ⟨by decide, Or.inl (by decide)⟩, by decide, by decide, by decide⟩

/-- C25: whatever the stream, a steering number that decodes was followed by an
increment width of zero. -/
theorem C25_stream (E : Env) (O : Opts) (dest v : Var) (i i' : Input)
    (h : i.decode_compressed_semantic_number E O dest = .ok (v, i')) :
    ∃ base i1, i.get_bits dest.info.bit_len = .ok (base, i1) ∧ i1.get_bits 6 = .ok (0, i') := by
  unfold Input.decode_compressed_semantic_number at h
  simp only [Res.bind_eq_ok] at h
  obtain ⟨⟨base, i1⟩, h1, ones, h2, ⟨d, i2⟩, h3, h4⟩ := h
  by_cases hd : d = 0
  · subst hd
    simp only [ne_eq, not_true_eq_false, if_false, Res.bind_eq_ok, Res.pure_def, Res.ok.injEq,
      Prod.mk.injEq] at h4
    obtain ⟨x, -, -, rfl⟩ := h4
    exact ⟨base, i1, h1, h3⟩
  · simp [hd] at h4

theorem sameLoop_ok (O : Opts) {first : Var} (hf : first.toVarCore.WF) (hfa : first.attrs = [])
    (ht : first.info.type = .string) {n : Nat} (ts : List (Option (List Byte)))
    (hc : ∀ s, some s ∈ ts → Carried n s) {i : Input} (hi : i.WF) {rest : List Bool}
    (hrest : 8 ≤ rest.length) (hrem : i.rem = ts.flatMap (stringField n) ++ rest) :
    if ∀ u ∈ ts, stringValue first.info.len u = first.toVarCore.view then
      ∃ i', Input.sameLoop O first n ts.length i = .ok i' ∧ i'.WF ∧ i'.rem = rest
    else Input.sameLoop O first n ts.length i = .err .consistency := by
  induction ts generalizing i with
  | nil =>
    rw [if_pos (by simp)]
    exact ⟨i, rfl, hi, by simpa using hrem⟩
  | cons t ts ih =>
    simp only [List.flatMap_cons, List.append_assoc] at hrem
    have hc0 : ∀ s, t = some s → Carried n s := fun s hs => hc s (by simp [hs])
    obtain ⟨i1, g1, g2, g3⟩ := decode_string_field hi (Nat.mul_comm n 8) hc0 hrem (by simp; omega)
    obtain ⟨v, s1, s2, s3, s4, s5⟩ := setDecoded_opt (O := O) (dest := Var.new first.info) (WF_new _) rfl ht
      (fun s hs => (hc0 s hs).2.1)
    have s3' : v.info = first.info := s3
    have s4' : v.attrs = [] := s4
    have s5' : v.toVarCore.view = stringValue first.info.len t := s5
    have heq : first.eq v = .ok (decide (first.toVarCore.view = stringValue first.info.len t)) := by
      rw [Var.eq_eq ⟨hf, by simp [hfa], by simp [hfa]⟩ ⟨s2, by simp [s4'], by simp [s4']⟩]
      · congr 1
        apply decide_eq_decide.mpr
        unfold Var.view VarCore.code
        rw [hfa, s4', s5', s3']
        simp
      · intro a ha b hb _
        simp only [hfa, s4', List.mem_singleton] at ha hb
        subst ha hb
        exact s3'.symm
    have ih' := ih (fun s hs => hc s (List.mem_cons_of_mem _ hs)) g2 g3
    simp only [List.length_cons, Input.sameLoop, g1, Res.ok_bind, s1, heq]
    by_cases h0 : first.toVarCore.view = stringValue first.info.len t
    · rw [decide_eq_true h0]
      simp only [Bool.not_true, Bool.false_eq_true, if_false]
      by_cases hall : ∀ u ∈ ts, stringValue first.info.len u = first.toVarCore.view
      · rw [if_pos hall] at ih'
        rw [if_pos (by intro u hu; rcases List.mem_cons.mp hu with rfl | hu; exacts [h0.symm, hall u hu])]
        exact ih'
      · rw [if_neg hall] at ih'
        rw [if_neg (fun h => hall fun u hu => h u (List.mem_cons_of_mem _ hu))]
        exact ih'
    · rw [if_neg (fun h => h0 (h t (by simp)).symm), decide_eq_false h0]
      rfl

/-- C25 applies: a steering number that decodes. -/
example : (do
      let r ← (Input.new [5, 0, 1, 2]).decode_compressed_semantic_number Env0 .default (Var.new sampleRepl)
      return (r.1.isset, r.1.cell)) = Res.ok (true, .word 5) := by
  decide +kernel

/-- C25: a steering text with one text for each subset is accepted exactly when
they all are the same one, which is the result. -/
theorem C25_string (O : Opts) (info : Varinfo) (ht : info.type = .string) (n m : Nat)
    (hm : info.bit_len = 8 * m) (hn : 0 < n ∧ n < 64 ∧ n ≤ m)
    (base : Option (List Byte)) (hbase : ∀ s, base = some s → Carried m s)
    (t : Option (List Byte)) (ts : List (Option (List Byte))) (hc : ∀ s, some s ∈ t :: ts → Carried n s)
    (i : Input) (hi : i.WF) (rest : List Bool) (hrest : 8 ≤ rest.length)
    (hrem : i.rem = stringField m base ++ (bits 6 n ++ ((t :: ts).flatMap (stringField n) ++ rest))) :
    if ∀ u ∈ ts, stringValue info.len u = stringValue info.len t then
      ∃ v i', i.decode_string_same O (Var.new info) (ts.length + 1) = .ok (v, i') ∧ i'.WF ∧
        i'.rem = rest ∧ v.info = info ∧ v.toVarCore.WF ∧ v.toVarCore.view = stringValue info.len t
    else i.decode_string_same O (Var.new info) (ts.length + 1) = .err .consistency := by
  obtain ⟨i1, g1, g2, g3⟩ := decode_string_field hi hm hbase hrem (by simp; omega)
  obtain ⟨i2, k1, k2, k3, -⟩ := Input.get_bits_ok g2 (n := 6) (v := n) (by omega) (by omega) g3
    (by simp; omega)
  simp only [List.flatMap_cons, List.append_assoc] at k3
  have hc0 : ∀ s, t = some s → Carried n s := fun s hs => hc s (by simp [hs])
  obtain ⟨i3, l1, l2, l3⟩ := decode_string_field k2 (Nat.mul_comm n 8) hc0 k3 (by simp; omega)
  obtain ⟨v, s1, s2, s3, s4, s5⟩ := setDecoded_opt (O := O) (dest := (Var.new info).unset)
    (WF_isset_false (WF_new _)) rfl ht (fun s hs => (hc0 s hs).2.1)
  have s3' : v.info = info := s3
  have s5' : v.toVarCore.view = stringValue info.len t := s5
  have hl := sameLoop_ok O s2 s4 (by rw [s3']; exact ht) ts
    (fun s hs => hc s (List.mem_cons_of_mem _ hs)) l2 hrest l3
  have heq : i.decode_string_same O (Var.new info) (ts.length + 1) =
      (do let i ← Input.sameLoop O v n ts.length i3
          return (v, i)) := by
    unfold Input.decode_string_same
    simp only [show (Var.new info).info = info from rfl, g1, Res.ok_bind, k1]
    rw [if_neg (by omega), if_neg (by omega)]
    simp only [l1, Res.ok_bind, s1, Nat.add_sub_cancel]
  rw [s5', s3'] at hl
  rw [heq]
  split
  · next h =>
    rw [if_pos h] at hl
    obtain ⟨i4, m1, m2, m3⟩ := hl
    exact ⟨v, i4, by rw [m1]; rfl, m2, m3, s3', s2, s5'⟩
  · next h =>
    rw [if_neg h] at hl
    rw [hl]; rfl

/-- C25 applies to texts that are the same and to texts that are not; the rest of its
hypotheses is met as those of C24 are. -/
example : (∀ u ∈ [some (ascii "Parma")], stringValue sampleStr.len u = stringValue sampleStr.len (some (ascii "Parma"))) ∧
    ¬ ∀ u ∈ [some (ascii "Bologna")], stringValue sampleStr.len u = stringValue sampleStr.len (some (ascii "Parma")) := by
  decide +kernel

end Wreport
