import Verif.Spec.Conv
import Verif.Lemmas.Conv
import Verif.Props.Samples
import Mathlib.Data.List.Sort
import Mathlib.Tactic.IntervalCases

/-!
# C53, C54, C65: conversion of units and code tables
-/

namespace Wreport

open Conv Spec

/-! ## Repositories -/

/-- The order used by the sort. -/
def entryLe (a b : Entry) : Bool := !b.lt a

theorem entryLe_trans (a b c : Entry) (hab : entryLe a b = true) (hbc : entryLe b c = true) :
    entryLe a c = true := by
  simp only [entryLe, Bool.not_eq_true', lt_false] at *
  intro h
  exact hab (cmp2_lt_of hbc h)

theorem entryLe_total (a b : Entry) : (entryLe a b || entryLe b a) = true := by
  simp only [entryLe, Bool.or_eq_true, Bool.not_eq_true', lt_false]
  by_cases h : cmp2 (b.src, b.dst) (a.src, a.dst) = .lt
  · right; intro h'; rw [← cmp2_swap] at h'; rw [h'] at h; cases h
  · left; exact h

/-- There is a repository, for each rounding. -/
theorem isRepo_mergeSort (fl : ℚ → ℚ) : IsRepo fl ((registered fl).mergeSort entryLe) := by
  refine ⟨List.mergeSort_perm _ _, ?_⟩
  have h := List.pairwise_mergeSort entryLe_trans entryLe_total (registered fl)
  exact h.imp fun h => by simpa [entryLe] using h

/-! ## C53: units -/

/-- Every value, also NaN and the infinities, is unchanged between equal units, known or not. -/
theorem C53_same (fl : ℚ → ℚ) (repo : List Entry) (u : List Byte) (d : Dbl) :
    convert_units fl repo u u d = .ok d := by
  simp [convert_units, strcmp_refl]

/-- A conversion between different units is one that is registered for just that pair;
without one there is an error. -/
theorem C53_registered {fl : ℚ → ℚ} {repo : List Entry} (hr : IsRepo fl repo)
    {src dst : List Byte} (hne : src ≠ dst) (d : Dbl) :
    (∃ c, ⟨src, dst, c⟩ ∈ registered fl ∧ convert_units fl repo src dst d = c.convert fl d) ∨
    ((∀ c, (⟨src, dst, c⟩ : Entry) ∉ registered fl) ∧
      convert_units fl repo src dst d = .err .unimplemented) := by
  have hs : strcmp src dst ≠ .eq := fun h => hne (strcmp_eq.mp h)
  rcases find_spec repo hr.sorted src dst with ⟨c, hc, hm⟩ | ⟨hc, hm⟩
  · left
    exact ⟨c, hr.perm.mem_iff.mp hm, by simp [convert_units, hs, hc]⟩
  · right
    exact ⟨fun c h => hm _ (hr.perm.mem_iff.mpr h) rfl rfl, by simp [convert_units, hs, hc]⟩

/-- The reverse of a registered conversion is registered. -/
theorem C53_both_ways {fl : ℚ → ℚ} {src dst : List Byte} {c : Convert}
    (h : ⟨src, dst, c⟩ ∈ registered fl) : ∃ c', ⟨dst, src, c'⟩ ∈ registered fl := by
  obtain ⟨k, hk, h⟩ := List.mem_flatMap.mp h
  have mem : ∀ e, e ∈ k.entries fl → e ∈ registered fl := fun e he =>
    List.mem_flatMap.mpr ⟨k, hk, he⟩
  cases k with
  | linear s d mul add =>
    simp only [Call.entries, List.mem_cons, List.not_mem_nil, or_false, Entry.mk.injEq] at h
    rcases h with ⟨rfl, rfl, rfl⟩ | ⟨rfl, rfl, rfl⟩
    · exact ⟨_, mem _ (by simp only [Call.entries, List.mem_cons]; right; left; rfl)⟩
    · exact ⟨_, mem _ (by simp only [Call.entries, List.mem_cons]; left; rfl)⟩
  | ident s d =>
    simp only [Call.entries, List.mem_cons, List.not_mem_nil, or_false, Entry.mk.injEq] at h
    rcases h with ⟨rfl, rfl, rfl⟩ | ⟨rfl, rfl, rfl⟩
    · exact ⟨_, mem _ (by simp only [Call.entries, List.mem_cons]; right; left; rfl)⟩
    · exact ⟨_, mem _ (by simp only [Call.entries, List.mem_cons]; left; rfl)⟩
  | octants s d =>
    simp only [Call.entries, List.mem_cons, List.not_mem_nil, or_false, Entry.mk.injEq] at h
    rcases h with ⟨rfl, rfl, rfl⟩ | ⟨rfl, rfl, rfl⟩
    · exact ⟨_, mem _ (by simp only [Call.entries, List.mem_cons]; right; left; rfl)⟩
    · exact ⟨_, mem _ (by simp only [Call.entries, List.mem_cons]; left; rfl)⟩

/-- Pairs that do not convert back to the same value: registered twice with factors that are
not inverse. -/
def roughPairs : List (String × String) :=
  [("M", "FT"), ("cal/cm**2", "J/M**2"), ("nodi", "M/S"), ("GPM", "m**2/s**2"),
   ("GPM", "M**2/S**2"), ("MGP", "m**2/s**2"), ("MGP", "M**2/S**2")]

/-- The pair whose reverse is wrong, and that of the octants (see C54). -/
def wrongPairs : List (String × String) := [("K", "C/10"), ("octants", "DEGREE TRUE")]

/-- The pair that is not linear. -/
def octantPair : List (String × String) := [("octants", "DEGREE TRUE")]

/-- All pairs of a conversion and one back. -/
def checkInverse (ok : Exact → Exact → Bool) : Bool :=
  exactTable.all fun a => exactTable.all fun b =>
    !(a.src == b.dst && a.dst == b.src) || Among wrongPairs a.src a.dst || ok a b

theorem exact_inverse : checkInverse (fun a b => Among roughPairs a.src a.dst ||
    (b.mul * a.mul = 1 && b.mul * a.add + b.add = 0 && |b.add| ≤ zeroShift a.src a.dst)) = true := by
  decide +kernel

theorem exact_rough : checkInverse (fun a b => |b.mul * a.mul - 1| ≤ 1 / 50000 &&
    b.mul * a.add + b.add = 0 && |b.add| ≤ zeroShift a.src a.dst) = true := by
  decide +kernel

/-- Two linear conversions between the same units in opposite directions. -/
theorem two_ways {fl : ℚ → ℚ} (hf : IsRounding fl) {repo : List Entry} (hr : IsRepo fl repo)
    {src dst : List Byte} (hne : src ≠ dst) {c : Convert} (hc : ⟨src, dst, c⟩ ∈ registered fl)
    (hw : ¬ Among octantPair src dst) (v : ℚ) :
    ∃ a ∈ exactTable, ∃ b ∈ exactTable, a.src = src ∧ a.dst = dst ∧ b.src = dst ∧ b.dst = src ∧
      0 < a.mul ∧ 0 < b.mul ∧ ∃ y z, convert_units fl repo src dst (.fin v) = .ok (.fin y) ∧
        convert_units fl repo dst src (.fin y) = .ok (.fin z) ∧
        |y - (a.mul * v + a.add)| ≤ (|a.mul * v| + |a.add|) / 2 ^ 50 ∧
        |z - (b.mul * y + b.add)| ≤ (|b.mul * y| + |b.add|) / 2 ^ 50 := by
  have noct : ∀ {s d c}, (⟨s, d, c⟩ : Entry) ∈ registered fl → ¬ Among octantPair s d →
      c ≠ .octantsToDegrees ∧ c ≠ .degreesToOctants := by
    intro s d c h hw
    have key : c = .octantsToDegrees ∨ c = .degreesToOctants → Among octantPair s d := by
      intro hc
      obtain ⟨k, hk, h⟩ := List.mem_flatMap.mp h
      cases k with
      | linear =>
        simp only [Call.entries, List.mem_cons, List.not_mem_nil, or_false, Entry.mk.injEq] at h
        rcases h with ⟨-, -, rfl⟩ | ⟨-, -, rfl⟩ <;> simp at hc
      | ident =>
        simp only [Call.entries, List.mem_cons, List.not_mem_nil, or_false, Entry.mk.injEq] at h
        rcases h with ⟨-, -, rfl⟩ | ⟨-, -, rfl⟩ <;> simp at hc
      | octants s' d' =>
        have : s' = "octants" ∧ d' = "DEGREE TRUE" := by
          simpa [calls] using hk
        obtain ⟨rfl, rfl⟩ := this
        simp only [Call.entries, List.mem_cons, List.not_mem_nil, or_false, Entry.mk.injEq] at h
        refine ⟨("octants", "DEGREE TRUE"), by simp [octantPair], ?_⟩
        rcases h with ⟨rfl, rfl, -⟩ | ⟨rfl, rfl, -⟩
        · exact .inl ⟨rfl, rfl⟩
        · exact .inr ⟨rfl, rfl⟩
    exact ⟨fun h => hw (key (.inl h)), fun h => hw (key (.inr h))⟩
  have hw' : ¬ Among octantPair dst src := fun ⟨p, hp, h⟩ => hw ⟨p, hp, h.symm⟩
  obtain ⟨c', hc'⟩ := C53_both_ways hc
  have use : ∀ {s d c}, s ≠ d → (⟨s, d, c⟩ : Entry) ∈ registered fl → ¬ Among octantPair s d →
      ∀ x, ∃ a ∈ exactTable, a.src = s ∧ a.dst = d ∧ 0 < a.mul ∧ ∃ y,
        convert_units fl repo s d (.fin x) = .ok (.fin y) ∧
        |y - (a.mul * x + a.add)| ≤ (|a.mul * x| + |a.add|) / 2 ^ 50 := by
    intro s d c hne hc hw x
    rcases C53_registered hr hne (.fin x) with ⟨e, he, hy⟩ | ⟨h, -⟩
    · obtain ⟨a, ha, h1, h2, h3, h4⟩ := registered_exact hf he (noct he hw).1 (noct he hw).2
      obtain ⟨y, hy', h5⟩ := h4 x
      exact ⟨a, ha, h1, h2, h3, y, hy.trans hy', h5⟩
    · exact absurd hc (h c)
  obtain ⟨a, ha, a1, a2, a3, y, hy, ey⟩ := use hne hc hw v
  obtain ⟨b, hb, b1, b2, b3, z, hz, ez⟩ := use hne.symm hc' hw' y
  exact ⟨a, ha, b, hb, a1, a2, b1, b2, a3, b3, y, z, hy, hz, ey, ez⟩

theorem not_octants {src dst : List Byte} (h : ¬ Among wrongPairs src dst) :
    ¬ Among octantPair src dst := fun ⟨p, hp, h'⟩ =>
  h ⟨p, List.mem_cons_of_mem _ hp, h'⟩

/-- Full statement: for every registered linear conversion. Missing: the pairs in
`wrongPairs` and `roughPairs`, for which it is false (`C53_not_tenths`, `C53_not_feet`; see
`C53_rough` for the latter). "Returns the original value" is up to rounding of doubles. -/
theorem C53_inverse_partial {fl : ℚ → ℚ} (hf : IsRounding fl) {repo : List Entry}
    (hr : IsRepo fl repo) {src dst : List Byte} {c : Convert}
    (hc : ⟨src, dst, c⟩ ∈ registered fl) (hw : ¬ Among wrongPairs src dst)
    (hg : ¬ Among roughPairs src dst) (v : ℚ) :
    ∃ y z, convert_units fl repo src dst (.fin v) = .ok (.fin y) ∧
      convert_units fl repo dst src (.fin y) = .ok (.fin z) ∧
      |z - v| ≤ (|v| + zeroShift src dst) / 2 ^ 48 := by
  by_cases hne : src = dst
  · subst hne
    refine ⟨v, v, C53_same .., C53_same .., ?_⟩
    have : 0 ≤ zeroShift src src := by unfold zeroShift; split <;> norm_num
    simp; positivity
  obtain ⟨a, ha, b, hb, a1, a2, b1, b2, a3, b3, y, z, hy, hz, ey, ez⟩ := two_ways hf hr hne hc (not_octants hw) v
  have h := List.all_eq_true.mp (List.all_eq_true.mp exact_inverse a ha) b hb
  simp only [a1, a2, b1, b2, beq_self_eq_true, Bool.and_self, Bool.not_true, Bool.false_or,
    hw, hg, decide_false, Bool.and_eq_true, decide_eq_true_eq] at h
  obtain ⟨⟨h1, h2⟩, h3⟩ := h
  refine ⟨y, z, hy, hz, ?_⟩
  have := compose_err (δ := 0) a3 b3 (by rw [h1]; simp) (by norm_num) h2 ey ez
  refine this.trans ?_
  rw [zero_mul, zero_add]
  gcongr

/-- All linear conversions but that of tenths of degrees: back to one part in 49000. -/
theorem C53_rough {fl : ℚ → ℚ} (hf : IsRounding fl) {repo : List Entry} (hr : IsRepo fl repo)
    {src dst : List Byte} {c : Convert} (hc : ⟨src, dst, c⟩ ∈ registered fl)
    (hw : ¬ Among wrongPairs src dst) (v : ℚ) :
    ∃ y z, convert_units fl repo src dst (.fin v) = .ok (.fin y) ∧
      convert_units fl repo dst src (.fin y) = .ok (.fin z) ∧
      |z - v| ≤ |v| / 49000 + zeroShift src dst / 2 ^ 48 := by
  by_cases hne : src = dst
  · subst hne
    refine ⟨v, v, C53_same .., C53_same .., ?_⟩
    have : 0 ≤ zeroShift src src := by unfold zeroShift; split <;> norm_num
    simp; positivity
  obtain ⟨a, ha, b, hb, a1, a2, b1, b2, a3, b3, y, z, hy, hz, ey, ez⟩ := two_ways hf hr hne hc (not_octants hw) v
  have h := List.all_eq_true.mp (List.all_eq_true.mp exact_rough a ha) b hb
  simp only [a1, a2, b1, b2, beq_self_eq_true, Bool.and_self, Bool.not_true, Bool.false_or,
    hw, decide_false, Bool.and_eq_true, decide_eq_true_eq] at h
  obtain ⟨⟨h1, h2⟩, h3⟩ := h
  refine ⟨y, z, hy, hz, ?_⟩
  have := compose_err a3 b3 h1 (by norm_num) h2 ey ez
  have p := abs_nonneg v
  have q : (|v| + |b.add|) / 2 ^ 48 ≤ (|v| + zeroShift src dst) / 2 ^ 48 := by gcongr
  rw [add_div] at q
  norm_num at this q ⊢
  linarith

/-- Kelvin to tenths of degrees Celsius and back is wrong by thousands of degrees: the reverse
of `10 * v - 2731.5001` is computed as `v / 10 + 2731.5001`. -/
theorem C53_not_tenths {fl : ℚ → ℚ} (hf : IsRounding fl) {repo : List Entry} (hr : IsRepo fl repo)
    (v : ℚ) (hv : |v| ≤ 1000) :
    ∃ y z, convert_units fl repo (ascii "K") (ascii "C/10") (.fin v) = .ok (.fin y) ∧
      convert_units fl repo (ascii "C/10") (ascii "K") (.fin y) = .ok (.fin z) ∧ v + 2458 < z := by
  have hc : ∃ c, (⟨ascii "K", ascii "C/10", c⟩ : Entry) ∈ registered fl :=
    ⟨_, List.mem_flatMap.mpr ⟨.linear "K" "C/10" 10 (-2731.5001), by simp [calls],
      List.mem_cons_self⟩⟩
  obtain ⟨c, hc⟩ := hc
  obtain ⟨a, ha, b, hb, a1, a2, b1, b2, a3, b3, y, z, hy, hz, ey, ez⟩ :=
    two_ways hf hr (by decide +kernel) hc (by decide +kernel) v
  refine ⟨y, z, hy, hz, ?_⟩
  have ka : ∀ e ∈ exactTable, e.src = ascii "K" → e.dst = ascii "C/10" →
      e.mul = 10 ∧ e.add = -2731.5001 := by decide +kernel
  have kb : ∀ e ∈ exactTable, e.src = ascii "C/10" → e.dst = ascii "K" →
      e.mul = 1 / 10 ∧ e.add = 2731.5001 := by decide +kernel
  rw [(ka a ha a1 a2).1, (ka a ha a1 a2).2] at ey
  rw [(kb b hb b1 b2).1, (kb b hb b1 b2).2] at ez
  have hv' := abs_le.mp hv
  have e1 : |10 * v| ≤ 10000 := by rw [abs_mul]; norm_num; linarith
  have ey' : |y - (10 * v + -2731.5001)| ≤ 1 := by
    refine ey.trans ?_
    rw [abs_of_neg (show (-2731.5001 : ℚ) < 0 by norm_num)]
    norm_num
    linarith
  have hy' := abs_le.mp ey'
  have e2 : |1 / 10 * y| ≤ 2000 := by
    rw [abs_le]
    constructor <;> norm_num at hy' ⊢ <;> linarith
  have ez' : |z - (1 / 10 * y + 2731.5001)| ≤ 1 / 100 := by
    refine ez.trans ?_
    rw [abs_of_pos (show (0 : ℚ) < 2731.5001 by norm_num)]
    norm_num at e2 ⊢
    linarith
  have hz' := abs_le.mp ez'
  norm_num at hz' hy' ⊢
  linarith

/-- The entry for feet that is registered as the reverse of that for metres. -/
def oneFoot : Entry :=
  ⟨ascii "FT", ascii "M", .linear (flNearest (1 / flNearest 3.2808)) (-flNearest 0)⟩

/-- `registered` with `oneFoot` moved to the end. -/
def mixedOrder : List Entry :=
  (registered flNearest).filter (fun e => e ≠ oneFoot) ++
    (registered flNearest).filter (fun e => !decide (e ≠ oneFoot))

/-- A sorted permutation in which `oneFoot` is the last of the two from feet to metres. -/
def mixedRepo : List Entry := mixedOrder.insertionSort fun a b => entryLe a b = true

theorem isRepo_mixed : IsRepo flNearest mixedRepo := by
  constructor
  · exact (List.perm_insertionSort _ _).trans (List.filter_append_perm _ _)
  · have ht : Std.Total fun a b => entryLe a b = true := ⟨fun a b => by
      have := entryLe_total a b
      simpa using this⟩
    have htr : IsTrans Entry fun a b => entryLe a b = true := ⟨entryLe_trans⟩
    have h := List.pairwise_insertionSort (fun a b => entryLe a b = true) mixedOrder
    exact h.imp fun h => by simpa [entryLe] using h

/-- Metres to feet and back with that repository. -/
def feetAndBack (v : ℚ) : Option ℚ :=
  match convert_units flNearest mixedRepo (ascii "M") (ascii "FT") (.fin v) with
  | .ok (.fin y) =>
    match convert_units flNearest mixedRepo (ascii "FT") (ascii "M") (.fin y) with
    | .ok (.fin z) => some z
    | _ => none
  | _ => none

/-- The sort may leave the two conversions between metres and feet in an order in which they
are not inverse: 10 km come back as more than 12 cm more. -/
theorem C53_not_feet : ∃ repo, IsRepo flNearest repo ∧ ∃ y z,
    convert_units flNearest repo (ascii "M") (ascii "FT") (.fin 10000) = .ok (.fin y) ∧
    convert_units flNearest repo (ascii "FT") (ascii "M") (.fin y) = .ok (.fin z) ∧
    10000 + 0.12 < z := by
  have h : (feetAndBack 10000).any (fun z => decide (10000 + 0.12 < z)) = true := by decide +kernel
  refine ⟨mixedRepo, isRepo_mixed, ?_⟩
  unfold feetAndBack at h
  split at h
  · next y hy =>
    split at h
    · next z hz => exact ⟨y, z, hy, hz, by simpa using h⟩
    · simp at h
  · simp at h
/-- The hypotheses: the repository of a stable sort, and degrees Celsius. -/
example : IsRounding flNearest ∧ IsRepo flNearest ((registered flNearest).mergeSort entryLe) ∧
    (∃ c, (⟨ascii "K", ascii "C", c⟩ : Entry) ∈ registered flNearest) ∧
    ¬ Among wrongPairs (ascii "K") (ascii "C") ∧ ¬ Among roughPairs (ascii "K") (ascii "C") ∧
    zeroShift (ascii "K") (ascii "C") = 274 ∧ zeroShift (ascii "PA") (ascii "hPa") = 0 :=
  ⟨isRounding_flNearest, isRepo_mergeSort _,
    ⟨_, List.mem_flatMap.mpr ⟨.linear "K" "C" 1 (-273.15001), by simp [calls],
      List.mem_cons_self⟩⟩, by decide +kernel, by decide +kernel, by decide +kernel, by decide +kernel⟩

/-- Two units between which there is no conversion. -/
example : ascii "K" ≠ ascii "M" ∧ ∀ c, (⟨ascii "K", ascii "M", c⟩ : Entry) ∉ registered flNearest := by
  have h : ∀ e ∈ registered flNearest, ¬ (e.src = ascii "K" ∧ e.dst = ascii "M") := by
    decide +kernel
  exact ⟨by decide +kernel, fun c hc => h _ hc ⟨rfl, rfl⟩⟩

/-! ## C65: the factors -/

/-- A registered factor and offset are those of the units. -/
def factorOk (e : Exact) (u w : Unit') : Bool :=
  u.dim = w.dim && 0 < u.scale && 0 < w.scale && |e.mul - u.scale / w.scale| ≤ u.scale / w.scale / 40000 &&
  |e.add - (u.zero - w.zero) / w.scale| ≤ u.tolerance * (3 / 4) &&
  (u.dim ≠ .temperature || (e.mul = u.scale / w.scale && |e.add| ≤ 2732 &&
    |(u.zero - w.zero) / w.scale| ≤ 2732)) &&
  (u.dim = .temperature || (e.add = 0 && u.zero = w.zero))

/-- The pairs with a wrong factor or offset. -/
def wrongFactors : List (String × String) := [("PA", "NBAR"), ("NBAR", "PA"), ("C/10", "K")]

/-- The pair, in this order. -/
def IsOneOf (l : List (String × String)) (src dst : List Byte) : Prop :=
  ∃ p ∈ l, ascii p.1 = src ∧ ascii p.2 = dst

instance (l : List (String × String)) (src dst : List Byte) : Decidable (IsOneOf l src dst) :=
  inferInstanceAs (Decidable (∃ p ∈ l, _))

/-- Unit names as bytes. -/
def unitBytes : List (List Byte × Unit') := units.map fun p => (ascii p.1, p.2)

theorem factors_ok : exactTable.all (fun e => IsOneOf wrongFactors e.src e.dst ||
    unitBytes.any fun u => u.1 == e.src && unitBytes.any fun w => w.1 == e.dst && factorOk e u.2 w.2) =
    true := by
  decide +kernel

theorem factor_err {e : Exact} {u w : Unit'} (h : factorOk e u w = true) {x y : ℚ}
    (hy : |y - (e.mul * x + e.add)| ≤ (|e.mul * x| + |e.add|) / 2 ^ 50) :
    |y - u.value w x| ≤ |u.value w x| / 30000 + u.tolerance := by
  simp only [factorOk, Bool.and_eq_true, Bool.or_eq_true, decide_eq_true_eq] at h
  obtain ⟨⟨⟨⟨⟨⟨hd, hu⟩, hw⟩, hm⟩, ha⟩, ht⟩, hn⟩ := h
  have hval : u.value w x = u.scale / w.scale * x + (u.zero - w.zero) / w.scale := by
    unfold Unit'.value; ring
  rw [hval]
  have hr : 0 < u.scale / w.scale := by positivity
  generalize u.scale / w.scale = r at *
  generalize hB : (u.zero - w.zero) / w.scale = B at *
  have px := abs_nonneg x
  by_cases hT : u.dim = .temperature
  · obtain ⟨⟨t1, t2⟩, t3⟩ := ht.resolve_left (by simp [hT])
    have htol : u.tolerance = 1 / 5000 := by simp [Unit'.tolerance, hT]
    rw [htol] at ha ⊢
    rw [t1] at hy
    have k1 : |r * x| ≤ |r * x + B| + 2732 := by
      have := abs_sub (r * x + B) B
      rw [add_sub_cancel_right] at this
      linarith
    have k2 : |y - (r * x + B)| ≤ |y - (r * x + e.add)| + |e.add - B| := by
      have := abs_add_le (y - (r * x + e.add)) (e.add - B)
      rwa [show y - (r * x + e.add) + (e.add - B) = y - (r * x + B) by ring] at this
    have p := abs_nonneg (r * x + B)
    norm_num at hy ha ⊢
    norm_num at k1
    generalize |r * x + B| = A at *
    generalize |r| * |x| = C at *
    generalize |y - (r * x + e.add)| = D at *
    linarith
  · obtain ⟨n1, n2⟩ := hn.resolve_left hT
    have hB0 : B = 0 := by rw [← hB, n2]; simp
    have htol : u.tolerance = 0 := by simp [Unit'.tolerance, hT]
    rw [htol, hB0]
    rw [n1] at hy
    simp only [add_zero, abs_zero] at hy ⊢
    have k0 : |e.mul * x - r * x| ≤ |r * x| / 40000 := by
      rw [← sub_mul, abs_mul, abs_mul, abs_of_pos hr]
      calc |e.mul - r| * |x| ≤ r / 40000 * |x| := by gcongr
        _ = _ := by ring
    have k1 : |e.mul * x| ≤ |r * x| + |e.mul * x - r * x| := by
      have := abs_add_le (r * x) (e.mul * x - r * x)
      simpa using this
    have k2 : |y - r * x| ≤ |y - e.mul * x| + |e.mul * x - r * x| := by
      have := abs_add_le (y - e.mul * x) (e.mul * x - r * x)
      simpa using this
    have p := abs_nonneg (r * x)
    generalize |y - r * x| = A at *
    generalize |y - e.mul * x| = C at *
    generalize |e.mul * x - r * x| = D at *
    generalize |r * x| = F at *
    generalize |e.mul * x| = G at *
    norm_num at hy k0 ⊢
    linarith

/-- Full statement: for every registered linear conversion. Missing: the three in
`wrongFactors`, for which it is false (`C65_not_nanobar`, `C65_not_tenths`). -/
theorem C65_factors_partial {fl : ℚ → ℚ} (hf : IsRounding fl) {repo : List Entry}
    (hr : IsRepo fl repo) {src dst : List Byte} {c : Convert} (hne : src ≠ dst)
    (hc : ⟨src, dst, c⟩ ∈ registered fl) (ho : ¬ Among octantPair src dst)
    (hw : ¬ IsOneOf wrongFactors src dst) :
    ∀ v, ∃ u w y, Named src dst u w ∧ convert_units fl repo src dst (.fin v) = .ok (.fin y) ∧
      |y - u.value w v| ≤ |u.value w v| / 30000 + u.tolerance := by
  intro v
  obtain ⟨a, ha, b, -, a1, a2, -, -, -, -, y, z, hy, -, ey, -⟩ := two_ways hf hr hne hc ho v
  have h := List.all_eq_true.mp factors_ok a ha
  rw [a1, a2] at h
  simp only [hw, decide_false, Bool.false_or, List.any_eq_true, Bool.and_eq_true,
    beq_iff_eq] at h
  obtain ⟨⟨s, u⟩, hu, hs, ⟨t, w⟩, hw', ht, hk⟩ := h
  obtain ⟨⟨s', u'⟩, hu', hue⟩ := List.mem_map.mp hu
  obtain ⟨⟨t', w'⟩, hw'', hwe⟩ := List.mem_map.mp hw'
  simp only [Prod.mk.injEq] at hue hwe
  obtain ⟨rfl, rfl⟩ := hue
  obtain ⟨rfl, rfl⟩ := hwe
  have hd : u'.dim = w'.dim := by
    simp only [factorOk, Bool.and_eq_true, decide_eq_true_eq] at hk
    exact hk.1.1.1.1.1.1
  exact ⟨u', w', y, ⟨s', t', hu', hw'', hs, ht, hd⟩, hy, factor_err hk ey⟩

/-- A pascal is 10000 nanobar; the code gives one ten thousandth of a nanobar. -/
theorem C65_not_nanobar {fl : ℚ → ℚ} (hf : IsRounding fl) {repo : List Entry} (hr : IsRepo fl repo) :
    (∀ u w, Named (ascii "PA") (ascii "NBAR") u w → u.value w 1 = 10000) ∧
    ∃ y, convert_units fl repo (ascii "PA") (ascii "NBAR") (.fin 1) = .ok (.fin y) ∧ y < 1 := by
  constructor
  · rintro u w ⟨s, t, hu, hw, hs, ht, -⟩
    have ku : ∀ p ∈ units, ascii p.1 = ascii "PA" → p.2 = ⟨.pressure, 1, 0⟩ := by decide +kernel
    have kw : ∀ p ∈ units, ascii p.1 = ascii "NBAR" → p.2 = ⟨.pressure, 0.0001, 0⟩ := by
      decide +kernel
    have eu := ku _ hu hs
    have ew := kw _ hw ht
    dsimp only at eu ew
    rw [eu, ew]
    norm_num [Unit'.value]
  · have hc : ∃ c, (⟨ascii "PA", ascii "NBAR", c⟩ : Entry) ∈ registered fl :=
      ⟨_, List.mem_flatMap.mpr ⟨.linear "PA" "NBAR" 0.0001 0, by simp [calls], List.mem_cons_self⟩⟩
    obtain ⟨c, hc⟩ := hc
    obtain ⟨a, ha, -, -, a1, a2, -, -, -, -, y, -, hy, -, ey, -⟩ :=
      two_ways hf hr (by decide +kernel) hc (by decide +kernel) 1
    have ka : ∀ e ∈ exactTable, e.src = ascii "PA" → e.dst = ascii "NBAR" →
        e.mul = 1 / 10000 ∧ e.add = 0 := by decide +kernel
    rw [(ka a ha a1 a2).1, (ka a ha a1 a2).2] at ey
    refine ⟨y, hy, ?_⟩
    have := (abs_le.mp ey).2
    norm_num at this
    linarith

/-- Zero tenths of a degree Celsius are more than 2000 K. -/
theorem C65_not_tenths {fl : ℚ → ℚ} (hf : IsRounding fl) {repo : List Entry} (hr : IsRepo fl repo) :
    ∃ y, convert_units fl repo (ascii "C/10") (ascii "K") (.fin 0) = .ok (.fin y) ∧ 2000 < y := by
  have hc : ∃ c, (⟨ascii "C/10", ascii "K", c⟩ : Entry) ∈ registered fl :=
    ⟨_, List.mem_flatMap.mpr ⟨.linear "K" "C/10" 10 (-2731.5001), by simp [calls],
      List.mem_cons_of_mem _ List.mem_cons_self⟩⟩
  obtain ⟨c, hc⟩ := hc
  obtain ⟨a, ha, -, -, a1, a2, -, -, -, -, y, -, hy, -, ey, -⟩ :=
    two_ways hf hr (by decide +kernel) hc (by decide +kernel) 0
  have ka : ∀ e ∈ exactTable, e.src = ascii "C/10" → e.dst = ascii "K" →
      e.mul = 1 / 10 ∧ e.add = 2731.5001 := by decide +kernel
  rw [(ka a ha a1 a2).1, (ka a ha a1 a2).2] at ey
  refine ⟨y, hy, ?_⟩
  have := (abs_le.mp ey).1
  rw [abs_of_pos (show (0 : ℚ) < 2731.5001 by norm_num)] at this
  norm_num at this
  linarith

example : ¬ IsOneOf wrongFactors (ascii "nodi") (ascii "M/S") ∧
    (∃ c, (⟨ascii "nodi", ascii "M/S", c⟩ : Entry) ∈ registered flNearest) ∧
    Named (ascii "nodi") (ascii "M/S") ⟨.speed, 1852 / 3600, 0⟩ ⟨.speed, 1, 0⟩ :=
  ⟨by decide +kernel, ⟨_, List.mem_flatMap.mpr ⟨.linear "nodi" "M/S" 0.51444 0, by simp [calls],
      List.mem_cons_self⟩⟩, "nodi", "M/S", by simp [units], by simp [units], rfl, rfl, rfl⟩

end Wreport
