import Verif.Model.Conv
import Verif.Lemmas.Float
import Mathlib.Tactic.Linarith
import Mathlib.Tactic.Ring
import Mathlib.Tactic.FieldSimp
import Mathlib.Tactic.Positivity
import Mathlib.Tactic.NormNum

/-!
# Lemmas about conversions
-/

namespace Wreport.Conv

/-! ## Comparison -/

theorem strcmp_eq {a b : List Byte} : strcmp a b = .eq ↔ a = b := by
  induction a generalizing b with
  | nil => cases b <;> simp [strcmp]
  | cons x s ih =>
    cases b with
    | nil => simp [strcmp]
    | cons y t =>
      simp only [strcmp]
      split
      · next h => simp; intro h'; subst h'; omega
      · split
        · next h => simp; intro h'; subst h'; omega
        · next h1 h2 =>
          have : x = y := UInt8.toNat_inj.mp (by omega)
          simp [ih, this]

theorem strcmp_refl (a : List Byte) : strcmp a a = .eq := strcmp_eq.mpr rfl

theorem strcmp_swap {a b : List Byte} : strcmp a b = .gt ↔ strcmp b a = .lt := by
  induction a generalizing b with
  | nil => cases b <;> simp [strcmp]
  | cons x s ih =>
    cases b with
    | nil => simp [strcmp]
    | cons y t =>
      simp only [strcmp]
      by_cases h1 : x.toNat < y.toNat
      · have h2 : ¬ y.toNat < x.toNat := by omega
        simp [h1, h2]
      · by_cases h2 : y.toNat < x.toNat <;> simp [h1, h2, ih]

theorem strcmp_trans {a b c : List Byte} (h1 : strcmp a b = .lt) (h2 : strcmp b c = .lt) :
    strcmp a c = .lt := by
  induction a generalizing b c with
  | nil =>
    cases b with
    | nil => simp [strcmp] at h1
    | cons y t => cases c with
      | nil => simp [strcmp] at h2
      | cons => simp [strcmp]
  | cons x s ih =>
    cases b with
    | nil => simp [strcmp] at h1
    | cons y t => cases c with
      | nil => simp [strcmp] at h2
      | cons z u =>
        simp only [strcmp] at h1 h2 ⊢
        split at h1
        · split at h2
          · rw [if_pos (by omega)]
          · split at h2
            · simp at h2
            · rw [if_pos (by omega)]
        · split at h1
          · simp at h1
          · split at h2
            · rw [if_pos (by omega)]
            · split at h2
              · simp at h2
              · rw [if_neg (by omega), if_neg (by omega)]
                exact ih h1 h2

/-- Comparison of pairs of units. -/
def cmp2 (p q : List Byte × List Byte) : Ordering :=
  match strcmp p.1 q.1 with
  | .eq => strcmp p.2 q.2
  | o => o

theorem compare_cmp2 (e : Entry) (s t : List Byte) : e.compare s t = cmp2 (e.src, e.dst) (s, t) := rfl

theorem lt_false {a b : Entry} : a.lt b = false ↔ cmp2 (a.src, a.dst) (b.src, b.dst) ≠ .lt :=
  decide_eq_false_iff_not

theorem cmp2_eq {p q} : cmp2 p q = .eq ↔ p = q := by
  unfold cmp2
  cases h : strcmp p.1 q.1
  · simp; intro e; subst e; simp [strcmp_refl] at h
  · simp [strcmp_eq] at h ⊢
    rw [Prod.ext_iff]; simp [h]
  · simp; intro e; subst e; simp [strcmp_refl] at h

theorem cmp2_swap {p q} : cmp2 p q = .gt ↔ cmp2 q p = .lt := by
  unfold cmp2
  cases h : strcmp p.1 q.1
  · have := (strcmp_swap (a := q.1) (b := p.1)).mpr h
    simp [this]
  · rw [strcmp_eq] at h
    rw [← h, strcmp_refl]; exact strcmp_swap
  · have := strcmp_swap.mp h
    simp [this]

theorem cmp2_trans {p q r} (h1 : cmp2 p q = .lt) (h2 : cmp2 q r = .lt) : cmp2 p r = .lt := by
  unfold cmp2 at *
  cases ha : strcmp p.1 q.1
  · cases hb : strcmp q.1 r.1
    · rw [strcmp_trans ha hb]
    · rw [strcmp_eq] at hb; rw [← hb, ha]
    · rw [hb] at h2; simp at h2
  · rw [ha] at h1; simp at h1
    rw [strcmp_eq] at ha; rw [ha]
    cases hb : strcmp q.1 r.1
    · rfl
    · rw [hb] at h2; simp at h2 ⊢; exact strcmp_trans h1 h2
    · rw [hb] at h2; simp at h2
  · rw [ha] at h1; simp at h1

theorem cmp2_lt_of {p q r} (h1 : cmp2 q p ≠ .lt) (h2 : cmp2 q r = .lt) : cmp2 p r = .lt := by
  cases h : cmp2 p q
  · exact cmp2_trans h h2
  · rw [cmp2_eq] at h; rw [h]; exact h2
  · exact absurd (cmp2_swap.mp h) h1

theorem cmp2_gt_of {p q r} (h1 : cmp2 q p ≠ .lt) (h2 : cmp2 p r = .gt) : cmp2 q r = .gt := by
  rw [cmp2_swap] at h2 ⊢
  cases h : cmp2 p q
  · exact cmp2_trans h2 h
  · rw [cmp2_eq] at h; rw [← h]; exact h2
  · exact absurd (cmp2_swap.mp h) h1

/-! ## Binary search -/

theorem findLoop_spec (repo : List Entry) (s t : List Byte) (b e : Int) (hb : -1 ≤ b) (hbe : b < e)
    (he : e ≤ repo.length)
    (hlo : ∀ x, 0 ≤ b → repo[b.toNat]? = some x → x.compare s t ≠ .gt)
    (hhi : ∀ x, repo[e.toNat]? = some x → x.compare s t = .gt) :
    ∃ k : Int, findLoop repo s t b e = .ok k ∧ -1 ≤ k ∧ k < repo.length ∧
      (∀ x, 0 ≤ k → repo[k.toNat]? = some x → x.compare s t ≠ .gt) ∧
      (∀ x, repo[(k + 1).toNat]? = some x → x.compare s t = .gt) := by
  rw [findLoop]
  split
  · next h =>
    have h1 : (e + b).tdiv 2 = (e + b) / 2 := Int.tdiv_eq_ediv_of_nonneg (by omega)
    simp only [h1]
    rw [if_neg (by omega)]
    have hlen : ((e + b) / 2).toNat < repo.length := by omega
    rw [List.getElem?_eq_getElem hlen]
    dsimp only
    split
    · next hc =>
      refine findLoop_spec repo s t b ((e + b) / 2) hb (by omega) (by omega) hlo ?_
      intro x hx
      rw [List.getElem?_eq_getElem hlen] at hx
      cases hx; exact hc
    · next hc =>
      refine findLoop_spec repo s t ((e + b) / 2) e (by omega) (by omega) he ?_ hhi
      intro x _ hx
      rw [List.getElem?_eq_getElem hlen] at hx
      cases hx; exact hc
  · have : e = b + 1 := by omega
    subst this
    exact ⟨b, rfl, hb, by omega, hlo, hhi⟩
termination_by (e - b).toNat

/-- In a sorted repository `find` gives an entry of the pair, and nothing only if there is
none. -/
theorem find_spec (repo : List Entry) (hs : repo.Pairwise fun a b => b.lt a = false)
    (s t : List Byte) :
    (∃ c, find repo s t = .ok (some c) ∧ ⟨s, t, c⟩ ∈ repo) ∨
    (find repo s t = .ok none ∧ ∀ x ∈ repo, x.src = s → x.dst ≠ t) := by
  obtain ⟨k, hk, h1, h2, hlo, hhi⟩ := findLoop_spec repo s t (-1) repo.length (by omega) (by omega)
    le_rfl (by intro x h; omega) (by simp)
  have hpair : ∀ i j (hi : i < repo.length) (hj : j < repo.length), i < j →
      cmp2 (repo[j].src, repo[j].dst) (repo[i].src, repo[i].dst) ≠ .lt := by
    intro i j hi hj hij
    have := List.pairwise_iff_getElem.mp hs i j hi hj hij
    exact of_decide_eq_false this
  have after : ∀ i (hi : i < repo.length), k < i →
      cmp2 (repo[i].src, repo[i].dst) (s, t) = .gt := by
    intro i hi hki
    have hk1 : (k + 1).toNat < repo.length := by omega
    have hg := hhi _ (List.getElem?_eq_getElem hk1)
    rw [compare_cmp2] at hg
    rcases Nat.lt_or_ge (k + 1).toNat i with hlt | hge
    · exact cmp2_gt_of (hpair _ _ hk1 hi hlt) hg
    · have : (k + 1).toNat = i := by omega
      subst this; exact hg
  have nobody : (∀ i (hi : i < repo.length), (i : Int) ≤ k →
      cmp2 (repo[i].src, repo[i].dst) (s, t) = .lt) → ∀ x ∈ repo, x.src = s → x.dst ≠ t := by
    intro hbefore x hx hxs hxt
    obtain ⟨i, hi, rfl⟩ := List.mem_iff_getElem.mp hx
    rcases lt_or_ge k (i : Int) with hlt | hge
    · have := after i hi hlt
      rw [hxs, hxt, cmp2_eq.mpr rfl] at this; cases this
    · have := hbefore i hi hge
      rw [hxs, hxt, cmp2_eq.mpr rfl] at this; cases this
  unfold find
  rw [hk]
  simp only [Res.ok_bind]
  by_cases hk0 : k = -1
  · right
    rw [if_pos hk0]
    exact ⟨rfl, nobody (fun i hi hle => by omega)⟩
  · rw [if_neg hk0]
    have hkl : k.toNat < repo.length := by omega
    have hng := hlo _ (by omega) (List.getElem?_eq_getElem hkl)
    rw [List.getElem?_eq_getElem hkl]
    dsimp only
    by_cases he : repo[k.toNat].compare s t = .eq
    · left
      refine ⟨repo[k.toNat].conv, by simp [he], ?_⟩
      rw [compare_cmp2, cmp2_eq, Prod.mk.injEq] at he
      have : (⟨s, t, repo[k.toNat].conv⟩ : Entry) = repo[k.toNat] := by
        rw [← he.1, ← he.2]
      rw [this]; exact List.getElem_mem hkl
    · right
      refine ⟨by simp [he], nobody ?_⟩
      intro i hi hle
      have hlt : cmp2 (repo[k.toNat].src, repo[k.toNat].dst) (s, t) = .lt := by
        rw [compare_cmp2] at hng he
        cases h : cmp2 (repo[k.toNat].src, repo[k.toNat].dst) (s, t)
        · rfl
        · exact absurd h he
        · exact absurd h hng
      rcases Nat.lt_or_ge i k.toNat with h | h
      · exact cmp2_lt_of (hpair _ _ hi hkl h) hlt
      · have : i = k.toNat := by omega
        subst this; exact hlt

/-! ## Exact factors -/

/-- A linear conversion without rounding: `mul * x + add`. -/
structure Exact where
  src : List Byte
  dst : List Byte
  mul : ℚ
  add : ℚ
deriving DecidableEq

/-- What a call registers, without rounding. -/
def Call.exact : Call → List Exact
  | .linear src dst mul add =>
    [⟨ascii src, ascii dst, mul, add⟩, ⟨ascii dst, ascii src, 1 / mul, -add⟩]
  | .ident src dst => [⟨ascii src, ascii dst, 1, 0⟩, ⟨ascii dst, ascii src, 1, 0⟩]
  | .octants _ _ => []

def exactTable : List Exact := calls.flatMap Call.exact

/-- The call has a positive factor. -/
def Call.pos : Call → Bool
  | .linear _ _ mul _ => 0 < mul
  | _ => true

theorem calls_pos : calls.all Call.pos = true := by decide +kernel

theorem linear_err {fl : ℚ → ℚ} (hf : IsRounding fl) {m b mul add : ℚ} (hm : 0 < m)
    (h1 : |mul - m| ≤ 3 * m / 2 ^ 53) (h2 : |add - b| ≤ |b| / 2 ^ 53) (x : ℚ) :
    |fl (fl (x * mul) + add) - (m * x + b)| ≤ (|m * x| + |b|) / 2 ^ 50 := by
  have e1 : |x * mul - m * x| ≤ 3 * |m * x| / 2 ^ 53 := by
    have : x * mul - m * x = x * (mul - m) := by ring
    rw [this, abs_mul, abs_mul, abs_of_pos hm]
    calc |x| * |mul - m| ≤ |x| * (3 * m / 2 ^ 53) := by gcongr
      _ = 3 * (m * |x|) / 2 ^ 53 := by ring
  have e2 := hf.err (x * mul)
  have e3 := hf.err (fl (x * mul) + add)
  have a1 : |x * mul| ≤ |m * x| + |x * mul - m * x| := by
    have := abs_add_le (m * x) (x * mul - m * x)
    simpa using this
  have a2 : |fl (x * mul) + add| ≤
      |m * x| + |b| + |x * mul - m * x| + |fl (x * mul) - x * mul| + |add - b| := by
    have h := abs_add_le (m * x + b) ((x * mul - m * x) + ((fl (x * mul) - x * mul) + (add - b)))
    have h' := abs_add_le (x * mul - m * x) ((fl (x * mul) - x * mul) + (add - b))
    have h'' := abs_add_le (fl (x * mul) - x * mul) (add - b)
    have h3 := abs_add_le (m * x) b
    have : m * x + b + (x * mul - m * x + (fl (x * mul) - x * mul + (add - b))) =
      fl (x * mul) + add := by ring
    rw [this] at h
    linarith
  have a3 : |fl (fl (x * mul) + add) - (m * x + b)| ≤
      |fl (fl (x * mul) + add) - (fl (x * mul) + add)| + |fl (x * mul) - x * mul| +
        |x * mul - m * x| + |add - b| := by
    have h := abs_add_le (fl (fl (x * mul) + add) - (fl (x * mul) + add))
      ((fl (x * mul) - x * mul) + ((x * mul - m * x) + (add - b)))
    have h' := abs_add_le (fl (x * mul) - x * mul) ((x * mul - m * x) + (add - b))
    have h'' := abs_add_le (x * mul - m * x) (add - b)
    have : fl (fl (x * mul) + add) - (fl (x * mul) + add) +
        (fl (x * mul) - x * mul + (x * mul - m * x + (add - b))) =
      fl (fl (x * mul) + add) - (m * x + b) := by ring
    rw [this] at h
    linarith
  have p1 := abs_nonneg (m * x)
  have p2 := abs_nonneg b
  clear h1
  generalize |fl (fl (x * mul) + add) - (m * x + b)| = A at *
  generalize |fl (fl (x * mul) + add) - (fl (x * mul) + add)| = B at *
  generalize |fl (x * mul) + add| = C at *
  generalize |fl (x * mul) - x * mul| = D at *
  generalize |x * mul - m * x| = F at *
  generalize |x * mul| = G at *
  generalize |m * x| = H at *
  generalize |add - b| = I at *
  generalize |b| = J at *
  norm_num at e1 e2 e3 h2 ⊢
  linarith

theorem recip_err {fl : ℚ → ℚ} (hf : IsRounding fl) {m : ℚ} (hm : 0 < m) :
    |fl (1 / fl m) - 1 / m| ≤ 3 * (1 / m) / 2 ^ 53 := by
  have h1 := hf.err m
  rw [abs_of_pos hm] at h1
  have hlo : m * (1 - 1 / 2 ^ 53) ≤ fl m := by
    have := (abs_le.mp h1).1
    linarith
  have hhi : fl m ≤ m * (1 + 1 / 2 ^ 53) := by
    have := (abs_le.mp h1).2
    linarith
  have hfp : 0 < fl m := lt_of_lt_of_le (by norm_num; linarith) hlo
  have e : |1 / fl m - 1 / m| ≤ (3 / 2) * (1 / m) / 2 ^ 53 := by
    have : 1 / fl m - 1 / m = (m - fl m) / (fl m * m) := by field_simp
    rw [this, abs_div, abs_of_pos (mul_pos hfp hm), div_le_iff₀ (mul_pos hfp hm), abs_sub_comm]
    refine h1.trans ?_
    have : 3 / 2 * (1 / m) / 2 ^ 53 * (fl m * m) = 3 / 2 * fl m / 2 ^ 53 := by field_simp
    rw [this]
    norm_num at hlo ⊢
    linarith
  have e2 := hf.err (1 / fl m)
  have a1 : |1 / fl m| ≤ 1 / m + |1 / fl m - 1 / m| := by
    have := abs_add_le (1 / m) (1 / fl m - 1 / m)
    rw [abs_of_pos (show 0 < 1 / m by positivity)] at this
    simpa using this
  have a2 : |fl (1 / fl m) - 1 / m| ≤ |fl (1 / fl m) - 1 / fl m| + |1 / fl m - 1 / m| := by
    have := abs_add_le (fl (1 / fl m) - 1 / fl m) (1 / fl m - 1 / m)
    simpa using this
  have p : 0 < 1 / m := by positivity
  generalize 1 / m = r at *
  generalize 1 / fl m = q at *
  norm_num at *
  linarith

/-- A registered conversion other than that of octants computes a linear function with one of
the registered factors, up to rounding. -/
theorem registered_exact {fl : ℚ → ℚ} (hf : IsRounding fl) {e : Entry} (he : e ∈ registered fl)
    (h1 : e.conv ≠ .octantsToDegrees) (h2 : e.conv ≠ .degreesToOctants) :
    ∃ x ∈ exactTable, x.src = e.src ∧ x.dst = e.dst ∧ 0 < x.mul ∧
      ∀ v, ∃ w, e.conv.convert fl (.fin v) = .ok (.fin w) ∧
        |w - (x.mul * v + x.add)| ≤ (|x.mul * v| + |x.add|) / 2 ^ 50 := by
  obtain ⟨c, hc, he⟩ := List.mem_flatMap.mp he
  have hpos := List.all_eq_true.mp calls_pos c hc
  have mem : ∀ x, x ∈ c.exact → x ∈ exactTable := fun x hx => List.mem_flatMap.mpr ⟨c, hc, hx⟩
  cases c with
  | linear s d mul add =>
    have hm : 0 < mul := by simpa [Call.pos] using hpos
    simp only [Call.entries, List.mem_cons, List.not_mem_nil, or_false] at he
    rcases he with rfl | rfl
    · refine ⟨⟨ascii s, ascii d, mul, add⟩, mem _ (by simp [Call.exact]), rfl, rfl, hm, fun v => ?_⟩
      refine ⟨_, rfl, linear_err hf hm ?_ (hf.err add) v⟩
      have := hf.err mul
      rw [abs_of_pos hm] at this
      refine this.trans ?_
      gcongr; linarith
    · refine ⟨⟨ascii d, ascii s, 1 / mul, -add⟩, mem _ (by simp [Call.exact]), rfl, rfl,
        by positivity, fun v => ?_⟩
      refine ⟨_, rfl, linear_err hf (by positivity) (recip_err hf hm) ?_ v⟩
      have := hf.err add
      rw [abs_neg, show -fl add - -add = -(fl add - add) by ring, abs_neg]
      exact this
  | ident s d =>
    simp only [Call.entries, List.mem_cons, List.not_mem_nil, or_false] at he
    rcases he with rfl | rfl
    · refine ⟨⟨ascii s, ascii d, 1, 0⟩, mem _ (by simp [Call.exact]), rfl, rfl, one_pos, fun v => ?_⟩
      refine ⟨v, rfl, ?_⟩
      simp; positivity
    · refine ⟨⟨ascii d, ascii s, 1, 0⟩, mem _ (by simp [Call.exact]), rfl, rfl, one_pos, fun v => ?_⟩
      refine ⟨v, rfl, ?_⟩
      simp; positivity
  | octants s d =>
    simp only [Call.entries, List.mem_cons, List.not_mem_nil, or_false] at he
    rcases he with rfl | rfl <;> simp at h1 h2

/-- Two linear functions, each up to rounding. -/
theorem compose_err {m1 b1 m2 b2 x y z δ : ℚ} (hm1 : 0 < m1) (hm2 : 0 < m2)
    (hm : |m2 * m1 - 1| ≤ δ) (hδ : δ ≤ 1 / 2 ^ 10) (hb : m2 * b1 + b2 = 0)
    (hy : |y - (m1 * x + b1)| ≤ (|m1 * x| + |b1|) / 2 ^ 50)
    (hz : |z - (m2 * y + b2)| ≤ (|m2 * y| + |b2|) / 2 ^ 50) :
    |z - x| ≤ δ * |x| + (|x| + |b2|) / 2 ^ 48 := by
  have hb' : m2 * |b1| = |b2| := by
    have : b2 = -(m2 * b1) := by linarith
    rw [this, abs_neg, abs_mul, abs_of_pos hm2]
  have hmm : m2 * |m1 * x| ≤ (1 + δ) * |x| := by
    rw [abs_mul, abs_of_pos hm1, ← mul_assoc]
    have := (abs_le.mp hm).2
    have p := abs_nonneg x
    nlinarith
  have k1 : |m2 * (y - (m1 * x + b1))| ≤ ((1 + δ) * |x| + |b2|) / 2 ^ 50 := by
    rw [abs_mul, abs_of_pos hm2]
    calc m2 * |y - (m1 * x + b1)| ≤ m2 * ((|m1 * x| + |b1|) / 2 ^ 50) := by gcongr
      _ = (m2 * |m1 * x| + m2 * |b1|) / 2 ^ 50 := by ring
      _ ≤ _ := by rw [hb']; gcongr
  have k2 : |m2 * y| ≤ (1 + δ) * |x| + |b2| + |m2 * (y - (m1 * x + b1))| := by
    have h := abs_add_le (m2 * (m1 * x) + m2 * b1) (m2 * (y - (m1 * x + b1)))
    have h' := abs_add_le (m2 * (m1 * x)) (m2 * b1)
    rw [show m2 * (m1 * x) + m2 * b1 + m2 * (y - (m1 * x + b1)) = m2 * y by ring] at h
    rw [abs_mul m2 (m1 * x), abs_mul m2 b1, abs_of_pos hm2, hb'] at h'
    linarith
  have k3 : |z - x| ≤ |z - (m2 * y + b2)| + |m2 * (y - (m1 * x + b1))| + |(m2 * m1 - 1) * x| := by
    have h := abs_add_le (z - (m2 * y + b2)) (m2 * (y - (m1 * x + b1)) + (m2 * m1 - 1) * x)
    have h' := abs_add_le (m2 * (y - (m1 * x + b1))) ((m2 * m1 - 1) * x)
    have : z - (m2 * y + b2) + (m2 * (y - (m1 * x + b1)) + (m2 * m1 - 1) * x) = z - x := by
      linarith [hb]
    rw [this] at h
    linarith
  have k4 : |(m2 * m1 - 1) * x| ≤ δ * |x| := by
    rw [abs_mul]; gcongr
  have p1 := abs_nonneg x
  have p2 := abs_nonneg b2
  have k5 : δ * |x| ≤ |x| / 2 ^ 10 := by
    calc δ * |x| ≤ 1 / 2 ^ 10 * |x| := by gcongr
      _ = _ := by ring
  have k6 : (1 + δ) * |x| ≤ |x| + |x| / 2 ^ 10 := by linarith
  have q1 : |m2 * (y - (m1 * x + b1))| ≤ (|x| + |x| / 2 ^ 10 + |b2|) / 2 ^ 50 := by
    refine k1.trans ?_; gcongr
  have q2 : |m2 * y| ≤ |x| + |x| / 2 ^ 10 + |b2| + |m2 * (y - (m1 * x + b1))| := by linarith
  have q3 : |z - (m2 * y + b2)| + |m2 * (y - (m1 * x + b1))| ≤ (|x| + |b2|) / 2 ^ 48 := by
    generalize |m2 * (y - (m1 * x + b1))| = A at *
    generalize |m2 * y| = B at *
    generalize |z - (m2 * y + b2)| = C at *
    norm_num at q1 q2 hz ⊢
    linarith
  linarith

end Wreport.Conv
