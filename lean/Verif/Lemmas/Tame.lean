import Verif.Spec.Tame
import Verif.Lemmas.Sane

/-! # Descriptions of data under tame operators -/

namespace Wreport

open Spec

variable {E : Env} {safe : Prop} {l : Bounds}

/-- What operators have set that changes descriptions of data. -/
structure Mode.Mild (l : Bounds) {σ : Type} (s : Interp σ) : Prop where
  width : -(l.narrow : Int) ≤ s.c_width_change ∧ s.c_width_change ≤ l.widen
  scale : -128 ≤ s.c_scale_change ∧ s.c_scale_change ≤ 127
  power : 0 ≤ s.c_scale_ref_width_increase ∧ s.c_scale_ref_width_increase ≤ l.power
  chars : 0 ≤ s.c_string_len_override ∧ s.c_string_len_override ≤ 255
  refs : ∀ c n, (c, n) ∈ s.c03_refval_overrides → |ofU32 n| < 2 ^ 30

/-- What operators have set. -/
structure Mode.Tame (E : Env) (l : Bounds) {σ : Type} (s : Interp σ) : Prop extends
    Mode.Mild l s where
  pending : s.bitmaps.pending_definitions = 0
  current : s.bitmaps.current = none
  last : s.bitmaps.last = none
  field : s.associated_field.bit_count ≠ 0 → OnesOk E s.associated_field.bit_count
  bits : s.c03_refval_override_bits ≤ 30

/-- Descriptions of data that callbacks can be given. -/
structure Handy (safe : Prop) (E : Env) (w : Nat) (i : Varinfo) : Prop where
  made : i.Made E
  width : safe → i.bit_len ≤ w
  ones : safe → i.IsNum → OnesOk E i.bit_len

theorem sint_ok {a : Int} (h : -2147483648 ≤ a ∧ a ≤ 2147483647) : E.sint a = .ok a := by
  unfold Env.sint
  rw [if_pos (inInt_iff.mpr h)]

theorem sint_inInt {a b : Int} (h : E.sint a = .ok b) : inInt b = true := by
  unfold Env.sint at h
  split at h
  · cases h; assumption
  · split at h
    · cases h; exact wrapInt_in _
    · cases h

namespace Vartable

theorem query_safe (t : Vartable) (c : Varcode) : t.query c ≠ .ub := by
  obtain ⟨r, hr, -⟩ := query_entry_safe (t := t) c
  unfold query
  rw [hr, Res.ok_bind]
  cases r <;> simp

theorem contains_safe (t : Vartable) (c : Varcode) : t.contains c ≠ .ub := by
  obtain ⟨r, hr, -⟩ := query_entry_safe (t := t) c
  unfold contains
  rw [hr, Res.ok_bind]
  cases r <;> simp

theorem query_found {t : Vartable} {c : Varcode} {i : Varinfo} (h : t.query c = .ok i) :
    ∃ (k : Nat) (e : VartableEntry), t.entries[k]? = some e ∧ e.varinfo = i ∧ i.code = c := by
  obtain ⟨r, hr, h1⟩ := query_entry_safe (t := t) c
  unfold query at h
  rw [hr, Res.ok_bind] at h
  cases r with
  | none => cases h
  | some p =>
    obtain ⟨k, e⟩ := p
    obtain ⟨h2, h3⟩ := h1 k e rfl
    cases h
    exact ⟨k, e, h2, rfl, h3⟩

theorem query_has {t : Vartable} (ht : t.Inv E) {c : Varcode} {w : Nat}
    (hc : safe → ∀ i, t.query c = .ok i → TameInfo E l i ∧ l.width ≤ w) :
    (t.query c).Has safe (Handy safe E w) := by
  refine Res.Has.of (fun i hi => ?_) fun _ => query_safe t c
  obtain ⟨k, e, he, rfl, -⟩ := query_found hi
  have hm := (ht.entries e (List.mem_of_getElem? he)).made
  refine ⟨hm, fun s => ?_, fun s hn => ?_⟩
  · obtain ⟨h1, h2⟩ := hc s _ hi
    exact h1.width.trans h2
  · obtain ⟨h1, -⟩ := hc s _ hi
    obtain ⟨n1, n2⟩ := h1.num hn
    have := h1.narrow
    refine ⟨by omega, ?_⟩
    rcases n2 with n2 | n2
    · by_cases h : e.varinfo.bit_len = 32
      · exact Or.inr ⟨h, n2⟩
      · exact Or.inl (by omega)
    · exact Or.inl (by omega)

end Vartable

theorem DTable.query_safe (t : DTable) (c : Varcode) : t.query c ≠ .ub := by
  obtain ⟨r, hr, h1⟩ := searchCode_safe (t.entries.map (·.code)) c
  unfold DTable.query
  rw [hr, Res.ok_bind]
  cases r with
  | none => simp
  | some k =>
    have := h1 k rfl
    rw [List.getElem?_map] at this
    simp only
    cases he : t.entries[k]? with
    | none => rw [he] at this; cases this
    | some e => simp

theorem compute_range_safe {i : Varinfo} (hs : -16 ≤ i.scale ∧ i.scale ≤ 16)
    (hb : i.len < 10 → i.bit_len ≤ 29) (hr : |i.bit_ref| < 2 ^ 30) : i.compute_range E ≠ .ub := by
  have hd : ∀ x, i.decode_decimal E x ≠ .ub := by
    intro x
    unfold Varinfo.decode_decimal
    split
    · rw [scales_ok (by omega)]; simp
    · split
      · rw [scales_ok (by omega)]; simp
      · simp
  have he : ∀ n, intexp10 n ≠ .ub := by
    intro n
    unfold intexp10
    split <;> simp
  have hr' := abs_lt.mp hr
  have hi : i.intRange E ≠ .ub := by
    unfold Varinfo.intRange
    split
    · simp
    · split
      · refine Res.Has.not_ub (safe := True) (P := fun _ => True) (Res.Has.bind (P := fun _ => True)
          (Res.Has.trivial' fun _ => he _) fun _ _ _ => ?_) trivial
        trivial
      · have h29 : i.bit_len ≤ 29 := hb (by omega)
        have hp : (2 : Int) ^ i.bit_len ≤ 2 ^ 29 := pow_le_pow_right₀ (by norm_num) h29
        have hp0 : (0 : Int) < 2 ^ i.bit_len := by positivity
        norm_num at hp hr'
        have hm : i.bitMax E ≠ .ub := by
          unfold Varinfo.bitMax shl1
          rw [if_pos (by omega)]
          simp only [Res.ok_bind]
          push_cast
          rw [sint_ok (by constructor <;> omega)]
          simp only [Res.ok_bind]
          split
          · rw [sint_ok (by constructor <;> omega)]; simp
          · simp
        refine Res.Has.not_ub (safe := True) (P := fun _ => True) (Res.Has.bind (P := fun _ => True)
          (Res.Has.trivial' fun _ => hm) fun _ _ _ => ?_) trivial
        exact Res.Has.bind (P := fun _ => True) (Res.Has.trivial' fun _ => he _) fun _ _ _ => trivial
  unfold Varinfo.compute_range
  split
  · simp
  · simp
  all_goals
    refine Res.Has.not_ub (safe := True) (P := fun _ => True) (Res.Has.bind (P := fun _ => True)
      (Res.Has.trivial' fun _ => hi) fun _ _ _ => ?_) trivial
    refine Res.Has.bind (P := fun _ => True) (Res.Has.trivial' fun _ => hd _) fun _ _ _ => ?_
    exact Res.Has.bind (P := fun _ => True) (Res.Has.trivial' fun _ => hd _) fun _ _ _ => trivial

theorem digits_has (n : Nat) :
    (digits_per_bits n).Has True (fun len => len < 10 → n ≤ 29) := by
  have key : ∀ m < 33, ∃ len, (digits_per_bits m = .ok len ∧ (len < 10 → m ≤ 29)) ∨
      digits_per_bits m = .err .consistency := by
    intro m hm
    by_cases h0 : m = 0
    · exact ⟨0, Or.inr (by subst h0; rfl)⟩
    · have : ∀ m < 33, m ≠ 0 → ∃ len ∈ List.range 11, digits_per_bits m = .ok len ∧
        (len < 10 → m ≤ 29) := by decide +kernel
      obtain ⟨len, -, h⟩ := this m hm h0
      exact ⟨len, Or.inl h⟩
  by_cases hn : n < 33
  · obtain ⟨len, ⟨h, h'⟩ | h⟩ := key n hn
    · rw [h]; exact h'
    · rw [h]; trivial
  · have : digits_per_bits n = .err .consistency := by
      unfold digits_per_bits
      rw [if_neg (by omega), if_neg (by omega), if_neg (by omega), if_neg (by omega),
        if_neg (by omega), if_neg (by omega), if_neg (by omega), if_neg (by omega),
        if_neg (by omega), if_neg (by omega), if_neg (by omega)]
    rw [this]
    trivial

theorem alteredOf_has {base : Varinfo} {s : Int} {n : Nat} {r : Int} {w : Nat}
    (hm : base.Made E) (hb : base.type ≠ .binary) (hr : inInt r = true)
    (hsafe : safe → 1 ≤ n ∧ n ≤ w ∧ |r| < 2 ^ 30 ∧ (base.IsNum → n = 32 → E.wrapv = true) ∧
      (base.IsNum → base.bit_len ≤ 32)) :
    (Vartable.alteredOf E base s n r).Has safe (fun i => Handy safe E w i) := by
  unfold Vartable.alteredOf
  split
  · next hk =>
    simp only [Varinfo.key, Prod.mk.injEq] at hk
    obtain ⟨rfl, rfl, rfl⟩ := hk
    refine ⟨hm, fun hs => (hsafe hs).2.1, fun hs hn => ⟨(hsafe hs).1, ?_⟩⟩
    by_cases h : base.bit_len = 32
    · exact Or.inr ⟨h, (hsafe hs).2.2.2.1 hn h⟩
    · have := (hsafe hs).2.2.2.2 hn
      exact Or.inl (by omega)
  · refine Res.Has.bind (P := fun _ => base.IsNum → -16 ≤ s ∧ s ≤ 16 ∧ n ≤ 32) ?_ fun _ _ hch => ?_
    · unfold Vartable.checkAlter
      split
      · split
        · trivial
        · split
          · trivial
          · intro _; omega
      · split
        · trivial
        · split
          · trivial
          · intro _; omega
      · next h1 h2 =>
        rintro (h | h)
        · exact absurd h h1
        · exact absurd h h2
    · refine Res.Has.of (fun v hv => ?_) fun hs => ?_
      · obtain ⟨h1, h2, h3, h4, h5, h6, h7⟩ := alter_fields hv
        have hn' : v.IsNum → base.IsNum := by
          intro hn
          unfold Varinfo.IsNum at *
          rw [h6] at hn
          unfold alteredType at hn
          cases ht : base.type <;> rw [ht] at hn <;> simp at hn ⊢
        refine ⟨alter_made hb hr hv, fun hs => ?_, fun hs hn => ?_⟩
        · rw [h3]; exact (hsafe hs).2.1
        · rw [h3]
          refine ⟨(hsafe hs).1, ?_⟩
          have := (hch (hn' hn)).2.2
          by_cases h : n = 32
          · exact Or.inr ⟨h, (hsafe hs).2.2.2.1 (hn' hn) h⟩
          · exact Or.inl (by omega)
      · obtain ⟨h1, -, h3, -⟩ := hsafe hs
        unfold Varinfo.alter
        cases ht : base.type with
        | string => simp [alteredLen, Varinfo.compute_range, alteredType]
        | binary => exact absurd ht hb
        | integer | decimal =>
          have hch := hch (by simp [Varinfo.IsNum, ht])
          refine Res.Has.not_ub (safe := True) (P := fun _ => True)
            (Res.Has.bind (P := fun len => len < 10 → n ≤ 29) ?_ fun len _ hl => ?_) trivial
          · exact digits_has n
          · refine Res.Has.trivial' fun _ => compute_range_safe ?_ ?_ ?_
            · exact ⟨hch.1, hch.2.1⟩
            · exact hl
            · exact h3

theorem lookup_mem {c : Varcode} {n : Nat} : ∀ {m : List (Varcode × Nat)}, m.lookup c = some n →
    (c, n) ∈ m
  | [], h => by cases h
  | (d, k) :: m, h => by
    rw [List.lookup_cons] at h
    split at h
    · next he =>
      cases h
      rw [eq_of_beq he]
      simp
    · exact List.mem_cons_of_mem _ (lookup_mem h)

theorem overriddenRef_cases {σ : Type} (s : Interp σ) (c : Varcode) (r : Int) :
    Interp.overriddenRef s c r = r ∨
      ∃ n, (c, n) ∈ s.c03_refval_overrides ∧ Interp.overriddenRef s c r = ofU32 n := by
  unfold Interp.overriddenRef
  cases h : s.c03_refval_overrides.lookup c with
  | none => exact Or.inl (by rw [Option.map_none, Option.getD_none])
  | some n => exact Or.inr ⟨n, lookup_mem h, by rw [Option.map_some, Option.getD_some]⟩

theorem overriddenRef_in {σ : Type} (s : Interp σ) (c : Varcode) {r : Int} (hr : inInt r = true) :
    inInt (Interp.overriddenRef s c r) = true := by
  rcases overriddenRef_cases s c r with h | ⟨n, -, h⟩
  · rw [h]; exact hr
  · rw [h]
    unfold ofU32
    exact wrapInt_in _

theorem overriddenRef_small {σ : Type} {s : Interp σ} (hs : Mode.Mild l s) (c : Varcode) {r : Int}
    (hr : |r| < 2 ^ 30) : |Interp.overriddenRef s c r| < 2 ^ 30 := by
  rcases overriddenRef_cases s c r with h | ⟨n, hn, h⟩
  · rw [h]; exact hr
  · rw [h]
    exact hs.refs _ _ hn

/-- The width of a tame element under tame operators. -/
theorem changedWidth_tame {σ : Type} (hf : l.Fair) {s : Interp σ} (hm : Mode.Mild l s)
    {peek : Varinfo} (hi : TameInfo E l peek) :
    ∃ n : Nat, 1 ≤ n ∧ n ≤ l.room ∧ (peek.IsNum → n = 32 → E.wrapv = true) ∧ n ≤ 2000000 ∧
      Interp.changedWidth E s peek = .ok (n - (10 * s.c_scale_ref_width_increase + 2) / 3) := by
  have h1 := hf.widen
  have h2 := hf.power
  have h3 := hf.width
  have h4 := hi.narrow
  have h5 := hi.width
  obtain ⟨m1, m2⟩ := hm.width
  obtain ⟨m3, m4⟩ := hm.power
  obtain ⟨m5, m6⟩ := hm.chars
  have hmore : l.more = (10 * l.power + 2) / 3 := rfl
  have hroom : l.room = l.width + 2040 + l.widen + l.more := rfl
  unfold Interp.changedWidth
  split
  · next hst =>
    refine ⟨(s.c_string_len_override * 8 + (10 * s.c_scale_ref_width_increase + 2) / 3).toNat,
      by omega, by omega, fun hn => ?_, by omega, ?_⟩
    · exact absurd hn (string_not_num hst.1)
    · rw [sint_ok (by omega), Res.ok.injEq]
      omega
  · refine ⟨(peek.bit_len + s.c_width_change +
      (10 * s.c_scale_ref_width_increase + 2) / 3).toNat, by omega, by omega, fun hn h32 => ?_,
      by omega, ?_⟩
    · rcases (hi.num hn).2 with h | h
      · exact h
      · omega
    · rw [wrapInt_eq (inInt_iff.mpr (by omega)), sint_ok (by omega), Res.ok.injEq]
      omega

theorem increasedRef_tame {σ : Type} (hf : l.Fair) {s : Interp σ} (hm : Mode.Mild l s)
    {peek : Varinfo} (hi : TameInfo E l peek) :
    ∃ r : Int, |r| < 2 ^ 30 ∧ Interp.increasedRef E s peek = .ok r := by
  have h1 := hi.ref
  obtain ⟨m3, m4⟩ := hm.power
  have h2 := hf.power
  have hpow : |peek.bit_ref * 10 ^ s.c_scale_ref_width_increase.toNat| < 2 ^ 30 := by
    rw [abs_mul]
    refine lt_of_le_of_lt ?_ h1
    refine mul_le_mul_of_nonneg_left ?_ (abs_nonneg _)
    rw [abs_of_nonneg (by positivity)]
    exact pow_le_pow_right₀ (by norm_num) (by omega)
  unfold Interp.increasedRef
  split
  · next h0 =>
    refine ⟨peek.bit_ref, ?_, rfl⟩
    rw [h0] at hpow
    simpa using hpow
  · rw [if_pos (by omega)]
    refine ⟨_, hpow, ?_⟩
    have := abs_lt.mp hpow
    generalize peek.bit_ref * 10 ^ s.c_scale_ref_width_increase.toNat = x at this ⊢
    norm_num at this
    exact sint_ok (by omega)

theorem increasedRef_in {σ : Type} {s : Interp σ} {peek : Varinfo} (hp : inInt peek.bit_ref = true)
    {r : Int} (h : Interp.increasedRef E s peek = .ok r) : inInt r = true := by
  unfold Interp.increasedRef at h
  split at h
  · rw [Res.ok.injEq] at h
    rw [← h]; exact hp
  · split at h
    · exact sint_inInt h
    · cases h

theorem get_varinfo_made {σ : Type} {C : Ctx} (ht : C.btable.Inv C.E) {s : Interp σ} {c : Varcode}
    {i : Varinfo} (h : Interp.get_varinfo C s c = .ok i) : i.Made C.E := by
  unfold Interp.get_varinfo at h
  obtain ⟨peek, hq, h⟩ := Res.bind_eq_ok.mp h
  obtain ⟨k, e, he, hepeek, hcode⟩ := Vartable.query_found hq
  have hei := ht.entries e (List.mem_of_getElem? he)
  have hmade := hei.made
  have hbin := hei.notbin
  rw [hepeek] at hmade hbin
  split at h
  · cases h
    exact hmade
  · obtain ⟨a, -, h⟩ := Res.bind_eq_ok.mp h
    obtain ⟨b, -, h⟩ := Res.bind_eq_ok.mp h
    obtain ⟨sc, -, h⟩ := Res.bind_eq_ok.mp h
    obtain ⟨n, -, h⟩ := Res.bind_eq_ok.mp h
    obtain ⟨r, hr, h⟩ := Res.bind_eq_ok.mp h
    have key := Vartable.query_altered_result ht he sc (toU32 n) (Interp.overriddenRef s c r)
    rw [hepeek, hcode] at key
    have halt := alteredOf_has (safe := False) (w := 0) (s := sc) (n := toU32 n)
      (r := Interp.overriddenRef s c r) hmade hbin
      (overriddenRef_in s c (increasedRef_in hmade.2.1 hr)) False.elim
    rw [← key] at halt
    exact (halt.ok h).made

theorem get_varinfo_tame {σ : Type} {C : Ctx} (ht : C.btable.Inv C.E) (hf : l.Fair)
    {s : Interp σ} (hm : Mode.Mild l s) {c : Varcode}
    (hc : ∀ i, C.btable.query c = .ok i → TameInfo C.E l i) :
    (Interp.get_varinfo C s c).Has True (Handy True C.E l.room) := by
  unfold Interp.get_varinfo
  refine Res.Has.bind (Vartable.query_has (safe := True) (l := l) (w := l.room) ht fun _ i hi =>
    ⟨hc i hi, by unfold Bounds.room; omega⟩) fun peek hq hp => ?_
  obtain ⟨k, e, he, hepeek, hcode⟩ := Vartable.query_found hq
  have hei := ht.entries e (List.mem_of_getElem? he)
  have hi := hc peek hq
  split
  · exact hp
  · obtain ⟨n, n1, n2, n3, n4, hn⟩ := changedWidth_tame hf hm hi
    obtain ⟨r, r1, hr⟩ := increasedRef_tame hf hm hi
    have h1 := hi.scale
    have h2 := hm.scale
    have h3 := hm.power
    have h4 := hf.power
    rw [sint_ok (by omega), Res.ok_bind, hn, Res.ok_bind, sint_ok (by omega), Res.ok_bind]
    rw [Int.sub_add_cancel, sint_ok (by omega), Res.ok_bind, hr, Res.ok_bind]
    have hu : toU32 n = n := by
      unfold toU32
      omega
    rw [hu]
    have hrin : inInt r = true := increasedRef_in hp.made.2.1 hr
    generalize hsc : peek.scale + s.c_scale_change + s.c_scale_ref_width_increase = sc
    have key := Vartable.query_altered_result ht he sc n (Interp.overriddenRef s c r)
    rw [hepeek, hcode] at key
    have halt := alteredOf_has (safe := True) (w := l.room) (s := sc) (n := n)
      (r := Interp.overriddenRef s c r) hp.made (by rw [← hepeek]; exact hei.notbin)
      (overriddenRef_in s c hrin) (fun _ =>
        ⟨n1, n2, overriddenRef_small hm c r1, n3, fun hnum => (hi.num hnum).1⟩)
    rw [← key] at halt
    exact halt

theorem get_varinfo_has {σ : Type} {C : Ctx} (ht : C.btable.Inv C.E) (hl : safe → l.Fair)
    {s : Interp σ} (hs : safe → Mode.Mild l s) {c : Varcode}
    (hc : safe → ∀ i, C.btable.query c = .ok i → TameInfo C.E l i) :
    (Interp.get_varinfo C s c).Has safe (Handy safe C.E l.room) := by
  by_cases h : safe
  · have := get_varinfo_tame ht (hl h) (hs h) (hc h)
    rw [eq_true h]
    exact this
  · exact Res.Has.of (fun i hi => ⟨get_varinfo_made ht hi, fun h' => absurd h' h,
      fun h' => absurd h' h⟩) fun h' => absurd h' h

end Wreport
