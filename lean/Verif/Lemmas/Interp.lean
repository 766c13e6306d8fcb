import Verif.Spec.Interp

/-! # The interpreter loop -/

namespace Wreport

open Spec

namespace Spec.Refines

variable {α β : Type}

theorem refl (r : Res α) : Refines r r := fun _ => rfl

theorem of_eq {r r' : Res α} (h : r' = r) : Refines r r' := fun _ => h

theorem ub (r : Res α) : Refines .ub r := fun h => absurd rfl h

theorem trans {a b c : Res α} (h : Refines a b) (h' : Refines b c) : Refines a c := by
  intro ha
  have hb := h ha
  rw [h' (by rw [hb]; exact ha), hb]

theorem bind {x x' : Res α} {f f' : α → Res β} (h : Refines x x')
    (hf : ∀ a, Refines (f a) (f' a)) : Refines (x >>= f) (x' >>= f') := by
  cases x with
  | ub => exact ub _
  | err e => rw [h (by simp)]; exact refl _
  | ok a => rw [h (by simp)]; exact hf a

end Spec.Refines

namespace Interp

variable {σ : Type} {C : Ctx} {T : Target σ}

/-! ## Fuel -/

theorem times_congr {α : Type} {f g : α → Res α} (h : ∀ a, f a = g a) (n : Nat) (a : α) :
    times f n a = times g n a := by
  have : f = g := funext h
  rw [this]

theorem times_refines {α : Type} {f g : α → Res α} (h : ∀ a, Refines (f a) (g a)) (n : Nat) (a : α) :
    Refines (times f n a) (times g n a) := by
  induction n generalizing a with
  | zero => exact .refl _
  | succ n ih => exact .bind (h a) ih

theorem popN_ok {ops : List Varcode} {n : Nat} {p : List Varcode × List Varcode}
    (h : popN ops n = .ok p) : n ≤ ops.length ∧ p = (ops.take n, ops.drop n) := by
  unfold popN at h
  split at h
  · cases h
  · cases h
    exact ⟨by omega, rfl⟩

theorem delayedCode_length (cur : Varcode) (rest : List Varcode) :
    (delayedCode cur rest).2.length ≤ rest.length := by
  unfold delayedCode
  split
  · exact le_refl _
  · split
    · simp
    · split <;> simp

/-- Replicated descriptors are among those left. -/
theorem replication_refines {exec exec' : List Varcode → Interp σ → Res (Interp σ)}
    {st : Interp σ} {cur : Varcode} {rest : List Varcode}
    (h : ∀ ops, ops.length ≤ rest.length → ∀ st, Refines (exec ops st) (exec' ops st)) :
    Refines (replication C T exec st cur rest) (replication C T exec' st cur rest) := by
  unfold replication
  have hl := delayedCode_length cur rest
  by_cases hp : (delayedCode cur rest).2.length < WR_VAR_X cur
  · have : popN (delayedCode cur rest).2 (WR_VAR_X cur) = .err .consistency := by
      unfold popN; rw [if_pos hp]
    simp only [this, Res.err_bind]
    exact .refl _
  · have : popN (delayedCode cur rest).2 (WR_VAR_X cur) =
        .ok ((delayedCode cur rest).2.take (WR_VAR_X cur),
          (delayedCode cur rest).2.drop (WR_VAR_X cur)) := by
      unfold popN; rw [if_neg hp]
    simp only [this, Res.ok_bind]
    refine .bind ?_ (fun _ => .refl _)
    unfold bitmapOrRepeat
    split
    · exact .refl _
    · have hb : ∀ s, Refines (exec ((delayedCode cur rest).2.take (WR_VAR_X cur)) s)
          (exec' ((delayedCode cur rest).2.take (WR_VAR_X cur)) s) :=
        h _ (by rw [List.length_take]; omega)
      unfold r_replication
      split
      · exact times_refines hb _ _
      · exact .bind (.refl _) fun _ => .bind (.refl _) fun _ => times_refines hb _ _

theorem step_refines {expand expand' exec exec' : List Varcode → Interp σ → Res (Interp σ)}
    {st : Interp σ} {cur : Varcode} {rest : List Varcode}
    (he : ∀ ops st, Refines (expand ops st) (expand' ops st))
    (h : ∀ ops, ops.length ≤ rest.length → ∀ st, Refines (exec ops st) (exec' ops st)) :
    Refines (step C T expand exec st cur rest) (step C T expand' exec' st cur rest) := by
  unfold step
  split
  · exact .refl _
  · exact replication_refines h
  · exact .refl _
  · exact .bind (.refl _) fun _ => .bind (he _ _) fun _ => .refl _
  · exact .refl _

theorem replication_length {exec : List Varcode → Interp σ → Res (Interp σ)} {st : Interp σ}
    {cur : Varcode} {rest : List Varcode} {r : List Varcode × Interp σ}
    (h : replication C T exec st cur rest = .ok r) : r.1.length ≤ rest.length := by
  unfold replication at h
  simp only [Res.bind_eq_ok] at h
  obtain ⟨p, hp, s, _, h⟩ := h
  cases h
  obtain ⟨_, rfl⟩ := popN_ok hp
  have := delayedCode_length cur rest
  simp only [List.length_drop]
  omega

theorem pop_length {ops : List Varcode} {p : Varcode × List Varcode} (h : pop ops = .ok p) :
    p.2.length ≤ ops.length := by
  unfold pop at h
  split at h
  · cases h
  · cases h; simp

theorem c_modifier_length {st : Interp σ} {cur : Varcode} {rest : List Varcode}
    {r : List Varcode × Interp σ} (h : c_modifier C T st cur rest = .ok r) :
    r.1.length ≤ rest.length := by
  unfold c_modifier at h
  split at h
  · unfold c04 at h
    split at h
    · cases h
    split at h
    · cases h
    split at h
    · cases h; exact le_refl _
    simp only [Res.bind_eq_ok] at h
    obtain ⟨p, hp, s, _, h⟩ := h
    cases h
    exact pop_length hp
  split at h
  · unfold c06 at h
    simp only [Res.bind_eq_ok] at h
    obtain ⟨p, hp, h⟩ := h
    split at h
    · cases h; exact pop_length hp
    simp only [Res.bind_eq_ok] at h
    obtain ⟨i, _, s, _, h⟩ := h
    cases h
    exact pop_length hp
  · simp only [Res.bind_eq_ok] at h
    obtain ⟨s, _, h⟩ := h
    cases h
    exact le_refl _

/-- A turn uses up at least one descriptor. -/
theorem step_length {expand exec : List Varcode → Interp σ → Res (Interp σ)} {st : Interp σ}
    {cur : Varcode} {rest : List Varcode} {r : List Varcode × Interp σ}
    (h : step C T expand exec st cur rest = .ok r) : r.1.length ≤ rest.length := by
  unfold step at h
  split at h
  · simp only [Res.bind_eq_ok] at h
    obtain ⟨s, _, h⟩ := h
    cases h; exact le_refl _
  · exact replication_length h
  · exact c_modifier_length h
  · simp only [Res.bind_eq_ok] at h
    obtain ⟨o, _, s, _, h⟩ := h
    cases h; exact le_refl _
  · cases h

/-- With enough fuel, the amount does not matter and a better `expand` gives a
better loop. -/
theorem loop_refines {expand expand' : List Varcode → Interp σ → Res (Interp σ)}
    (he : ∀ ops st, Refines (expand ops st) (expand' ops st)) (n : Nat) :
    ∀ m ops st, ops.length ≤ n → ops.length ≤ m →
      Refines (loop C T expand n ops st) (loop C T expand' m ops st) := by
  induction n with
  | zero =>
    intro m ops st h _
    have : ops = [] := List.length_eq_zero_iff.mp (by omega)
    subst this
    cases m <;> exact .of_eq (by simp [loop])
  | succ n ih =>
    intro m ops st h hm
    cases ops with
    | nil => cases m <;> exact .of_eq (by simp [loop])
    | cons cur rest =>
      cases m with
      | zero => simp at hm
      | succ m =>
        simp only [List.length_cons] at h hm
        simp only [loop]
        have hs := step_refines (C := C) (T := T) (st := st) (cur := cur) (rest := rest) he
          (exec := loop C T expand n) (exec' := loop C T expand' m)
          (fun ops hl s => ih m ops s (by omega) (by omega))
        generalize hx : step C T expand (loop C T expand n) st cur rest = x at hs
        cases x with
        | ub => exact .ub _
        | err e => rw [hs (by simp)]; exact .refl _
        | ok r =>
          rw [hs (by simp)]
          have := step_length hx
          exact ih m r.1 r.2 (by omega) (by omega)

/-- `Refines` both ways is equality. -/
theorem _root_.Wreport.Spec.Refines.antisymm {α : Type} {a b : Res α} (h : Refines a b)
    (h' : Refines b a) : a = b := by
  by_cases ha : a = .ub
  · by_cases hb : b = .ub
    · rw [ha, hb]
    · exact h' hb
  · exact (h ha).symm

theorem loop_fuel {expand : List Varcode → Interp σ → Res (Interp σ)} {n m : Nat}
    {ops : List Varcode} {st : Interp σ} (hn : ops.length ≤ n) (hm : ops.length ≤ m) :
    loop C T expand n ops st = loop C T expand m ops st :=
  (loop_refines (fun _ _ => .refl _) n m ops st hn hm).antisymm
    (loop_refines (fun _ _ => .refl _) m n ops st hm hn)

/-! ## Unfolding `run` -/

/-- What runs the descriptors of a sequence met by `run C T depth`. -/
def below (C : Ctx) (T : Target σ) : Nat → List Varcode → Interp σ → Res (Interp σ)
  | 0 => fun _ _ => .ub
  | d + 1 => run C T d

theorem run_eq_loop (d : Nat) (ops : List Varcode) (st : Interp σ) :
    run C T d ops st = loop C T (below C T d) ops.length ops st := by
  cases d <;> rfl

@[simp] theorem run_nil (d : Nat) (st : Interp σ) : run C T d [] st = .ok st := by
  rw [run_eq_loop]; simp [loop]

theorem step_exec_congr {expand exec exec' : List Varcode → Interp σ → Res (Interp σ)}
    {st : Interp σ} {cur : Varcode} {rest : List Varcode}
    (h : ∀ ops, ops.length ≤ rest.length → ∀ st, exec ops st = exec' ops st) :
    step C T expand exec st cur rest = step C T expand exec' st cur rest :=
  (step_refines (fun _ _ => .refl _) fun ops hl s => .of_eq (h ops hl s).symm).antisymm
    (step_refines (fun _ _ => .refl _) fun ops hl s => .of_eq (h ops hl s))

theorem run_cons (d : Nat) (cur : Varcode) (rest : List Varcode) (st : Interp σ) :
    run C T d (cur :: rest) st =
      step C T (below C T d) (run C T d) st cur rest >>= fun r => run C T d r.1 r.2 := by
  rw [run_eq_loop]
  simp only [List.length_cons, loop]
  rw [step_exec_congr (exec' := run C T d)
    (fun ops hl s => by rw [run_eq_loop]; exact loop_fuel hl (le_refl _))]
  generalize hx : step C T (below C T d) (run C T d) st cur rest = x
  cases x with
  | ub => rfl
  | err e => rfl
  | ok r =>
    have := step_length hx
    simp only [Res.ok_bind]
    rw [run_eq_loop]
    exact loop_fuel this (le_refl _)

/-- More stack does not change an outcome that did not need it. -/
theorem run_succ (d : Nat) (ops : List Varcode) (st : Interp σ) :
    Refines (run C T d ops st) (run C T (d + 1) ops st) := by
  induction d generalizing ops st with
  | zero =>
    rw [run_eq_loop, run_eq_loop]
    exact loop_refines (fun _ _ => .ub _) _ _ _ _ (le_refl _) (le_refl _)
  | succ d ih =>
    rw [run_eq_loop, run_eq_loop]
    exact loop_refines ih _ _ _ _ (le_refl _) (le_refl _)

theorem run_mono {d d' : Nat} (h : d ≤ d') (ops : List Varcode) (st : Interp σ) :
    Refines (run C T d ops st) (run C T d' ops st) := by
  induction h with
  | refl => exact .refl _
  | step _ ih => exact ih.trans (run_succ _ _ _)

theorem below_le (d : Nat) (ops : List Varcode) (st : Interp σ) :
    Refines (below C T d ops st) (run C T d ops st) := by
  cases d with
  | zero => exact .ub _
  | succ d => exact run_succ d ops st

/-! ## Turns of each kind -/

theorem run_element {d : Nat} {c : Varcode} (h : WR_VAR_F c = 0) (rest : List Varcode)
    (st : Interp σ) :
    run C T d (c :: rest) st = b_variable C T st c >>= run C T d rest := by
  rw [run_cons]
  simp only [step, h]
  cases b_variable C T st c <;> rfl

theorem run_sequence {d : Nat} {c : Varcode} (h : WR_VAR_F c = 3) (rest : List Varcode)
    (st : Interp σ) :
    run C T d (c :: rest) st =
      C.dtable.query c >>= fun ops => below C T d ops st >>= run C T d rest := by
  rw [run_cons]
  simp only [step, h]
  cases C.dtable.query c with
  | ok ops => simp only [Res.ok_bind]; cases below C T d ops st <;> rfl
  | err e => rfl
  | ub => rfl

theorem run_operator {d : Nat} {c : Varcode} (h : WR_VAR_F c = 2) (rest : List Varcode)
    (st : Interp σ) :
    run C T d (c :: rest) st = c_modifier C T st c rest >>= fun r => run C T d r.1 r.2 := by
  rw [run_cons]
  simp only [step, h]

theorem run_replication {d : Nat} {c : Varcode} (h : WR_VAR_F c = 1) (rest : List Varcode)
    (st : Interp σ) :
    run C T d (c :: rest) st =
      replication C T (run C T d) st c rest >>= fun r => run C T d r.1 r.2 := by
  rw [run_cons]
  simp only [step, h]

theorem popN_append {g rest : List Varcode} {n : Nat} (h : g.length = n) :
    popN (g ++ rest) n = .ok (g, rest) := by
  unfold popN
  rw [if_neg (by rw [List.length_append]; omega)]
  subst h
  simp

/-- A replication with its group, once the factor is known. -/
theorem run_group {d : Nat} {c dc : Varcode} {tl g rest : List Varcode} (h : WR_VAR_F c = 1)
    (hd : delayedCode c tl = (dc, g ++ rest)) (hl : g.length = WR_VAR_X c) (st : Interp σ) :
    run C T d (c :: tl) st =
      bitmapOrRepeat C T (run C T d) st c dc g >>= run C T d rest := by
  rw [run_replication h]
  unfold replication
  simp only [hd, popN_append hl, Res.ok_bind]
  cases bitmapOrRepeat C T (run C T d) st c dc g <;> rfl

theorem delayedCode_fixed {c : Varcode} (h : WR_VAR_Y c ≠ 0) (tl : List Varcode) :
    delayedCode c tl = (0, tl) := by
  unfold delayedCode; rw [if_pos h]

theorem delayedCode_factor {c f : Varcode} (h : WR_VAR_Y c = 0) (hf : IsFactor f)
    (tl : List Varcode) : delayedCode c (f :: tl) = (f, tl) := by
  unfold delayedCode
  rw [if_neg (by simpa using h)]
  exact if_pos hf

theorem delayedCode_implicit {c x : Varcode} (h : WR_VAR_Y c = 0) (hf : ¬ IsFactor x)
    (tl : List Varcode) : delayedCode c (x :: tl) = (WR_VAR 0 31 12, x :: tl) := by
  unfold delayedCode
  rw [if_neg (by simpa using h)]
  exact if_neg hf

/-- An operator without operand leaves the descriptors after it alone. -/
theorem c_modifier_alone {c : Varcode} (h : ¬ TakesOperand c) (st : Interp σ)
    (rest : List Varcode) :
    c_modifier C T st c rest = c_modifier C T st c [] >>= fun r => .ok (rest, r.2) := by
  unfold TakesOperand at h
  unfold c_modifier
  split
  · rename_i h4
    have hy : WR_VAR_Y c = 0 := by
      by_contra hy
      exact h (.inr ⟨h4, hy⟩)
    simp [c04, hy]
  · split
    · rename_i h6
      exact absurd (.inl h6) h
    · cases c_simple T st c <;> rfl

/-- An operator with operand leaves the descriptors after it alone. -/
theorem c_modifier_operand {c x : Varcode} (h : TakesOperand c) (st : Interp σ)
    (rest : List Varcode) :
    c_modifier C T st c (x :: rest) = c_modifier C T st c [x] >>= fun r => .ok (rest, r.2) := by
  unfold c_modifier
  split
  · rename_i h4
    have hy : WR_VAR_Y c ≠ 0 := by
      rcases h with h6 | h
      · omega
      · exact h.2
    unfold c04
    split
    · rfl
    split
    · rfl
    simp only [pop, Res.ok_bind]
    cases c04_significance C T st x <;> rfl
  · split
    · unfold c06
      simp only [pop, Res.ok_bind]
      split
      · rfl
      · cases c06_info C st x (WR_VAR_Y c) with
        | ok i =>
          simp only [Res.ok_bind]
          cases c06_define C T st x (WR_VAR_Y c) i <;> rfl
        | err e => rfl
        | ub => rfl
    · rename_i h4 h6
      rcases h with h | h
      · exact absurd h h6
      · exact absurd h.1 h4

theorem bind_run {d : Nat} (x : Res (Interp σ)) (a b : List Varcode)
    (h : ∀ st, run C T d (a ++ b) st = run C T d a st >>= run C T d b) :
    (x >>= run C T d (a ++ b)) = (x >>= run C T d a) >>= run C T d b := by
  rw [bind_assoc]
  exact congrArg _ (funext h)

/-- After a complete list, processing goes on with what follows. -/
theorem run_append {a : List Varcode} (h : Complete a) (d : Nat) (b : List Varcode)
    (st : Interp σ) : run C T d (a ++ b) st = run C T d a st >>= run C T d b := by
  induction h generalizing st with
  | nil => simp
  | element c rest hf _ ih =>
    rw [List.cons_append, run_element hf, run_element hf]
    exact bind_run _ _ _ ih
  | sequence c rest hf _ ih =>
    rw [List.cons_append, run_sequence hf, run_sequence hf]
    cases C.dtable.query c with
    | ok ops => exact bind_run _ _ _ ih
    | err e => rfl
    | ub => rfl
  | operator c rest hf ht _ ih =>
    rw [List.cons_append, run_operator hf, run_operator hf, c_modifier_alone ht,
      c_modifier_alone ht st rest]
    cases c_modifier C T st c [] with
    | ok r => exact ih r.2
    | err e => rfl
    | ub => rfl
  | operand c x rest hf ht _ ih =>
    rw [List.cons_append, List.cons_append, run_operator hf, run_operator hf,
      c_modifier_operand ht, c_modifier_operand ht st rest]
    cases c_modifier C T st c [x] with
    | ok r => exact ih r.2
    | err e => rfl
    | ub => rfl
  | fixed c g rest hf hy hl _ ih =>
    rw [List.cons_append, List.append_assoc, run_group hf (delayedCode_fixed hy _) hl,
      run_group hf (delayedCode_fixed hy _) hl]
    exact bind_run _ _ _ ih
  | delayed c f g rest hf hy hff hl _ ih =>
    rw [List.cons_append, List.cons_append, List.append_assoc,
      run_group hf (delayedCode_factor hy hff _) hl, run_group hf (delayedCode_factor hy hff _) hl]
    exact bind_run _ _ _ ih
  | implicit c x g rest hf hy hff hl _ ih =>
    have e : ∀ tl, delayedCode c ((x :: g) ++ tl) = (WR_VAR 0 31 12, (x :: g) ++ tl) :=
      fun tl => delayedCode_implicit hy hff (g ++ tl)
    rw [List.cons_append, List.append_assoc, run_group hf (e _) hl, run_group hf (e _) hl]
    exact bind_run _ _ _ ih

theorem Complete.append' {a b : List Varcode} (ha : Complete a) (hb : Complete b) :
    Complete (a ++ b) := by
  induction ha with
  | nil => exact hb
  | element c rest hf _ ih => exact .element c _ hf ih
  | sequence c rest hf _ ih => exact .sequence c _ hf ih
  | operator c rest hf ht _ ih => exact .operator c _ hf ht ih
  | operand c x rest hf ht _ ih => exact .operand c x _ hf ht ih
  | fixed c g rest hf hy hl _ ih =>
    rw [List.cons_append, List.append_assoc]; exact .fixed c g _ hf hy hl ih
  | delayed c f g rest hf hy hff hl _ ih =>
    rw [List.cons_append, List.cons_append, List.append_assoc]
    exact .delayed c f g _ hf hy hff hl ih
  | implicit c x g rest hf hy hff hl _ ih =>
    rw [List.cons_append, List.append_assoc]; exact .implicit c x g _ hf hy hff hl ih

theorem copies_succ {α : Type} (n : Nat) (l : List α) : copies (n + 1) l = l ++ copies n l := by
  simp [copies, List.replicate_succ]

theorem complete_copies {g : List Varcode} (h : Complete g) (n : Nat) : Complete (copies n g) := by
  induction n with
  | zero => exact .nil
  | succ n ih => rw [copies_succ]; exact Complete.append' h ih

/-- Doing a complete group `n` times is processing `n` copies of it. -/
theorem times_copies {g : List Varcode} (h : Complete g) (d n : Nat) (st : Interp σ) :
    times (run C T d g) n st = run C T d (copies n g) st := by
  induction n generalizing st with
  | zero => simp [times, copies]
  | succ n ih =>
    rw [copies_succ, run_append h]
    simp only [times]
    exact congrArg _ (funext ih)

/-! ## Sequences -/

theorem unfolds_src {query : Varcode → Res (List Varcode)} {a b : List Varcode}
    (h : Unfolds query a b) : a ≠ [] ∧ ∀ x, a = [x] → WR_VAR_F x = 3 := by
  induction h with
  | here c ops rest hf _ _ =>
    refine ⟨by simp, fun x hx => ?_⟩
    cases hx
    exact hf
  | after pre a b _ _ ih =>
    refine ⟨by simp [ih.1], fun x hx => ?_⟩
    cases pre with
    | nil => exact ih.2 x hx
    | cons p pre =>
      simp only [List.cons_append, List.cons.injEq, List.append_eq_nil_iff] at hx
      exact absurd hx.2.2 ih.1
  | fixed c c' g g' rest _ _ _ _ _ _ _ _ ih =>
    refine ⟨by simp, fun x hx => ?_⟩
    simp only [List.cons.injEq, List.append_eq_nil_iff] at hx
    exact absurd hx.2.1 ih.1
  | delayed c c' f g g' rest _ _ _ _ _ _ _ _ _ ih =>
    refine ⟨by simp, fun x hx => ?_⟩
    simp at hx

/-- Neither group is taken for a bitmap definition. -/
theorem r_bitmap_other {c dc : Varcode} {g : List Varcode} (hl : g.length = WR_VAR_X c)
    (h : g ≠ [WR_VAR 0 31 31]) (st : Interp σ) :
    r_bitmap C T st c dc g = .err .consistency := by
  unfold r_bitmap
  split
  · rfl
  · rename_i hx
    rw [if_pos]
    match g, hl with
    | [], _ => simp
    | [x], _ =>
      intro hx
      simp only [List.head?_cons, Option.some.injEq] at hx
      exact h (by rw [hx])
    | _ :: _ :: _, hl => simp at hl; omega

theorem repeat_refines {c c' dc : Varcode} {g g' : List Varcode} {d d' : Nat}
    (hy : WR_VAR_Y c' = WR_VAR_Y c)
    (hl : g.length = WR_VAR_X c) (hl' : g'.length = WR_VAR_X c') (hg : g ≠ [WR_VAR 0 31 31])
    (hg' : g' ≠ [WR_VAR 0 31 31])
    (h : ∀ st, Refines (run C T d g st) (run C T d' g' st)) (st : Interp σ) :
    Refines (bitmapOrRepeat C T (run C T d) st c dc g)
      (bitmapOrRepeat C T (run C T d') st c' dc g') := by
  unfold bitmapOrRepeat
  split
  · rw [r_bitmap_other hl hg, r_bitmap_other hl' hg']
    exact .refl _
  · unfold r_replication
    rw [hy]
    split
    · exact times_refines h _ _
    · exact .bind (.refl _) fun _ => .bind (.refl _) fun _ => times_refines h _ _

theorem not_bitmap {query : Varcode → Res (List Varcode)} {a b : List Varcode}
    (h : Unfolds query a b) : a ≠ [WR_VAR 0 31 31] := by
  intro ha
  have := (unfolds_src h).2 _ ha
  revert this
  decide

/-- Replacing a sequence by its definition needs no more stack; keeping it needs
one more level. -/
theorem unfolds_run {a b : List Varcode} (h : Unfolds C.dtable.query a b) (d : Nat)
    (st : Interp σ) :
    Refines (run C T d a st) (run C T d b st) ∧
      Refines (run C T d b st) (run C T (d + 1) a st) := by
  induction h generalizing st with
  | here c ops rest hf hq hc =>
    rw [run_sequence hf, run_sequence hf, run_append hc, hq, Res.ok_bind, Res.ok_bind]
    exact ⟨.bind (below_le _ _ _) fun _ => .refl _, .bind (.refl _) fun _ => run_succ _ _ _⟩
  | after pre a b hc _ ih =>
    rw [run_append hc, run_append hc, run_append hc]
    exact ⟨.bind (.refl _) fun s => (ih s).1, .bind (run_succ _ _ _) fun s => (ih s).2⟩
  | fixed c c' g g' rest hf hf' hy hy' hl hl' hg' hu ih =>
    have hy0 : WR_VAR_Y c' ≠ 0 := by rw [hy']; exact hy
    rw [run_group hf (delayedCode_fixed hy _) hl, run_group hf (delayedCode_fixed hy _) hl,
      run_group hf' (delayedCode_fixed hy0 _) hl']
    exact ⟨.bind (repeat_refines hy' hl hl' (not_bitmap hu) hg' (fun s => (ih s).1) _)
        fun _ => .refl _,
      .bind (repeat_refines hy'.symm hl' hl hg' (not_bitmap hu) (fun s => (ih s).2) _)
        fun _ => run_succ _ _ _⟩
  | delayed c c' f g g' rest hf hf' hy hy' hff hl hl' hg' hu ih =>
    rw [run_group hf (delayedCode_factor hy hff _) hl, run_group hf (delayedCode_factor hy hff _) hl,
      run_group hf' (delayedCode_factor hy' hff _) hl']
    exact ⟨.bind (repeat_refines (by rw [hy, hy']) hl hl' (not_bitmap hu) hg' (fun s => (ih s).1) _)
        fun _ => .refl _,
      .bind (repeat_refines (by rw [hy, hy']) hl' hl hg' (not_bitmap hu) (fun s => (ih s).2) _)
        fun _ => run_succ _ _ _⟩

end Interp

end Wreport
