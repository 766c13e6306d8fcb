import Verif.Lemmas.Interp
import Verif.Model.Listing

/-! # The loop with overridden functions -/

namespace Wreport

namespace Over

variable {σ : Type}

/-- With the functions of `Interpreter` the loop is that of `Interp`. -/
theorem loop_plain (C : Ctx) (T : Target σ)
    {expand expand' : List Varcode → Interp σ → Res (Interp σ)} (he : expand = expand')
    (n : Nat) (ops : List Varcode) (st : Interp σ) :
    loop C (plain C T) expand n ops st = Interp.loop C T expand' n ops st := by
  subst he
  induction n generalizing ops st with
  | zero => cases ops <;> rfl
  | succ n ih =>
    have hf : loop C (plain C T) expand n = Interp.loop C T expand n := by
      funext o s
      exact ih o s
    cases ops with
    | nil => rfl
    | cons c rest =>
      show (step C (plain C T) expand (loop C (plain C T) expand n) st c rest >>= _) =
        (Interp.step C T expand (Interp.loop C T expand n) st c rest >>= _)
      rw [hf]
      rfl

theorem run_plain (C : Ctx) (T : Target σ) (depth : Nat) (ops : List Varcode) (st : Interp σ) :
    run C (plain C T) depth ops st = Interp.run C T depth ops st := by
  induction depth generalizing ops st with
  | zero => exact loop_plain C T rfl _ ops st
  | succ d ih =>
    exact loop_plain C T (by funext o s; exact ih o s) _ ops st

/-- What holds of every turn holds of a run. -/
structure Rule (C : Ctx) (V : Over σ) (P : List Varcode → Interp σ → Interp σ → Prop) : Prop where
  nil : ∀ s, P [] s s
  element : ∀ c rest s s1 s', WR_VAR_F c = 0 → V.b_variable s c = .ok s1 → P rest s1 s' →
    P (c :: rest) s s'
  operator : ∀ c rest rest' s s1 s', WR_VAR_F c = 2 → V.c_modifier s c rest = .ok (rest', s1) →
    P rest' s1 s' → P (c :: rest) s s'
  replication : ∀ c rest d ops g post body s s1 s', WR_VAR_F c = 1 →
    s.bitmaps.pending_definitions = 0 → Interp.delayedCode c rest = (d, ops) → ops = g ++ post →
    g.length = WR_VAR_X c → (∀ a b, body a = .ok b → P g a b) →
    V.r_replication body s c d = .ok s1 → P post s1 s' → P (c :: rest) s s'
  bitmap : ∀ c rest d ops g post s s1 s', WR_VAR_F c = 1 →
    s.bitmaps.pending_definitions ≠ 0 → Interp.delayedCode c rest = (d, ops) → ops = g ++ post →
    g.length = WR_VAR_X c → V.r_bitmap s c d g = .ok s1 → P post s1 s' → P (c :: rest) s s'
  sequence : ∀ c rest l body s s1 s', WR_VAR_F c = 3 → C.dtable.query c = .ok l →
    (∀ a b, body a = .ok b → P l a b) → V.run_d_expansion body s c = .ok s1 → P rest s1 s' →
    P (c :: rest) s s'

namespace Rule

variable {C : Ctx} {V : Over σ} {P : List Varcode → Interp σ → Interp σ → Prop}

theorem loop (h : Rule C V P) {expand : List Varcode → Interp σ → Res (Interp σ)}
    (he : ∀ ops a b, expand ops a = .ok b → P ops a b) (n : Nat) (ops : List Varcode)
    {s s' : Interp σ} (hr : Over.loop C V expand n ops s = .ok s') : P ops s s' := by
  induction n generalizing ops s s' with
  | zero =>
    cases ops with
    | nil => cases hr; exact h.nil s
    | cons c rest => cases hr
  | succ n ih =>
    cases ops with
    | nil => cases hr; exact h.nil s
    | cons c rest =>
      obtain ⟨⟨rest', s1⟩, h1, h2⟩ := Res.bind_eq_ok.mp (show (step C V expand
        (Over.loop C V expand n) s c rest >>= fun r => Over.loop C V expand n r.1 r.2) = .ok s'
        from hr)
      have hp := ih rest' h2
      unfold step at h1
      split at h1
      · rename_i hf
        obtain ⟨t, h3, h4⟩ := Res.bind_eq_ok.mp h1
        cases h4
        exact h.element c rest s _ s' hf h3 hp
      · rename_i hf
        unfold Over.replication at h1
        simp only [Res.bind_eq_ok] at h1
        obtain ⟨p, hpop, t, h3, h4⟩ := h1
        cases h4
        obtain ⟨hl, rfl⟩ := Interp.popN_ok hpop
        have hsplit := (List.take_append_drop (WR_VAR_X c) (Interp.delayedCode c rest).2).symm
        have hlen : ((Interp.delayedCode c rest).2.take (WR_VAR_X c)).length = WR_VAR_X c := by
          rw [List.length_take]; omega
        unfold bitmapOrRepeat at h3
        split at h3
        · rename_i hb
          exact h.bitmap c rest _ _ _ _ s _ s' hf hb rfl hsplit hlen h3 hp
        · rename_i hb
          exact h.replication c rest _ _ _ _ _ s _ s' hf (by simpa using hb) rfl hsplit hlen
            (fun a b hab => ih _ hab) h3 hp
      · rename_i hf
        exact h.operator c rest rest' s s1 s' hf h1 hp
      · rename_i hf
        simp only [Res.bind_eq_ok] at h1
        obtain ⟨l, h3, t, h4, h5⟩ := h1
        cases h5
        exact h.sequence c rest l _ s _ s' hf h3 (fun a b hab => he l a b hab) h4 hp
      · cases h1

theorem run (h : Rule C V P) (depth : Nat) (ops : List Varcode) {s s' : Interp σ}
    (hr : Over.run C V depth ops s = .ok s') : P ops s s' := by
  induction depth generalizing ops s s' with
  | zero => exact h.loop (fun _ _ _ h => by cases h) _ ops hr
  | succ d ih => exact h.loop (fun ops a b hab => ih ops hab) _ ops hr

end Rule

end Over

end Wreport
