import Verif.Model.AflTest
import Verif.Lemmas.WrepRun
import Verif.Props.WrepSamples
import Verif.Spec.Stream

/-!
Property C123: the exit status of the program for fuzzing.
-/

namespace Wreport

namespace Spec

/-- The header of a message can be decoded and its tables are there. -/
def HeadDecodes (M : Wrep.Machine) (raw : List Byte) : Prop :=
  ∃ h t, BufrDec.decode_header raw = .ok h ∧
    Process.context M.S M.O ((Process.fresh M.dirs).load_bufr M.S .new (Process.bufrId h.header)) = .ok t

end Spec

namespace Afl

open Spec Wrep Process

theorem head_decodes {M : Machine} {raw : List Byte} :
    HeadDecodes M raw ↔ ∃ x, (readHead M false (.fresh M.dirs) raw).2 = some (.ok x) := by
  unfold HeadDecodes readHead
  cases h : BufrDec.decode_header raw with
  | ok k =>
    simp only [Bool.false_eq_true, if_false]
    constructor
    · rintro ⟨_, t, e, ht⟩
      cases e
      rw [ht]
      exact ⟨_, rfl⟩
    · rintro ⟨x, hx⟩
      cases ht : context M.S M.O ((Process.fresh M.dirs).load_bufr M.S .new (bufrId k.header)) with
      | ok t => exact ⟨k, t, rfl, ht⟩
      | err e => rw [ht] at hx; cases hx
      | ub => rw [ht] at hx; cases hx
  | err e => simp
  | ub => simp

theorem near_cases {r r' : Option (Res (Head × Ctx × TableCaches))} (h : NearHead r r') :
    (r = none ∧ r' = none) ∨ ((∃ x, r = some (.ok x)) ∧ ∃ x, r' = some (.ok x)) ∨
    (∃ e, r = some (.err e) ∧ r' = some (.err e)) ∨ (r = some .ub ∧ r' = some .ub) := by
  rcases r with - | (x | e | -)
  · exact .inl ⟨rfl, h⟩
  all_goals
    obtain ⟨x', rfl, h2⟩ := h
    simp only [Near] at h2
  · obtain ⟨y, rfl, -⟩ := h2
    exact .inr (.inl ⟨⟨_, rfl⟩, ⟨_, rfl⟩⟩)
  · subst h2
    exact .inr (.inr (.inl ⟨_, rfl, rfl⟩))
  · subst h2
    exact .inr (.inr (.inr ⟨rfl, rfl⟩))

theorem loop_zero {M : Machine} {s : Stream} (n : Nat) (hn : s.rest.length < n) {p : Process}
    (hp : Good M p) :
    loop M n p s = .ended 0 ↔ ∃ ms, ReadsAll Stream.readBufr s ms ∧ ∀ m ∈ ms, HeadDecodes M m.1 := by
  induction n generalizing s p with
  | zero => omega
  | succ n ih =>
    unfold loop
    cases h : s.readBufr with
    | ub =>
      refine ⟨nofun, ?_⟩
      rintro ⟨ms, hm, -⟩
      cases hm with
      | done _ e => rw [h] at e; cases e
      | more _ _ _ _ e => rw [h] at e; cases e
    | err e =>
      refine ⟨nofun, ?_⟩
      rintro ⟨ms, hm, -⟩
      cases hm with
      | done _ e => rw [h] at e; cases e
      | more _ _ _ _ e => rw [h] at e; cases e
    | ok r =>
      cases r with
      | none => exact ⟨fun _ => ⟨[], .done _ h, by simp⟩, fun _ => rfl⟩
      | some r =>
        obtain ⟨m, s'⟩ := r
        have hl := (Stream.readOf_again (crex := false) h).2.1
        obtain ⟨hg, hd⟩ := readHead_good hp false m.1
        have step : (∃ ms, ReadsAll Stream.readBufr s ms ∧ ∀ m ∈ ms, HeadDecodes M m.1) ↔
            HeadDecodes M m.1 ∧ ∃ ms, ReadsAll Stream.readBufr s' ms ∧ ∀ m ∈ ms, HeadDecodes M m.1 := by
          constructor
          · rintro ⟨ms, hm, ha⟩
            cases hm with
            | done _ e => rw [h] at e; cases e
            | more _ _ _ ms e hm =>
              rw [h] at e
              cases e
              exact ⟨ha _ (by simp), ms, hm, fun x hx => ha x (by simp [hx])⟩
          · rintro ⟨h1, ms, hm, ha⟩
            refine ⟨m :: ms, .more _ _ _ _ h hm, ?_⟩
            intro x hx
            rcases List.mem_cons.mp hx with rfl | hx
            · exact h1
            · exact ha x hx
        rw [step, head_decodes]
        simp only
        rcases near_cases hd with ⟨e1, e2⟩ | ⟨⟨x, e1⟩, y, e2⟩ | ⟨e, e1, e2⟩ | ⟨e1, e2⟩ <;>
          rw [e1, e2] <;> simp only
        · simp
        · rw [ih (by omega) hg]
          simp
        · simp
        · simp

theorem loop_ends {M : Machine} {s : Stream} (n : Nat) (hn : s.rest.length < n) (p : Process) :
    loop M n p s ≠ .endless := by
  induction n generalizing s p with
  | zero => omega
  | succ n ih =>
    unfold loop
    cases h : s.readBufr with
    | ub => simp
    | err e => simp
    | ok r =>
      cases r with
      | none => simp
      | some r =>
        obtain ⟨m, s'⟩ := r
        have hl := (Stream.readOf_again (crex := false) h).2.1
        simp only
        split
        · next hh =>
          unfold readHead at hh
          simp only [Bool.false_eq_true, if_false] at hh
          split at hh <;> cases hh
        · simp
        · simp
        · exact ih (by omega) _

end Afl

open Spec

/-- C123 (part): the program ends, and it ends with status 0 exactly when it is given one file,
that can be read to its end, and the headers of all its messages can be decoded with the tables
that there are. Missing: the values, which it does not decode (`C123_not_values`). -/
theorem C123_status_partial (M : Wrep.Machine) (args : List (List Byte)) :
    Afl.main M args ≠ .endless ∧
    (Afl.main M args = .ended 0 ↔ ∃ f data ms, args = [f] ∧ M.inputs f = some data ∧
      ReadsAll Stream.readBufr ⟨data, 0⟩ ms ∧ ∀ m ∈ ms, HeadDecodes M m.1) := by
  unfold Afl.main
  split
  · next f =>
    cases hi : M.inputs f with
    | none => simp [hi]
    | some data =>
      refine ⟨Afl.loop_ends _ (by simp) _, ?_⟩
      rw [Afl.loop_zero _ (by simp) (Wrep.fresh_good M)]
      constructor
      · rintro ⟨ms, h⟩
        exact ⟨f, data, ms, rfl, hi, h⟩
      · rintro ⟨f', data', ms, e, hd, h⟩
        cases e
        rw [hi] at hd
        cases hd
        exact ⟨ms, h⟩
  · next h =>
    refine ⟨by simp, ?_⟩
    simp only [Wrep.Ran.ended.injEq, one_ne_zero, false_iff]
    rintro ⟨f, -, -, rfl, -⟩
    exact h f rfl

/-- A file with a message of which one element is not in the tables. -/
def strangeMachine : Wrep.Machine :=
  { printerMachine with inputs := fun f => if f = ascii "s" then some (narrowMessage.set 44 2) else none }

/-- C123 does not hold: the message of a file cannot be decoded, and the program ends with
status 0. -/
theorem C123_not_values :
    (Wrep.decode strangeMachine false (.fresh strangeMachine.dirs) (narrowMessage.set 44 2)).2 =
      some (.err .notfound) ∧
    strangeMachine.inputs (ascii "s") = some (narrowMessage.set 44 2) ∧
    Afl.main strangeMachine [ascii "s"] = .ended 0 := by
  decide +kernel

/-- A file that ends the program with status 0, and one that does not: the table of its second
message is not there. -/
example : Afl.main printerMachine [ascii "b"] = .ended 1 ∧
    Afl.main { printerMachine with inputs := fun _ => some narrowMessage } [ascii "x"] = .ended 0 := by
  decide +kernel

end Wreport
