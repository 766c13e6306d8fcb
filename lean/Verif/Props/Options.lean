import Verif.Spec.Options
import Mathlib.Tactic.SplitIfs

/-!
# Options: theorems
-/

namespace Wreport

open Spec

theorem value_write (o : Opts) (v : OptVal) (n : OptName) :
    optValue (o.write v) n = if n = v.name then newValue v else optValue o n := by
  cases v <;> cases n <;> rfl

theorem newValue_read (o : Opts) (n : OptName) : (o.read n).name = n ∧ newValue (o.read n) = optValue o n := by
  cases n <;> exact ⟨rfl, rfl⟩

theorem write_read_write (o : Opts) (v : OptVal) : (o.write v).write (o.read v.name) = o := by
  cases v <;> rfl

theorem write_eq (o : Opts) (v : OptVal) : o.write v = withValue o v := by cases v <;> rfl

/-- C55: after any program, whether it ended normally or by an exception, every option
has its value again, except those to which the program itself assigned outside of an
override of the same option. -/
theorem C55_restored (s : Stmt) (o : Opts) (n : OptName) (h : ¬ assigns s n) :
    optValue (s.exec o).opts n = optValue o n := by
  induction s generalizing o with
  | skip => rfl
  | seq a b iha ihb =>
    simp only [assigns, not_or] at h
    simp only [Stmt.exec]
    split_ifs
    · exact iha o h.1
    · exact (ihb _ h.2).trans (iha o h.1)
  | assign v => rw [Stmt.exec, value_write, if_neg (show ¬ n = v.name from h)]
  | call f => rfl
  | scope v body ih =>
    simp only [Stmt.exec, LocalOverride.construct, LocalOverride.destruct]
    rw [value_write, (newValue_read o v.name).1, (newValue_read o v.name).2]
    by_cases hn : n = v.name
    · rw [if_pos hn, hn]
    · rw [if_neg hn, ih _ (fun h' => h ⟨hn, h'⟩), value_write, if_neg hn]
  | tryCatch body ih => exact ih o h

/-- C55: if the program only overrides, the options are as before, and everything
happens as if a scope had its own options and the others did not change. -/
theorem C55_scoped (s : Stmt) (o : Opts) (h : pureScopes s) :
    s.exec o = ⟨o, (meaning s o).1, (meaning s o).2⟩ := by
  induction s generalizing o with
  | skip => rfl
  | seq a b iha ihb =>
    simp only [Stmt.exec, meaning]
    rw [iha o h.1, ihb _ h.2]
    split_ifs <;> rfl
  | assign v => exact h.elim
  | call f => rfl
  | scope v body ih =>
    simp only [Stmt.exec, meaning, LocalOverride.construct, LocalOverride.destruct]
    rw [ih _ h, write_read_write, write_eq]
  | tryCatch body ih =>
    simp only [Stmt.exec, meaning]
    rw [ih o h]

theorem OverrideState.run_append (s : OverrideState) (a b : List OverrideEvent) :
    s.run (a ++ b) = (s.run a).bind (·.run b) := by
  induction a generalizing s with
  | nil => rfl
  | cons e a ih =>
    simp only [List.cons_append, OverrideState.run]
    cases s.step e with
    | none => rfl
    | some s' => exact ih s'

/-- C55: objects that are destroyed in the reverse order of their creation leave the
options and the other objects as they were. -/
theorem C55_nested {es : List OverrideEvent} (h : Nested es) (s : OverrideState) : s.run es = some s := by
  induction h generalizing s with
  | nil => rfl
  | scope v ha hb iha ihb =>
    rw [OverrideState.run_append]
    simp only [OverrideState.run, OverrideState.step, Option.bind_some, LocalOverride.construct]
    rw [iha]
    simp only [Option.bind_some, List.getElem?_cons_zero, List.eraseIdx_zero, List.tail_cons,
      LocalOverride.destruct, write_read_write]
    exact ihb s

/-- Why the order matters: of two objects for the same option, the older one destroyed
first, the value that stays is that of the first override. -/
theorem C55_order_needed : ((⟨Opts.default, []⟩ : OverrideState).run
    [.construct (.silent true), .construct (.silent false), .destruct 1, .destruct 0]).map
      (fun s => s.opts.silent) = some true ∧ Opts.default.silent = false := by decide

/-- C55: overrides in a thread do not change the options of other threads. -/
theorem C55_threads (t : Nat → Opts) (l : List (Nat × Stmt)) (j : Nat) (h : ∀ p ∈ l, p.1 ≠ j) :
    Threads.run t l j = t j := by
  induction l generalizing t with
  | nil => rfl
  | cons p l ih =>
    obtain ⟨i, s⟩ := p
    have hi : j ≠ i := fun e => h (i, s) List.mem_cons_self e.symm
    rw [Threads.run, ih _ (fun q hq => h q (List.mem_cons_of_mem _ hq)), if_neg hi]

/-- A program with nested overrides, an assignment in one of them, and an exception. -/
def sampleStmt : Stmt :=
  .seq (.tryCatch (.scope (.silent true)
    (.scope (.clamp true) (.seq (.assign (.clamp false)) (.seq (.call fun o => o.silent) (.call fun _ => false))))))
    (.call fun _ => false)

/-- It does not change the options; the first call sees the inner values, the second is
not reached, the third sees the initial ones. -/
example : (∀ n, ¬ assigns sampleStmt n) ∧
    ((sampleStmt.exec Opts.default).seen.map fun o => (o.silent, o.clamp)) =
      [(true, false), (false, false)] := by
  constructor
  · intro n h
    rcases h with h | h
    · obtain ⟨-, h2, h | h | h⟩ := h
      · exact h2 h
      · exact h
      · exact h
    · exact h
  · decide

/-- A nested sequence of events. -/
example : Nested [.construct (.silent true), .construct (.clamp true), .destruct 0, .destruct 0] := by
  have h1 := Nested.scope (.clamp true) Nested.nil Nested.nil
  exact Nested.scope (.silent true) h1 Nested.nil

/-- Scopes only. -/
example : pureScopes (.scope (.silent true) (.seq (.scope (.silent false) (.call fun o => o.silent))
    (.call fun o => o.silent))) := ⟨trivial, trivial⟩

end Wreport
