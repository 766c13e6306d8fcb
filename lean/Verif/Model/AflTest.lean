import Verif.Model.Wrep

/-!
# The program for fuzzing

Modelled code: `src/afl-test.cc`. Simplified: files do not fail while they are read, and what
is written to standard error is left out. The computer is the one of the model of `wrep`.
-/

namespace Wreport.Afl

open Wrep

/-- The loop of `main`, `src/afl-test.cc` lines 46-56: the exit status. An exception ends the
program with 1, lines 63-66. The bulletin that `decode_header` gives has no subsets, so that
the loops on them do nothing. Each turn takes some of the file, so that one turn more than it
has bytes is enough. -/
def loop (M : Machine) : Nat → Process → Stream → Ran Nat
  | 0, _, _ => .endless
  | n + 1, p, s =>
    match s.readBufr with
    | .err _ => .ended 1
    | .ub => .undefined
    | .ok none => .ended 0
    | .ok (some (m, s)) =>
      let r := readHead M false p m.1
      match r.2 with
      | none => .endless
      | some .ub => .undefined
      | some (.err _) => .ended 1
      | some (.ok _) => loop M n r.1 s

/-- `main`, `src/afl-test.cc` lines 19-70: the exit status. -/
def main (M : Machine) : List (List Byte) → Ran Nat
  | [f] => match M.inputs f with
    | none => .ended 1
    | some data => loop M (data.length + 1) (.fresh M.dirs) ⟨data, 0⟩
  | _ => .ended 1

end Wreport.Afl
