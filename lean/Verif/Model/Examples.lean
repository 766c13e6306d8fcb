import Verif.Model.Wrep

/-!
# The program with examples

Modelled code: `src/examples.cc`. The message that `do_makebuoy` of `src/makebuoy.cc` encodes
is a parameter. Simplified: writing to standard output does not fail, and what is written to
standard error is left out.
-/

namespace Wreport.Examples

open Wrep (Ran splitValue)

/-- `do_help`, `src/examples.cc` lines 40-58, with long options. -/
def helpText : List Byte :=
  ascii "Usage: examples [options]\n" ++
  ascii "Run wreport examples\n" ++
  ascii "Options:\n" ++
  ascii "  -v,--verbose        verbose operation\n" ++
  ascii "  -h,--help           print this help message\n" ++
  ascii "  -B,--makebuoy       generate a buoy BUFR message\n"

/-- Letters of options, `src/examples.cc` line 82: `vh`. -/
def shortOption (c : Byte) : Bool := c == 118 || c == 104

/-- Names of options, `src/examples.cc` lines 63-70. None takes an argument. -/
def longOptions : List (List Byte × Byte) :=
  [(ascii "makebuoy", 66), (ascii "verbose", 118), (ascii "help", 104)]

/-- What `getopt_long` gives for an argument that begins with two dashes: the letter of the
option with that name, or else of the only one whose name begins so; a question mark for
others, and when there is a value. -/
def longOption (s : List Byte) : Byte :=
  let name := (splitValue s).1
  let found := match longOptions.lookup name with
    | some c => some c
    | none => match longOptions.filter (fun o => name.isPrefixOf o.1) with
      | [o] => some o.2
      | _ => none
  match found, (splitValue s).2 with
  | some c, none => c
  | _, _ => 63

/-- What the calls of `getopt_long` give until they give −1, `src/examples.cc` lines 76-90, as
the C library of GNU does them, which passes over other arguments. -/
def getopt : List (List Byte) → List Byte
  | [] => []
  | a :: args => match a with
    | 45 :: 45 :: [] => []
    | 45 :: 45 :: s => longOption s :: getopt args
    | 45 :: c :: s => (c :: s).map (fun c => if shortOption c then c else 63) ++ getopt args
    | _ => getopt args

/-- `action`. -/
inductive Action where
  | help | makebuoy
deriving DecidableEq

/-- The loop on options, `src/examples.cc` lines 76-106; `none` when an option is not known.
With `verbose`, notes go to standard error. -/
def options (a : Action) : List Byte → Option Action
  | [] => some a
  | c :: cs =>
    if c = 118 then options a cs
    else if c = 104 then options .help cs
    else if c = 66 then options .makebuoy cs
    else none

/-- `main`, `src/examples.cc` lines 60-125: what is written to standard output and the exit
status. -/
def main (buoy : Res (List Byte)) (args : List (List Byte)) : Ran (List Byte × Nat) :=
  match options .help (getopt args) with
  | none => .ended ([], 1)
  | some .help => .ended (helpText, 0)
  | some .makebuoy => match buoy with
    | .ok m => .ended (m, 0)
    | .err _ => .ended ([], 1)
    | .ub => .undefined

end Wreport.Examples
