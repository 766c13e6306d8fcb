import Verif.Model.Process
import Verif.Spec.Tables
import Verif.Spec.Tabledir

/-! # What a process does -/

namespace Wreport.Spec

/-- What a process can do with tables. -/
inductive ProcessOp where
  /-- Add a directory of tables. -/
  | add (dir : List Byte)
  /-- Decode a BUFR message. -/
  | bufr (O : Opts) (add_undef : Bool) (depth : Nat) (data : List Byte)
  /-- Decode a CREX message. -/
  | crex (O : Opts) (depth fuel : Nat) (data : List Byte)
  /-- Ask the BUFR element table of a file for an alteration. -/
  | alterBufr (pathname : List Byte) (q : Request)
  /-- Ask the CREX element table of a file for an alteration. -/
  | alterCrex (pathname : List Byte) (q : Request)

/-- References asked for are C++ `int`s. -/
def ProcessOp.InRange : ProcessOp → Prop
  | .alterBufr _ q => inInt q.bit_ref = true
  | .alterCrex _ q => inInt q.bit_ref = true
  | _ => True

/-- The directory that an operation adds. -/
def ProcessOp.adds : ProcessOp → Option (List Byte)
  | .add dir => some dir
  | _ => none

/-- Two element tables give metadata with the same contents. -/
def SameAnswers (E : Env) (t t' : Vartable) : Prop :=
  (∀ code, t'.query code = t.query code) ∧ (∀ code, t'.contains code = t.contains code) ∧
  ∀ q : Request, (do let x ← t'.answer E q; Res.ok x.2) = (do let x ← t.answer E q; Res.ok x.2)

end Wreport.Spec

namespace Wreport

open Spec

/-- One operation. -/
def Process.step (S : System) (p : Process) : ProcessOp → Process
  | .add dir => { p with dirs := p.dirs.add_directory dir }
  | .bufr O add_undef depth data => (p.decodeBufr S O add_undef depth data).1
  | .crex O depth fuel data => (p.decodeCrex S O depth fuel data).1
  | .alterBufr pathname q => p.alterBufr S pathname q.code q.scale q.bit_len q.bit_ref
  | .alterCrex pathname q => p.alterCrex S pathname q.code q.scale q.bit_len q.bit_ref

/-- A process after some operations, while files and directories stay as they are. -/
def Process.after (S : System) (ops : List ProcessOp) : Process :=
  ops.foldl (fun p op => p.step S op) (.fresh [])

/-- A process after some operations, each with its own files and directories. -/
def Process.during (E : Env) (p : Process)
    (ops : List ((List Byte → List (List Byte)) × (List Byte → Option (List Byte)) × ProcessOp)) :
    Process :=
  ops.foldl (fun p x => p.step ⟨E, x.1, x.2.1⟩ x.2.2) p

end Wreport
