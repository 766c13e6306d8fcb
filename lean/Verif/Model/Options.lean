import Verif.Model.Var

/-!
# Options

Modelled code: `wreport/options.{h,cc}`. The options are `thread_local`, so the state
is that of one thread (`Threads` has several).
-/

namespace Wreport

/-- Which option, `wreport/options.h` lines 36, 45 and 66. -/
inductive OptName where
  | silent | clamp | hook
deriving DecidableEq

/-- An option and a value of its type. -/
inductive OptVal where
  | silent (v : Bool)
  | clamp (v : Bool)
  | hook (v : Option Hook)

/-- The option. -/
def OptVal.name : OptVal → OptName
  | .silent _ => .silent
  | .clamp _ => .clamp
  | .hook _ => .hook

/-- The option with the value it has now. -/
def Opts.read (o : Opts) : OptName → OptVal
  | .silent => .silent o.silent
  | .clamp => .clamp o.clamp
  | .hook => .hook o.hook

/-- An assignment to the option. -/
def Opts.write (o : Opts) : OptVal → Opts
  | .silent v => { o with silent := v }
  | .clamp v => { o with clamp := v }
  | .hook v => { o with hook := v }

/-- `LocalOverride`, `wreport/options.h` lines 83-98: `param` and `old_value`. -/
structure LocalOverride where
  param : OptName
  old_value : OptVal

namespace LocalOverride

/-- The constructor, `wreport/options.h` lines 89-93. -/
def construct (o : Opts) (v : OptVal) : LocalOverride × Opts := (⟨v.name, o.read v.name⟩, o.write v)

/-- The destructor, `wreport/options.h` lines 94-97. -/
def destruct (x : LocalOverride) (o : Opts) : Opts := o.write x.old_value

end LocalOverride

/-- A program that uses options. -/
inductive Stmt where
  | skip
  | seq (a b : Stmt)
  /-- `options::name = value` -/
  | assign (v : OptVal)
  /-- Code that reads the options; it may throw. -/
  | call (throws : Opts → Bool)
  /-- `{ auto o = options::local_override(name, value); body }` -/
  | scope (v : OptVal) (body : Stmt)
  /-- `try { body } catch (...) {}` -/
  | tryCatch (body : Stmt)

/-- What a program did: the options at the end, if it ended with an exception, and the
options that each call saw. -/
structure Trace where
  opts : Opts
  thrown : Bool
  seen : List Opts

/-- Execution. An object in a scope is destroyed at the end of the scope, also if it is
left by an exception; `local_override` returns its object without a copy (C++17). -/
def Stmt.exec : Stmt → Opts → Trace
  | .skip, o => ⟨o, false, []⟩
  | .seq a b, o =>
    let r := a.exec o
    if r.thrown then r
    else
      let r' := b.exec r.opts
      ⟨r'.opts, r'.thrown, r.seen ++ r'.seen⟩
  | .assign v, o => ⟨o.write v, false, []⟩
  | .call f, o => ⟨o, f o, [o]⟩
  | .scope v body, o =>
    let c := LocalOverride.construct o v
    let r := body.exec c.2
    ⟨c.1.destruct r.opts, r.thrown, r.seen⟩
  | .tryCatch body, o =>
    let r := body.exec o
    ⟨r.opts, false, r.seen⟩

/-! ## Objects that are not tied to a scope -/

/-- Events on `LocalOverride` objects: the newest is number 0. -/
inductive OverrideEvent where
  | construct (v : OptVal)
  | assign (v : OptVal)
  | destruct (i : Nat)

/-- The options and the objects that exist. -/
structure OverrideState where
  opts : Opts
  live : List LocalOverride

/-- One event; an object that does not exist cannot be destroyed. -/
def OverrideState.step (s : OverrideState) : OverrideEvent → Option OverrideState
  | .construct v =>
    let c := LocalOverride.construct s.opts v
    some ⟨c.2, c.1 :: s.live⟩
  | .assign v => some ⟨s.opts.write v, s.live⟩
  | .destruct i => match s.live[i]? with
    | some x => some ⟨x.destruct s.opts, s.live.eraseIdx i⟩
    | none => none

/-- Several events. -/
def OverrideState.run (s : OverrideState) : List OverrideEvent → Option OverrideState
  | [] => some s
  | e :: es => (s.step e).bind (·.run es)

/-- Several threads, each with its own options. -/
def Threads.run (t : Nat → Opts) : List (Nat × Stmt) → (Nat → Opts)
  | [] => t
  | (i, s) :: rest => Threads.run (fun j => if j = i then (s.exec (t i)).opts else t j) rest

end Wreport
