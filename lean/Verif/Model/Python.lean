import Verif.Model.Format

/-!
The Python module: variables as Python programs see them.

Python objects are reduced to what the module can tell apart. A call into the module
is a call of a C function that gives back a pointer or a null pointer, and may leave
an exception set in the interpreter; the interpreter then decides what the program
sees.
-/

namespace Wreport.Py

/-- The exceptions that are raised by the module or by the interpreter calls it makes. -/
inductive Exc where
  | notImplemented
  | key
  | type
  | memory
  | os
  | system
  | value
  | runtime
  | overflow
  | unicodeDecode
  | unicodeEncode
deriving DecidableEq, Repr

/-- Python objects given to or made by the module. `str` are strings of characters
that have an UTF-8 form, `surrogates` are the other strings, which cannot be encoded.
Booleans are integers. -/
inductive Obj where
  | int (i : Int)
  | float (d : Dbl)
  | bytes (b : List Byte)
  | str (s : List Char)
  | surrogates
  | none
  | other
deriving DecidableEq

/-- `PyUnicode_AsUTF8AndSize`: the UTF-8 form of a string. -/
def encode (s : List Char) : List Byte := s.flatMap String.utf8EncodeChar

/-- `PyUnicode_FromStringAndSize`: the string with the given UTF-8 form. -/
def decode (b : List Byte) : Option (List Char) :=
  (ByteArray.utf8Decode? ⟨b.toArray⟩).map Array.toList

/-- What a C function leaves behind: the object it returns, if any, and the exception
that is set in the interpreter, if any. -/
inductive Ret (α : Type) where
  | ret (value : Option α) (pending : Option Exc)
  | ub
deriving DecidableEq

/-- What the Python program sees of a call. -/
inductive Done (α : Type) where
  | returned (a : α)
  | raised (e : Exc)
  | ub
deriving DecidableEq

/-- The check made by the interpreter when a C function returns
(`_Py_CheckFunctionResult` of CPython): an object with an exception set, or no object
without one, are a `SystemError`. -/
def Ret.done {α : Type} : Ret α → Done α
  | .ub => .ub
  | .ret (some a) Option.none => .returned a
  | .ret (some _) (some _) => .raised .system
  | .ret Option.none (some e) => .raised e
  | .ret Option.none Option.none => .raised .system

/-- `set_wreport_exception`, `python/common.cc` lines 21-71. -/
def excOf : Err → Exc
  | .notfound => .key
  | .type => .type
  | .alloc => .memory
  | .toolong => .value
  | .system => .os
  | .consistency => .runtime
  | .parse => .value
  | .write => .runtime
  | .unimplemented => .notImplemented
  | .domain => .overflow

/-- `WREPORT_CATCH_RETURN_PYO` and `WREPORT_CATCH_RETURN_INT`, `python/common.h` lines
48-64: the end of a function that was called with `pending` set. -/
def caught {α : Type} (pending : Option Exc) : Res α → Ret α
  | .ok a => .ret (some a) pending
  | .err e => .ret none (some (excOf e))
  | .ub => .ub

/-- `cstring_to_python` and `string_to_python`, `python/utils/values.cc` lines 8-16, and
`PyUnicode_FromString`. -/
def strToPython (b : List Byte) : Ret Obj :=
  match decode b with
  | some s => .ret (some (.str s)) none
  | none => .ret none (some .unicodeDecode)

/-- `to_python` of the result of a computation that may throw. -/
def textCaught (r : Res (List Byte)) : Ret Obj :=
  match r with
  | .ok b => strToPython b
  | .err e => .ret none (some (excOf e))
  | .ub => .ub

/-- `PyArg_ParseTupleAndKeywords` with format `s`. -/
def argText : Obj → Except Exc (List Byte)
  | .str s => if (0 : Byte) ∈ encode s then .error .value else .ok (encode s)
  | .surrogates => .error .unicodeEncode
  | _ => .error .type

/-- `PyLong_AsLong`: the number, and the exception it sets. -/
def asLong (i : Int) : Int × Option Exc :=
  if -9223372036854775808 ≤ i ∧ i ≤ 9223372036854775807 then (i, none) else (-1, some .overflow)

/-- `var_value_from_python`, `python/var.cc` lines 519-540. The `long` is converted to
the `int` that `seti` takes. The memory behind `PyBytes_AsString` is the bytes and a
terminator. -/
def var_value_from_python (E : Env) (O : Opts) (o : Obj) (v : Var) : Var × Ret Unit :=
  match o with
  | .int i =>
    let r := v.seti O (wrapInt (asLong i).1)
    (r.1, caught (asLong i).2 r.2)
  | .float d =>
    let r := v.setd E O d
    (r.1, caught none r.2)
  | .bytes b =>
    let r := v.setc O (c_str b)
    (r.1, caught none r.2)
  | .str s =>
    let r := v.sets O (encode s)
    (r.1, caught none r.2)
  | .surrogates => (v, .ret none (some .unicodeEncode))
  | .none | .other => (v, .ret none (some .type))

/-- `var_value_to_python`, `python/var.cc` lines 501-517. -/
def var_value_to_python (E : Env) (v : VarCore) : Ret Obj :=
  match v.info.type with
  | .string => textCaught (do let m ← v.enqc E; cstr m)
  | .binary => caught none (do let m ← v.enqc E; let b ← cstr m; return .bytes b)
  | .integer => caught none (do let i ← v.enqi; return .int i)
  | .decimal => caught none (do let d ← v.enqd E; return .float (.fin d))

/-! ## Methods of `wreport.Var` -/

/-- `VarDef::_init`, `python/var.cc` lines 387-421, with a `Varinfo`: the object that is
made and how the call ends. -/
def initInfo (E : Env) (O : Opts) (info : Varinfo) : Option Obj → Ret Var
  | Option.none => .ret (some (Var.new info)) Option.none
  | some o =>
    match var_value_from_python E O o (Var.new info) with
    | (v, .ret (some ()) p) => .ret (some v) p
    | (_, .ret Option.none p) => .ret Option.none p
    | (_, .ub) => .ub

/-- `VarDef::_init`, `python/var.cc` lines 408-412, with a `Var`. -/
def initVar (v : Var) : Ret Var := caught none v.copy

/-- `enqi`, `python/var.cc` lines 144-162. -/
def enqi (v : Var) : Ret Obj := caught none (do let i ← v.enqi; return .int i)

/-- `enqd`, `python/var.cc` lines 164-177. -/
def enqd (E : Env) (v : Var) : Ret Obj :=
  caught none (do let d ← v.enqd E; return .float (.fin d))

/-- `enqc`, `python/var.cc` lines 179-197. -/
def enqc (E : Env) (v : Var) : Ret Obj := textCaught (do let m ← v.enqc E; cstr m)

/-- `enq`, `python/var.cc` lines 199-212. -/
def enq (E : Env) (v : Var) : Ret Obj := var_value_to_python E v.toVarCore

/-- `get`, `python/var.cc` lines 307-331. -/
def get (E : Env) (v : Var) (dflt : Obj) : Ret Obj :=
  if v.isset then var_value_to_python E v.toVarCore else .ret (some dflt) none

/-- `format`, `python/var.cc` lines 333-351. -/
def format (E : Env) (v : Var) (dflt : Obj) : Ret Obj :=
  match argText dflt with
  | .error e => .ret none (some e)
  | .ok u => textCaught (v.format E u)

/-- `VarDef::_str`, `python/var.cc` lines 430-435. -/
def str (E : Env) (v : Var) : Ret Obj := textCaught (v.format E (ascii "None"))

/-- The value in the representation, `python/var.cc` lines 443-456. -/
def reprValue (E : Env) (v : Var) : Res (List Byte) :=
  if v.isset then do
    let s ← v.format E []
    match v.info.type with
    | .string | .binary => return ascii "'" ++ s ++ ascii "'"
    | .integer | .decimal => return s
  else .ok (ascii "None")

/-- `VarDef::_repr`, `python/var.cc` lines 437-460. -/
def repr (E : Env) (v : Var) : Ret Obj :=
  textCaught (do
    let s ← reprValue E v
    return ascii "Var('" ++ varcode_format v.code ++ ascii "', " ++ s ++ ascii ")")

/-- The chain of attributes from the one with the given code on: what `Var::enqa`
(`wreport/var.cc` lines 625-631) points to. -/
def attrFrom (code : Varcode) : List VarCore → Option Var
  | [] => none
  | a :: l =>
    if a.code ≤ code then if a.code = code then some { a with attrs := l } else attrFrom code l
    else none

/-- `enqa`, `python/var.cc` lines 214-236: a copy of the attribute, together with the
attributes that come after it. -/
def enqa (v : Var) (code : Obj) : Ret (Option Var) :=
  match argText code with
  | .error e => .ret none (some e)
  | .ok s =>
    caught none (do
      let c ← varcode_parse s
      match attrFrom c v.attrs with
      | none => return none
      | some a => do
        let w ← a.copy
        return some w)

/-- `seta`, `python/var.cc` lines 238-256. -/
def seta (v a : Var) : Ret Var := caught none (v.seta a)

/-- `unseta`, `python/var.cc` lines 258-276. -/
def unseta (v : Var) (code : Obj) : Ret Var :=
  match argText code with
  | .error e => .ret none (some e)
  | .ok s => caught none (do let c ← varcode_parse s; return v.unseta c)

/-- The objects made by `get_attrs`, `python/var.cc` lines 289-301. -/
def attrObjects (E : Env) (O : Opts) : List VarCore → Res (List Var)
  | [] => .ok []
  | a :: l => do
    let r := (Var.new a.info).setval E O a
    r.2
    let rest ← attrObjects E O l
    return r.1 :: rest

/-- `get_attrs`, `python/var.cc` lines 278-305. -/
def get_attrs (E : Env) (O : Opts) (v : Var) : Ret (List Var) := caught none (attrObjects E O v.attrs)

/-- `VarDef::_richcompare`, `python/var.cc` lines 462-485, for `==`; for `!=` the answer
is negated. -/
def compare (a b : Var) (negate : Bool) : Ret Bool :=
  caught none (do let e ← a.eq b; return xor e negate)

/-! ## Programs -/

/-- A call made by a Python program that holds the variables it was given so far;
variables are named by their position. -/
inductive Op where
  | make (info : Varinfo) (value : Option Obj)
  | dup (i : Nat)
  | enqi (i : Nat)
  | enqd (i : Nat)
  | enqc (i : Nat)
  | enq (i : Nat)
  | get (i : Nat) (dflt : Obj)
  | format (i : Nat) (dflt : Obj)
  | str (i : Nat)
  | repr (i : Nat)
  | enqa (i : Nat) (code : Obj)
  | seta (i j : Nat)
  | unseta (i : Nat) (code : Obj)
  | attrs (i : Nat)
  | cmp (i j : Nat) (negate : Bool)

/-- The variables after a call that gives new ones. -/
def added (h : List Var) (r : Ret (List Var)) : List Var :=
  match r.done with
  | .returned l => h ++ l
  | _ => h

/-- The variables after a call that changes one. -/
def changed (h : List Var) (i : Nat) (r : Ret Var) : List Var :=
  match r.done with
  | .returned v => h.set i v
  | _ => h

/-- Forgetting what is returned. -/
def Done.plain {α : Type} : Done α → Done Unit
  | .returned _ => .returned ()
  | .raised e => .raised e
  | .ub => .ub

/-- Changing what is returned. -/
def Ret.map {α β : Type} (f : α → β) : Ret α → Ret β
  | .ret v p => .ret (v.map f) p
  | .ub => .ub

/-- One call: the variables that the program holds afterwards, and how the call ends.
Calls on variables that the program does not hold do nothing. -/
def step (E : Env) (O : Opts) (h : List Var) : Op → List Var × Done Unit
  | .make info o =>
    let r := (initInfo E O info o).map fun v => [v]
    (added h r, r.done.plain)
  | .dup i => match h[i]? with
    | some v =>
      let r := (initVar v).map fun v => [v]
      (added h r, r.done.plain)
    | none => (h, .returned ())
  | .enqi i => match h[i]? with
    | some v => (h, (enqi v).done.plain)
    | none => (h, .returned ())
  | .enqd i => match h[i]? with
    | some v => (h, (enqd E v).done.plain)
    | none => (h, .returned ())
  | .enqc i => match h[i]? with
    | some v => (h, (enqc E v).done.plain)
    | none => (h, .returned ())
  | .enq i => match h[i]? with
    | some v => (h, (enq E v).done.plain)
    | none => (h, .returned ())
  | .get i d => match h[i]? with
    | some v => (h, (get E v d).done.plain)
    | none => (h, .returned ())
  | .format i d => match h[i]? with
    | some v => (h, (format E v d).done.plain)
    | none => (h, .returned ())
  | .str i => match h[i]? with
    | some v => (h, (str E v).done.plain)
    | none => (h, .returned ())
  | .repr i => match h[i]? with
    | some v => (h, (repr E v).done.plain)
    | none => (h, .returned ())
  | .enqa i c => match h[i]? with
    | some v =>
      let r := (enqa v c).map Option.toList
      (added h r, r.done.plain)
    | none => (h, .returned ())
  | .seta i j => match h[i]?, h[j]? with
    | some v, some a =>
      let r := seta v a
      (changed h i r, r.done.plain)
    | _, _ => (h, .returned ())
  | .unseta i c => match h[i]? with
    | some v =>
      let r := unseta v c
      (changed h i r, r.done.plain)
    | none => (h, .returned ())
  | .attrs i => match h[i]? with
    | some v =>
      let r := get_attrs E O v
      (added h r, r.done.plain)
    | none => (h, .returned ())
  | .cmp i j n => match h[i]?, h[j]? with
    | some a, some b => (h, (compare a b n).done.plain)
    | _, _ => (h, .returned ())

/-- A program: the variables it holds at the end, and how each call ended. -/
def run (E : Env) (O : Opts) (h : List Var) : List Op → List Var × List (Done Unit)
  | [] => (h, [])
  | op :: ops =>
    let s := step E O h op
    let r := run E O s.1 ops
    (r.1, s.2 :: r.2)

end Wreport.Py
