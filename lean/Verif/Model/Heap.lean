import Verif.Model.Var

/-!
# Variables and the objects they own

Modelled code: `wreport/var.cc` lines 99-273, 479-508 and 620-715, `wreport/var.h` lines
25-49, this time with pointers: the buffers of texts and the attributes are objects on
the heap, made by `new` and destroyed by `delete`. Using an object that does not exist,
or destroying it twice, is undefined behaviour. Functions that follow the chain of
attributes call themselves; the first argument bounds the depth of such calls, and
exceeding it is undefined behaviour. Not modelled: running out of memory, hooks for
values out of range that do more than store a number.
-/

namespace Wreport.Own

/-- The union `Var::m_value`, `wreport/var.h` lines 43-46: an integer, where 0 is also the
null pointer, or the address of a buffer. -/
inductive HCell where
  | word (i : Int)
  | addr (a : Nat)
deriving DecidableEq

/-- `Var`, `wreport/var.h` lines 25-49. -/
structure HVar where
  info : Varinfo
  isset : Bool
  cell : HCell
  attrs : Option Nat
deriving DecidableEq

/-- What there is on the heap: a `char[]`, or a `Var` of a chain of attributes. -/
inductive Obj where
  | buf (m : Mem)
  | node (v : HVar)
deriving DecidableEq

/-- The heap: the objects that exist, and an address never used before. -/
structure Heap where
  at? : Nat → Option Obj
  next : Nat

namespace Heap

/-- No objects. -/
def empty : Heap := ⟨fun _ => none, 0⟩

/-- Replacing what is at an address. -/
def set (h : Heap) (a : Nat) (o : Option Obj) : Heap :=
  { h with at? := fun b => if b = a then o else h.at? b }

/-- `new`. -/
def new (h : Heap) (o : Obj) : Nat × Heap := (h.next, { h.set h.next (some o) with next := h.next + 1 })

/-- Access to a buffer. -/
def buf (h : Heap) (a : Nat) : Res Mem :=
  match h.at? a with
  | some (.buf m) => .ok m
  | _ => .ub

/-- Access to an attribute. -/
def node (h : Heap) (a : Nat) : Res HVar :=
  match h.at? a with
  | some (.node v) => .ok v
  | _ => .ub

/-- `delete[]` of an address that is not null. -/
def freeBuf (h : Heap) (a : Nat) : Res Heap := do
  let _ ← h.buf a
  return h.set a none

/-- The end of `delete` of an attribute, after its destructor. -/
def freeNode (h : Heap) (a : Nat) : Res Heap := do
  let _ ← h.node a
  return h.set a none

/-- Memory at `m_value.c`. -/
def read (h : Heap) : HCell → Res Mem
  | .addr a => h.buf a
  | .word _ => .ub

/-- `delete[] m_value.c`: nothing for the null pointer. -/
def deleteCell (h : Heap) : HCell → Res Heap
  | .addr a => h.freeBuf a
  | .word i => if i = 0 then .ok h else .ub

end Heap

/-- `m_value.c` is a pointer for texts and binary data. -/
def isText (info : Varinfo) : Bool :=
  match info.type with
  | .string | .binary => true
  | .integer | .decimal => false

namespace HVar

/-- `Var::code`, `wreport/var.h` line 138. -/
def code (v : HVar) : Varcode := v.info.code

/-- Constructor from a descriptor, `wreport/var.cc` lines 99-102. -/
def new (info : Varinfo) : HVar := ⟨info, false, .word 0, none⟩

/-- `Var::allocate`, `wreport/var.cc` lines 200-204: the address at `m_value.c`
afterwards. -/
def allocate (h : Heap) (v : HVar) : Res (Nat × Heap) :=
  match v.cell with
  | .addr a => .ok (a, h)
  | .word i => if i = 0 then .ok (h.new (.buf (List.replicate (v.info.len + 1) none))) else .ub

/-- `allocate()`, then writing to the buffer: `f` gives its contents afterwards from
those before. -/
def store (h : Heap) (v : HVar) (f : Mem → Res Mem) : Res (Heap × HVar) := do
  let r ← allocate h v
  let m ← r.2.buf r.1
  let m' ← f m
  return (r.2.set r.1 (some (.buf m')), { v with isset := true, cell := .addr r.1 })

/-- `Var::assign_b_checked`, `wreport/var.cc` lines 479-494. -/
def assign_b_checked (h : Heap) (v : HVar) (val : Mem) (size : Nat) : Res (Heap × HVar) :=
  v.store h fun m =>
    if size < v.info.len then do
      let w ← memRead val size
      memWrite m (w ++ List.replicate (v.info.len - size) (some 0))
    else do
      let w ← memRead val v.info.len
      let m ← memWrite m w
      Var.maskLast v.info m

/-- `Var::assign_c_checked`, `wreport/var.cc` lines 496-508. -/
def assign_c_checked (h : Heap) (v : HVar) (val : Mem) (size : Nat) : Res (Heap × HVar) :=
  v.store h fun m => do
    let w ← strncpy val (if size < v.info.len then size else v.info.len)
    memWrite m (toMem w ++ [some 0])

/-- `Var::copy_value`, `wreport/var.cc` lines 206-226. -/
def copy_value (h : Heap) (v src : HVar) : Res (Heap × HVar) :=
  if !src.isset then .ok (h, { v with isset := false })
  else match v.info.type with
  | .binary => v.store h fun m => do
    let p ← h.read src.cell
    let w ← memRead p v.info.len
    memWrite m w
  | .string => v.store h fun m => do
    let p ← h.read src.cell
    let w ← memRead p (v.info.len + 1)
    memWrite m w
  | .integer | .decimal =>
    match src.cell with
    | .word i => .ok (h, { v with isset := true, cell := .word i })
    | .addr _ => .ub

/-- `Var::move_value`, `wreport/var.cc` lines 228-248: new target and source. -/
def move_value (h : Heap) (v src : HVar) : Res (Heap × HVar × HVar) :=
  if !src.isset then .ok (h, { v with isset := false }, src)
  else match v.info.type with
  | .binary | .string => do
    let h ← h.deleteCell v.cell
    return (h, { v with isset := true, cell := src.cell }, { src with isset := false, cell := .word 0 })
  | .integer | .decimal =>
    match src.cell with
    | .word i => .ok (h, { v with isset := true, cell := .word i }, { src with isset := false })
    | .addr _ => .ub

/-- First part of the destructor, `wreport/var.cc` lines 176-185. -/
def deleteValue (h : Heap) (v : HVar) : Res Heap :=
  if isText v.info then h.deleteCell v.cell else .ok h

/-- `Var::~Var`, `wreport/var.cc` lines 174-187. -/
def destroy : Nat → Heap → HVar → Res Heap
  | 0, _, _ => .ub
  | d + 1, h, v => do
    let h ← deleteValue h v
    match v.attrs with
    | none => .ok h
    | some a => do
      let n ← h.node a
      let h ← destroy d h n
      h.freeNode a

/-- `delete m_attrs`. -/
def deleteAttrs (d : Nat) (h : Heap) : Option Nat → Res Heap
  | none => .ok h
  | some a => do
    let n ← h.node a
    let h ← destroy d h n
    h.freeNode a

/-- `Var::clear_attrs`, `wreport/var.cc` lines 269-273. -/
def clear_attrs (d : Nat) (h : Heap) (v : HVar) : Res (Heap × HVar) := do
  let h ← deleteAttrs d h v.attrs
  return (h, { v with attrs := none })

/-- Copy constructor with the part of `setattrs` that makes copies,
`wreport/var.cc` lines 128-133 and 713-714. -/
def copy : Nat → Heap → HVar → Res (Heap × HVar)
  | 0, _, _ => .ub
  | d + 1, h, src => do
    let r ← copy_value h (new src.info) src
    match src.attrs with
    | none => .ok r
    | some a => do
      let n ← r.1.node a
      let c ← copy d r.1 n
      let x := c.1.new (.node c.2)
      return (x.2, { r.2 with attrs := some x.1 })

/-- `Var::setattrs`, `wreport/var.cc` lines 710-715. -/
def setattrs (d : Nat) (h : Heap) (v src : HVar) : Res (Heap × HVar) := do
  let r ← clear_attrs d h v
  match src.attrs with
  | none => .ok r
  | some a => do
    let n ← r.1.node a
    let c ← copy d r.1 n
    let x := c.1.new (.node c.2)
    return (x.2, { r.2 with attrs := some x.1 })

/-- `Var::operator=(const Var&)`, `wreport/var.cc` lines 149-162. -/
def assign (d : Nat) (h : Heap) (v src : HVar) : Res (Heap × HVar) := do
  let r ← copy_value h { v with info := src.info } src
  setattrs d r.1 r.2 src

/-- `Var::enqa`, `wreport/var.cc` lines 625-631: where the attribute is. -/
def enqa : Nat → Heap → Option Nat → Varcode → Res (Option Nat)
  | 0, _, _, _ => .ub
  | _ + 1, _, none, _ => .ok none
  | d + 1, h, some a, code => do
    let n ← h.node a
    if n.code ≤ code then
      if n.code = code then .ok (some a) else enqa d h n.attrs code
    else .ok none

/-- `v = *v.enqa(code)`: `Var::operator=(const Var&)`, `wreport/var.cc` lines 149-162,
where the source is the attribute at `a` and is read when it is used. -/
def assignAttr (d : Nat) (h : Heap) (v : HVar) (a : Nat) : Res (Heap × HVar) := do
  let src ← h.node a
  let r ← copy_value h { v with info := src.info } src
  let r ← clear_attrs d r.1 r.2
  let src ← r.1.node a
  match src.attrs with
  | none => .ok r
  | some b => do
    let n ← r.1.node b
    let c ← copy d r.1 n
    let x := c.1.new (.node c.2)
    return (x.2, { r.2 with attrs := some x.1 })

/-- Move constructor, `wreport/var.cc` lines 135-140: the new variable and the source. -/
def move (h : Heap) (src : HVar) : Res (Heap × HVar × HVar) := do
  let r ← move_value h { new src.info with attrs := src.attrs } src
  return (r.1, r.2.1, { r.2.2 with attrs := none })

/-- `Var::operator=(Var&&)`, `wreport/var.cc` lines 164-172. -/
def moveAssign (d : Nat) (h : Heap) (v src : HVar) : Res (Heap × HVar × HVar) := do
  let r ← move_value h v src
  let h ← deleteAttrs d r.1 r.2.1.attrs
  return (h, { r.2.1 with attrs := r.2.2.attrs }, { r.2.2 with attrs := none })

/-- `Var::seta(unique_ptr<Var>&&)`, `wreport/var.cc` lines 643-666; `x` is where the
attribute is. -/
def setaMove : Nat → Heap → HVar → Nat → Res (Heap × HVar)
  | 0, _, _, _ => .ub
  | d + 1, h, v, x => do
    let n ← h.node x
    let c ← clear_attrs d h n
    match v.attrs with
    | none => return (c.1.set x (some (.node c.2)), { v with attrs := some x })
    | some a => do
      let old ← c.1.node a
      if c.2.code < old.code then
        return (c.1.set x (some (.node { c.2 with attrs := some a })), { v with attrs := some x })
      else if old.code = c.2.code then do
        let h := c.1.set x (some (.node { c.2 with attrs := old.attrs }))
        let h ← destroy d h { old with attrs := none }
        let h ← h.freeNode a
        return (h, { v with attrs := some x })
      else do
        let r ← setaMove d (c.1.set x (some (.node c.2))) old x
        return (r.1.set a (some (.node r.2)), v)

/-- `Var::seta(const Var&)` and `Var::seta(Var&&)`, `wreport/var.cc` lines 633-641. -/
def seta (d : Nat) (h : Heap) (v attr : HVar) : Res (Heap × HVar) := do
  let c ← copy d h attr
  let x := c.1.new (.node c.2)
  setaMove d x.2 v x.1

/-- `Var::unseta`, `wreport/var.cc` lines 668-684. -/
def unseta : Nat → Heap → HVar → Varcode → Res (Heap × HVar)
  | 0, _, _, _ => .ub
  | d + 1, h, v, code =>
    match v.attrs with
    | none => .ok (h, v)
    | some a => do
      let old ← h.node a
      if code < old.code then .ok (h, v)
      else if old.code = code then do
        let h ← destroy d h { old with attrs := none }
        let h ← h.freeNode a
        return (h, { v with attrs := old.attrs })
      else do
        let r ← unseta d h old code
        return (r.1.set a (some (.node r.2)), v)

/-- `Var::enqc`, `wreport/var.cc` lines 359-384. -/
def enqc (E : Env) (h : Heap) (v : HVar) : Res Mem :=
  if !v.isset then .err .notfound
  else if isText v.info then h.read v.cell
  else match v.cell with
    | .word i => int32_to_str E i
    | .addr _ => .ub

/-- `Var::enqd`, `wreport/var.cc` lines 295-314. -/
def enqd (E : Env) (v : HVar) : Res ℚ :=
  if !v.isset then .err .notfound
  else if isText v.info then .err .type
  else match v.cell with
    | .word i => VarCore.enqd E ⟨v.info, v.isset, .word i⟩
    | .addr _ => .ub

/-- The setters of numbers of `Verif.Model.Var`, which do not use buffers or attributes
unless a hook does: the variable afterwards, and how the function ended. Storing a
number forgets the address of a buffer. -/
def setNum (f : Var → Var × Res Unit) (v : HVar) : HVar × Res Unit :=
  let c := match v.cell with
    | .word i => Cell.word i
    | .addr _ => Cell.mem []
  let r := f ⟨⟨v.info, v.isset, c⟩, []⟩
  ({ v with
      isset := r.1.isset
      cell := match r.1.cell with
        | .word i => .word i
        | .mem _ => v.cell }, r.2)

/-- A function that ended normally. -/
def done (r : Res (Heap × HVar)) : Res (Heap × HVar × Res Unit) := do
  let r ← r
  return (r.1, r.2, .ok ())

/-- `Var::seti`, `wreport/var.cc` lines 510-525, and `Var::setd`, lines 527-540: `f` is
one of them. -/
def setNumber (f : Var → Var × Res Unit) (h : Heap) (v : HVar) : Res (Heap × HVar × Res Unit) :=
  .ok (h, setNum f v)

/-- `Var::sets`, `wreport/var.cc` lines 575-591. -/
def sets (O : Opts) (h : Heap) (v : HVar) (val : List Byte) : Res (Heap × HVar × Res Unit) :=
  match v.info.type with
  | .string => done (v.assign_c_checked h (c_str val) val.length)
  | .binary => done (v.assign_b_checked h (c_str val) val.length)
  | .integer | .decimal => .ok (h, setNum (·.setNumText O (val.takeWhile (· ≠ 0))) v)

/-- A function that ended with an exception and left the variable as it was. -/
def thrown {α : Type} (h : Heap) (v : HVar) (r : Res α) (f : α → Res (Heap × HVar × Res Unit)) :
    Res (Heap × HVar × Res Unit) :=
  match r with
  | .ok a => f a
  | .err e => .ok (h, v, .err e)
  | .ub => .ub

/-- `Var::setc`, `wreport/var.cc` lines 542-558. -/
def setc (O : Opts) (h : Heap) (v : HVar) (val : Mem) : Res (Heap × HVar × Res Unit) :=
  match v.info.type with
  | .string => done (v.assign_c_checked h val v.info.len)
  | .binary => done (v.assign_b_checked h val v.info.len)
  | .integer | .decimal => thrown h v (cstr val) fun s => .ok (h, setNum (·.setNumText O s) v)

/-- `Var::setc_truncate`, `wreport/var.cc` lines 560-573. -/
def setc_truncate (h : Heap) (v : HVar) (val : Mem) : Res (Heap × HVar × Res Unit) :=
  match v.info.type with
  | .integer | .decimal => .ok (h, v, .err .type)
  | .string => thrown h v (cstr val) fun s => done (v.assign_c_checked h val s.length)
  | .binary => done (v.assign_b_checked h val v.info.len)

/-- `Var::setf`, `wreport/var.cc` lines 593-618; `none` is a null pointer. -/
def setf (E : Env) (O : Opts) (h : Heap) (v : HVar) (val : Option (List Byte)) :
    Res (Heap × HVar × Res Unit) :=
  match val with
  | none => .ok (h, { v with isset := false }, .ok ())
  | some [] => .ok (h, { v with isset := false }, .ok ())
  | some s =>
    match v.info.type with
    | .string => done (v.assign_c_checked h (c_str s) v.info.len)
    | .binary => .ok (h, v, .err .unimplemented)
    | .integer | .decimal => .ok (h, setNum (·.setd E O (E.strtod s)) v)

/-- `Var::setval`, `wreport/var.cc` lines 691-708. -/
def setval (E : Env) (O : Opts) (h : Heap) (v src : HVar) : Res (Heap × HVar × Res Unit) :=
  if !src.isset then .ok (h, { v with isset := false }, .ok ())
  else match v.info.type with
  | .string => thrown h v (src.enqc E h) fun m => done (v.assign_c_checked h m v.info.len)
  | .binary => thrown h v (src.enqc E h) fun m => done (v.assign_b_checked h m v.info.len)
  | .integer | .decimal =>
    thrown h v (do let d ← src.enqd E; E.conv src.info.unit v.info.unit (.fin d)) fun d =>
      .ok (h, setNum (·.setd E O d) v)

/-- Constructor with another variable's value, `wreport/var.cc` lines 142-147: the new
variable. When an exception is thrown in it the value that it has allocated is not
deleted, as there is no variable yet whose destructor would do that. -/
def newFrom (E : Env) (O : Opts) (d : Nat) (h : Heap) (info : Varinfo) (src : HVar) :
    Res (Heap × Res HVar) := do
  let r ← (new info).setval E O h src
  match r.2.2 with
  | .err e => .ok (r.1, .err e)
  | .ub => .ub
  | .ok () => do
    let x ← setattrs d r.1 r.2.1 src
    return (x.1, .ok x.2)

end HVar

/-! ## Programs with several variables -/

/-- What a program does with its variables, which are numbered. -/
inductive Op where
  /-- `Var i(info)` -/
  | make (i : Nat) (info : Varinfo)
  /-- `Var i(j)` -/
  | copy (i j : Nat)
  /-- `Var i(info, j)` -/
  | newFrom (i : Nat) (info : Varinfo) (j : Nat)
  /-- `Var i(move(j))` -/
  | move (i j : Nat)
  /-- `i = j` -/
  | assign (i j : Nat)
  /-- `i = move(j)` -/
  | moveAssign (i j : Nat)
  | seti (i : Nat) (x : Int)
  | setd (i : Nat) (x : Dbl)
  | sets (i : Nat) (x : List Byte)
  | setc (i : Nat) (x : Mem)
  | setcTruncate (i : Nat) (x : Mem)
  | setf (i : Nat) (x : Option (List Byte))
  | unset (i : Nat)
  | setval (i j : Nat)
  | setattrs (i j : Nat)
  | seta (i j : Nat)
  | unseta (i : Nat) (code : Varcode)
  | clearAttrs (i : Nat)
  /-- `i` goes out of scope. -/
  | destroy (i : Nat)
deriving DecidableEq

/-- The heap and the variables; `none` is a variable that does not exist. -/
abbrev World := Heap × List (Option HVar)

namespace World

/-- Use of a variable. -/
def get (w : World) (i : Nat) : Res HVar :=
  match w.2[i]?.join with
  | some v => .ok v
  | none => .ub

/-- Creation of a variable needs a free place. -/
def free (w : World) (i : Nat) : Res Unit :=
  if w.2[i]? = some none then .ok () else .ub

/-- A variable afterwards. -/
def put (w : World) (i : Nat) (r : Heap × HVar) : World := (r.1, w.2.set i (some r.2))

/-- A variable and the source of its value afterwards. -/
def put2 (w : World) (i j : Nat) (r : Heap × HVar × HVar) : World :=
  (r.1, (w.2.set i (some r.2.1)).set j (some r.2.2))

/-- A setter; the program goes on after an exception. -/
def set (w : World) (i : Nat) (r : Res (Heap × HVar × Res Unit)) : Res World := do
  let r ← r
  match r.2.2 with
  | .ub => .ub
  | _ => .ok (w.put i (r.1, r.2.1))

/-- A bound for the depth of calls that follow a chain of attributes: chains have no
more members than there are objects. -/
def depth (w : World) : Nat := 2 * w.1.next + 2

/-- One step of a program. Assigning a variable to itself does nothing, `wreport/var.cc`
lines 151 and 166; taking its own attributes removes them, as they are removed before
they are looked at, lines 712-713. A text that takes its own value is copied onto itself
with `strncpy` or `memcpy`, lines 484-503, which is undefined. -/
def step (E : Env) (O : Opts) (w : World) : Op → Res World
  | .make i info => do
    w.free i
    return w.put i (w.1, .new info)
  | .copy i j => do
    w.free i
    let s ← w.get j
    let r ← s.copy w.depth w.1
    return w.put i r
  | .newFrom i info j => do
    w.free i
    let s ← w.get j
    let r ← HVar.newFrom E O w.depth w.1 info s
    match r.2 with
    | .ok v => .ok (w.put i (r.1, v))
    | .err _ => .ok (r.1, w.2)
    | .ub => .ub
  | .move i j => do
    w.free i
    let s ← w.get j
    let r ← s.move w.1
    return w.put2 i j r
  | .assign i j => do
    let v ← w.get i
    let s ← w.get j
    if i = j then .ok w
    else do
      let r ← v.assign w.depth w.1 s
      return w.put i r
  | .moveAssign i j => do
    let v ← w.get i
    let s ← w.get j
    if i = j then .ok w
    else do
      let r ← v.moveAssign w.depth w.1 s
      return w.put2 i j r
  | .seti i x => do
    let v ← w.get i
    w.set i (v.setNumber (·.seti O x) w.1)
  | .setd i x => do
    let v ← w.get i
    w.set i (v.setNumber (·.setd E O x) w.1)
  | .sets i x => do
    let v ← w.get i
    w.set i (v.sets O w.1 x)
  | .setc i x => do
    let v ← w.get i
    w.set i (v.setc O w.1 x)
  | .setcTruncate i x => do
    let v ← w.get i
    w.set i (v.setc_truncate w.1 x)
  | .setf i x => do
    let v ← w.get i
    w.set i (v.setf E O w.1 x)
  | .unset i => do
    let v ← w.get i
    return w.put i (w.1, { v with isset := false })
  | .setval i j => do
    let v ← w.get i
    let s ← w.get j
    if i = j ∧ v.isset = true ∧ isText v.info = true then .ub else w.set i (v.setval E O w.1 s)
  | .setattrs i j => do
    let v ← w.get i
    let s ← w.get j
    if i = j then do
      let r ← v.clear_attrs w.depth w.1
      return w.put i r
    else do
      let r ← v.setattrs w.depth w.1 s
      return w.put i r
  | .seta i j => do
    let v ← w.get i
    let s ← w.get j
    let r ← v.seta w.depth w.1 s
    return w.put i r
  | .unseta i code => do
    let v ← w.get i
    let r ← v.unseta w.depth w.1 code
    return w.put i r
  | .clearAttrs i => do
    let v ← w.get i
    let r ← v.clear_attrs w.depth w.1
    return w.put i r
  | .destroy i => do
    let v ← w.get i
    let h ← v.destroy w.depth w.1
    return (h, w.2.set i none)

/-- A program. -/
def run (E : Env) (O : Opts) (w : World) : List Op → Res World
  | [] => .ok w
  | op :: l => do
    let w ← step E O w op
    run E O w l

/-- The end of a program: the variables that exist go out of scope. -/
def finish (w : World) : List Nat → Res World
  | [] => .ok w
  | i :: l =>
    match w.2[i]?.join with
    | none => finish w l
    | some v => do
      let h ← v.destroy w.depth w.1
      finish (h, w.2.set i none) l

/-- A program from its beginning to its end, with `n` variables. -/
def whole (E : Env) (O : Opts) (n : Nat) (l : List Op) : Res World := do
  let w ← run E O (.empty, List.replicate n none) l
  finish w (List.range w.2.length)

end World

end Wreport.Own
