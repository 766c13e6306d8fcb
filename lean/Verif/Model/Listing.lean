import Verif.Model.Crex
import Verif.Model.Targets

/-!
# Interpreters that list descriptors and data

Modelled code: `wreport/bulletin/interpreter.cc` lines 489-693 (the virtual functions
of `Interpreter` that throw, `print_c_modifier`, `Printer`),
`wreport/bulletin/dds-scanfeatures.cc`, `wreport/bulletin/dds-printer.cc`,
`wreport/bulletin.cc` lines 134-151.

These classes also override functions called by the loop of `Interpreter::run`, so
the loop is given here with those functions as parameters; with the functions of
`Interpreter` it is `Interp.run` (`Over.run_plain`). Not modelled: what was printed
before an exception, failing writes.
-/

namespace Wreport

/-! ## The loop with overridden functions -/

/-- The virtual functions that `Interpreter::run` calls,
`wreport/bulletin/interpreter.h` lines 86-136. The first argument of `r_replication`
and `run_d_expansion` runs the descriptors on the top of `opcode_stack` (for
`r_replication` after `ops` was pushed). -/
structure Over (σ : Type) where
  b_variable : Interp σ → Varcode → Res (Interp σ)
  c_modifier : Interp σ → Varcode → List Varcode → Res (List Varcode × Interp σ)
  r_replication : (Interp σ → Res (Interp σ)) → Interp σ → Varcode → Varcode → Res (Interp σ)
  r_bitmap : Interp σ → Varcode → Varcode → List Varcode → Res (Interp σ)
  run_d_expansion : (Interp σ → Res (Interp σ)) → Interp σ → Varcode → Res (Interp σ)

namespace Over

variable {σ : Type}

/-- The functions of `Interpreter` itself, `wreport/bulletin/interpreter.cc` lines
130-492. -/
def plain (C : Ctx) (T : Target σ) : Over σ where
  b_variable := Interp.b_variable C T
  c_modifier := Interp.c_modifier C T
  r_replication := Interp.r_replication C T
  r_bitmap := Interp.r_bitmap C T
  run_d_expansion := fun body st _ => body st

/-- Choice between bitmap and replication, `wreport/bulletin/interpreter.cc` lines
57-60. -/
def bitmapOrRepeat (V : Over σ) (exec : List Varcode → Interp σ → Res (Interp σ))
    (st : Interp σ) (cur delayed_code : Varcode) (ops : List Varcode) : Res (Interp σ) :=
  if st.bitmaps.pending_definitions ≠ 0 then V.r_bitmap st cur delayed_code ops
  else V.r_replication (exec ops) st cur delayed_code

/-- The replication case of `run`, `wreport/bulletin/interpreter.cc` lines 39-62. -/
def replication (V : Over σ) (exec : List Varcode → Interp σ → Res (Interp σ))
    (st : Interp σ) (cur : Varcode) (rest : List Varcode) : Res (List Varcode × Interp σ) := do
  let d := Interp.delayedCode cur rest
  let p ← Interp.popN d.2 (WR_VAR_X cur)
  let st ← V.bitmapOrRepeat exec st cur d.1 p.1
  return (p.2, st)

/-- One turn of the loop of `run`, `wreport/bulletin/interpreter.cc` lines 35-76. -/
def step (C : Ctx) (V : Over σ) (expand exec : List Varcode → Interp σ → Res (Interp σ))
    (st : Interp σ) (cur : Varcode) (rest : List Varcode) : Res (List Varcode × Interp σ) :=
  match WR_VAR_F cur with
  | 0 => do
    let st ← V.b_variable st cur
    return (rest, st)
  | 1 => V.replication exec st cur rest
  | 2 => V.c_modifier st cur rest
  | 3 => do
    let ops ← C.dtable.query cur
    let st ← V.run_d_expansion (expand ops) st cur
    return (rest, st)
  | _ => .err .consistency

/-- The loop of `run`, as `Interp.loop`. -/
def loop (C : Ctx) (V : Over σ) (expand : List Varcode → Interp σ → Res (Interp σ)) :
    (n : Nat) → List Varcode → Interp σ → Res (Interp σ)
  | _, [], st => .ok st
  | 0, _ :: _, _ => .ub
  | n + 1, cur :: rest, st => do
    let r ← step C V expand (loop C V expand n) st cur rest
    loop C V expand n r.1 r.2

/-- `Interpreter::run`, `wreport/bulletin/interpreter.cc` lines 30-78; `depth` as in
`Interp.run`. -/
def run (C : Ctx) (V : Over σ) : (depth : Nat) → List Varcode → Interp σ → Res (Interp σ)
  | 0, ops, st => loop C V (fun _ _ => .ub) ops.length ops st
  | depth + 1, ops, st => loop C V (run C V depth) ops.length ops st

end Over

/-- The virtual functions of `Interpreter` that throw unless they are overridden,
`wreport/bulletin/interpreter.cc` lines 494-542. -/
def Target.unimplemented (σ : Type) : Target σ where
  define_bitmap := fun _ _ => .err .unimplemented
  define_variable := fun _ _ => .err .unimplemented
  define_variable_with_associated_field := fun _ _ => .err .unimplemented
  define_delayed_replication_factor := fun _ _ => .err .unimplemented
  define_bitmap_delayed_replication_factor := fun _ _ => .err .unimplemented
  define_associated_field_significance := fun _ _ => .err .unimplemented
  define_substituted_value := fun _ _ => .err .unimplemented
  define_attribute := fun _ _ _ => .err .unimplemented
  define_raw_character_data := fun _ _ => .err .unimplemented
  define_c03_refval_override := fun _ _ => .err .unimplemented

/-! ## ScanFeatures -/

namespace Scan

/-- `operator<` of `std::string`: bytes compare as unsigned. -/
def before : List Byte → List Byte → Bool
  | [], [] => false
  | [], _ :: _ => true
  | _ :: _, [] => false
  | a :: as, b :: bs => if a < b then true else if b < a then false else before as bs

/-- `std::set<std::string>::insert`; the set is kept as the list of its elements in
order. -/
def insert (f : List Byte) : List (List Byte) → List (List Byte)
  | [] => [f]
  | g :: gs => if before f g then f :: g :: gs else if before g f then g :: insert f gs else g :: gs

/-- State of an interpreter that collects features. -/
abbrev St := Interp (List (List Byte))

/-- `features.insert`. -/
def add (st : St) (f : List Byte) : St := { st with tgt := insert f st.tgt }

/-- The text recorded for an operator, `wreport/bulletin/dds-scanfeatures.cc` lines
13-24. -/
def operatorName (code : Varcode) (next : List Varcode) : List Byte :=
  if WR_VAR_X code = 6 then
    match next with
    | [] => varcode_format code
    | n :: _ => varcode_format code ++ ascii ":" ++ varcode_format n
  else varcode_format code

/-- The text recorded for a replication, `wreport/bulletin/dds-scanfeatures.cc` lines
30-33. -/
def replicationName (delayed_code : Varcode) : List Byte :=
  if delayed_code ≠ 0 then ascii "Rxx000:" ++ varcode_format delayed_code else ascii "Rxxyyy"

/-- The callbacks that `ScanFeatures` overrides,
`wreport/bulletin/dds-scanfeatures.cc` lines 39-56. -/
def target : Target (List (List Byte)) :=
  { Target.unimplemented (List (List Byte)) with
    define_variable := fun st _ => .ok st
    define_bitmap := fun st _ => .ok st
    define_associated_field_significance := fun st _ => .ok (63, st)
    define_bitmap_delayed_replication_factor := fun st _ => .ok (0, st) }

/-- `ScanFeatures`, `wreport/bulletin/dds-scanfeatures.cc` lines 11-37. -/
def over (C : Ctx) : Over (List (List Byte)) :=
  { Over.plain C target with
    c_modifier := fun st code next =>
      Interp.c_modifier C target (add st (operatorName code next)) code next
    r_replication := fun body st _ delayed_code => body (add st (replicationName delayed_code)) }

/-- `ScanFeatures scan(tables, datadesc); scan.run()`, `src/output.cc` lines 132-133:
the features found. -/
def features (C : Ctx) (depth : Nat) (datadesc : List Varcode) (caches : TableCaches) :
    Res (List (List Byte)) := do
  let st ← (over C).run C depth datadesc (.new caches [])
  return st.tgt

end Scan

/-! ## Printer -/

/-- What `Printer` prints that is not part of the model of the tables: descriptions
and units by code, and the name of the B table. -/
structure Texts where
  desc : Varcode → List Byte
  unit : Varcode → List Byte
  path : List Byte

/-- State of `Printer`, `wreport/bulletin/interpreter.h` lines 236-253: what was
printed, and the indentation. -/
structure Listing where
  out : List Byte
  indent : Nat
  indent_step : Nat
deriving DecidableEq

namespace Printer

/-- State of a printing interpreter. -/
abbrev St := Interp Listing

/-- Printing a text. -/
def put (st : St) (s : List Byte) : St := { st with tgt := { st.tgt with out := st.tgt.out ++ s } }

/-- `%d%02d%03d` of a descriptor: F, X and Y are below 4, 64 and 256. -/
def digits (c : Varcode) : List Byte :=
  [digitChar (WR_VAR_F c), digitChar (WR_VAR_X c / 10), digitChar (WR_VAR_X c),
    digitChar (WR_VAR_Y c / 100), digitChar (WR_VAR_Y c / 10), digitChar (WR_VAR_Y c)]

/-- `Printer::print_lead`, `wreport/bulletin/interpreter.cc` lines 613-617, for an
indentation that fits an `int`. -/
def lead (st : St) (c : Varcode) : List Byte := List.replicate st.tgt.indent 32 ++ digits c

/-- `%d` of an integer. -/
def dec (i : Int) : List Byte :=
  if i < 0 then 45 :: Crex.decDigits i.natAbs else Crex.decDigits i.natAbs

/-- `Interpreter::print_c_modifier`, `wreport/bulletin/interpreter.cc` lines
544-605. -/
def describe (code : Varcode) (next : List Varcode) : List Byte :=
  let y := WR_VAR_Y code
  match WR_VAR_X code with
  | 1 => ascii "change data width to " ++ dec (Interp.change y) ++ ascii "\n"
  | 2 => ascii "change data scale to " ++ dec (Interp.change y) ++ ascii "\n"
  | 4 => dec y ++ ascii " bits of associated field\n"
  | 5 => ascii "character data\n"
  | 6 => match next with
    | [] => ascii "local descriptor (unknown) " ++ dec y ++ ascii " bits long\n"
    | n :: _ => ascii "local descriptor " ++ digits n ++ ascii " " ++ dec y ++ ascii " bits long\n"
  | 7 => ascii "change data scale, reference value and data width by " ++ dec y ++ ascii "\n"
  | 8 => ascii "change width of string fields to " ++ dec y ++ ascii "\n"
  | 22 => ascii "quality information with bitmap\n"
  | 23 =>
    if y = 0 then ascii "substituted values bitmap\n"
    else if y = 255 then ascii "one substituted value\n"
    else ascii "C modifier " ++ digits code ++ ascii " not yet supported"
  | 36 => ascii "define data present bitmap for reuse\n"
  | 37 =>
    if y = 0 then ascii "reuse last data present bitmap\n"
    else if y = 255 then ascii "cancel reuse of the last defined bitmap\n"
    else ascii "C modifier " ++ digits code ++ ascii " uses unsupported y=" ++
      [digitChar (y / 100), digitChar (y / 10), digitChar y]
  | _ => ascii "(C modifier)\n"

/-- What is printed about an element, `wreport/bulletin/interpreter.cc` lines
624-629. -/
def elementText (X : Texts) (code : Varcode) (known : Bool) : List Byte :=
  if known then ascii " " ++ X.desc code ++ ascii "[" ++ X.unit code ++ ascii "]"
  else ascii " (missing in B table " ++ X.path ++ ascii ")"

/-- `Printer::b_variable`, `wreport/bulletin/interpreter.cc` lines 619-632; a bulletin
being printed has a B table. -/
def b_variable (C : Ctx) (X : Texts) (st : St) (code : Varcode) : Res St := do
  let known ← C.btable.contains code
  return put st (lead st code ++ elementText X code known ++ ascii "\n")

/-- `Printer::define_associated_field_significance`,
`wreport/bulletin/interpreter.cc` lines 680-685. -/
def define_associated_field_significance (X : Texts) (st : St) (info : Varinfo) : Res (Nat × St) :=
  .ok (63, put st (lead st info.code ++ ascii " " ++ X.desc info.code ++ ascii "[" ++
    X.unit info.code ++ ascii "]\n"))

/-- The callbacks that `Printer` overrides, `wreport/bulletin/interpreter.cc` lines
668-690. -/
def target (X : Texts) : Target Listing :=
  { Target.unimplemented Listing with
    define_variable := fun st _ => .ok st
    define_variable_with_associated_field := fun st _ => .ok st
    define_bitmap := fun st _ => .ok st
    define_associated_field_significance := define_associated_field_significance X
    define_bitmap_delayed_replication_factor := fun st _ => .ok (0, st) }

/-- Changing the indentation. -/
def indented (st : St) (n : Nat) : St := { st with tgt := { st.tgt with indent := n } }

/-- Running descriptors one step to the right, `wreport/bulletin/interpreter.cc` lines
652-656 and 663-665. -/
def deeper (body : St → Res St) (st : St) : Res St := do
  let st ← body (indented st (st.tgt.indent + st.tgt.indent_step))
  return indented st (st.tgt.indent - st.tgt.indent_step)

/-- What is printed for a replication, `wreport/bulletin/interpreter.cc` lines
643-651. -/
def replicationText (code delayed_code : Varcode) : List Byte :=
  ascii " replicate " ++ dec (WR_VAR_X code) ++ ascii " descriptors" ++
    (if WR_VAR_Y code ≠ 0 then ascii " " ++ dec (WR_VAR_Y code) ++ ascii " times\n"
    else ascii " (delayed " ++ digits delayed_code ++ ascii ") times\n")

/-- `Printer`, `wreport/bulletin/interpreter.cc` lines 608-666. -/
def over (C : Ctx) (X : Texts) : Over Listing :=
  { Over.plain C (target X) with
    b_variable := b_variable C X
    c_modifier := fun st code next =>
      Interp.c_modifier C (target X) (put st (lead st code ++ ascii " " ++ describe code next))
        code next
    r_replication := fun body st code delayed_code =>
      deeper body (put st (lead st code ++ replicationText code delayed_code))
    run_d_expansion := fun body st code =>
      deeper body (put st (lead st code ++ ascii " (group)\n")) }

/-- `Bulletin::print_datadesc`, `wreport/bulletin.cc` lines 145-151: what is
printed. -/
def print_datadesc (C : Ctx) (X : Texts) (depth : Nat) (datadesc : List Varcode) (indent : Nat)
    (caches : TableCaches) : Res (List Byte) := do
  let st ← (over C X).run C depth datadesc (.new caches ⟨[], indent, 2⟩)
  return st.tgt.out

end Printer

/-! ## DDSPrinter -/

/-- What follows the context of an item that `DDSPrinter` prints: a variable with its
attributes, an attribute (marked or not with "(attr)"), or a notice that there is
none. -/
inductive Content where
  | var (v : Var)
  | attr (v : VarCore)
  | undef
  | field (v : VarCore)
  | noField (significance : Nat)

/-- An item printed by `DDSPrinter`: the context of `print_context`,
`wreport/bulletin/dds-printer.cc` lines 20-27, and what follows. How variables are
printed is not modelled. -/
structure Item where
  subset_no : Nat
  var_pos : Nat
  path : List Varcode
  code : Varcode
  content : Content

/-- State of `DDSPrinter`, `wreport/bulletin/dds-printer.h` lines 17-19, and what was
printed; the last element of `stack` comes last. -/
structure Sheet where
  subset_no : Nat
  stack : List Varcode
  items : List Item

namespace DDSPrinter

open Enc

/-- `print_context` and what is printed after it, `wreport/bulletin/dds-printer.cc`
lines 15-27. -/
def print (st : St Sheet) (code : Varcode) (var_pos : Nat) (content : Content) : St Sheet :=
  put st { st.tgt.ob with
    items := st.tgt.ob.items ++ [⟨st.tgt.ob.subset_no, var_pos, st.tgt.ob.stack, code, content⟩] }

/-- `DDSPrinter::encode_var`, `wreport/bulletin/dds-printer.cc` lines 66-70. -/
def encode_var (st : St Sheet) (info : Varinfo) (var : Var) : St Sheet :=
  print st info.code st.tgt.current_var (.var var)

/-- `DDSPrinter::encode_associated_field`, `wreport/bulletin/dds-printer.cc` lines
55-64. -/
def encode_associated_field (st : St Sheet) (var : Var) : Res (St Sheet) := do
  let att ← st.associated_field.get_attribute var
  match att with
  | some a => return print st var.code st.tgt.current_var (.field a)
  | none => return print st var.code st.tgt.current_var (.noField st.associated_field.significance)

/-- `DDSPrinter::print_attr`, `wreport/bulletin/dds-printer.cc` lines 43-53. -/
def print_attr (st : St Sheet) (info : Varinfo) (pos : Nat) : Res (St Sheet) := do
  let var ← get_var_at st pos
  match var.enqa info.code with
  | some a => return print st info.code pos (.attr a)
  | none => return print st info.code pos .undef

/-- `DDSPrinter::define_bitmap`, `wreport/bulletin/dds-printer.cc` lines 72-85: the
bitmap just defined is printed. -/
def define_bitmap (E : Env) (st : St Sheet) (bitmap_size : Nat) : Res (St Sheet) := do
  let r ← get_var st
  let st ← Enc.define_bitmap E st bitmap_size
  return print st r.1.code 0 (.var r.1)

/-- `DDSPrinter::define_raw_character_data`, `wreport/bulletin/dds-printer.cc` lines
87-93. -/
def define_raw_character_data (st : St Sheet) (code : Varcode) : Res (St Sheet) := do
  let r ← get_var st
  return print r.2 code 0 (.var r.1)

/-- `DDSPrinter::define_substituted_value`, `wreport/bulletin/dds-printer.cc` lines
95-100: the position is used as it is. -/
def define_substituted_value (st : St Sheet) (pos : Nat) : Res (St Sheet) :=
  match st.tgt.subset[pos]? with
  | none => .ub
  | some v => print_attr st v.info pos

/-- `UncompressedEncoder::define_variable`, `wreport/bulletin/internals.cc` lines
70-73. -/
def define_variable (st : St Sheet) (info : Varinfo) : Res (St Sheet) := do
  let r ← get_var st
  return encode_var r.2 info r.1

/-- `UncompressedEncoder::define_variable_with_associated_field`,
`wreport/bulletin/internals.cc` lines 75-80. -/
def define_variable_with_associated_field (st : St Sheet) (info : Varinfo) : Res (St Sheet) := do
  let r ← get_var st
  let st ← encode_associated_field r.2 r.1
  return encode_var st info r.1

/-- `UncompressedEncoder::define_delayed_replication_factor`,
`wreport/bulletin/internals.cc` lines 82-87. -/
def define_delayed_replication_factor (st : St Sheet) (info : Varinfo) : Res (Nat × St Sheet) := do
  let r ← get_var st
  let n ← r.1.toVarCore.enqi
  return (toU32 n, encode_var r.2 info r.1)

/-- `UncompressedEncoder::define_associated_field_significance`,
`wreport/bulletin/internals.cc` lines 89-94. -/
def define_associated_field_significance (st : St Sheet) (info : Varinfo) :
    Res (Nat × St Sheet) := do
  let r ← get_var st
  let n ← enq63 r.1.toVarCore
  return (toU32 n, encode_var r.2 info r.1)

/-- `UncompressedEncoder::define_bitmap_delayed_replication_factor`,
`wreport/bulletin/internals.cc` lines 96-102. -/
def define_bitmap_delayed_replication_factor (O : Opts) (st : St Sheet) (info : Varinfo) :
    Res (Nat × St Sheet) := do
  let v ← get_var_at st st.tgt.current_var
  let rep ← Var.newInt O info (wrapInt v.info.len)
  return (v.info.len, encode_var st info rep)

/-- The callbacks of `DDSPrinter`; it has no `define_c03_refval_override`. -/
def target (C : Ctx) : Target (Enc Sheet) where
  define_bitmap := define_bitmap C.E
  define_variable := define_variable
  define_variable_with_associated_field := define_variable_with_associated_field
  define_delayed_replication_factor := define_delayed_replication_factor
  define_bitmap_delayed_replication_factor := define_bitmap_delayed_replication_factor C.O
  define_associated_field_significance := define_associated_field_significance
  define_substituted_value := define_substituted_value
  define_attribute := print_attr
  define_raw_character_data := define_raw_character_data
  define_c03_refval_override := (Target.unimplemented (Enc Sheet)).define_c03_refval_override

/-- Changing the stack. -/
def setStack (st : St Sheet) (stack : List Varcode) : St Sheet :=
  put st { st.tgt.ob with stack := stack }

/-- `stack.push_back(code)`, something, `stack.pop_back()`. -/
def nested (code : Varcode) (body : St Sheet → Res (St Sheet)) (st : St Sheet) :
    Res (St Sheet) := do
  let st ← body (setStack st (st.tgt.ob.stack ++ [code]))
  return setStack st st.tgt.ob.stack.dropLast

/-- `DDSPrinter`, `wreport/bulletin/dds-printer.cc` lines 29-41. -/
def over (C : Ctx) : Over (Enc Sheet) :=
  { Over.plain C (target C) with
    r_replication := fun body st code delayed_code =>
      nested code (fun st => Interp.r_replication C (target C) body st code delayed_code) st
    run_d_expansion := fun body st code => nested code body st }

/-- What is printed for one subset, `wreport/bulletin.cc` lines 138-139. -/
def printSubset (C : Ctx) (depth : Nat) (datadesc : List Varcode) (subset_no : Nat)
    (subset : List Var) (caches : TableCaches) : Res (TableCaches × List Item) := do
  let st ← (over C).run C depth datadesc (.new caches ⟨subset, 0, ⟨subset_no, [], []⟩⟩)
  return (st.caches, st.tgt.ob.items)

/-- What `Bulletin::print_structured` prints for the subsets, `wreport/bulletin.cc`
lines 135-140. -/
def printSubsets (C : Ctx) (depth : Nat) (datadesc : List Varcode) :
    (subset_no : Nat) → List (List Var) → TableCaches → Res (List Item)
  | _, [], _ => .ok []
  | n, s :: rest, caches => do
    let r ← printSubset C depth datadesc n s caches
    let items ← printSubsets C depth datadesc (n + 1) rest r.1
    return r.2 ++ items

end DDSPrinter

end Wreport
