import Verif.Model.Compressed
import Verif.Model.Format
import Verif.Model.Listing
import Verif.Model.Message

/-!
# Decoding that prints what it does

Modelled code: `wreport/bufr/decoder.cc` lines 202-223, 386-397, 534-553 and 633-758
(`VerboseDataSectionDecoder`). Not modelled: what was printed before an exception,
failing writes, indentations that do not fit an `int`.
-/

namespace Wreport

namespace Verbose

/-- What is printed that is not part of the model of the tables: the description of an
element and the name of the B table. -/
structure Texts where
  desc : Varinfo → List Byte
  path : List Byte

/-- The functions of `DecoderTarget` that only the verbose decoder calls,
`wreport/bufr/decoder.h` lines 86-100: `print_last_variable_added`,
`print_last_attribute_added` and `lookup_info`. -/
structure Shown (σ : Type) where
  last : σ → Res (List Byte)
  attr : σ → Varcode → Nat → Res (List Byte)
  info : σ → Nat → Res Varinfo

variable {σ : Type}

/-- State of a decoder that prints. -/
abbrev St (σ : Type) := Interp (σ × Listing)

/-- The state of the decoder that prints nothing. -/
def down (s : St σ) : Interp σ := { s with tgt := s.tgt.1 }

/-- The same state of decoding, with something printed. -/
def up (s : Interp σ) (l : Listing) : St σ := { s with tgt := (s.tgt, l) }

/-- Printing a text. -/
def put (s : St σ) (x : List Byte) : St σ :=
  { s with tgt := (s.tgt.1, { s.tgt.2 with out := s.tgt.2.out ++ x }) }

/-- `print_lead`, `wreport/bufr/decoder.cc` lines 641-645, without the blank it ends
with, which the texts that follow start with. -/
def lead (s : St σ) (c : Varcode) : List Byte :=
  List.replicate s.tgt.2.indent 32 ++ Printer.digits c

/-- `print_lead_continued`, `wreport/bufr/decoder.cc` lines 647-650. -/
def more (l : Listing) : List Byte := List.replicate (l.indent + 7) 32

/-- A callback of the decoder, after which something is printed. -/
def call (f : Interp σ → Res (Interp σ)) (text : Interp σ → Res (List Byte)) (s : St σ) :
    Res (St σ) := do
  let t ← f (down s)
  let x ← text t
  return put (up t s.tgt.2) x

/-- The same for callbacks that give a number. -/
def callV (f : Interp σ → Res (Nat × Interp σ)) (text : Nat → List Byte) (s : St σ) :
    Res (Nat × St σ) := do
  let r ← f (down s)
  return (r.1, put (up r.2 s.tgt.2) (text r.1))

/-- Nothing printed. -/
def quiet (_ : Interp σ) : Res (List Byte) := .ok []

/-- `define_attribute`, `wreport/bufr/decoder.cc` lines 728-737: what is printed. -/
def attributeText (X : Texts) (Y : Shown σ) (l : Listing) (info : Varinfo) (pos : Nat)
    (t : Interp σ) : Res (List Byte) := do
  let at_ ← Y.info t.tgt pos
  let a ← Y.attr t.tgt info.code pos
  return more l ++ ascii "attribute " ++ Printer.digits info.code ++ ascii " " ++ X.desc info ++
    ascii "\n" ++ more l ++ ascii "at position " ++ Printer.dec pos ++ ascii ": " ++
    Printer.digits at_.code ++ ascii " " ++ X.desc at_ ++ ascii "\n" ++ more l ++ a ++ ascii "\n"

/-- `define_variable`, `wreport/bufr/decoder.cc` lines 744-748: what is printed. -/
def variableText (Y : Shown σ) (l : Listing) (t : Interp σ) : Res (List Byte) := do
  let v ← Y.last t.tgt
  return more l ++ v ++ ascii "\n"

/-- `define_c03_refval_override`, `wreport/bufr/decoder.cc` lines 715-719: what is
printed. -/
def refvalText (code : Varcode) (t : Interp σ) : Res (List Byte) :=
  .ok (ascii "C03 reference value override for " ++ Printer.digits code ++ ascii ": " ++
    Printer.dec ((t.c03_refval_overrides.lookup code).getD 0) ++ ascii "\n")

/-- The callbacks of `VerboseDataSectionDecoder`, `wreport/bufr/decoder.cc` lines
697-758. -/
def target (T : Target σ) (X : Texts) (Y : Shown σ) : Target (σ × Listing) where
  define_bitmap := fun s n => call (T.define_bitmap · n) quiet s
  define_variable := fun s i => call (T.define_variable · i) (variableText Y s.tgt.2) s
  define_variable_with_associated_field := fun s i =>
    call (T.define_variable_with_associated_field · i) quiet s
  define_delayed_replication_factor := fun s i =>
    callV (T.define_delayed_replication_factor · i) (fun n =>
      more s.tgt.2 ++ ascii "delayed replication factor: " ++ Printer.dec n ++ ascii "\n") s
  define_bitmap_delayed_replication_factor := fun s i =>
    callV (T.define_bitmap_delayed_replication_factor · i) (fun _ => []) s
  define_associated_field_significance := fun s i =>
    callV (T.define_associated_field_significance · i) (fun _ => []) s
  define_substituted_value := fun s p => call (T.define_substituted_value · p) quiet s
  define_attribute := fun s i p =>
    call (T.define_attribute · i p) (attributeText X Y s.tgt.2 i p) s
  define_raw_character_data := fun s c => call (T.define_raw_character_data · c) quiet s
  define_c03_refval_override := fun s c =>
    call (T.define_c03_refval_override · c) (refvalText c) s

/-- What is printed about an element, `wreport/bufr/decoder.cc` lines 655-664. -/
def elementText (C : Ctx) (X : Texts) (code : Varcode) : Res (List Byte) := do
  let known ← C.btable.contains code
  if known then do
    let info ← C.btable.query code
    return ascii " " ++ X.desc info ++ ascii "[" ++ info.unit ++ ascii "]\n"
  else return ascii " (missing in B table " ++ X.path ++ ascii ")\n"

/-- `b_variable`, `wreport/bufr/decoder.cc` lines 652-666; a bulletin being decoded has
a B table. -/
def b_variable (C : Ctx) (T : Target σ) (X : Texts) (Y : Shown σ) (s : St σ) (code : Varcode) :
    Res (St σ) := do
  let x ← elementText C X code
  Interp.b_variable C (target T X Y) (put s (lead s code ++ x)) code

/-- Changing the indentation. -/
def indented (s : St σ) (n : Nat) : St σ :=
  { s with tgt := (s.tgt.1, { s.tgt.2 with indent := n }) }

/-- Doing something one step to the right, `wreport/bufr/decoder.cc` lines 686-688 and
692-694. -/
def deeper (body : St σ → Res (St σ)) (s : St σ) : Res (St σ) := do
  let s ← body (indented s (s.tgt.2.indent + s.tgt.2.indent_step))
  return indented s (s.tgt.2.indent - s.tgt.2.indent_step)

/-- `VerboseDataSectionDecoder`, `wreport/bufr/decoder.cc` lines 652-695. -/
def over (C : Ctx) (T : Target σ) (X : Texts) (Y : Shown σ) : Over (σ × Listing) :=
  { Over.plain C (target T X Y) with
    b_variable := b_variable C T X Y
    c_modifier := fun s code next =>
      Interp.c_modifier C (target T X Y) (put s (lead s code ++ ascii " " ++
        Printer.describe code next)) code next
    r_replication := fun body s code delayed_code =>
      deeper (fun s => Interp.r_replication C (target T X Y) body s code delayed_code)
        (put s (lead s code ++ Printer.replicationText code delayed_code))
    run_d_expansion := fun body s code => deeper body (put s (lead s code ++ ascii "  (group)\n")) }

/-- `print_last_variable_added`, `print_last_attribute_added` and `lookup_info` of
`UncompressedDecoderTarget`, `wreport/bufr/decoder.cc` lines 266-269 and 386-397. -/
def shown (E : Env) : Shown Dec where
  last := fun t => match t.out.getLast? with
    | none => .ub
    | some v => v.toVarCore.formatFile E (ascii "-")
  attr := fun t code pos => match t.out[pos]? with
    | none => .ub
    | some v => match v.enqa code with
      | none => .ok (ascii "-")
      | some a => a.formatFile E (ascii "-")
  info := fun t pos => match t.out[pos]? with
    | none => .ub
    | some v => .ok v.info

/-- Printing something about each subset, followed by a blank,
`wreport/bufr/decoder.cc` lines 536-540 and 545-552. -/
def each (f : List Var → Res (List Byte)) : List (List Var) → Res (List Byte)
  | [] => .ok []
  | s :: ss => do
    let x ← f s
    let y ← each f ss
    return x ++ ascii " " ++ y

/-- `print_last_variable_added`, `print_last_attribute_added` and `lookup_info` of
`CompressedDecoderTarget`, `wreport/bufr/decoder.cc` lines 412-415 and 534-553. -/
def shownAll (E : Env) : Shown CDec where
  last := fun t => each (fun s => match s.getLast? with
    | none => .ub
    | some v => v.toVarCore.formatFile E (ascii "-")) t.subsets
  attr := fun t code pos => each (fun s => match s[pos]? with
    | none => .ub
    | some v => match v.enqa code with
      | none => .ok (ascii "-")
      | some a => a.formatFile E (ascii "-")) t.subsets
  info := fun t pos => match t.subsets with
    | [] => .err .notfound
    | s :: _ => match s[pos]? with
      | none => .ub
      | some v => .ok v.info

/-- Decoding one subset, `wreport/bufr/decoder.cc` lines 215-222 with
`verbose_output`: the subset and what was printed. -/
def decodeSubset (C : Ctx) (X : Texts) (add_undef : Bool) (depth : Nat) (datadesc : List Varcode)
    (caches : TableCaches) (i : Input) : Res ((List Var × TableCaches × Input) × List Byte) := do
  let s ← (over C (Decoder.target C) X (shown C.E)).run C depth datadesc
    (up (Decoder.start add_undef caches i) ⟨[], 0, 2⟩)
  return ((s.tgt.1.out, s.caches, s.tgt.1.input), s.tgt.2.out)

/-- Decoding all the subsets of an uncompressed message, `wreport/bufr/decoder.cc` lines
213-223 with `verbose_output`. -/
def decodeSubsets (C : Ctx) (X : Texts) (add_undef : Bool) (depth : Nat)
    (datadesc : List Varcode) : Nat → TableCaches → Input →
    Res ((List (List Var) × TableCaches × Input) × List Byte)
  | 0, caches, i => .ok (([], caches, i), [])
  | n + 1, caches, i => do
    let r ← decodeSubset C X add_undef depth datadesc caches i
    let r' ← decodeSubsets C X add_undef depth datadesc n r.1.2.1 r.1.2.2
    return ((r.1.1 :: r'.1.1, r'.1.2), r.2 ++ r'.2)

/-- Decoding a compressed data section, `wreport/bufr/decoder.cc` lines 200-211 with
`verbose_output`. -/
def decodeCompressed (C : Ctx) (X : Texts) (add_undef : Bool) (depth : Nat)
    (datadesc : List Varcode) (subsets : Nat) (caches : TableCaches) (i : Input) :
    Res ((List (List Var) × TableCaches × Input) × List Byte) := do
  let s ← (over C (CDecoder.target C) X (shownAll C.E)).run C depth datadesc
    (up (CDecoder.start add_undef caches subsets i) ⟨[], 0, 2⟩)
  return ((s.tgt.1.subsets, s.caches, s.tgt.1.input), s.tgt.2.out)

/-- `Decoder::decode_data` with `verbose_output`, `wreport/bufr/decoder.cc` lines
200-238. -/
def decodeBody (X : Texts) (add_undef : Bool) (depth : Nat) (t : Ctx × TableCaches)
    (hd : BufrDec.Head) (n : Nat) (i : Input) : Res ((List (List Var) × List Byte) × Input) :=
  if hd.header.compression then do
    let r ← decodeCompressed t.1 X add_undef depth hd.header.datadesc n t.2 i
    return ((r.1.1, r.2), r.1.2.2)
  else do
    let r ← decodeSubsets t.1 X add_undef depth hd.header.datadesc n t.2 i
    return ((r.1.1, r.2), r.1.2.2)

/-- `BufrBulletin::decode_verbose`, `wreport/bulletin.cc` lines 390-400: the message and
what was printed. -/
def decodeMessage (load : Header → Res (Ctx × TableCaches)) (X : Texts) (add_undef : Bool)
    (depth : Nat) (data : List Byte) :
    Res (BufrDec.Head × (List (List Var) × List Byte) × List Nat) :=
  BufrDec.decode load (decodeBody X add_undef depth) data

end Verbose

end Wreport
