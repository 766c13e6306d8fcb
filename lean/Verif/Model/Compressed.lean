import Verif.Model.Targets

/-!
# Decoder of compressed data

Modelled code: `wreport/bufr/decoder.cc` lines 200-211, 405-532 and 561-629
(`CompressedDecoderTarget`, `DataSectionDecoder`), `wreport/bufr/input.h` lines 19-42
(`DispatchToSubsets`), `wreport/bufr/input.cc` lines 415-461. Not modelled: what was
stored before an error.
-/

namespace Wreport

namespace Input

/-- The associated fields of all the subsets, `wreport/bufr/input.cc` lines
446-452. -/
def fieldLoop (C : Ctx) (f : AssociatedField) (base diffbits : Nat) :
    Nat → Input → Res (List (Option Var) × Input)
  | 0, i => .ok ([], i)
  | n + 1, i => do
    let r ← i.get_bits diffbits
    let a ← f.make_attribute C.E C.O C.btable (toU32 ((base + r.1 : Nat)))
    let r' ← fieldLoop C f base diffbits n r.2
    return (a :: r'.1, r'.2)

/-- `var.seta(...)` if there is an attribute, `wreport/bufr/input.cc` lines
455-456. -/
def addAttr (v : Var) : Option Var → Var
  | none => v
  | some a => v.setaMove a

/-- The loop of `wreport/bufr/input.cc` lines 647-653 with the function of lines
454-458: `var` is the same variable each time, and keeps its attributes. -/
def fieldDiffLoop (C : Ctx) (base diffbits : Nat) : Var → List (Option Var) → Input →
    Res (List Var × Input)
  | _, [], i => .ok ([], i)
  | var, a :: as, i => do
    let r ← i.decode_compressed_diff C.E C.O var base diffbits
    let r' ← fieldDiffLoop C base diffbits (addAttr r.1 a) as r.2
    return (addAttr r.1 a :: r'.1, r'.2)

/-- `Input::decode_compressed_number` with the function of lines 454-458,
`wreport/bufr/input.cc` lines 625-654: one variable for each attribute. -/
def decode_compressed_number_attrs (C : Ctx) (i : Input) (info : Varinfo)
    (attrs : List (Option Var)) : Res (List Var × Input) := do
  let r ← i.decode_compressed_base C.E info
  if r.1.1 then return (attrs.map (addAttr (Var.new info)), r.2)
  else if r.1.2.2 = 0 then do
    let v ← setNumber C.E C.O (Var.new info) r.1.2.1
    return (attrs.map (addAttr v), r.2)
  else fieldDiffLoop C r.1.2.1 r.1.2.2 (Var.new info) attrs r.2

/-- `Input::decode_compressed_number_af`, `wreport/bufr/input.cc` lines 415-461. -/
def decode_compressed_number_af (C : Ctx) (i : Input) (info : Varinfo) (f : AssociatedField)
    (subsets : Nat) : Res (List Var × Input) := do
  let b ← i.get_bits f.bit_count
  let d ← b.2.get_bits 6
  let ones ← all_ones C.E f.bit_count
  if b.1 = ones then d.2.decode_compressed_number C.E C.O info subsets
  else do
    let as ← fieldLoop C f b.1 d.1 subsets d.2
    as.2.decode_compressed_number_attrs C info as.1

end Input

/-- `CompressedDecoderTarget` with its input and the subsets it fills,
`wreport/bufr/decoder.h` lines 137-167. -/
structure CDec where
  input : Input
  subsets : List (List Var)

namespace CDecoder

/-- State of a decoder that is part of an interpreter. -/
abbrev St := Interp CDec

/-- Changing the input position. -/
def setInput (st : St) (i : Input) : St := { st with tgt := { st.tgt with input := i } }

/-- Adding a variable at the end of each subset. -/
def storeAll (st : St) (vs : List Var) : St :=
  { st with tgt := { st.tgt with subsets := List.zipWith (fun s v => s ++ [v]) st.tgt.subsets vs } }

/-- Copies of variables. -/
def copyAll : List Var → Res (List Var)
  | [] => .ok []
  | v :: vs => do
    let w ← v.copy
    let ws ← copyAll vs
    return w :: ws

/-- Adding a copy of one variable to each subset, `wreport/bufr/input.h` lines 25-41
and `wreport/subset.cc` lines 29-32. -/
def storeCopies (st : St) (vs : List Var) : Res St := do
  let ws ← copyAll vs
  return storeAll st ws

/-- The last variable of the first subset. -/
def lastOfFirst (st : St) : Res Var :=
  match st.tgt.subsets with
  | [] => .ub
  | s :: _ => match s.getLast? with
    | none => .ub
    | some v => .ok v

/-- `CompressedDecoderTarget::decode_uniform_b_value`, `wreport/bufr/decoder.cc` lines
417-433. -/
def decode_uniform_b_value (C : Ctx) (st : St) (info : Varinfo) : Res (Var × Input) :=
  match info.type with
  | .string => st.tgt.input.decode_string_same C.O (Var.new info) st.tgt.subsets.length
  | .binary => .err .unimplemented
  | .integer | .decimal => st.tgt.input.decode_compressed_semantic_number C.E C.O (Var.new info)

/-- `CompressedDecoderTarget::decode_b_value`, `wreport/bufr/decoder.cc` lines 435-449,
and the decoding of `decode_and_add_b_value`, lines 487-499: one variable for each
subset. -/
def decode_b_value (C : Ctx) (st : St) (info : Varinfo) : Res (List Var × Input) :=
  match info.type with
  | .string => st.tgt.input.decode_compressed_string C.O info st.tgt.subsets.length
  | .binary => .err .unimplemented
  | .integer | .decimal =>
    st.tgt.input.decode_compressed_number C.E C.O info st.tgt.subsets.length

/-- `CompressedDecoderTarget::decode_and_add_to_all`, `wreport/bufr/decoder.cc` lines
451-457. -/
def decode_and_add_to_all (C : Ctx) (st : St) (info : Varinfo) : Res (Var × St) := do
  let r ← decode_uniform_b_value C st info
  let st ← storeCopies (setInput st r.2) (List.replicate st.tgt.subsets.length r.1)
  let v ← lastOfFirst st
  return (v, st)

/-- `CompressedDecoderTarget::decode_and_add_bitmap` and
`DataSectionDecoder::define_bitmap`, `wreport/bufr/decoder.cc` lines 459-473 and
588-601. -/
def define_bitmap (C : Ctx) (st : St) (bitmap_size : Nat) : Res St := do
  let r ← st.tgt.input.decode_compressed_bitmap bitmap_size
  let t := st.caches.get_bitmap C.E st.bitmaps.pending_definitions r.1
  let info ← t.2
  let v ← Var.newStr C.O info r.1
  let st ← storeCopies (setInput { st with caches := t.1 } r.2)
    (List.replicate st.tgt.subsets.length v)
  let v ← lastOfFirst st
  let ref := st.tgt.subsets.headD []
  let b ← st.bitmaps.define C.E v.toVarCore (ref.map (·.code)) ref.length
  return { st with bitmaps := b }

/-- Setting an attribute of one variable of each subset, `wreport/bufr/decoder.cc` lines
477-482. -/
def setAttrs (pos : Nat) : List (List Var) → List Var → Res (List (List Var))
  | [], _ => .ok []
  | s :: ss, [] => .ok (s :: ss)
  | s :: ss, a :: as =>
    if !a.isset then do
      let ss ← setAttrs pos ss as
      return s :: ss
    else match s[pos]? with
      | none => .ub
      | some v => do
        let v ← v.seta a
        let ss ← setAttrs pos ss as
        return s.set pos v :: ss

/-- `CompressedDecoderTarget::decode_and_set_attribute`, `wreport/bufr/decoder.cc` lines
475-483. -/
def decode_and_set_attribute (C : Ctx) (st : St) (info : Varinfo) (pos : Nat) : Res St := do
  let r ← decode_b_value C st info
  let ss ← setAttrs pos st.tgt.subsets r.1
  return { st with tgt := ⟨r.2, ss⟩ }

/-- `DataSectionDecoder::define_substituted_value`, `wreport/bufr/decoder.cc` lines
412-415 and 608-612. -/
def define_substituted_value (C : Ctx) (st : St) (pos : Nat) : Res St :=
  match st.tgt.subsets with
  | [] => .err .notfound
  | s :: _ => match s[pos]? with
    | none => .ub
    | some v => decode_and_set_attribute C st v.info pos

/-- `CompressedDecoderTarget::decode_and_add_b_value`, `wreport/bufr/decoder.cc` lines
485-500. -/
def define_variable (C : Ctx) (st : St) (info : Varinfo) : Res St := do
  let r ← decode_b_value C st info
  storeCopies (setInput st r.2) r.1

/-- Decoding of `decode_and_add_b_value_with_associated_field`,
`wreport/bufr/decoder.cc` lines 505-518: strings are read as if there were no
associated field. -/
def decode_b_value_af (C : Ctx) (st : St) (info : Varinfo) : Res (List Var × Input) :=
  match info.type with
  | .string => st.tgt.input.decode_compressed_string C.O info st.tgt.subsets.length
  | .binary => .err .unimplemented
  | .integer | .decimal =>
    st.tgt.input.decode_compressed_number_af C info st.associated_field st.tgt.subsets.length

/-- `CompressedDecoderTarget::decode_and_add_b_value_with_associated_field`,
`wreport/bufr/decoder.cc` lines 502-519. -/
def define_variable_with_associated_field (C : Ctx) (st : St) (info : Varinfo) : Res St := do
  let r ← decode_b_value_af C st info
  storeCopies (setInput st r.2) r.1

/-- `DataSectionDecoder::define_delayed_replication_factor`,
`wreport/bufr/decoder.cc` lines 572-575. -/
def define_delayed_replication_factor (C : Ctx) (st : St) (info : Varinfo) : Res (Nat × St) := do
  let r ← decode_and_add_to_all C st info
  let n ← r.1.toVarCore.enqi
  return (toU32 n, r.2)

/-- `DataSectionDecoder::define_associated_field_significance`,
`wreport/bufr/decoder.cc` lines 577-580. -/
def define_associated_field_significance (C : Ctx) (st : St) (info : Varinfo) :
    Res (Nat × St) := do
  let r ← decode_and_add_to_all C st info
  let n ← Enc.enq63 r.1.toVarCore
  return (toU32 n, r.2)

/-- `DataSectionDecoder::define_bitmap_delayed_replication_factor`,
`wreport/bufr/decoder.cc` lines 566-570. -/
def define_bitmap_delayed_replication_factor (C : Ctx) (st : St) (info : Varinfo) :
    Res (Nat × St) := do
  let r ← decode_uniform_b_value C st info
  let n ← r.1.toVarCore.enqi
  return (toU32 n, setInput st r.2)

/-- `define_raw_character_data` and `decode_and_add_raw_character_data`,
`wreport/bufr/decoder.cc` lines 521-525 and 624-629. -/
def define_raw_character_data (C : Ctx) (st : St) (code : Varcode) : Res St := do
  let _ ← (st.caches.get_chardata C.E code (WR_VAR_Y code)).2
  .err .unimplemented

/-- `DataSectionDecoder` on a compressed message, `wreport/bufr/decoder.cc` lines
521-532 and 561-629. -/
def target (C : Ctx) : Target CDec where
  define_bitmap := define_bitmap C
  define_variable := define_variable C
  define_variable_with_associated_field := define_variable_with_associated_field C
  define_delayed_replication_factor := define_delayed_replication_factor C
  define_bitmap_delayed_replication_factor := define_bitmap_delayed_replication_factor C
  define_associated_field_significance := define_associated_field_significance C
  define_substituted_value := define_substituted_value C
  define_attribute := decode_and_set_attribute C
  define_raw_character_data := define_raw_character_data C
  define_c03_refval_override := fun _ _ => .err .unimplemented

/-- Interpreter for all the subsets, `wreport/bufr/decoder.cc` lines 202-209;
`add_undef` is `conf_add_undef_attrs`. -/
def start (add_undef : Bool) (caches : TableCaches) (subsets : Nat) (i : Input) : St :=
  { Interp.new caches ⟨i, List.replicate subsets []⟩ with
    associated_field := { AssociatedField.new with skip_missing := !add_undef } }

/-- Decoding a compressed data section, `wreport/bufr/decoder.cc` lines 200-211. -/
def decodeSubsets (C : Ctx) (add_undef : Bool) (depth : Nat) (datadesc : List Varcode)
    (subsets : Nat) (caches : TableCaches) (i : Input) :
    Res (List (List Var) × TableCaches × Input) := do
  let st ← Interp.run C (target C) depth datadesc (start add_undef caches subsets i)
  return (st.tgt.subsets, st.caches, st.tgt.input)

end CDecoder

end Wreport
