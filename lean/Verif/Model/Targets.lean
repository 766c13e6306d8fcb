import Verif.Model.Bits
import Verif.Model.Interp

/-!
# Encoder, decoder and validator of the data section

Modelled code: `wreport/bulletin/internals.h` and `internals.cc`
(`UncompressedEncoder`), `wreport/bufr_encoder.cc` lines 25-145 and 349-355
(`DDSEncoder`), `wreport/bufr/decoder.cc` lines 213-223, 259-384 and 561-629
(`UncompressedDecoderTarget`, `DataSectionDecoder`),
`wreport/bulletin/dds-validator.cc`. Not modelled: `VerboseDataSectionDecoder`,
tracing.
-/

namespace Wreport

/-- `map[code] = value` on `c03_refval_overrides`. -/
def Interp.setOverride {σ : Type} (st : Interp σ) (code : Varcode) (bit_ref : Int) : Interp σ :=
  { st with c03_refval_overrides := (code, toU32 bit_ref) :: st.c03_refval_overrides }

/-! ## Encoders -/

/-- `UncompressedEncoder`, `wreport/bulletin/internals.h` lines 22-68, with the
output of the derived class. -/
structure Enc (β : Type) where
  subset : List Var
  current_var : Nat
  ob : β

namespace Enc

variable {β : Type}

/-- State of an encoder that is part of an interpreter. -/
abbrev St (β : Type) := Interp (Enc β)

/-- `UncompressedEncoder::get_var(unsigned)`, `wreport/bulletin/internals.cc` lines
44-50. -/
def get_var_at (st : St β) (pos : Nat) : Res Var :=
  match st.tgt.subset[pos]? with
  | none => .err .consistency
  | some v => .ok v

/-- `UncompressedEncoder::get_var()`, `wreport/bulletin/internals.cc` lines
39-42. -/
def get_var (st : St β) : Res (Var × St β) := do
  let v ← get_var_at st st.tgt.current_var
  return (v, { st with tgt := { st.tgt with current_var := st.tgt.current_var + 1 } })

/-- Changing the output. -/
def put (st : St β) (ob : β) : St β := { st with tgt := { st.tgt with ob := ob } }

/-- Codes of the variables of the subset. -/
def codes (st : St β) : List Varcode := st.tgt.subset.map (·.code)

/-- The virtual functions of `UncompressedEncoder`: `encode_var` writes a
variable. -/
abbrev Put (β : Type) := β → Varinfo → VarCore → Res β

/-- `UncompressedEncoder::define_bitmap`, `wreport/bulletin/internals.cc` lines
52-59. -/
def define_bitmap (E : Env) (st : St β) (_bitmap_size : Nat) : Res (St β) := do
  let r ← get_var st
  if WR_VAR_F r.1.code ≠ 2 then .err .consistency
  else do
    let b ← r.2.bitmaps.define E r.1.toVarCore (codes r.2) r.2.tgt.current_var
    return { r.2 with bitmaps := b }

/-- Writing the variable just taken. -/
def encode (enc : Put β) (st : St β) (info : Varinfo) (var : VarCore) : Res (St β) := do
  let ob ← enc st.tgt.ob info var
  return put st ob

/-- `UncompressedEncoder::define_variable`, `wreport/bulletin/internals.cc` lines
70-73. -/
def define_variable (enc : Put β) (st : St β) (info : Varinfo) : Res (St β) := do
  let r ← get_var st
  encode enc r.2 info r.1.toVarCore

/-- `UncompressedEncoder::define_variable_with_associated_field`,
`wreport/bulletin/internals.cc` lines 75-80; `field` is
`encode_associated_field`. -/
def define_variable_with_associated_field (enc : Put β) (field : St β → Var → Res (St β))
    (st : St β) (info : Varinfo) : Res (St β) := do
  let r ← get_var st
  let st ← field r.2 r.1
  encode enc st info r.1.toVarCore

/-- `UncompressedEncoder::define_delayed_replication_factor`,
`wreport/bulletin/internals.cc` lines 82-87. -/
def define_delayed_replication_factor (enc : Put β) (st : St β) (info : Varinfo) :
    Res (Nat × St β) := do
  let r ← get_var st
  let st ← encode enc r.2 info r.1.toVarCore
  let n ← r.1.toVarCore.enqi
  return (toU32 n, st)

/-- `Var::enq(63)`, `wreport/var.h` lines 191-196. -/
def enq63 (v : VarCore) : Res Int := if v.isset then v.enqi else .ok 63

/-- `UncompressedEncoder::define_associated_field_significance`,
`wreport/bulletin/internals.cc` lines 89-94. -/
def define_associated_field_significance (enc : Put β) (st : St β) (info : Varinfo) :
    Res (Nat × St β) := do
  let r ← get_var st
  let st ← encode enc r.2 info r.1.toVarCore
  let n ← enq63 r.1.toVarCore
  return (toU32 n, st)

/-- `UncompressedEncoder::define_bitmap_delayed_replication_factor`,
`wreport/bulletin/internals.cc` lines 96-102. -/
def define_bitmap_delayed_replication_factor (O : Opts) (enc : Put β) (st : St β)
    (info : Varinfo) : Res (Nat × St β) := do
  let v ← get_var_at st st.tgt.current_var
  let rep ← Var.newInt O info (wrapInt v.info.len)
  let st ← encode enc st info rep.toVarCore
  return (v.info.len, st)

/-- Reference value for a C03 operator, `wreport/bufr_encoder.cc` lines 102-122 and
`wreport/bulletin/dds-validator.cc` lines 83-103. The subset's tables are those of
the bulletin. -/
def c03_ref (C : Ctx) (subset : List Var) (code : Varcode) : Res Int :=
  match subset.find? (fun v => v.info.code == code) with
  | some v => .ok v.info.bit_ref
  | none => do
    let info ← C.btable.query code
    return info.bit_ref

/-- `32 - __builtin_clz(n)`: the number of significant bits, undefined for 0. -/
def clzBits (n : Nat) : Res Nat := if n = 0 then .ub else .ok (Nat.log2 n + 1)

/-- Sign and magnitude of a reference value, `wreport/bufr_encoder.cc` lines
126-136 and `wreport/bulletin/dds-validator.cc` lines 106-116: pattern and number
of significant bits. `bits` is not 0 here (`wreport/bulletin/interpreter.cc` line
132), so `bits - 1` does not wrap. -/
def c03_pattern (E : Env) (bits : Nat) (bit_ref : Int) : Res (Nat × Nat) :=
  if bit_ref < 0 then do
    let neg ← E.sint (-bit_ref)
    let nbits ← clzBits (toU32 neg)
    let sign ← shl1 (bits - 1)
    return (toU32 neg ||| toU32 sign, nbits)
  else do
    let nbits ← clzBits (toU32 bit_ref)
    return (toU32 bit_ref, nbits)

/-- `define_c03_refval_override` up to the check, `wreport/bufr_encoder.cc` lines
102-140 and `wreport/bulletin/dds-validator.cc` lines 83-120: reference value and
pattern. -/
def c03_checked (C : Ctx) (st : St β) (code : Varcode) : Res (Int × Nat) := do
  let bit_ref ← c03_ref C st.tgt.subset code
  let r ← c03_pattern C.E st.c03_refval_override_bits bit_ref
  if st.c03_refval_override_bits < r.2 + 1 then .err .consistency
  else return (bit_ref, r.1)

end Enc

/-! ## BUFR encoder -/

namespace DDSEncoder

open Enc

/-- `DDSEncoder::encode_attr`, `wreport/bufr_encoder.cc` lines 47-54. -/
def encode_attr (E : Env) (st : St BitOut) (info : Varinfo) (pos : Nat) (attr_code : Varcode) :
    Res (St BitOut) := do
  let v ← get_var_at st pos
  match v.enqa attr_code with
  | some a => do
    let ob ← st.tgt.ob.append_var E info a
    return put st ob
  | none => do
    let ob ← st.tgt.ob.append_missing info.bit_len
    return put st ob

/-- `DDSEncoder::define_substituted_value`, `wreport/bufr_encoder.cc` lines
35-40. -/
def define_substituted_value (E : Env) (st : St BitOut) (pos : Nat) : Res (St BitOut) :=
  match st.tgt.subset[pos]? with
  | none => .ub
  | some v => encode_attr E st v.info pos v.info.code

/-- `DDSEncoder::encode_associated_field`, `wreport/bufr_encoder.cc` lines
56-63. -/
def encode_associated_field (st : St BitOut) (var : Var) : Res (St BitOut) := do
  let att ← st.associated_field.get_attribute var
  match att.filter (·.isset) with
  | some a => do
    let i ← a.enqi
    let ob ← st.tgt.ob.add_bits (toU32 i) st.associated_field.bit_count
    return put st ob
  | none => do
    let ob ← st.tgt.ob.append_missing st.associated_field.bit_count
    return put st ob

/-- Writing a bitmap from character `i` on, `wreport/bufr_encoder.cc` lines
88-89. -/
def bitmapBits (m : Res Mem) : (n : Nat) → (i : Nat) → BitOut → Res BitOut
  | 0, _, ob => .ok ob
  | n + 1, i, ob => do
    let m' ← m
    let p ← Bitmap.marked m' i
    let ob ← ob.add_bits (if p then 0 else 1) 1
    bitmapBits m n (i + 1) ob

/-- `DDSEncoder::define_bitmap`, `wreport/bufr_encoder.cc` lines 70-92. -/
def define_bitmap (E : Env) (st : St BitOut) (bitmap_size : Nat) : Res (St BitOut) := do
  let r ← get_var st
  if WR_VAR_F r.1.code ≠ 2 then .err .consistency
  else if r.1.info.len ≠ bitmap_size then .err .consistency
  else do
    let ob ← bitmapBits (r.1.toVarCore.enqc E) bitmap_size 0 r.2.tgt.ob
    let b ← r.2.bitmaps.define E r.1.toVarCore (codes r.2) r.2.tgt.current_var
    return { put r.2 ob with bitmaps := b }

/-- `Var::enq("")`, `wreport/var.h` lines 191-196. -/
def enqEmpty (E : Env) (v : VarCore) : Res Mem := if v.isset then v.enqc E else .ok (c_str [])

/-- `DDSEncoder::define_raw_character_data`, `wreport/bufr_encoder.cc` lines
93-98. -/
def define_raw_character_data (E : Env) (st : St BitOut) (code : Varcode) : Res (St BitOut) := do
  let r ← get_var st
  let val ← enqEmpty E r.1.toVarCore
  let ob ← r.2.tgt.ob.append_string val (WR_VAR_Y code * 8)
  return put r.2 ob

/-- `DDSEncoder::define_c03_refval_override`, `wreport/bufr_encoder.cc` lines
100-144. -/
def define_c03_refval_override (C : Ctx) (st : St BitOut) (code : Varcode) : Res (St BitOut) := do
  let r ← c03_checked C st code
  let ob ← st.tgt.ob.add_bits r.2 st.c03_refval_override_bits
  return (put st ob).setOverride code r.1

/-- `DDSEncoder`, `wreport/bufr_encoder.cc` lines 25-145. -/
def target (C : Ctx) : Target (Enc BitOut) where
  define_bitmap := define_bitmap C.E
  define_variable := Enc.define_variable (BitOut.append_var C.E)
  define_variable_with_associated_field :=
    Enc.define_variable_with_associated_field (BitOut.append_var C.E) encode_associated_field
  define_delayed_replication_factor := Enc.define_delayed_replication_factor (BitOut.append_var C.E)
  define_bitmap_delayed_replication_factor :=
    Enc.define_bitmap_delayed_replication_factor C.O (BitOut.append_var C.E)
  define_associated_field_significance :=
    Enc.define_associated_field_significance (BitOut.append_var C.E)
  define_substituted_value := define_substituted_value C.E
  define_attribute := fun st info pos => encode_attr C.E st info pos info.code
  define_raw_character_data := define_raw_character_data C.E
  define_c03_refval_override := define_c03_refval_override C

/-- Encoding one subset, `wreport/bufr_encoder.cc` lines 352-354. -/
def encodeSubset (C : Ctx) (depth : Nat) (datadesc : List Varcode) (subset : List Var)
    (caches : TableCaches) (ob : BitOut) : Res (TableCaches × BitOut) := do
  let st ← Interp.run C (target C) depth datadesc (.new caches ⟨subset, 0, ob⟩)
  return (st.caches, st.tgt.ob)

/-- Encoding all the subsets, `wreport/bufr_encoder.cc` lines 349-355. -/
def encodeSubsets (C : Ctx) (depth : Nat) (datadesc : List Varcode) :
    List (List Var) → TableCaches → BitOut → Res (TableCaches × BitOut)
  | [], caches, ob => .ok (caches, ob)
  | s :: rest, caches, ob => do
    let r ← encodeSubset C depth datadesc s caches ob
    encodeSubsets C depth datadesc rest r.1 r.2

end DDSEncoder

/-! ## BUFR decoder -/

/-- `UncompressedDecoderTarget` with its input and the subset it fills,
`wreport/bufr/decoder.h` lines 100-150. -/
structure Dec where
  input : Input
  out : List Var

namespace Decoder

/-- State of a decoder that is part of an interpreter. -/
abbrev St := Interp Dec

/-- Changing the input position. -/
def setInput (st : St) (i : Input) : St := { st with tgt := { st.tgt with input := i } }

/-- `Subset::store_variable(Var&&)`, `wreport/subset.cc` lines 34-37. -/
def store (st : St) (v : Var) : St := { st with tgt := { st.tgt with out := st.tgt.out ++ [v] } }

/-- `Subset::store_variable(const Var&)`, `wreport/subset.cc` lines 29-32. -/
def storeCopy (st : St) (v : Var) : Res St := do
  let w ← v.copy
  return store st w

/-- `UncompressedDecoderTarget::decode_uniform_b_value`, `wreport/bufr/decoder.cc`
lines 271-288. -/
def decode_uniform_b_value (C : Ctx) (i : Input) (info : Varinfo) : Res (Var × Input) :=
  match info.type with
  | .string => i.decode_string_var C.O (Var.new info)
  | .binary => i.decode_binary C.O (Var.new info)
  | .integer | .decimal => i.decode_number C.E C.O (Var.new info)

/-- `UncompressedDecoderTarget::decode_and_add_to_all`, `wreport/bufr/decoder.cc`
lines 290-294. -/
def decode_and_add_to_all (C : Ctx) (st : St) (info : Varinfo) : Res (Var × St) := do
  let r ← decode_uniform_b_value C st.tgt.input info
  return (r.1, store (setInput st r.2) r.1)

/-- `decode_and_add_bitmap` and `DataSectionDecoder::define_bitmap`,
`wreport/bufr/decoder.cc` lines 296-308 and 588-601. -/
def define_bitmap (C : Ctx) (st : St) (bitmap_size : Nat) : Res St := do
  let r ← st.tgt.input.decode_uncompressed_bitmap bitmap_size
  let t := st.caches.get_bitmap C.E st.bitmaps.pending_definitions r.1
  let info ← t.2
  let v ← Var.newStr C.O info r.1
  let st := store (setInput { st with caches := t.1 } r.2) v
  let b ← st.bitmaps.define C.E v.toVarCore (st.tgt.out.map (·.code)) st.tgt.out.length
  return { st with bitmaps := b }

/-- Changing the variable at a position of the subset. -/
def setAt (st : St) (pos : Nat) (v : Var) : St :=
  { st with tgt := { st.tgt with out := st.tgt.out.set pos v } }

/-- `UncompressedDecoderTarget::decode_and_set_attribute`,
`wreport/bufr/decoder.cc` lines 310-318. -/
def decode_and_set_attribute (C : Ctx) (st : St) (info : Varinfo) (pos : Nat) : Res St := do
  let r ← decode_uniform_b_value C st.tgt.input info
  if !r.1.isset then return setInput st r.2
  else match st.tgt.out[pos]? with
    | none => .ub
    | some v => do
      let v ← v.seta r.1
      return setAt (setInput st r.2) pos v

/-- `DataSectionDecoder::define_substituted_value`, `wreport/bufr/decoder.cc` lines
266-269 and 608-612. -/
def define_substituted_value (C : Ctx) (st : St) (pos : Nat) : Res St :=
  match st.tgt.out[pos]? with
  | none => .ub
  | some v => decode_and_set_attribute C st v.info pos

/-- `UncompressedDecoderTarget::decode_and_add_b_value`,
`wreport/bufr/decoder.cc` lines 320-328. -/
def define_variable (C : Ctx) (st : St) (info : Varinfo) : Res St := do
  let r ← decode_uniform_b_value C st.tgt.input info
  storeCopy (setInput st r.2) r.1

/-- Setting the attribute of the last variable, `wreport/bufr/decoder.cc` lines
344-351. -/
def setLast (st : St) : Option Var → Res St
  | none => .ok st
  | some a => match st.tgt.out.getLast? with
    | none => .ub
    | some v => .ok (setAt st (st.tgt.out.length - 1) (v.setaMove a))

/-- `UncompressedDecoderTarget::decode_and_add_b_value_with_associated_field`,
`wreport/bufr/decoder.cc` lines 330-352. -/
def define_variable_with_associated_field (C : Ctx) (st : St) (info : Varinfo) : Res St := do
  let r ← st.tgt.input.get_bits st.associated_field.bit_count
  let a ← st.associated_field.make_attribute C.E C.O C.btable r.1
  let w ← decode_uniform_b_value C r.2 info
  let st ← storeCopy (setInput st w.2) w.1
  setLast st a

/-- `DataSectionDecoder::define_delayed_replication_factor`,
`wreport/bufr/decoder.cc` lines 572-575. -/
def define_delayed_replication_factor (C : Ctx) (st : St) (info : Varinfo) : Res (Nat × St) := do
  let r ← decode_and_add_to_all C st info
  let n ← r.1.toVarCore.enqi
  return (toU32 n, r.2)

/-- `DataSectionDecoder::define_associated_field_significance`,
`wreport/bufr/decoder.cc` lines 577-580. -/
def define_associated_field_significance (C : Ctx) (st : St) (info : Varinfo) :
    Res (Nat × St) := do
  let r ← decode_and_add_to_all C st info
  let n ← Enc.enq63 r.1.toVarCore
  return (toU32 n, r.2)

/-- `DataSectionDecoder::define_bitmap_delayed_replication_factor`,
`wreport/bufr/decoder.cc` lines 566-570. -/
def define_bitmap_delayed_replication_factor (C : Ctx) (st : St) (info : Varinfo) :
    Res (Nat × St) := do
  let r ← decode_uniform_b_value C st.tgt.input info
  let n ← r.1.toVarCore.enqi
  return (toU32 n, setInput st r.2)

/-- Reading characters one by one, `wreport/bufr/decoder.cc` lines 359-364. -/
def getChars : Nat → Input → Res (List Byte × Input)
  | 0, i => .ok ([], i)
  | n + 1, i => do
    let r ← i.get_bits 8
    let r' ← getChars n r.2
    return (UInt8.ofNat r.1 :: r'.1, r'.2)

/-- `define_raw_character_data` and `decode_and_add_raw_character_data`,
`wreport/bufr/decoder.cc` lines 354-373 and 624-629. -/
def define_raw_character_data (C : Ctx) (st : St) (code : Varcode) : Res St := do
  let t := st.caches.get_chardata C.E code (WR_VAR_Y code)
  let info ← t.2
  let r ← getChars info.len st.tgt.input
  let v ← Var.newStr C.O info r.1
  storeCopy (setInput { st with caches := t.1 } r.2) v

/-- `UncompressedDecoderTarget::decode_c03_refval_override`,
`wreport/bufr/decoder.cc` lines 375-384. -/
def decode_c03_refval_override (i : Input) (bits : Nat) : Res (Int × Input) := do
  let r ← i.get_bits bits
  let sign ← shl1 (bits - 1)
  if r.1 &&& toU32 sign ≠ 0 then
    return (ofU32 (toU32 (-((r.1 &&& (2 ^ 32 - 1 - toU32 sign) : Nat) : Int))), r.2)
  else return (ofU32 r.1, r.2)

/-- `DataSectionDecoder::define_c03_refval_override`, `wreport/bufr/decoder.cc`
lines 582-586. -/
def define_c03_refval_override (C : Ctx) (st : St) (code : Varcode) : Res St := do
  let _ := C
  let r ← decode_c03_refval_override st.tgt.input st.c03_refval_override_bits
  return (setInput st r.2).setOverride code r.1

/-- `DataSectionDecoder` on an uncompressed message, `wreport/bufr/decoder.cc`
lines 561-629. -/
def target (C : Ctx) : Target Dec where
  define_bitmap := define_bitmap C
  define_variable := define_variable C
  define_variable_with_associated_field := define_variable_with_associated_field C
  define_delayed_replication_factor := define_delayed_replication_factor C
  define_bitmap_delayed_replication_factor := define_bitmap_delayed_replication_factor C
  define_associated_field_significance := define_associated_field_significance C
  define_substituted_value := define_substituted_value C
  define_attribute := decode_and_set_attribute C
  define_raw_character_data := define_raw_character_data C
  define_c03_refval_override := define_c03_refval_override C

/-- Interpreter for one subset, `wreport/bufr/decoder.cc` lines 215-221;
`add_undef` is `conf_add_undef_attrs`. -/
def start (add_undef : Bool) (caches : TableCaches) (i : Input) : St :=
  { Interp.new caches ⟨i, []⟩ with
    associated_field := { AssociatedField.new with skip_missing := !add_undef } }

/-- Decoding one subset, `wreport/bufr/decoder.cc` lines 215-222. -/
def decodeSubset (C : Ctx) (add_undef : Bool) (depth : Nat) (datadesc : List Varcode)
    (caches : TableCaches) (i : Input) : Res (List Var × TableCaches × Input) := do
  let st ← Interp.run C (target C) depth datadesc (start add_undef caches i)
  return (st.tgt.out, st.caches, st.tgt.input)

/-- Decoding all the subsets of an uncompressed message, `wreport/bufr/decoder.cc`
lines 213-223. -/
def decodeSubsets (C : Ctx) (add_undef : Bool) (depth : Nat) (datadesc : List Varcode) :
    Nat → TableCaches → Input → Res (List (List Var) × TableCaches × Input)
  | 0, caches, i => .ok ([], caches, i)
  | n + 1, caches, i => do
    let r ← decodeSubset C add_undef depth datadesc caches i
    let r' ← decodeSubsets C add_undef depth datadesc n r.2.1 r.2.2
    return (r.1 :: r'.1, r'.2)

end Decoder

/-! ## Validator -/

namespace Validator

open Enc

/-- The numeric part of `DDSValidator::check_fits`,
`wreport/bulletin/dds-validator.cc` lines 33-43. -/
def check_number (E : Env) (is_crex : Bool) (info : Varinfo) (var : VarCore) : Res Unit := do
  let d ← var.enqd E
  if is_crex then do
    let _ ← info.encode_decimal E (.fin d)
    return ()
  else do
    let encoded ← info.encode_binary E (.fin d)
    if 32 ≤ info.bit_len then .ub
    else if 2 ^ info.bit_len ≤ encoded then .err .consistency
    else return ()

/-- `DDSValidator::check_fits`, `wreport/bulletin/dds-validator.cc` lines 15-46. -/
def check_fits (E : Env) (is_crex : Bool) (info : Varinfo) (var : VarCore) : Res Unit :=
  if var.code ≠ info.code then .err .consistency
  else if !var.isset then .ok ()
  else match info.type with
  | .string | .binary => .ok ()
  | .integer | .decimal => check_number E is_crex info var

/-- `DDSValidator::encode_var`, `wreport/bulletin/dds-validator.cc` lines 55-58. -/
def encode_var (E : Env) (is_crex : Bool) : Put Unit := fun _ info var => check_fits E is_crex info var

/-- `DDSValidator::check_attr`, `wreport/bulletin/dds-validator.cc` lines 48-53. -/
def check_attr (E : Env) (is_crex : Bool) (st : St Unit) (info : Varinfo) (pos : Nat) :
    Res (St Unit) := do
  let v ← get_var_at st pos
  match v.enqa info.code with
  | some a => do
    let _ ← check_fits E is_crex info a
    return st
  | none => return st

/-- `DDSValidator::define_substituted_value`, `wreport/bulletin/dds-validator.cc`
lines 60-65. -/
def define_substituted_value (E : Env) (is_crex : Bool) (st : St Unit) (pos : Nat) :
    Res (St Unit) :=
  match st.tgt.subset[pos]? with
  | none => .ub
  | some v => check_attr E is_crex st v.info pos

/-- `DDSValidator::define_raw_character_data`, `wreport/bulletin/dds-validator.cc`
lines 72-79. -/
def define_raw_character_data (st : St Unit) (code : Varcode) : Res (St Unit) := do
  let r ← get_var st
  if r.1.code ≠ code then .err .consistency else return r.2

/-- `DDSValidator::define_c03_refval_override`,
`wreport/bulletin/dds-validator.cc` lines 81-123. -/
def define_c03_refval_override (C : Ctx) (st : St Unit) (code : Varcode) : Res (St Unit) := do
  let r ← c03_checked C st code
  return st.setOverride code r.1

/-- `DDSValidator`, `wreport/bulletin/dds-validator.cc`; the associated field is
not looked at (`UncompressedEncoder::encode_associated_field` does nothing). -/
def target (C : Ctx) (is_crex : Bool) : Target (Enc Unit) where
  define_bitmap := Enc.define_bitmap C.E
  define_variable := Enc.define_variable (encode_var C.E is_crex)
  define_variable_with_associated_field :=
    Enc.define_variable_with_associated_field (encode_var C.E is_crex) (fun st _ => .ok st)
  define_delayed_replication_factor := Enc.define_delayed_replication_factor (encode_var C.E is_crex)
  define_bitmap_delayed_replication_factor :=
    Enc.define_bitmap_delayed_replication_factor C.O (encode_var C.E is_crex)
  define_associated_field_significance :=
    Enc.define_associated_field_significance (encode_var C.E is_crex)
  define_substituted_value := define_substituted_value C.E is_crex
  define_attribute := check_attr C.E is_crex
  define_raw_character_data := define_raw_character_data
  define_c03_refval_override := define_c03_refval_override C

end Validator

end Wreport
