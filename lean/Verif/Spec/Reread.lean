import Verif.Lemmas.Bits
import Verif.Spec.Data
import Verif.Model.Targets

/-!
# Data that can be written back

A decoder that stops wherever what it reads is not what an encoder would write: the
field is not that of any value, the descriptor is not as the tables make it, an
attribute is given twice, a reference value is changed, or the data ends there.
-/

namespace Wreport.Spec

/-- The bytes that bits are read into: whole bytes, and the rest as a number. -/
def chunks (l : List Bool) : List Byte :=
  (List.range ((l.length + 7) / 8)).map fun i => UInt8.ofNat (ofBits ((l.drop (8 * i)).take 8))

/-- Bits that are the field of some value of that descriptor. -/
def ownField (info : Varinfo) (f : List Bool) : Bool :=
  (missingFits info && decide (f = missingField info.bit_len)) ||
  match info.type with
  | .integer | .decimal =>
    let k := (ofBits f : Int) + info.bit_ref
    (numFits info k || factorFits info k) && inInt k && decide (f.length = info.bit_len)
  | .string =>
    (List.range ((chunks f).length + 1)).any fun n =>
      let t := (chunks f).take n
      textFits info t && t.all (· != 0) && decide (t.length ≤ info.len) &&
        decide (f = textField info.bit_len t)
  | .binary =>
    let w := chunks f
    bitsFits info w && decide (w.length = info.len) && decide (f = binField info.bit_len w)

/-- The next field can be written back, and more data follows. -/
def clean (E : Env) (info : Varinfo) (l : List Bool) : Bool :=
  Walk.asMade E info && ownField info (l.take info.bit_len) && decide (8 ≤ (l.drop info.bit_len).length)

/-- An associated field of `n` bits that can be written back: a value that becomes an
attribute, or all ones. -/
def cleanField (C : Ctx) (n significance : Nat) (f : List Bool) : Bool :=
  decide (0 < n ∧ n ≤ 31 ∧ f.length = n) &&
  match qualityCode significance with
  | none => decide (1 ≤ significance ∧ significance ≤ 63 ∧ f = missingField n)
  | some q =>
    match C.btable.query q with
    | .ok info => decide (info.code = q ∧ (info.type = .integer ∨ info.type = .decimal)) &&
        Walk.asMade C.E info &&
        (decide (significance ≠ 21 ∧ f = missingField n) ||
          Walk.assocFits n significance info (ofBits f))
    | _ => false

/-- The decoder, the attributes read so far (position of the variable and code), and
the number of marks announced for the bitmap that comes next. -/
structure Watching where
  dec : Dec
  carried : List (Nat × Varcode)
  due : Option Nat

namespace Watching

/-- State of a decoder that watches what it reads. -/
abbrev St := Interp Watching

/-- The plain decoder. -/
def down (st : St) : Decoder.St :=
  { caches := st.caches, bitmaps := st.bitmaps, associated_field := st.associated_field,
    c_scale_change := st.c_scale_change, c_width_change := st.c_width_change,
    c_scale_ref_width_increase := st.c_scale_ref_width_increase,
    c_string_len_override := st.c_string_len_override,
    c03_refval_overrides := st.c03_refval_overrides,
    c03_refval_override_bits := st.c03_refval_override_bits, tgt := st.tgt.dec }

/-- After a step of the plain decoder. -/
def up (st : Decoder.St) (carried : List (Nat × Varcode)) (due : Option Nat) : St :=
  { caches := st.caches, bitmaps := st.bitmaps, associated_field := st.associated_field,
    c_scale_change := st.c_scale_change, c_width_change := st.c_width_change,
    c_scale_ref_width_increase := st.c_scale_ref_width_increase,
    c_string_len_override := st.c_string_len_override,
    c03_refval_overrides := st.c03_refval_overrides,
    c03_refval_override_bits := st.c03_refval_override_bits, tgt := ⟨st.tgt, carried, due⟩ }

/-- The bits to come. -/
def rem (st : St) : List Bool := st.tgt.dec.input.rem

/-- An element. -/
def element (C : Ctx) (st : St) (info : Varinfo) : Res St :=
  if st.tgt.due = none ∧ clean C.E info (rem st) = true then do
    let s ← Decoder.define_variable C (down st) info
    return up s st.tgt.carried none
  else .err .consistency

/-- A number has come and can be written back. -/
def cleanNumber (C : Ctx) (st : St) (info : Varinfo) : Bool :=
  decide (st.tgt.due = none ∧ (info.type = .integer ∨ info.type = .decimal)) &&
    clean C.E info (rem st)

/-- A replication factor. -/
def factor (C : Ctx) (st : St) (info : Varinfo) : Res (Nat × St) :=
  if cleanNumber C st info = true then do
    let r ← Decoder.define_delayed_replication_factor C (down st) info
    return (r.1, up r.2 st.tgt.carried none)
  else .err .consistency

/-- The meaning of associated fields. -/
def significance (C : Ctx) (st : St) (info : Varinfo) : Res (Nat × St) :=
  if cleanNumber C st info = true then do
    let r ← Decoder.define_associated_field_significance C (down st) info
    return (r.1, up r.2 st.tgt.carried none)
  else .err .consistency

/-- The number of marks of a bitmap. -/
def bitmapFactor (C : Ctx) (st : St) (info : Varinfo) : Res (Nat × St) :=
  if cleanNumber C st info = true then do
    let r ← Decoder.define_bitmap_delayed_replication_factor C (down st) info
    if r.1 < 2 ^ 31 then return (r.1, up r.2 st.tgt.carried (some r.1))
    else .err .consistency
  else .err .consistency

/-- Marks read from bits. -/
def marks (l : List Bool) : List Byte := l.map fun b => if b then 45 else 43

/-- A bitmap: of the size announced, with at most as many marks as there are elements,
and with the descriptor of its operator. -/
def bitmap (C : Ctx) (st : St) (size : Nat) : Res St :=
  let t := marks ((rem st).take size)
  let codes := st.tgt.dec.out.map (·.code)
  match (st.caches.get_bitmap C.E st.bitmaps.pending_definitions t).2 with
  | .ok info =>
    if (st.tgt.due = none ∨ st.tgt.due = some size) ∧ 1 ≤ size ∧ size + 8 ≤ (rem st).length ∧
        info.type = .string ∧ Walk.asMade C.E info = true ∧ WR_VAR_F info.code = 2 ∧
        info.len = size ∧
        Walk.bitmapKnown C st.caches.bitmap_table st.bitmaps.pending_definitions t info = true ∧
        size ≤ (elementsBefore (codes ++ [info.code]) (codes.length + 1)).length then do
      let s ← Decoder.define_bitmap C (down st) size
      return up s st.tgt.carried none
    else .err .consistency
  | _ => .err .consistency

/-- Characters written in place, none of them NUL. -/
def characters (C : Ctx) (st : St) (code : Varcode) : Res St :=
  if st.tgt.due = none ∧ WR_VAR_Y code * 8 + 8 ≤ (rem st).length ∧
      (st.caches.get_chardata C.E code (WR_VAR_Y code)).2 =
        Varinfo.set_string C.E code (WR_VAR_Y code) ∧
      (chunks ((rem st).take (WR_VAR_Y code * 8))).all (· != 0) = true then do
    let s ← Decoder.define_raw_character_data C (down st) code
    return up s st.tgt.carried none
  else .err .consistency

/-- An attribute not read before, for a variable already read. -/
def quality (C : Ctx) (st : St) (info : Varinfo) (pos : Nat) : Res St :=
  if st.tgt.due = none ∧ pos < st.tgt.dec.out.length ∧ (pos, info.code) ∉ st.tgt.carried ∧
      clean C.E info (rem st) = true then do
    let s ← Decoder.decode_and_set_attribute C (down st) info pos
    return up s (st.tgt.carried ++ [(pos, info.code)]) none
  else .err .consistency

/-- A substituted value. -/
def substituted (C : Ctx) (st : St) (pos : Nat) : Res St :=
  match st.tgt.dec.out[pos]? with
  | none => .err .consistency
  | some v => quality C st v.info pos

/-- An element with an associated field. -/
def withField (C : Ctx) (st : St) (info : Varinfo) : Res St :=
  if st.tgt.due = none ∧
      cleanField C st.associated_field.bit_count st.associated_field.significance
        ((rem st).take st.associated_field.bit_count) = true ∧
      clean C.E info ((rem st).drop st.associated_field.bit_count) = true then do
    let s ← Decoder.define_variable_with_associated_field C (down st) info
    return up s (st.tgt.carried ++ ((qualityCode st.associated_field.significance).map fun q =>
      (st.tgt.dec.out.length, q)).toList) none
  else .err .consistency

/-- The decoder that watches what it reads. Changes of reference values are not
accepted. -/
def target (C : Ctx) : Target Watching where
  define_bitmap := bitmap C
  define_variable := element C
  define_variable_with_associated_field := withField C
  define_delayed_replication_factor := factor C
  define_bitmap_delayed_replication_factor := bitmapFactor C
  define_associated_field_significance := significance C
  define_substituted_value := substituted C
  define_attribute := quality C
  define_raw_character_data := characters C
  define_c03_refval_override := fun _ _ => .err .consistency

/-- At the start of a subset. -/
def start (add_undef : Bool) (caches : TableCaches) (i : Input) : St :=
  up (Decoder.start add_undef caches i) [] none

end Watching

/-- A subset of which all can be written back. -/
def rewritable (C : Ctx) (add_undef : Bool) (depth : Nat) (datadesc : List Varcode)
    (caches : TableCaches) (i : Input) : Bool :=
  match Interp.run C (Watching.target C) depth datadesc (Watching.start add_undef caches i) with
  | .ok st => st.tgt.due.isNone
  | _ => false

/-- Subsets one after the other, of which all can be written back. -/
def rewritableAll (C : Ctx) (add_undef : Bool) (depth : Nat) (datadesc : List Varcode) :
    Nat → TableCaches → Input → Bool
  | 0, _, _ => true
  | n + 1, caches, i => rewritable C add_undef depth datadesc caches i &&
    match Decoder.decodeSubset C add_undef depth datadesc caches i with
    | .ok r => rewritableAll C add_undef depth datadesc n r.2.1 r.2.2
    | _ => false

end Wreport.Spec
