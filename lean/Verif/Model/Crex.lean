import Verif.Model.Targets

/-!
# CREX

Modelled code: `wreport/buffers/crex.cc`, `wreport/crex_encoder.cc` and
`wreport/crex_decoder.cc`. Not modelled: `debug_dump_next`, tracing, texts of error
messages. Characters above 127 are not white space (`isspace` on a negative `char`
gives false with the C library used).
-/

namespace Wreport.Crex

/-! ## Formatted output -/

/-- Decimal digits of a number, as `printf` writes them. -/
def decDigits (n : Nat) : List Byte :=
  if n < 10 then [digitChar n] else decDigits (n / 10) ++ [digitChar n]

/-- `"%0*u"`. -/
def fmtU (width : Nat) (n : Nat) : List Byte :=
  List.replicate (width - (decDigits n).length) 48 ++ decDigits n

/-- `"%0*d"`. -/
def fmtD (width : Nat) (i : Int) : List Byte :=
  if i < 0 then 45 :: fmtU (width - 1) i.natAbs else fmtU width i.natAbs

/-- `"%0*hhd"` of an `uint8_t`: it is converted to `signed char`. -/
def fmtHhd (width : Nat) (b : Byte) : List Byte :=
  fmtD width (if b.toNat < 128 then b.toNat else (b.toNat : Int) - 256)

/-- `"%-*.*s"` with the same width and precision. -/
def fmtS (len : Nat) (s : List Byte) : List Byte :=
  s.take len ++ List.replicate (len - s.length) 32

/-- `CrexOutput`, `wreport/buffers/crex.h` lines 140-182. -/
structure Out where
  buf : List Byte
  has_check_digit : Bool
  expected_check_digit : Nat
deriving DecidableEq

namespace Out

/-- `CrexOutput::CrexOutput`, `wreport/buffers/crex.cc` lines 169-171. -/
def new (buf : List Byte) : Out := ⟨buf, false, 0⟩

/-- `CrexOutput::raw_append`, `wreport/buffers/crex.cc` lines 173-176. -/
def raw_append (o : Out) (s : List Byte) : Out := { o with buf := o.buf ++ s }

/-- `CrexOutput::raw_appendf`, `wreport/buffers/crex.cc` lines 178-187; `s` is the whole
formatted text. The buffer of 256 bytes gets at most 254 of them and a NUL, but as
many bytes are appended as the whole text has: the last of 256 is not initialised,
and more are outside the buffer. -/
def raw_appendf (o : Out) (s : List Byte) : Res Out :=
  if s.length ≤ 254 then .ok (o.raw_append s)
  else if s.length = 255 then .ok (o.raw_append (s.take 254 ++ [0]))
  else .ub

/-- `CrexOutput::encode_check_digit`, `wreport/buffers/crex.cc` lines 189-196. -/
def encode_check_digit (o : Out) : Out :=
  if !o.has_check_digit then o
  else { o.raw_append [UInt8.ofNat (48 + o.expected_check_digit)] with
    expected_check_digit := (o.expected_check_digit + 1) % 10 }

/-- `CrexOutput::append_missing`, `wreport/buffers/crex.cc` lines 198-203. -/
def append_missing (o : Out) (info : Varinfo) : Out := o.raw_append (List.replicate info.len 47)

/-- The value of a string, `wreport/buffers/crex.cc` line 217: `printf` reads at most
`len` bytes of it. -/
def appendText (E : Env) (o : Out) (info : Varinfo) (var : VarCore) : Res Out := do
  let m ← var.enqc E
  let s ← strncpy m info.len
  o.raw_appendf (fmtS info.len (s.takeWhile (· ≠ 0)))

/-- The value of a number, `wreport/buffers/crex.cc` lines 223-231. -/
def appendNumber (o : Out) (info : Varinfo) (var : VarCore) : Res Out := do
  let val ← var.enqi
  o.raw_appendf (fmtD (if val < 0 then info.len + 1 else info.len) val)

/-- `CrexOutput::append_var`, `wreport/buffers/crex.cc` lines 205-234. -/
def append_var (E : Env) (o : Out) (info : Varinfo) (var : VarCore) : Res Out :=
  if !var.isset then .ok (o.append_missing info)
  else
    let o := (o.raw_append [32]).encode_check_digit
    match info.type with
    | .string => appendText E o info var
    | .binary => .err .unimplemented
    | .integer | .decimal => appendNumber o info var

end Out

/-! ## Encoder -/

/-- The fields of `CrexBulletin` that are encoded or decoded, `wreport/bulletin.h`
lines 40-120 and 395-440. -/
structure Header where
  edition_number : Byte
  master_table_number : Byte
  master_table_version_number : Byte
  master_table_version_number_bufr : Byte
  data_category : Byte
  data_subcategory : Byte
  data_subcategory_local : Byte
  has_check_digit : Bool
  datadesc : List Varcode
deriving DecidableEq

namespace Encoder

open Enc

/-- `DDSEncoder::define_delayed_replication_factor`, `wreport/crex_encoder.cc` lines
45-76. -/
def define_delayed_replication_factor (E : Env) (st : St Out) (info : Varinfo) :
    Res (Nat × St Out) := do
  let r ← get_var st
  if info.code ∈ [WR_VAR 0 31 1, WR_VAR 0 31 2, WR_VAR 0 31 11, WR_VAR 0 31 12] then do
    let count ← r.1.toVarCore.enqi
    let ob ← (r.2.tgt.ob.raw_append [32]).encode_check_digit.raw_appendf (fmtU 4 (toU32 count))
    return (toU32 count, put r.2 ob)
  else do
    let ob ← r.2.tgt.ob.append_var E info r.1.toVarCore
    if r.1.isset then do
      let n ← r.1.toVarCore.enqi
      return (toU32 n, put r.2 ob)
    else return (4294967295, put r.2 ob)

/-- `DDSEncoder`, `wreport/crex_encoder.cc` lines 22-77, on
`UncompressedEncoder` (`wreport/bulletin/internals.cc`), whose `encode_var` is not
implemented here and whose `encode_associated_field` does nothing. -/
def target (C : Ctx) : Target (Enc Out) where
  define_bitmap := Enc.define_bitmap C.E
  define_variable := Enc.define_variable (Out.append_var C.E)
  define_variable_with_associated_field :=
    Enc.define_variable_with_associated_field (fun _ _ _ => .err .unimplemented) (fun st _ => .ok st)
  define_delayed_replication_factor := define_delayed_replication_factor C.E
  define_bitmap_delayed_replication_factor :=
    Enc.define_bitmap_delayed_replication_factor C.O (fun _ _ _ => .err .unimplemented)
  define_associated_field_significance :=
    Enc.define_associated_field_significance (fun _ _ _ => .err .unimplemented)
  define_substituted_value := fun _ _ => .err .unimplemented
  define_attribute := fun _ _ _ => .err .unimplemented
  define_raw_character_data := fun _ _ => .err .unimplemented
  define_c03_refval_override := fun _ _ => .err .unimplemented

/-- A descriptor of section 1, `wreport/crex_encoder.cc` lines 101-116. -/
def descriptor (code : Varcode) : List Byte :=
  if WR_VAR_F code = 0 ∧ WR_VAR_X code = 31 ∧ WR_VAR_Y code < 3 then []
  else
    32 :: (match WR_VAR_F code with
      | 0 => 66 | 1 => 82 | 2 => 67 | _ => 68) :: (fmtU 2 (WR_VAR_X code) ++ fmtU 3 (WR_VAR_Y code))

/-- `encode_sec1`, `wreport/crex_encoder.cc` lines 79-127. The output is passed by
value, with a reference to the text: what it does to the check digits is lost. None
of the formatted texts is longer than the buffer of `raw_appendf`. -/
def encode_sec1 (h : Header) (o : Out) : List Byte :=
  o.buf ++ (ascii "T" ++ fmtHhd 2 h.master_table_number ++ fmtHhd 2 h.edition_number ++
    fmtHhd 2 h.master_table_version_number ++ ascii " A" ++ fmtHhd 3 h.data_category ++
    (if h.data_subcategory = 255 then [] else fmtHhd 3 h.data_subcategory) ++
    h.datadesc.flatMap descriptor ++ (if o.has_check_digit then ascii " E" else []) ++
    ascii "++\r\r\n")

/-- One subset, `wreport/crex_encoder.cc` lines 26-34 and 146-150. -/
def encodeSubset (C : Ctx) (depth : Nat) (datadesc : List Varcode) (first : Bool)
    (subset : List Var) (caches : TableCaches) (ob : Out) : Res (TableCaches × Out) := do
  let ob := if first then ob else ob.raw_append (ascii "+\r\r\n")
  let st ← Interp.run C (target C) depth datadesc (.new caches ⟨subset, 0, ob⟩)
  return (st.caches, st.tgt.ob)

/-- All the subsets, `wreport/crex_encoder.cc` lines 145-150. -/
def encodeSubsets (C : Ctx) (depth : Nat) (datadesc : List Varcode) :
    Bool → List (List Var) → TableCaches → Out → Res (TableCaches × Out)
  | _, [], caches, ob => .ok (caches, ob)
  | first, s :: rest, caches, ob => do
    let r ← encodeSubset C depth datadesc first s caches ob
    encodeSubsets C depth datadesc false rest r.1 r.2

/-- `CrexBulletin::encode`, `wreport/crex_encoder.cc` lines 131-164. -/
def encode (C : Ctx) (depth : Nat) (h : Header) (subsets : List (List Var))
    (caches : TableCaches) : Res (List Byte) := do
  let out := (Out.new []).raw_append (ascii "CREX++\r\r\n")
  let out := { out with buf := encode_sec1 h out }
  let r ← encodeSubsets C depth h.datadesc true subsets caches out
  return (r.2.raw_append (ascii "++\r\r\n") |>.raw_append (ascii "7777\r\r\n")).buf

end Encoder

/-! ## Input -/

/-- `CrexInput`, `wreport/buffers/crex.h` lines 16-130, without the section offsets and
what is for error messages. `cur` is an offset. -/
structure In where
  data : List Byte
  cur : Nat
  has_check_digit : Bool
  expected_check_digit : Nat
deriving DecidableEq

namespace In

/-- `CrexInput::CrexInput`, `wreport/buffers/crex.cc` lines 25-30. -/
def new (data : List Byte) : In := ⟨data, 0, false, 0⟩

/-- What is still to be read. -/
def rem (i : In) : List Byte := i.data.drop i.cur

/-- `cur[k]`: the string ends with a NUL after its last character, and nothing can be
read after that. -/
def peek (i : In) (k : Nat) : Res Byte :=
  if i.cur + k < i.data.length then .ok (i.data.getD (i.cur + k) 0)
  else if i.cur + k = i.data.length then .ok 0
  else .ub

/-- `CrexInput::check_eof`, `wreport/buffers/crex.cc` lines 61-65. -/
def check_eof (i : In) : Res Unit := if i.data.length ≤ i.cur then .err .parse else .ok ()

/-- `CrexInput::check_available_data`, `wreport/buffers/crex.cc` lines 67-71. -/
def check_available_data (i : In) (n : Nat) : Res Unit :=
  if i.data.length < i.cur + n then .err .parse else .ok ()

/-- Moving on. -/
def adv (i : In) (n : Nat) : In := { i with cur := i.cur + n }

/-- `CrexInput::skip_spaces`, `wreport/buffers/crex.cc` lines 73-77. -/
def skip_spaces (i : In) : In := i.adv (i.rem.takeWhile isSpace).length

/-- `CrexInput::skip_data_and_spaces`, `wreport/buffers/crex.cc` lines 79-83. -/
def skip_data_and_spaces (i : In) (n : Nat) : In := (i.adv n).skip_spaces

/-- `CrexInput::read_word`, `wreport/buffers/crex.cc` lines 93-101, with a buffer of
`len` characters. -/
def read_word (i : In) (len : Nat) : List Byte × In :=
  let w := (i.rem.takeWhile (fun c => !isSpace c)).take (len - 1)
  (w, (i.adv w.length).skip_spaces)

/-- The check digit of a value, `wreport/buffers/crex.cc` lines 110-121. -/
def checkDigit (i : In) : Res In :=
  if i.has_check_digit then do
    let c ← i.peek 0
    if charSub0 c ≠ (i.expected_check_digit : Int) then .err .parse
    else return { i.adv 1 with expected_check_digit := (i.expected_check_digit + 1) % 10 }
  else .ok i

/-- The end of a value without trailing spaces, `wreport/buffers/crex.cc` lines
133-135: `v` is the value, the end is given from its start. -/
def trimmed (v : List Byte) : List Byte := (v.reverse.dropWhile isSpace).reverse

/-- `CrexInput::parse_value`, `wreport/buffers/crex.cc` lines 103-141: the part of the
text from the start of the value on, the value itself, and the input after it. -/
def parse_value (i : In) (len : Nat) (is_signed : Bool) : Res (List Byte × List Byte × In) := do
  i.check_available_data (len + 2)
  let i ← i.checkDigit
  let c ← i.peek 0
  let len := if is_signed && c = 45 then len + 1 else len
  return (i.rem, trimmed (i.rem.take len), (i.adv len).skip_spaces)

end In

/-! ## Decoder -/

/-- `strtol(s, 0, 10)` on the characters from `s` on, `long` has 64 bits. -/
def strtol (s : List Byte) : Int :=
  let s := s.dropWhile isSpace
  let neg := s.head? = some 45
  let s := if s.head? = some 45 ∨ s.head? = some 43 then s.tail else s
  let n : Int := ((s.takeWhile isDigit).foldl (fun v b => v * 10 + (b.toNat - 48)) 0 : Nat)
  if neg then max (-n) (-9223372036854775808) else min n 9223372036854775807

namespace Decoder

/-- `CrexParser`, `wreport/crex_decoder.cc` lines 120-130. -/
structure Dec where
  input : In
  out : List Var

/-- State of the decoder that is part of an interpreter. -/
abbrev St := Interp Dec

/-- Setting the value, `wreport/crex_decoder.cc` lines 145-156: the variable, and the
number or `0xffffffff`. -/
def setValue (O : Opts) (info : Varinfo) (at' value : List Byte) : Var × Res Nat :=
  if info.type = .string then
    let r := (Var.new info).setc O (c_str (value.takeWhile (· ≠ 0)))
    (r.1, r.2 >>= fun _ => .ok 4294967295)
  else
    let val := wrapInt (strtol at')
    let r := (Var.new info).seti O val
    (r.1, r.2 >>= fun _ => .ok (toU32 val))

/-- `CrexParser::read_variable`, `wreport/crex_decoder.cc` lines 132-165. -/
def read_variable (C : Ctx) (st : St) (info : Varinfo) : Res (Nat × St) := do
  let r ← st.tgt.input.parse_value info.len (info.type ≠ .string)
  let v : Var × Res Nat := if r.1.headD 0 = 47 then (Var.new info, .ok 4294967295)
    else setValue C.O info r.1 r.2.1
  let res ← v.2
  let w ← v.1.copy
  return (res, { st with tgt := ⟨r.2.2, st.tgt.out ++ [w]⟩ })

/-- `CrexParser`, `wreport/crex_decoder.cc` lines 120-176, on `Interpreter`, whose other
functions are not implemented. -/
def target (C : Ctx) : Target Dec where
  define_bitmap := fun _ _ => .err .unimplemented
  define_variable := fun st info => do
    let r ← read_variable C st info
    return r.2
  define_variable_with_associated_field := fun _ _ => .err .unimplemented
  define_delayed_replication_factor := read_variable C
  define_bitmap_delayed_replication_factor := fun _ _ => .err .unimplemented
  define_associated_field_significance := fun _ _ => .err .unimplemented
  define_substituted_value := fun _ _ => .err .unimplemented
  define_attribute := fun _ _ _ => .err .unimplemented
  define_raw_character_data := fun _ _ => .err .unimplemented
  define_c03_refval_override := fun _ _ => .err .unimplemented

/-- Two digits of `sscanf` with `%02hhu`: an optional sign and at least one digit, in
at most two characters. There are no spaces in a word. Gives what follows. -/
def scan2 (s : List Byte) : Option (Byte × List Byte) :=
  match s with
  | a :: t =>
    if isDigit a then
      match t with
      | b :: u => if isDigit b then some (UInt8.ofNat ((a.toNat - 48) * 10 + (b.toNat - 48)), u)
          else some (UInt8.ofNat (a.toNat - 48), t)
      | [] => some (UInt8.ofNat (a.toNat - 48), [])
    else if a = 43 ∨ a = 45 then
      match t with
      | b :: u => if isDigit b then
          some (UInt8.ofNat (if a = 45 then 256 - (b.toNat - 48) else b.toNat - 48), u)
        else none
      | [] => none
    else none
  | [] => none

/-- `sscanf(edition, "T%02hhu%02hhu%02hhu")`, `wreport/crex_decoder.cc` lines 43-47. -/
def scanEdition (w : List Byte) : Option (Byte × Byte × Byte) :=
  match w with
  | 84 :: t => do
    let a ← scan2 t
    let b ← scan2 a.2
    let c ← scan2 b.2
    return (a.1, b.1, c.1)
  | _ => none

/-- The A table word, `wreport/crex_decoder.cc` lines 60-79: category, subcategory and
local subcategory. `strlen` stops at a NUL. -/
def scanATable (w : List Byte) : Res (Byte × Byte × Byte) :=
  let w := w.takeWhile (· ≠ 0)
  let val := toU32 (strtol w.tail)
  if w.length - 1 = 3 then .ok (UInt8.ofNat val, 255, 0)
  else if w.length - 1 = 6 then .ok (UInt8.ofNat (val / 1000), UInt8.ofNat (val % 1000), 255)
  else .err .consistency

/-- `varcode_parse` (`wreport/varinfo.cc` lines 59-91) of six characters that are all
there: a NUL among the digits passes its test; in the X position it can make a
negative number, that is then shifted left. -/
def parseDescriptor (s : List Byte) : Res Varcode :=
  let c := fun i => s.getD i 0
  if !(((s.drop 1).take 5).all fun b => isDigit b || b = 0) then .err .consistency
  else if charSub0 (c 1) * 10 + charSub0 (c 2) < 0 then .ub
  else .ok ((varcodeParseF (c 0) + WR_STRING_TO_VAR (c 1) (c 2) (c 3) (c 4) (c 5)) % 65536)

/-- One turn of the loop over the descriptors: on, with another state, or out. -/
inductive Turn (σ α : Type) where
  | again (s : σ)
  | out (r : Res α)

/-- What the loop over the descriptors changes. -/
abbrev DescSt := In × Header

/-- One turn of the loop over the descriptors, `wreport/crex_decoder.cc` lines
86-110. -/
def descTurn (s : DescSt) : Turn DescSt DescSt :=
  match s.1.peek 0 with
  | .ub => .out .ub
  | .err e => .out (.err e)
  | .ok c =>
    if c = 66 ∨ c = 82 ∨ c = 67 ∨ c = 68 then
      if s.1.data.length < s.1.cur + 6 then .out (.err .parse)
      else match parseDescriptor (s.1.rem.take 6) with
        | .ok code => .again (s.1.skip_data_and_spaces 6, { s.2 with datadesc := s.2.datadesc ++ [code] })
        | .err e => .out (.err e)
        | .ub => .out .ub
    else if c = 69 then
      .again ({ s.1 with has_check_digit := true, expected_check_digit := 1 }.skip_data_and_spaces 1,
        { s.2 with has_check_digit := true })
    else if c = 43 then .out (do
      s.1.check_available_data 1
      let d ← s.1.peek 1
      if d ≠ 43 then .err .parse
      else return (s.1.skip_data_and_spaces 2, s.2))
    else .again s

/-- The loop over the descriptors; `none` when it has not ended after `fuel`
turns. -/
def descLoop : (fuel : Nat) → DescSt → Option (Res DescSt)
  | 0, _ => none
  | fuel + 1, s => match descTurn s with
    | .again s' => descLoop fuel s'
    | .out r => some r

/-- `CrexBulletin` as it is created, `wreport/bulletin.h` lines 55-120 and 395-440. -/
def created : Header where
  edition_number := 2
  master_table_number := 0
  master_table_version_number := 19
  master_table_version_number_bufr := 19
  data_category := 255
  data_subcategory := 255
  data_subcategory_local := 255
  has_check_digit := false
  datadesc := []

/-- `decode_header` before the descriptors, `wreport/crex_decoder.cc` lines 24-84. -/
def decodeStart (data : List Byte) : Res DescSt := do
  let i := In.new data
  i.check_available_data 6
  if i.rem.take 6 ≠ ascii "CREX++" then .err .parse
  else do
    let i := i.skip_data_and_spaces 6
    i.check_eof
    let c ← i.peek 0
    if c ≠ 84 then .err .parse
    else do
      let w := i.read_word 11
      match scanEdition (w.1.takeWhile (· ≠ 0)) with
      | none => .err .consistency
      | some (t, e, v) => do
        let i := w.2
        i.check_eof
        let c ← i.peek 0
        if c ≠ 65 then .err .parse
        else do
          let w := i.read_word 20
          let a ← scanATable w.1
          w.2.check_eof
          return (w.2, { created with
            master_table_number := t, edition_number := e, master_table_version_number := v,
            master_table_version_number_bufr := 0, data_category := a.1,
            data_subcategory := a.2.1, data_subcategory_local := a.2.2 })

/-- `decode_header`, `wreport/crex_decoder.cc` lines 24-117, before the tables are
loaded. -/
def decode_header (fuel : Nat) (data : List Byte) : Option (Res DescSt) :=
  match decodeStart data with
  | .ok s => descLoop fuel s
  | .err e => some (.err e)
  | .ub => some .ub

/-- After the data of a subset, `wreport/crex_decoder.cc` lines 190-204: whether the
data section ends here. -/
def subsetEnd (i : In) : Res (Bool × In) := do
  let i := i.skip_spaces
  i.check_eof
  let c ← i.peek 0
  if c ≠ 43 then .err .parse
  else do
    let i := i.adv 1
    i.check_eof
    let c ← i.peek 0
    if c = 43 then return (true, i.adv 1) else return (false, i)

/-- One subset, `wreport/crex_decoder.cc` lines 187-204. -/
def decodeSubset (C : Ctx) (depth : Nat) (datadesc : List Varcode) (caches : TableCaches) (i : In) :
    Res (List Var × TableCaches × Bool × In) := do
  let st ← Interp.run C (target C) depth datadesc (.new caches ⟨i, []⟩)
  let e ← subsetEnd st.tgt.input
  return (st.tgt.out, st.caches, e.1, e.2)

/-- The loop over the subsets, `wreport/crex_decoder.cc` lines 185-204. -/
def decodeSubsets (C : Ctx) (depth : Nat) (datadesc : List Varcode) :
    (fuel : Nat) → TableCaches → In → Option (Res (List (List Var) × In))
  | 0, _, _ => none
  | fuel + 1, caches, i => match decodeSubset C depth datadesc caches i with
    | .err e => some (.err e)
    | .ub => some .ub
    | .ok (vars, caches, last, i) =>
      if last then some (.ok ([vars], i))
      else (decodeSubsets C depth datadesc fuel caches i).map fun r =>
        r >>= fun r => .ok (vars :: r.1, r.2)

/-- Offset of the first `++` from the cursor on, `wreport/crex_decoder.cc` lines
212-213: the loop stops with an error two characters before the end. -/
def findPlus : List Byte → Res Nat
  | 43 :: 43 :: _ => .ok 0
  | _ :: b :: t => do
    let n ← findPlus (b :: t)
    return n + 1
  | _ => .err .parse

/-- Sections 3 and 4, `wreport/crex_decoder.cc` lines 205-223. -/
def decodeEnd (i : In) : Res Unit := do
  let i := i.skip_spaces
  i.check_eof
  i.check_available_data 4
  let n ← if i.rem.take 4 = ascii "SUPP" then (findPlus (i.rem.drop 4)).bind fun n => .ok (n + 4)
    else .ok 0
  let i := if i.rem.take 4 = ascii "SUPP" then (i.adv n).skip_spaces else i
  i.check_eof
  i.check_available_data 4
  if i.rem.take 4 ≠ ascii "7777" then .err .parse else .ok ()

/-- `decode_data`, `wreport/crex_decoder.cc` lines 178-223. -/
def decode_data (C : Ctx) (depth fuel : Nat) (datadesc : List Varcode) (caches : TableCaches)
    (i : In) : Option (Res (List (List Var))) :=
  match i.check_eof with
  | .ok () => (decodeSubsets C depth datadesc fuel caches i).map fun r => do
    let s ← r
    decodeEnd s.2
    return s.1
  | .err e => some (.err e)
  | .ub => some .ub

/-- `CrexBulletin::decode`, `wreport/crex_decoder.cc` lines 238-247; `load` loads the
tables for a header. `none` when the loop over the descriptors, or the one over the
subsets, has not ended after `fuel` turns. -/
def decode (load : Header → Res (Ctx × TableCaches)) (depth fuel : Nat) (data : List Byte) :
    Option (Res (Header × List (List Var))) :=
  match decode_header fuel data with
  | none => none
  | some (.err e) => some (.err e)
  | some .ub => some .ub
  | some (.ok (i, h)) => match load h with
    | .err e => some (.err e)
    | .ub => some .ub
    | .ok t => (decode_data t.1 depth fuel h.datadesc t.2 i).map fun r =>
      r >>= fun s => .ok (h, s)

end Decoder

end Wreport.Crex
