import Verif.Model.Bits
import Verif.Model.Input

/-!
# BUFR message sections

Modelled code: the section encoders of `wreport/bufr_encoder.cc` lines 148-417,
the header decoder of `wreport/bufr/decoder.cc` lines 28-252 and section scanning
in `wreport/bufr/input.cc` lines 40-71 and 227-249. The contents of the data
section and the loading of tables are parameters. Offsets are `unsigned` in the
code; wrapping of offsets in messages larger than 4 GB is not modelled.
-/

namespace Wreport

/-- The members of `Bulletin` and `BufrBulletin` that sections 0-3 carry,
`wreport/bulletin.h` lines 38-100 and 196-248, with their initial values.
`compression` has no initial value in the code. -/
structure Header where
  edition_number : UInt8 := 4
  master_table_number : UInt8 := 0
  data_category : UInt8 := 0xff
  data_subcategory : UInt8 := 0xff
  data_subcategory_local : UInt8 := 0xff
  originating_centre : UInt16 := 0xffff
  originating_subcentre : UInt16 := 0xffff
  update_sequence_number : UInt8 := 0
  master_table_version_number : UInt8 := 19
  master_table_version_number_local : UInt8 := 0
  rep_year : UInt16 := 0
  rep_month : UInt8 := 0
  rep_day : UInt8 := 0
  rep_hour : UInt8 := 0
  rep_minute : UInt8 := 0
  rep_second : UInt8 := 0
  compression : Bool := false
  optional_section : List Byte := []
  datadesc : List Varcode := []
deriving DecidableEq

namespace BufrEnc

/-- `Encoder::encode_sec0`, `wreport/bufr_encoder.cc` lines 168-175. -/
def encode_sec0 (h : Header) (o : BitOut) : Res BitOut :=
  (o.raw_append (ascii "BUFR" ++ [0, 0, 0])).append_byte h.edition_number.toNat

/-- The optional section flag, `wreport/bufr_encoder.cc` lines 209 and 253. -/
def optFlag (h : Header) : Nat := if h.optional_section.isEmpty then 0 else 0x80

/-- Year of century, `wreport/bufr_encoder.cc` line 221. -/
def yearOfCentury (y : Nat) : Nat := if y = 2000 then 100 else y % 100

/-- `Encoder::encode_sec1ed3`, `wreport/bufr_encoder.cc` lines 192-234. -/
def encode_sec1ed3 (h : Header) (o : BitOut) : Res BitOut := do
  let o ← o.add_bits 18 24
  let o ← o.append_byte h.master_table_number.toNat
  let o ← o.append_byte h.originating_subcentre.toNat
  let o ← o.append_byte h.originating_centre.toNat
  let o ← o.append_byte h.update_sequence_number.toNat
  let o ← o.append_byte (optFlag h)
  let o ← o.append_byte h.data_category.toNat
  let o ← o.append_byte h.data_subcategory_local.toNat
  let o ← o.append_byte h.master_table_version_number.toNat
  let o ← o.append_byte h.master_table_version_number_local.toNat
  let o ← o.append_byte (yearOfCentury h.rep_year.toNat)
  let o ← o.append_byte h.rep_month.toNat
  let o ← o.append_byte h.rep_day.toNat
  let o ← o.append_byte h.rep_hour.toNat
  let o ← o.append_byte h.rep_minute.toNat
  o.append_byte (h.rep_year.toNat / 100)

/-- `Encoder::encode_sec1ed4`, `wreport/bufr_encoder.cc` lines 236-280. -/
def encode_sec1ed4 (h : Header) (o : BitOut) : Res BitOut := do
  let o ← o.add_bits 22 24
  let o ← o.append_byte 0
  let o ← o.append_short h.originating_centre.toNat
  let o ← o.append_short h.originating_subcentre.toNat
  let o ← o.append_byte h.update_sequence_number.toNat
  let o ← o.append_byte (optFlag h)
  let o ← o.append_byte h.data_category.toNat
  let o ← o.append_byte h.data_subcategory.toNat
  let o ← o.append_byte h.data_subcategory_local.toNat
  let o ← o.append_byte h.master_table_version_number.toNat
  let o ← o.append_byte h.master_table_version_number_local.toNat
  let o ← o.append_short h.rep_year.toNat
  let o ← o.append_byte h.rep_month.toNat
  let o ← o.append_byte h.rep_day.toNat
  let o ← o.append_byte h.rep_hour.toNat
  let o ← o.append_byte h.rep_minute.toNat
  o.append_byte h.rep_second.toNat

/-- The edition switch of `BufrBulletin::encode`, `wreport/bufr_encoder.cc` lines
386-393. -/
def encode_sec1 (h : Header) (o : BitOut) : Res BitOut :=
  if h.edition_number = 2 ∨ h.edition_number = 3 then encode_sec1ed3 h o
  else if h.edition_number = 4 then encode_sec1ed4 h o
  else .err .unimplemented

/-- `Encoder::encode_sec2`, `wreport/bufr_encoder.cc` lines 282-308. The cast of
the length to `uint32_t` is part of `add_bits`. -/
def encode_sec2 (h : Header) (o : BitOut) : Res BitOut :=
  if h.optional_section.isEmpty then .ok o
  else if h.optional_section.length % 2 = 1 then do
    let o ← o.add_bits (4 + h.optional_section.length + 1) 24
    let o ← o.append_byte 0
    (o.raw_append h.optional_section).append_byte 0
  else do
    let o ← o.add_bits (4 + h.optional_section.length) 24
    let o ← o.append_byte 0
    return o.raw_append h.optional_section

/-- The descriptor loop of `encode_sec3`, `wreport/bufr_encoder.cc` lines
331-332. -/
def encode_descriptors : List Varcode → BitOut → Res BitOut
  | [], o => .ok o
  | c :: t, o => do
    let o ← o.append_short c
    encode_descriptors t o

/-- `Encoder::encode_sec3`, `wreport/bufr_encoder.cc` lines 310-338. -/
def encode_sec3 (h : Header) (subsets : Nat) (o : BitOut) : Res BitOut :=
  if subsets = 0 then .err .consistency
  else if h.datadesc.isEmpty then .err .consistency
  else do
    let o ← o.add_bits (8 + 2 * h.datadesc.length) 24
    let o ← o.append_byte 0
    let o ← o.append_short subsets
    let o ← o.append_byte 128
    let o ← encode_descriptors h.datadesc o
    o.append_byte 0

/-- Storing the low 24 bits of a length, big endian, over three bytes already
written, `wreport/bufr_encoder.cc` lines 365-366 and 402-403. -/
def patch3 (s : List Byte) (pos val : Nat) : List Byte :=
  s.take pos ++
    [UInt8.ofNat (val / 65536 % 256), UInt8.ofNat (val / 256 % 256), UInt8.ofNat (val % 256)] ++
    s.drop (pos + 3)

/-- Padding of the message to an even length, `wreport/bufr_encoder.cc` lines
359-360. -/
def padEven (o : BitOut) : Res BitOut := if o.out.length % 2 = 1 then o.append_byte 0 else .ok o

/-- `Encoder::encode_sec4`, `wreport/bufr_encoder.cc` lines 340-372; `body` writes
the data of all subsets. -/
def encode_sec4 (body : BitOut → Res BitOut) (o : BitOut) : Res BitOut := do
  let start := o.out.length
  let o ← o.add_bits 0 24
  let o ← o.append_byte 0
  let o ← body o
  let o ← padEven o.flush
  let o := o.flush
  return { o with out := patch3 o.out start (o.out.length - start) }

/-- `Encoder::encode_sec5`, `wreport/bufr_encoder.cc` lines 181-189. -/
def encode_sec5 (o : BitOut) : BitOut := o.raw_append (ascii "7777")

/-- `BufrBulletin::encode`, `wreport/bufr_encoder.cc` lines 376-417. -/
def encode (h : Header) (subsets : Nat) (body : BitOut → Res BitOut) : Res (List Byte) := do
  let o ← encode_sec0 h (BitOut.new [])
  let o ← encode_sec1 h o
  let o ← encode_sec2 h o
  let o ← encode_sec3 h subsets o
  let o ← encode_sec4 body o
  let o := encode_sec5 o
  return patch3 o.out 4 o.out.length

end BufrEnc

namespace BufrDec

/-- `Input::read_number(unsigned, unsigned)`, `wreport/bufr/input.h` lines
141-150; `res` is the number read so far. -/
def read_number_loop (data : List Byte) : Nat → Nat → Nat → Res Nat
  | _, 0, res => .ok res
  | pos, n + 1, res => do
    let b ← Input.byteAt data pos
    read_number_loop data (pos + 1) n ((res <<< 8 ||| b) % 2 ^ 32)

/-- `Input::read_number`, `wreport/bufr/input.h` lines 141-159. -/
def read_number (data : List Byte) (pos n : Nat) : Res Nat := read_number_loop data pos n 0

/-- `Input::read_byte`, `wreport/bufr/input.h` lines 129-138, stored in a
`uint8_t`. -/
def read_byte (data : List Byte) (pos : Nat) : Res UInt8 := do
  let b ← Input.byteAt data pos
  return UInt8.ofNat b

/-- `read_number` of two bytes stored in a `uint16_t`. -/
def read_short (data : List Byte) (pos : Nat) : Res UInt16 := do
  let b ← read_number data pos 2
  return UInt16.ofNat b

/-- The `check_available_*` functions, `wreport/bufr/input.cc` lines 227-249:
`stop` is the end of the section or of the message. -/
def check (pos datalen stop : Nat) : Res Unit :=
  if pos + datalen > stop then .err .parse else .ok ()

/-- `Input::scan_section_length`, `wreport/bufr/input.cc` lines 40-51: from the
start of a section to the start of the next. -/
def scan_section_length (data : List Byte) (s : Nat) : Res Nat := do
  check s 3 data.length
  let n ← read_number data s 3
  check s n data.length
  return s + n

/-- The array `sec`, `wreport/bufr/input.h` line 89; `sec[0]` is 0. -/
structure Secs where
  s1 : Nat
  s2 : Nat
  s3 : Nat
  s4 : Nat
  s5 : Nat
deriving DecidableEq

/-- The optional section in `scan_other_sections`, `wreport/bufr/input.cc` lines
61-65. -/
def scan_optional (data : List Byte) (s2 : Nat) (has_optional : Bool) : Res Nat :=
  if has_optional then scan_section_length data s2 else .ok s2

/-- `Input::scan_other_sections`, `wreport/bufr/input.cc` lines 59-71. -/
def scan_other_sections (data : List Byte) (s1 s2 : Nat) (has_optional : Bool) : Res Secs := do
  let s3 ← scan_optional data s2 has_optional
  let s4 ← scan_section_length data s3
  let s5 ← scan_section_length data s4
  return { s1, s2, s3, s4, s5 }

/-- The century heuristics of `decode_sec1ed3`, `wreport/bufr/decoder.cc` lines
58-63. -/
def fullYear (y : UInt8) : UInt16 :=
  if y.toNat > 50 then UInt16.ofNat (y.toNat + 1900) else UInt16.ofNat (y.toNat + 2000)

/-- Length of the contents of the optional section, `wreport/bufr/decoder.cc`
lines 36-38: `unsigned` arithmetic. -/
def optLength3 (s : Secs) : Nat :=
  if s.s3 - s.s2 = 0 then 0 else (s.s3 - s.s2 + (2 ^ 32 - 4)) % 2 ^ 32

/-- `Decoder::decode_sec1ed3`, `wreport/bufr/decoder.cc` lines 28-68: the header,
the sections and the length of the optional section. -/
def decode_sec1ed3 (data : List Byte) (ed : UInt8) (s1 s2 : Nat) : Res (Header × Secs × Nat) := do
  let master_table_number ← read_byte data (s1 + 3)
  let flag ← read_byte data (s1 + 7)
  let s ← scan_other_sections data s1 s2 (flag &&& 0x80 != 0)
  let subcentre ← read_byte data (s1 + 4)
  let centre ← read_byte data (s1 + 5)
  let update_sequence_number ← read_byte data (s1 + 6)
  let master_table_version_number ← read_byte data (s1 + 10)
  let master_table_version_number_local ← read_byte data (s1 + 11)
  let data_category ← read_byte data (s1 + 8)
  let data_subcategory_local ← read_byte data (s1 + 9)
  let year ← read_byte data (s1 + 12)
  let rep_month ← read_byte data (s1 + 13)
  let rep_day ← read_byte data (s1 + 14)
  let rep_hour ← read_byte data (s1 + 15)
  let rep_minute ← read_byte data (s1 + 16)
  return ({ edition_number := ed, master_table_number, data_category, data_subcategory := 0xff,
            data_subcategory_local, originating_centre := centre.toUInt16,
            originating_subcentre := subcentre.toUInt16, update_sequence_number,
            master_table_version_number, master_table_version_number_local,
            rep_year := fullYear year, rep_month, rep_day, rep_hour, rep_minute }, s, optLength3 s)

/-- Length of the contents of the optional section, `wreport/bufr/decoder.cc`
lines 84-91. -/
def optLength4 (s : Secs) : Res Nat :=
  if s.s3 - s.s2 = 0 then .ok 0
  else if 4 ≤ s.s3 - s.s2 then .ok (s.s3 - s.s2 - 4)
  else .err .consistency

/-- `Decoder::decode_sec1ed4`, `wreport/bufr/decoder.cc` lines 70-114. -/
def decode_sec1ed4 (data : List Byte) (ed : UInt8) (s1 s2 : Nat) : Res (Header × Secs × Nat) := do
  let master_table_number ← read_byte data (s1 + 3)
  let originating_centre ← read_short data (s1 + 4)
  let originating_subcentre ← read_short data (s1 + 6)
  let update_sequence_number ← read_byte data (s1 + 8)
  let flag ← read_byte data (s1 + 9)
  let s ← scan_other_sections data s1 s2 (flag &&& 0x80 != 0)
  let ol ← optLength4 s
  let data_category ← read_byte data (s1 + 10)
  let data_subcategory ← read_byte data (s1 + 11)
  let data_subcategory_local ← read_byte data (s1 + 12)
  let master_table_version_number ← read_byte data (s1 + 13)
  let master_table_version_number_local ← read_byte data (s1 + 14)
  let rep_year ← read_short data (s1 + 15)
  let rep_month ← read_byte data (s1 + 17)
  let rep_day ← read_byte data (s1 + 18)
  let rep_hour ← read_byte data (s1 + 19)
  let rep_minute ← read_byte data (s1 + 20)
  let rep_second ← read_byte data (s1 + 21)
  return ({ edition_number := ed, master_table_number, data_category, data_subcategory,
            data_subcategory_local, originating_centre, originating_subcentre,
            update_sequence_number, master_table_version_number,
            master_table_version_number_local, rep_year, rep_month, rep_day, rep_hour, rep_minute,
            rep_second }, s, ol)

/-- The edition switch, `wreport/bufr/decoder.cc` lines 126-143. -/
def decode_sec1 (data : List Byte) (ed : UInt8) (s1 s2 : Nat) : Res (Header × Secs × Nat) :=
  if ed = 4 then decode_sec1ed4 data ed s1 s2 else decode_sec1ed3 data ed s1 s2

/-- `n` bytes from `pos`, `wreport/bufr/decoder.cc` lines 122, 161 and 243. -/
def read_bytes (data : List Byte) (pos : Nat) : Nat → Res (List Byte)
  | 0 => .ok []
  | n + 1 => do
    let b ← read_byte data pos
    let t ← read_bytes data (pos + 1) n
    return b :: t

/-- Section 2, `wreport/bufr/decoder.cc` lines 153-162. -/
def decode_sec2 (data : List Byte) (s : Secs) (ol : Nat) : Res (List Byte) :=
  if ol = 0 then .ok []
  else do
    check s.s2 3 s.s3
    let n ← read_number data s.s2 3
    check s.s2 n s.s3
    if n < 4 then .err .consistency else read_bytes data (s.s2 + 4) (n - 4)

/-- The descriptor loop, `wreport/bufr/decoder.cc` lines 172-173. -/
def read_descriptors (data : List Byte) (pos : Nat) : Nat → Res (List Varcode)
  | 0 => .ok []
  | n + 1 => do
    let c ← read_number data pos 2
    let t ← read_descriptors data (pos + 2) n
    return c :: t

/-- Section 3, `wreport/bufr/decoder.cc` lines 164-173: number of subsets,
compression flag, descriptors. -/
def decode_sec3 (data : List Byte) (s : Secs) : Res (Nat × Bool × List Varcode) :=
  if s.s4 - s.s3 < 7 then .err .consistency
  else do
    check s.s3 8 s.s4
    let subsets ← read_number data (s.s3 + 4) 2
    let flags ← read_byte data (s.s3 + 6)
    check (s.s3 + 7) ((s.s4 - s.s3 - 7) / 2 * 2) s.s4
    let descs ← read_descriptors data (s.s3 + 7) ((s.s4 - s.s3 - 7) / 2)
    return (subsets, flags &&& 0x40 != 0, descs)

/-- Result of `decode_header`: header, sections, expected subsets. -/
structure Head where
  header : Header
  secs : Secs
  expected_subsets : Nat
deriving DecidableEq

/-- `decode_header` after the indicator section was checked,
`wreport/bufr/decoder.cc` lines 130-173. -/
def decode_sections (data : List Byte) (ed : UInt8) : Res Head := do
  let s2 ← scan_section_length data 8
  check 8 (if ed = 4 then 22 else 18) data.length
  let r ← decode_sec1 data ed 8 s2
  let optional_section ← decode_sec2 data r.2.1 r.2.2
  let t ← decode_sec3 data r.2.1
  return { header := { r.1 with optional_section, compression := t.2.1, datadesc := t.2.2 },
           secs := r.2.1, expected_subsets := t.1 }

/-- `Decoder::decode_header` up to the loading of tables,
`wreport/bufr/decoder.cc` lines 117-173. -/
def decode_header (data : List Byte) : Res Head := do
  check 0 8 data.length
  let sig ← read_bytes data 0 4
  if sig ≠ ascii "BUFR" then .err .parse
  else do
    let ed ← read_byte data 7
    if ed ≠ 2 ∧ ed ≠ 3 ∧ ed ≠ 4 then .err .parse
    else decode_sections data ed

/-- Subsets made by `obtain_subset(expected_subsets - 1)`,
`wreport/bufr/decoder.cc` line 190 and `wreport/bulletin.cc` lines 75-80: the
argument is converted to `unsigned`. -/
def obtained (expected : Nat) : Nat := (expected + (2 ^ 32 - 1)) % 2 ^ 32 + 1

/-- The reader at the start of the data, `wreport/bufr/input.cc` line 70. -/
def start (data : List Byte) (s : Secs) : Input :=
  { data, s4_cursor := s.s4 + 4, pbyte := 0, pbyte_len := 0 }

/-- The end section, `wreport/bufr/decoder.cc` lines 240-248: the array
`section_end`. -/
def decode_end (data : List Byte) (s : Secs) : Res (List Nat) := do
  check s.s5 4 data.length
  let sig ← read_bytes data s.s5 4
  if sig ≠ ascii "7777" then .err .parse
  else return [s.s1, s.s2, s.s3, s.s4, s.s5, s.s5 + 4]

/-- `Decoder::decode_header` and `decode_data`, `wreport/bufr/decoder.cc` lines
117-252: `load` loads the tables, `body` decodes the data of the given number of
subsets. -/
def decode {T α : Type} (load : Header → Res T) (body : T → Head → Nat → Input → Res (α × Input))
    (data : List Byte) : Res (Head × α × List Nat) := do
  let h ← decode_header data
  let t ← load h.header
  let r ← body t h (obtained h.expected_subsets) (start data h.secs)
  let e ← decode_end data h.secs
  return (h, r.1, e)

end BufrDec

end Wreport
