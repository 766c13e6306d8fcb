import Verif.Model.Var

/-!
# BUFR bit buffers: input

Modelled code: `wreport/bufr/input.h` lines 45-210, `wreport/bufr/input.cc` lines
19-71 and 227-751. Not modelled: the debug dump functions and error messages.
Offsets are `unsigned` in the code; wrapping of offsets in messages larger than
4 GB is not modelled.
-/

namespace Wreport

/-- `all_ones`, `wreport/bufr/input.cc` lines 20-24 (and its copies in
`buffers/bufr.cc` and `bulletin/associated_fields.cc`): shifts by `bitlen - 1`
on `int`, then converts to `uint32_t`. -/
def all_ones (E : Env) (bitlen : Nat) : Res Nat :=
  if bitlen = 0 then .ub
  else do
    let top ← shl1 (bitlen - 1)
    let low ← E.sint (top - 1)
    return toU32 low ||| toU32 top

/-- `Input`, `wreport/bufr/input.h` lines 45-90: the bit reader part. `data` is
the whole message, held in a `std::string`. -/
structure Input where
  data : List Byte
  s4_cursor : Nat
  pbyte : Nat
  pbyte_len : Nat
deriving DecidableEq

namespace Input

/-- Constructor, `wreport/bufr/input.cc` lines 32-38. -/
def new (data : List Byte) : Input := { data, s4_cursor := 0, pbyte := 0, pbyte_len := 0 }

/-- `data[pos]`: the byte after the end of a `std::string` is a readable NUL, the
ones after it are not readable. -/
def byteAt (data : List Byte) (pos : Nat) : Res Nat :=
  match data[pos]? with
  | some b => .ok b.toNat
  | none => if pos = data.length then .ok 0 else .ub

/-- Start of a turn of the loops of `get_bits` and `skip_bits`,
`wreport/bufr/input.h` lines 178-182. -/
def fill (i : Input) : Res Input :=
  if i.pbyte_len = 0 then do
    let b ← byteAt i.data i.s4_cursor
    return { i with pbyte_len := 8, pbyte := b, s4_cursor := i.s4_cursor + 1 }
  else .ok i

/-- The loop of `get_bits`, `wreport/bufr/input.h` lines 176-188. -/
def getLoop : Nat → Nat → Input → Res (Nat × Input)
  | 0, result, i => .ok (result, i)
  | n + 1, result, i => do
    let i ← i.fill
    let result := (result <<< 1 ||| (decide (i.pbyte &&& 0x80 ≠ 0)).toNat) % 2 ^ 32
    getLoop n result { i with pbyte := i.pbyte <<< 1 % 256, pbyte_len := i.pbyte_len - 1 }

/-- `Input::get_bits`, `wreport/bufr/input.h` lines 165-191. -/
def get_bits (i : Input) (n : Nat) : Res (Nat × Input) :=
  if i.s4_cursor = i.data.length then .err .parse else getLoop n 0 i

/-- The loop of `skip_bits`, `wreport/bufr/input.h` lines 201-210. -/
def skipLoop : Nat → Input → Res Input
  | 0, i => .ok i
  | n + 1, i => do
    let i ← i.fill
    skipLoop n { i with pbyte := i.pbyte <<< 1 % 256, pbyte_len := i.pbyte_len - 1 }

/-- `Input::skip_bits`, `wreport/bufr/input.h` lines 196-211. -/
def skip_bits (i : Input) (n : Nat) : Res Input :=
  if i.s4_cursor = i.data.length then .err .parse else skipLoop n i

/-- The reading loop of `decode_string` and `decode_binary`,
`wreport/bufr/input.cc` lines 257-266 and 304-313: bytes read, most significant
chunk first; the last one may be partial. -/
def getBytes (i : Input) (toread : Nat) : Res (List Byte × Input) :=
  if toread = 0 then .ok ([], i)
  else do
    let count := if 8 < toread then 8 else toread
    let r ← i.get_bits count
    let r' ← getBytes r.2 (toread - count)
    return (UInt8.ofNat r.1 :: r'.1, r'.2)
termination_by toread
decreasing_by split <;> omega

/-- Dropping of trailing NULs and spaces, keeping at least one character,
`wreport/bufr/input.cc` lines 272-275: the text left in the buffer up to its
terminator may be shorter if it holds NULs. -/
def trimEnd (s : List Byte) : List Byte :=
  match s with
  | [] => []
  | b :: t => b :: (t.reverse.dropWhile fun c => c = 0 || isSpace c).reverse

/-- `Input::decode_string(unsigned, char*, size_t&)`, `wreport/bufr/input.cc`
lines 251-279: `none` for a missing value, otherwise the bytes before the
terminator written in the buffer. -/
def decode_string (i : Input) (bit_len : Nat) : Res (Option (List Byte) × Input) := do
  let r ← i.getBytes bit_len
  if r.1.all fun b => b = 0xff || b = 0 then return (none, r.2)
  else return (some (trimEnd r.1), r.2)

/-- Setting a variable from an optional decoded string, `wreport/bufr/input.cc`
lines 289-292: a missing value leaves it as it was. -/
def setDecoded (O : Opts) (dest : Var) (s : Option (List Byte)) : Res Var :=
  match s with
  | none => .ok dest
  | some s => do
    let r := dest.setc O (c_str s)
    let _ ← r.2
    return r.1

/-- `Input::decode_string(Var&)`, `wreport/bufr/input.cc` lines 281-293. -/
def decode_string_var (O : Opts) (i : Input) (dest : Var) : Res (Var × Input) := do
  let r ← i.decode_string dest.info.bit_len
  let v ← setDecoded O dest r.1
  return (v, r.2)

/-- `Input::decode_binary`, `wreport/bufr/input.cc` lines 295-319. The buffer has
`bit_len / 8 + 1` bytes, possibly not all written. -/
def decode_binary (O : Opts) (i : Input) (dest : Var) : Res (Var × Input) := do
  let r ← i.getBytes dest.info.bit_len
  if r.1.all fun b => b = 0xff then return (dest, r.2)
  else do
    let buf := toMem r.1 ++ List.replicate (dest.info.bit_len / 8 + 1 - r.1.length) none
    let w := dest.setc O buf
    let _ ← w.2
    return (w.1, r.2)

/-- Elements that have no missing value, `wreport/bufr/input.cc` lines 332-341. -/
def neverMissing (code : Varcode) : Bool :=
  WR_VAR_F code = 0 && WR_VAR_X code = 31 &&
    (WR_VAR_Y code = 0 || WR_VAR_Y code = 1 || WR_VAR_Y code = 2 || WR_VAR_Y code = 11 ||
      WR_VAR_Y code = 12)

/-- The missing value test of `decode_number`, `wreport/bufr/input.cc` lines
330-346. -/
def isMissing (E : Env) (info : Varinfo) (val : Nat) : Res Bool :=
  if neverMissing info.code then .ok false
  else do
    let ones ← all_ones E info.bit_len
    return val = ones

/-- Storing a decoded number, `wreport/bufr/input.cc` lines 355-359. -/
def setNumber (E : Env) (O : Opts) (dest : Var) (val : Nat) : Res Var := do
  let d ← dest.info.decode_binary E val
  let r := dest.setd E O (.fin d)
  let _ ← r.2
  return r.1

/-- Storing a possibly missing decoded number, `wreport/bufr/input.cc` lines
350-360. -/
def setNumberOrMissing (E : Env) (O : Opts) (dest : Var) (missing : Bool) (val : Nat) : Res Var :=
  if missing then .ok dest.unset else setNumber E O dest val

/-- `Input::decode_number`, `wreport/bufr/input.cc` lines 321-361. -/
def decode_number (E : Env) (O : Opts) (i : Input) (dest : Var) : Res (Var × Input) := do
  let r ← i.get_bits dest.info.bit_len
  let missing ← isMissing E dest.info r.1
  let v ← setNumberOrMissing E O dest missing r.1
  return (v, r.2)

/-! ## Compressed data -/

/-- `Input::decode_compressed_base`, `wreport/bufr/input.cc` lines 363-383:
missing, base, difference bits. -/
def decode_compressed_base (E : Env) (i : Input) (info : Varinfo) :
    Res ((Bool × Nat × Nat) × Input) := do
  let r ← i.get_bits info.bit_len
  let ones ← all_ones E info.bit_len
  let r' ← r.2.get_bits 6
  if r.1 = ones ∧ r'.1 ≠ 0 then .err .consistency
  else return ((decide (r.1 = ones), r.1, r'.1), r'.2)

/-- The missing value test for one compressed value, `wreport/bufr/input.cc` line
393: the second operand is evaluated only if the first is false. -/
def diffMissing (E : Env) (info : Varinfo) (base diffbits diff : Nat) : Res Bool := do
  let ones ← all_ones E info.bit_len
  if base = ones then .ok true
  else do
    let d ← all_ones E diffbits
    if diff = d then .ok true
    else return toU32 ((base + diff : Nat)) = ones

/-- `Input::decode_compressed_number(Var&, uint32_t, unsigned)`,
`wreport/bufr/input.cc` lines 385-413. -/
def decode_compressed_diff (E : Env) (O : Opts) (i : Input) (dest : Var) (base diffbits : Nat) :
    Res (Var × Input) := do
  let r ← i.get_bits diffbits
  let missing ← diffMissing E dest.info base diffbits r.1
  let v ← setNumberOrMissing E O dest missing (toU32 ((base + r.1 : Nat)))
  return (v, r.2)

/-- The loop over subsets of `decode_compressed_number`, `wreport/bufr/input.cc`
lines 647-653 and 711-717. `dest` is the same variable each time: both
destinations copy it (`wreport/bufr/input.h` lines 38-41, `wreport/var.cc` lines
638-641), so it still holds the value of the previous subset when the next one is
set. -/
def diffLoop (E : Env) (O : Opts) (base diffbits : Nat) :
    Nat → Var → Input → Res (List Var × Input)
  | 0, _, i => .ok ([], i)
  | n + 1, dest, i => do
    let r ← decode_compressed_diff E O i dest base diffbits
    let r' ← diffLoop E O base diffbits n r.1 r.2
    return (r.1 :: r'.1, r'.2)

/-- `Input::decode_compressed_number(Varinfo, unsigned, ...)`,
`wreport/bufr/input.cc` lines 625-654 and 696-718: one variable for each
subset. -/
def decode_compressed_number (E : Env) (O : Opts) (i : Input) (info : Varinfo) (subsets : Nat) :
    Res (List Var × Input) := do
  let r ← i.decode_compressed_base E info
  if r.1.1 then return (List.replicate subsets (Var.new info), r.2)
  else if r.1.2.2 = 0 then do
    let v ← setNumber E O (Var.new info) r.1.2.1
    return (List.replicate subsets v, r.2)
  else diffLoop E O r.1.2.1 r.1.2.2 subsets (Var.new info) r.2

/-- `Input::decode_compressed_semantic_number`, `wreport/bufr/input.cc` lines
463-498. -/
def decode_compressed_semantic_number (E : Env) (O : Opts) (i : Input) (dest : Var) :
    Res (Var × Input) := do
  let r ← i.get_bits dest.info.bit_len
  let ones ← all_ones E dest.info.bit_len
  let r' ← r.2.get_bits 6
  if r'.1 ≠ 0 then .err .consistency
  else do
    let v ← setNumberOrMissing E O dest (decide (r.1 = ones)) r.1
    return (v, r'.2)

/-- The loop over subsets of compressed strings, `wreport/bufr/input.cc` lines
493-513 and 680-692. -/
def stringLoop (O : Opts) (info : Varinfo) (diffbits : Nat) : Nat → Input → Res (List Var × Input)
  | 0, i => .ok ([], i)
  | n + 1, i => do
    let r ← i.decode_string (diffbits * 8)
    let v ← setDecoded O (Var.new info) r.1
    let r' ← stringLoop O info diffbits n r.2
    return (v :: r'.1, r'.2)

/-- `Input::decode_string(Varinfo, unsigned, ...)`, `wreport/bufr/input.cc` lines
500-546 and 656-694: one variable for each subset. -/
def decode_compressed_string (O : Opts) (i : Input) (info : Varinfo) (subsets : Nat) :
    Res (List Var × Input) := do
  let r ← i.decode_string info.bit_len
  let r' ← r.2.get_bits 6
  if r'.1 = 0 then do
    let v ← setDecoded O (Var.new info) r.1
    return (List.replicate subsets v, r'.2)
  else if info.bit_len < r'.1 * 8 then .err .unimplemented
  else stringLoop O info r'.1 subsets r'.2

/-- The loop comparing values in `decode_string(Var&, unsigned)`,
`wreport/bufr/input.cc` lines 599-621; `dest` is the first value. -/
def sameLoop (O : Opts) (dest : Var) (diffbits : Nat) : Nat → Input → Res Input
  | 0, i => .ok i
  | n + 1, i => do
    let r ← i.decode_string (diffbits * 8)
    let v ← setDecoded O (Var.new dest.info) r.1
    let e ← dest.eq v
    if !e then .err .consistency else sameLoop O dest diffbits n r.2

/-- `Input::decode_string(Var&, unsigned)`, `wreport/bufr/input.cc` lines
548-623. -/
def decode_string_same (O : Opts) (i : Input) (dest : Var) (subsets : Nat) : Res (Var × Input) := do
  let r ← i.decode_string dest.info.bit_len
  let r' ← r.2.get_bits 6
  if r'.1 = 0 then do
    let v ← setDecoded O dest r.1
    return (v, r'.2)
  else if dest.info.bit_len < r'.1 * 8 then .err .unimplemented
  else do
    let s ← r'.2.decode_string (r'.1 * 8)
    let v ← setDecoded O dest.unset s.1
    let i ← sameLoop O v r'.1 (subsets - 1) s.2
    return (v, i)

/-- `Input::decode_uncompressed_bitmap`, `wreport/bufr/input.cc` lines 720-730. -/
def decode_uncompressed_bitmap : Nat → Input → Res (List Byte × Input)
  | 0, i => .ok ([], i)
  | n + 1, i => do
    let r ← i.get_bits 1
    let r' ← decode_uncompressed_bitmap n r.2
    return ((if r.1 = 0 then 43 else 45) :: r'.1, r'.2)

/-- `Input::decode_compressed_bitmap`, `wreport/bufr/input.cc` lines 732-751. -/
def decode_compressed_bitmap : Nat → Input → Res (List Byte × Input)
  | 0, i => .ok ([], i)
  | n + 1, i => do
    let r ← i.get_bits 1
    let r' ← r.2.get_bits 6
    if r'.1 ≠ 0 then .err .parse
    else do
      let r'' ← decode_compressed_bitmap n r'.2
      return ((if r.1 = 0 then 43 else 45) :: r''.1, r''.2)

end Input

end Wreport
