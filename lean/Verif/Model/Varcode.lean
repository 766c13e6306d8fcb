import Verif.Model.Basic

/-!
# Variable codes (descriptors)

Modelled code: `wreport/varinfo.h` lines 56-96, `wreport/varinfo.cc` lines 14-33
and 59-99.
-/

namespace Wreport

/-- `typedef uint16_t Varcode`, `wreport/varinfo.h` line 59. Values are natural
numbers; every producer below reduces modulo 2^16 as the C++ cast does. A
notation and not a definition, so that arithmetic tactics see `Nat`. -/
notation "Varcode" => Nat

/-- `WR_VAR`, `wreport/varinfo.h` line 67: shifts are done on `unsigned`, and the
result is cast to 16 bits. -/
def WR_VAR (f x y : Nat) : Varcode := ((f <<< 14) ||| (x <<< 8) ||| y) % 65536

/-- `WR_VAR_F`, `wreport/varinfo.h` line 81. -/
def WR_VAR_F (c : Varcode) : Nat := (c >>> 14) % 4

/-- `WR_VAR_X`, `wreport/varinfo.h` line 84. -/
def WR_VAR_X (c : Varcode) : Nat := (c >>> 8) % 64

/-- `WR_VAR_Y`, `wreport/varinfo.h` line 87. -/
def WR_VAR_Y (c : Varcode) : Nat := c % 256

/-- The value of `c - '0'` in C++ `int` arithmetic; `char` is signed. -/
def charSub0 (b : Byte) : Int :=
  (if b.toNat < 128 then (b.toNat : Int) else (b.toNat : Int) - 256) - 48

/-- `WR_STRING_TO_VAR`, `wreport/varinfo.h` lines 75-78, on the five bytes it
reads. `int` arithmetic is done in 32-bit two's complement, which is exact for
the values that can occur except for the left shift of a negative number (only
reachable from a NUL or non-digit byte in the X position: `varcode_parse` excludes it,
the other callers are given as undefined there). -/
def WR_STRING_TO_VAR (c1 c2 c3 c4 c5 : Byte) : Nat :=
  let x : Int := charSub0 c1 * 10 + charSub0 c2
  let y : Int := charSub0 c3 * 100 + charSub0 c4 * 10 + charSub0 c5
  (((BitVec.ofInt 32 x) <<< 8) ||| (BitVec.ofInt 32 y)).toNat % 65536

/-- First switch of `varcode_parse`, `wreport/varinfo.cc` lines 66-83. -/
def varcodeParseF (c : Byte) : Nat :=
  if c = 0x42 ∨ c = 0x30 then 0
  else if c = 0x52 ∨ c = 0x31 then 1 <<< 14
  else if c = 0x43 ∨ c = 0x32 then 2 <<< 14
  else if c = 0x44 ∨ c = 0x33 then 3 <<< 14
  else 0

/-- The loop of `varcode_parse`, `wreport/varinfo.cc` lines 86-88, over the bytes
from index `i` on. `s` holds the bytes before the terminating NUL. Each of the
five positions is read in turn: at the terminator itself the test
`entry[i] and !isdigit(entry[i])` lets it pass, one byte further on the read is
outside the string. `n` counts positions still to check, `past` tells that the
terminator was already read. -/
def varcodeCheck : (s : List Byte) → (n : Nat) → (past : Bool) → Res Unit
  | _, 0, _ => .ok ()
  | [], n + 1, false => varcodeCheck [] n true
  | [], _ + 1, true => .ub
  | c :: cs, n + 1, past => if isDigit c then varcodeCheck cs n past else .err .consistency

/-- `varcode_parse`, `wreport/varinfo.cc` lines 59-91, on a NUL-terminated string
whose bytes before the terminator are `s`. A NULL pointer is not representable
here (the C++ code throws `error_consistency` for it). -/
def varcode_parse (s : List Byte) : Res Varcode :=
  match s with
  | [] => .err .consistency
  | c0 :: rest =>
    match varcodeCheck rest 5 false with
    | .ok () =>
      let c := fun i => rest.getD i 0
      .ok ((varcodeParseF c0 + WR_STRING_TO_VAR (c 0) (c 1) (c 2) (c 3) (c 4)) % 65536)
    | .err e => .err e
    | .ub => .ub

/-- ASCII digit. -/
def digitChar (n : Nat) : Byte := UInt8.ofNat (48 + n % 10)

/-- `varcode_format`, `wreport/varinfo.cc` lines 93-99: `snprintf` of
`"%c%02d%03d"` with X below 64 and Y below 256. -/
def varcode_format (c : Varcode) : List Byte :=
  let f : Byte := match WR_VAR_F c with
    | 0 => 0x42 | 1 => 0x52 | 2 => 0x43 | _ => 0x44
  let x := WR_VAR_X c
  let y := WR_VAR_Y c
  [f, digitChar (x / 10), digitChar x, digitChar (y / 100), digitChar (y / 10), digitChar y]

/-- `enum class Vartype`, `wreport/varinfo.h` lines 112-122. -/
inductive Vartype where
  | integer | decimal | string | binary
deriving DecidableEq, Repr

/-- `vartype_format`, `wreport/varinfo.cc` lines 14-24. -/
def vartype_format : Vartype → List Byte
  | .binary => ascii "binary"
  | .string => ascii "string"
  | .integer => ascii "integer"
  | .decimal => ascii "decimal"

/-- `vartype_parse`, `wreport/varinfo.cc` lines 26-33. -/
def vartype_parse (s : List Byte) : Res Vartype :=
  if s = ascii "string" then .ok .string
  else if s = ascii "decimal" then .ok .decimal
  else if s = ascii "integer" then .ok .integer
  else if s = ascii "binary" then .ok .binary
  else .err .consistency

end Wreport
