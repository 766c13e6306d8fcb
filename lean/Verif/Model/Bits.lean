import Verif.Model.Var

/-!
# BUFR bit buffers: output

Modelled code: `wreport/buffers/bufr.cc` lines 34-160, `wreport/buffers/bufr.h`
lines 18-110.
-/

namespace Wreport

/-- `BufrOutput`, `wreport/buffers/bufr.h` lines 18-40. `pbyte` is a `uint8_t`. -/
structure BitOut where
  out : List Byte
  pbyte : Nat
  pbyte_len : Nat
deriving DecidableEq

namespace BitOut

/-- Constructor, `wreport/buffers/bufr.cc` lines 34-37. -/
def new (out : List Byte) : BitOut := { out, pbyte := 0, pbyte_len := 0 }

/-- `BufrOutput::flush`, `wreport/buffers/bufr.cc` lines 147-160. The loop that
shifts zeros in is written as one shift. -/
def flush (o : BitOut) : BitOut :=
  if o.pbyte_len = 0 then o
  else { out := o.out ++ [UInt8.ofNat (o.pbyte <<< (8 - o.pbyte_len) % 256)], pbyte := 0, pbyte_len := 0 }

/-- One turn of the loop of `add_bits`, `wreport/buffers/bufr.cc` lines 45-53. -/
def step (o : BitOut) (bit : Bool) : BitOut :=
  let o : BitOut := { o with pbyte := (o.pbyte <<< 1 ||| bit.toNat) % 256, pbyte_len := o.pbyte_len + 1 }
  if o.pbyte_len = 8 then o.flush else o

/-- The loop of `add_bits`, `wreport/buffers/bufr.cc` lines 43-53: `i` turns
left. -/
def addLoop (mask : Nat) : Nat → Nat → BitOut → BitOut
  | 0, _, o => o
  | i + 1, val, o => addLoop mask i (val <<< 1 % 2 ^ 32) (o.step (decide (val &&& mask ≠ 0)))

/-- `BufrOutput::add_bits`, `wreport/buffers/bufr.cc` lines 39-64. The mask is
computed with a shift by `n - 1`, undefined for other widths. -/
def add_bits (o : BitOut) (val : Nat) (n : Nat) : Res BitOut :=
  if n = 0 ∨ 32 < n then .ub
  else .ok (addLoop (2 ^ (n - 1)) n (val % 2 ^ 32) o)

/-- `BufrOutput::raw_append`, `wreport/buffers/bufr.h` lines 44-48. -/
def raw_append (o : BitOut) (s : List Byte) : BitOut := { o with out := o.out ++ s }

/-- `BufrOutput::append_short`, `wreport/buffers/bufr.h` lines 57-60. -/
def append_short (o : BitOut) (val : Nat) : Res BitOut := o.add_bits (val % 2 ^ 16) 16

/-- `BufrOutput::append_byte`, `wreport/buffers/bufr.h` lines 63-66. -/
def append_byte (o : BitOut) (val : Nat) : Res BitOut := o.add_bits (val % 2 ^ 8) 8

/-- `BufrOutput::append_missing`, `wreport/buffers/bufr.h` lines 69-72. -/
def append_missing (o : BitOut) (len_bits : Nat) : Res BitOut := o.add_bits 0xffffffff len_bits

/-- `append_string` once the end of the text was met, `wreport/buffers/bufr.cc`
lines 75-97 with `eol` true; `left` bits to go. -/
def append_blanks (o : BitOut) (left : Nat) : Res BitOut :=
  if left = 0 then .ok o
  else if 8 ≤ left then do
    let o ← o.append_byte 32
    append_blanks o (left - 8)
  else o.add_bits 0 left
termination_by left

/-- `BufrOutput::append_string`, `wreport/buffers/bufr.cc` lines 71-98; `left`
bits to go. -/
def append_string (o : BitOut) (val : Mem) (left : Nat) : Res BitOut :=
  if left = 0 then .ok o
  else match val with
  | some b :: val =>
    if b = 0 then append_blanks o left
    else if 8 ≤ left then do
      let o ← o.append_byte b.toNat
      append_string o val (left - 8)
    else o.add_bits 0 left
  | _ => .ub
termination_by left

/-- `BufrOutput::append_binary`, `wreport/buffers/bufr.cc` lines 100-117; `left`
bits to go. -/
def append_binary (o : BitOut) (val : Mem) (left : Nat) : Res BitOut :=
  if left = 0 then .ok o
  else match val with
  | some b :: val =>
    if 8 ≤ left then do
      let o ← o.append_byte b.toNat
      append_binary o val (left - 8)
    else o.add_bits b.toNat left
  | _ => .ub
termination_by left

/-- `BufrOutput::append_var`, `wreport/buffers/bufr.cc` lines 119-140. -/
def append_var (E : Env) (o : BitOut) (info : Varinfo) (var : VarCore) : Res BitOut :=
  if !var.isset then o.append_missing info.bit_len
  else match info.type with
  | .string => do
    let m ← var.enqc E
    o.append_string m info.bit_len
  | .binary => do
    let m ← var.enqc E
    o.append_binary m info.bit_len
  | .integer | .decimal => do
    let d ← var.enqd E
    let ival ← info.encode_binary E (.fin d)
    o.add_bits ival info.bit_len

end BitOut

end Wreport
