import Verif.Model.Basic

/-!
# Reading messages from a stream

Modelled code: `wreport/bulletin.cc` lines 19-48 (`seek_past_signature`), 458-525
(`BufrBulletin::read` and `write`) and 612-687 (`CrexBulletin::read` and `write`).
Simplification: the stream never gives input or output errors, `getc` and `fread`
stop only at the end of the file; `fname` only goes in error messages.
-/

namespace Wreport

/-- A `FILE*`: what is still to be read, and `ftello`. -/
structure Stream where
  rest : List Byte
  pos : Nat
deriving DecidableEq

namespace Stream

/-- The loop of `seek_past_signature`, `wreport/bulletin.cc` lines 26-32: `got` bytes
of the signature were just read. `none` is the end of file. -/
def seekLoop (sig : List Byte) (got : Nat) (pos : Nat) : List Byte → Option Stream
  | [] => if got < sig.length then none else some ⟨[], pos⟩
  | c :: t =>
    if got < sig.length then
      if sig[got]? = some c then seekLoop sig (got + 1) (pos + 1) t
      else seekLoop sig 0 (pos + 1) t
    else some ⟨c :: t, pos⟩

/-- `seek_past_signature`, `wreport/bulletin.cc` lines 19-48. -/
def seek_past_signature (s : Stream) (sig : List Byte) : Option Stream :=
  seekLoop sig 0 s.pos s.rest

/-- `fread(p, n, 1, fd)`, with `err` thrown at the end of file. -/
def fread (s : Stream) (n : Nat) (err : Err) : Res (List Byte × Stream) :=
  if n ≤ s.rest.length then .ok (s.rest.take n, ⟨s.rest.drop n, s.pos + n⟩) else .err err

/-- What `read` gives: the message and its offset. -/
abbrev Msg := List Byte × Nat

/-- `ntohl(hl_length) >> 8`, `wreport/bulletin.cc` lines 482-484: the first three of
the four bytes. -/
def declaredLength : List Byte → Nat
  | [a, b, c, _] => a.toNat * 65536 + b.toNat * 256 + c.toNat
  | _ => 0

/-- `BufrBulletin::read` after the signature, `wreport/bulletin.cc` lines 468-513.
`fread` of 0 items of size 0 cannot happen, as `bufrlen` is at least 12. -/
def readBufrBody (s : Stream) : Res (Msg × Stream) := do
  let offset := s.pos - 4
  let r ← s.fread 4 .system
  if declaredLength r.1 < 12 then .err .consistency
  else do
    let b ← r.2.fread (declaredLength r.1 - 8) .consistency
    return ((ascii "BUFR" ++ r.1 ++ b.1, offset), b.2)

/-- `BufrBulletin::read`, `wreport/bulletin.cc` lines 458-514; `none` is the end of
file. -/
def readBufr (s : Stream) : Res (Option (Msg × Stream)) :=
  match s.seek_past_signature (ascii "BUFR") with
  | none => .ok none
  | some s => do
    let r ← readBufrBody s
    return some r

/-- One step of the loop in `CrexBulletin::read`, `wreport/bulletin.cc` lines
637-647. -/
def crexStep (got : Nat) (c : Byte) : Nat :=
  let target := (ascii "++\r\n7777").getD got 0
  if target = 13 ∧ (c = 10 ∨ c = 13) then got + 1
  else if target = 10 ∧ (c = 10 ∨ c = 13) then got
  else if target = 10 ∧ c = 55 then got + 2
  else if c = target then got + 1
  else 0

/-- The loop of `CrexBulletin::read`, `wreport/bulletin.cc` lines 635-650: the bytes
read, when the end marker was found. -/
def crexLoop (got : Nat) (pos : Nat) : List Byte → Option (List Byte × Stream)
  | [] => if got < 8 then none else some ([], ⟨[], pos⟩)
  | c :: t =>
    if got < 8 then (crexLoop (crexStep got c) (pos + 1) t).map fun r => (c :: r.1, r.2)
    else some ([], ⟨c :: t, pos⟩)

/-- `CrexBulletin::read` after the signature, `wreport/bulletin.cc` lines 625-666. -/
def readCrexBody (s : Stream) : Res (Msg × Stream) :=
  match crexLoop 0 s.pos s.rest with
  | none => .err .parse
  | some r => .ok ((ascii "CREX++" ++ r.1, s.pos - 6), r.2)

/-- `CrexBulletin::read`, `wreport/bulletin.cc` lines 612-669. -/
def readCrex (s : Stream) : Res (Option (Msg × Stream)) :=
  match s.seek_past_signature (ascii "CREX++") with
  | none => .ok none
  | some s => do
    let r ← readCrexBody s
    return some r

/-- `BufrBulletin::write`, `wreport/bulletin.cc` lines 516-525: the bytes added to the
file. -/
def writeBufr (msg : List Byte) : List Byte := msg

/-- `CrexBulletin::write`, `wreport/bulletin.cc` lines 671-687. -/
def writeCrex (msg : List Byte) : List Byte := msg ++ ascii "\r\r\n"

end Stream

end Wreport
