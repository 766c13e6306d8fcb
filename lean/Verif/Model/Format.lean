import Verif.Model.Crex

/-!
# Values as text

Modelled code: `wreport/var.cc` lines 717-769 (`Var::format`). Not modelled: `print`.
-/

namespace Wreport

/-- `"%.*f"`: the value of the double rounded to `p` decimals, ties to even, as the C
library does it. -/
def fmtF (p : Nat) (q : ℚ) : List Byte :=
  let m := (rint (q * 10 ^ p)).natAbs
  (if q < 0 then [45] else []) ++ Crex.decDigits (m / 10 ^ p) ++
    (if p = 0 then [] else 46 :: Crex.fmtU p (m % 10 ^ p))

/-- A digit of `"%X"`. -/
def hexDigit (n : Nat) : Byte := if n < 10 then UInt8.ofNat (48 + n) else UInt8.ofNat (55 + n)

/-- `"%02hhX"`. -/
def hexByte (b : Byte) : List Byte := [hexDigit (b.toNat / 16), hexDigit (b.toNat % 16)]

/-- The loop of lines 727-732: `n` bytes from the start of the buffer. -/
def hexBytes : Nat → Mem → Res (List Byte)
  | 0, _ => .ok []
  | _ + 1, [] => .ub
  | _ + 1, none :: _ => .ub
  | n + 1, some b :: m => do
    let s ← hexBytes n m
    return hexByte b ++ s

namespace VarCore

/-- The number as text, `"%.*f"` of `enqd()`, `wreport/var.cc` lines 737-740. -/
def formatNumber (E : Env) (v : VarCore) : Res (List Byte) := do
  let q ← v.enqd E
  return fmtF (if 0 < v.info.scale then v.info.scale.toNat else 0) q

/-- `Var::format(const char*)`, `wreport/var.cc` lines 717-743. `snprintf` is told that
the buffer has 20 bytes: numbers are cut after 19 characters. -/
def format (E : Env) (v : VarCore) (ifundef : List Byte) : Res (List Byte) :=
  if !v.isset then .ok ifundef
  else match v.info.type with
  | .binary => do
    let m ← v.ptr
    hexBytes v.info.len m
  | .string => do
    let m ← v.ptr
    cstr m
  | .integer | .decimal => do
    let s ← v.formatNumber E
    return s.take 19

/-- What `Var::format(FILE*, const char*)` writes, `wreport/var.cc` lines 745-769. -/
def formatFile (E : Env) (v : VarCore) (ifundef : List Byte) : Res (List Byte) :=
  if !v.isset then .ok ifundef
  else match v.info.type with
  | .binary => do
    let m ← v.ptr
    hexBytes v.info.len m
  | .string => do
    let m ← v.ptr
    cstr m
  | .integer | .decimal => v.formatNumber E

end VarCore

end Wreport
