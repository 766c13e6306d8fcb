import Verif.Model.Tables

/-!
# String functions

Modelled code: `wreport/utils/string.cc` and the functions of `wreport/utils/string.h`
except `upper` and `lower`. Strings are lists of bytes. Character classes are those of
the C locale; characters above 127 are in none of them (glibc's answer for a negative
`char`). Of `join` the case of strings is modelled.
-/

namespace Wreport.Str

/-! ## Ends of strings -/

/-- `startswith`, `wreport/utils/string.h` lines 20-25. -/
def startswith (str part : List Byte) : Bool :=
  if str.length < part.length then false else str.take part.length == part

/-- `endswith`, `wreport/utils/string.h` lines 28-33. -/
def endswith (str part : List Byte) : Bool :=
  if str.length < part.length then false else str.drop (str.length - part.length) == part

/-- The loop that moves `beg`, `wreport/utils/string.cc` lines 22-24 and 59-62. -/
def skipFront (p : Byte → Bool) : List Byte → Nat
  | [] => 0
  | c :: s => if p c then skipFront p s + 1 else 0

/-- The loop that moves `end` down to `lo`, `wreport/utils/string.cc` lines 39-41 and
63-64. -/
def cutBack (p : Byte → Bool) (s : List Byte) (lo : Nat) : Nat → Nat
  | 0 => 0
  | e + 1 => if lo < e + 1 && p (s.getD e 0) then cutBack p s lo e else e + 1

/-- `lstrip`, `wreport/utils/string.cc` lines 16-27. -/
def lstripBy (p : Byte → Bool) (s : List Byte) : List Byte :=
  if s = [] then s else s.drop (skipFront p s)

/-- `rstrip`, `wreport/utils/string.cc` lines 33-47. -/
def rstripBy (p : Byte → Bool) (s : List Byte) : List Byte :=
  if s = [] then s
  else
    let e := cutBack p s 0 s.length
    if e = 0 then [] else s.take e

/-- `strip`, `wreport/utils/string.cc` lines 53-67. -/
def stripBy (p : Byte → Bool) (s : List Byte) : List Byte :=
  if s = [] then s
  else
    let b := skipFront p s
    let e := cutBack p s b s.length
    (s.drop b).take (e - b)

/-- `lstrip`, `wreport/utils/string.cc` lines 72-75. -/
def lstrip : List Byte → List Byte := lstripBy isSpace

/-- `rstrip`, `wreport/utils/string.cc` lines 77-80. -/
def rstrip : List Byte → List Byte := rstripBy isSpace

/-- `strip`, `wreport/utils/string.cc` lines 82-85. -/
def strip : List Byte → List Byte := stripBy isSpace

/-! ## Splitting -/

/-- `join` on strings, `wreport/utils/string.h` lines 57-71. -/
def join (sep : List Byte) : List (List Byte) → List Byte
  | [] => []
  | t :: ts => t ++ ts.flatMap (sep ++ ·)

/-- `str.find(sep, pos)` on the text that starts at `pos`. -/
def find (sep : List Byte) : List Byte → Nat → Option Nat
  | [], pos => if sep = [] then some pos else none
  | c :: s, pos => if sep.isPrefixOf (c :: s) then some pos else find sep s (pos + 1)

/-- `Split::const_iterator`, `wreport/utils/string.h` lines 179-216: `live` tells if
`split` is not null; `none` as `end` is `npos`. -/
structure Iter where
  live : Bool
  cur : List Byte
  fin : Option Nat
deriving DecidableEq

/-- `skip_separators`, `wreport/utils/string.cc` lines 233-249; `fuel` is the number
of turns the loop is given, `none` that they did not suffice. -/
def skipSeparators (str sep : List Byte) : (fuel : Nat) → Nat → Option Nat
  | 0, _ => none
  | fuel + 1, e =>
    if e + sep.length ≤ str.length then
      if sep.isPrefixOf (str.drop e) then skipSeparators str sep fuel (e + sep.length)
      else some e
    else some e

/-- End of `operator++` after a separator, `wreport/utils/string.cc` lines 297-308. -/
def afterToken (str sep : List Byte) (skip_empty : Bool) (fuel : Nat) (cur : List Byte) (e : Nat) :
    Option Iter :=
  if skip_empty then do
    let e ← skipSeparators str sep fuel e
    return ⟨true, cur, if e = str.length then none else some e⟩
  else some ⟨true, cur, some e⟩

/-- `operator++`, `wreport/utils/string.cc` lines 251-311. -/
def Iter.next (str sep : List Byte) (skip_empty : Bool) (fuel : Nat) (it : Iter) : Option Iter :=
  if !it.live then some it
  else match it.fin with
  | none => some { it with live := false }
  | some e =>
    if e = str.length then some ⟨true, [], none⟩
    else
      match (if sep = [] then some (e + 1) else find sep (str.drop e) e) with
      | none => some ⟨true, str.drop e, none⟩
      | some t => afterToken str sep skip_empty fuel ((str.drop e).take (t - e)) (t + sep.length)

/-- The begin iterator, `wreport/utils/string.cc` lines 208-219. -/
def Iter.begin (str sep : List Byte) (skip_empty : Bool) (fuel : Nat) : Option Iter :=
  if str = [] then some ⟨false, [], some 0⟩
  else if skip_empty then do
    let e ← skipSeparators str sep fuel 0
    Iter.next str sep skip_empty fuel ⟨true, [], some e⟩
  else Iter.next str sep skip_empty fuel ⟨true, [], some 0⟩

/-- A range based `for` over a `Split`: the values of `*i`. The end iterator is the
only one with `split` null (lines 317-329). -/
def Iter.collect (str sep : List Byte) (skip_empty : Bool) : (fuel : Nat) → Iter →
    Option (List (List Byte))
  | 0, _ => none
  | fuel + 1, it =>
    if !it.live then some []
    else do
      let it' ← it.next str sep skip_empty fuel
      let r ← Iter.collect str sep skip_empty fuel it'
      return it.cur :: r

/-- All the tokens of `Split(str, sep, skip_empty)`, giving each loop `fuel` turns. -/
def split (str sep : List Byte) (skip_empty : Bool) (fuel : Nat) : Option (List (List Byte)) := do
  let it ← Iter.begin str sep skip_empty fuel
  Iter.collect str sep skip_empty fuel it

/-! ## Paths -/

/-- `pathname.rfind("/", n - 1)`: the last slash before position `n`. -/
def rfind (s : List Byte) : Nat → Option Nat
  | 0 => none
  | n + 1 => if s[n]? = some 47 then some n else rfind s n

/-- `basename`, `wreport/utils/string.cc` lines 87-94. -/
def basename (s : List Byte) : List Byte :=
  match rfind s s.length with
  | none => s
  | some p => s.drop (p + 1)

/-- `dirname`, `wreport/utils/string.cc` lines 96-121. -/
def dirname (s : List Byte) : List Byte :=
  if s = [] then [46]
  else
    let e := cutBack (· == 47) s 0 s.length
    if e = 0 then [47]
    else match rfind s e with
    | none => [46]
    | some e =>
      let e := cutBack (· == 47) s 0 e
      if e = 0 then [47] else s.take e

/-- `appendpath`, `wreport/utils/string.cc` lines 123-173. The two overloads do the
same on strings without NUL characters. -/
def appendpath (dest path2 : List Byte) : List Byte :=
  if path2 = [] then dest
  else if dest = [] then path2
  else if dest.getLast? = some 47 then
    if path2.head? = some 47 then dest ++ path2.drop 1 else dest ++ path2
  else
    if path2.head? = some 47 then dest ++ path2 else dest ++ 47 :: path2

/-- The loop body of `normpath`, `wreport/utils/string.cc` lines 184-194. `st.back()`
of an empty vector is undefined behaviour. -/
def normStep (st : List (List Byte)) (i : List Byte) : Res (List (List Byte)) :=
  if i = [46] ∨ i = [] then .ok st
  else if i = [46, 46] then
    match st.getLast? with
    | none => .ub
    | some l => if l = [46, 46] then .ok (st ++ [i]) else if l = [47] then .ok st else .ok st.dropLast
  else .ok (st ++ [i])

/-- `normpath`, `wreport/utils/string.cc` lines 175-206, on the tokens of the path. -/
def normTokens (pathname : List Byte) (toks : List (List Byte)) : Res (List Byte) := do
  let st ← toks.foldlM normStep (if pathname.head? = some 47 then [[47]] else [])
  if st = [] then return [46] else return st.foldl appendpath []

/-- `normpath`, `wreport/utils/string.cc` lines 175-206. The loops over the tokens end
within `length + 2` turns (`split_ends`); the other case cannot happen. -/
def normpath (pathname : List Byte) : Res (List Byte) :=
  match split pathname [47] false (pathname.length + 3) with
  | none => .ub
  | some toks => normTokens pathname toks

/-! ## Escapes -/

/-- A lower case hexadecimal digit. -/
def hexLower (n : Nat) : Byte := if n < 10 then UInt8.ofNat (48 + n) else UInt8.ofNat (87 + n)

/-- `hex_byte_table`, `wreport/utils/string.cc` lines 331-348, and `"%02x"`. -/
def hex2 (c : Byte) : List Byte := [hexLower (c.toNat / 16), hexLower (c.toNat % 16)]

/-- `iscntrl` in the C locale. -/
def isCntrl (c : Byte) : Bool := c.toNat < 32 || c.toNat == 127

/-- `isxdigit`. -/
def isXDigit (c : Byte) : Bool :=
  (48 ≤ c.toNat && c.toNat ≤ 57) || (65 ≤ c.toNat && c.toNat ≤ 70) || (97 ≤ c.toNat && c.toNat ≤ 102)

/-- Value of a hexadecimal digit. -/
def xval (c : Byte) : Nat :=
  if c.toNat ≤ 57 then c.toNat - 48 else if c.toNat ≤ 70 then c.toNat - 55 else c.toNat - 87

/-- What `encode_cstring` writes for a character, `wreport/utils/string.cc` lines
355-370. -/
def escape (c : Byte) : List Byte :=
  if c = 10 then [92, 110]
  else if c = 9 then [92, 116]
  else if c = 0 || isCntrl c then [92, 120] ++ hex2 c
  else if c = 34 || c = 92 then [92, c]
  else [c]

/-- `encode_cstring`, `wreport/utils/string.cc` lines 351-372. -/
def encode_cstring (s : List Byte) : List Byte := s.flatMap escape

/-- The hexadecimal digits read after `\x`, `wreport/utils/string.cc` lines 388-390. -/
def xdigits (s : List Byte) : List Byte := (s.take 2).takeWhile isXDigit

/-- `decode_cstring`, `wreport/utils/string.cc` lines 374-406: the text and
`lenParsed`. `atoi` is `strtoul` in base ten here. -/
def decode_cstring : List Byte → List Byte × Nat
  | [] => ([], 0)
  | c :: s =>
    if c = 34 then ([], 1)
    else if c = 92 then
      match s with
      | [] => ([c], 1)
      | d :: s' =>
        let j := if d = 120 then (xdigits s').length else 0
        let x := if d = 110 then 10 else if d = 116 then 9
          else if d = 120 then UInt8.ofNat (strtoul ([48, 120] ++ xdigits s')).1 else d
        let r := decode_cstring (s'.drop j)
        (x :: r.1, r.2 + j + 2)
    else
      let r := decode_cstring s
      (c :: r.1, r.2 + 1)
termination_by s => s.length
decreasing_by all_goals simp_wf <;> omega

/-- The characters `encode_url` leaves alone, `wreport/utils/string.cc` lines
413-415. -/
def urlSafe (c : Byte) : Bool :=
  (48 ≤ c && c ≤ 57) || (65 ≤ c && c ≤ 90) || (97 ≤ c && c ≤ 122) || c == 45 || c == 95 ||
    c == 33 || c == 42 || c == 39 || c == 40 || c == 41

/-- `encode_url`, `wreport/utils/string.cc` lines 408-424. -/
def encode_url (s : List Byte) : List Byte :=
  s.flatMap fun c => if urlSafe c then [c] else 37 :: hex2 c

/-- `strtoul(s, nullptr, 16)` on at most two characters: no overflow, and `0x` is
followed by no digit. -/
def strtoul16 (s : List Byte) : Nat :=
  let neg := (s.dropWhile isSpace).head? = some 45
  let body := match s.dropWhile isSpace with
    | [] => []
    | c :: r => if c = 45 ∨ c = 43 then r else c :: r
  let v := (body.takeWhile isXDigit).foldl (fun a c => 16 * a + xval c) 0
  if neg then (18446744073709551616 - v) % 18446744073709551616 else v

/-- `str.size() - 2` as a `size_t`, which wraps. -/
def sizeMinus2 (size : Nat) : Nat := if size < 2 then 2 ^ 64 + size - 2 else size - 2

/-- The loop of `decode_url`, `wreport/utils/string.cc` lines 429-441, on the text
from position `i` on; `size` is the size of the whole text. -/
def decodeUrlFrom (size : Nat) (i : Nat) : List Byte → List Byte
  | [] => []
  | c :: s =>
    if c = 37 then
      if sizeMinus2 size ≤ i then []
      else UInt8.ofNat (strtoul16 (s.take 2)) :: decodeUrlFrom size (i + 3) (s.drop 2)
    else c :: decodeUrlFrom size (i + 1) s
termination_by s => s.length
decreasing_by all_goals simp_wf <;> omega

/-- `decode_url`, `wreport/utils/string.cc` lines 426-443. -/
def decode_url (s : List Byte) : List Byte := decodeUrlFrom s.length 0 s

/-! ## Base64 -/

/-- `base64`, `wreport/utils/string.cc` line 445. -/
def base64 : List Byte := ascii "ABCDEFGHIJKLMNOPQRSTUVWXYZabcdefghijklmnopqrstuvwxyz0123456789+/"

/-- The table of `invbase64`, `wreport/utils/string.cc` line 450. -/
def invData : List Nat :=
  [62,0,0,0,63,52,53,54,55,56,57,58,59,60,61,0,0,0,0,0,0,0,0,1,2,3,4,5,6,7,8,9,10,11,12,13,14,15,16,
   17,18,19,20,21,22,23,24,25,0,0,0,0,0,0,26,27,28,29,30,31,32,33,34,35,36,37,38,39,40,41,42,43,44,45,
   46,47,48,49,50,51]

/-- `invbase64`, `wreport/utils/string.cc` lines 447-454. A `char` above 127 is
negative. Reading outside the table is undefined behaviour. -/
def invbase64 (c : Byte) : Res Nat :=
  if 128 ≤ c.toNat then .ok 0
  else if c.toNat < 43 then .ok 0
  else if 43 + invData.length < c.toNat then .ok 0
  else match invData[c.toNat - 43]? with
  | none => .ub
  | some v => .ok v

/-- Four characters for 24 bits, `wreport/utils/string.cc` lines 483-484. -/
def quad (enc : Nat) : List Byte :=
  [18, 12, 6, 0].map fun j => base64.getD ((enc >>> j) &&& 63) 0

/-- The loop of `encode_base64`, `wreport/utils/string.cc` lines 466-484. -/
def encodeGroups : List Byte → List Byte
  | a :: b :: c :: rest =>
    quad ((a.toNat <<< 16) ||| (b.toNat <<< 8) ||| c.toNat) ++ encodeGroups rest
  | [a, b] => quad ((a.toNat <<< 16) ||| (b.toNat <<< 8))
  | [a] => quad (a.toNat <<< 16)
  | [] => []

/-- The padding loop, `wreport/utils/string.cc` lines 488-490: `n` turns are left,
`i` are done. -/
def padEnd : (n : Nat) → (i : Nat) → List Byte → List Byte
  | 0, _, res => res
  | n + 1, i, res => padEnd n (i + 1) (res.set (res.length - i - 1) 61)

/-- `encode_base64`, `wreport/utils/string.cc` lines 456-493. -/
def encode_base64 (s : List Byte) : List Byte :=
  if s.length % 3 ≠ 0 then padEnd (3 - s.length % 3) 0 (encodeGroups s) else encodeGroups s

/-- Three characters from 24 bits, `wreport/utils/string.cc` lines 520-522. -/
def triple (enc : Nat) : List Byte :=
  [UInt8.ofNat ((enc >>> 16) &&& 0xff), UInt8.ofNat ((enc >>> 8) &&& 0xff), UInt8.ofNat (enc &&& 0xff)]

/-- The loop of `decode_base64`, `wreport/utils/string.cc` lines 499-523. -/
def decodeGroups : List Byte → Res (List Byte)
  | a :: b :: c :: d :: rest => do
    let a ← invbase64 a
    let b ← invbase64 b
    let c ← invbase64 c
    let d ← invbase64 d
    let r ← decodeGroups rest
    return triple ((a <<< 18) + (b <<< 12) + (c <<< 6) + d) ++ r
  | [a, b, c] => do
    let a ← invbase64 a
    let b ← invbase64 b
    let c ← invbase64 c
    return triple ((a <<< 18) + (b <<< 12) + (c <<< 6))
  | [a, b] => do
    let a ← invbase64 a
    let b ← invbase64 b
    return triple ((a <<< 18) + (b <<< 12))
  | [a] => do
    let a ← invbase64 a
    return triple (a <<< 18)
  | [] => .ok []

/-- The loop that removes the padding, `wreport/utils/string.cc` lines 526-533, on the
characters of the text from the last one on. -/
def unpad : List Byte → List Byte → List Byte
  | [], res => res
  | c :: s, res =>
    if c = 61 then
      let res := res.dropLast
      if res = [] then res else unpad s res
    else res

/-- `decode_base64`, `wreport/utils/string.cc` lines 495-537. -/
def decode_base64 (s : List Byte) : Res (List Byte) := do
  let res ← decodeGroups s
  return unpad s.reverse res

end Wreport.Str
