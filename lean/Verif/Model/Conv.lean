import Verif.Model.Float

/-!
# Conversions of units and code tables

Modelled code: `wreport/conv.cc`, `wreport/codetables.h`. Not modelled:
`convert_icao_to_press` (`pow`, `exp`) and `convert_press_to_icao` (always throws).
`convert_units_get_mul` and `convert_units_allowed` are declared in `wreport/conv.h` but
defined nowhere.
-/

namespace Wreport

namespace Conv

/-! ## Code tables -/

/-- `convert_WMO0500_to_BUFR20012`, `wreport/conv.cc` lines 296-304. -/
def convert_WMO0500_to_BUFR20012 (x : Int) : Res Int :=
  if 0 ≤ x ∧ x ≤ 9 then .ok x else if x = -1 then .ok 59 else .err .domain

/-- `convert_BUFR20012_to_WMO0500`, `wreport/conv.cc` lines 306-316. -/
def convert_BUFR20012_to_WMO0500 (x : Int) : Res Int :=
  if 0 ≤ x ∧ x ≤ 9 then .ok x else if x = 59 then .ok (-1) else .err .domain

/-- `convert_WMO0509_to_BUFR20012`, `wreport/conv.cc` lines 318-326. -/
def convert_WMO0509_to_BUFR20012 (x : Int) : Res Int :=
  if 0 ≤ x ∧ x ≤ 9 then .ok (x + 10) else if x = -1 then .ok 60 else .err .domain

/-- `convert_BUFR20012_to_WMO0509`, `wreport/conv.cc` lines 328-338. -/
def convert_BUFR20012_to_WMO0509 (x : Int) : Res Int :=
  if 10 ≤ x ∧ x ≤ 19 then .ok (x - 10) else if x = 60 then .ok (-1) else .err .domain

/-- `convert_WMO0515_to_BUFR20012`, `wreport/conv.cc` lines 340-348. -/
def convert_WMO0515_to_BUFR20012 (x : Int) : Res Int :=
  if 0 ≤ x ∧ x ≤ 9 then .ok (x + 20) else if x = -1 then .ok 61 else .err .domain

/-- `convert_BUFR20012_to_WMO0515`, `wreport/conv.cc` lines 350-360. -/
def convert_BUFR20012_to_WMO0515 (x : Int) : Res Int :=
  if 20 ≤ x ∧ x ≤ 29 then .ok (x - 20) else if x = 61 then .ok (-1) else .err .domain

/-- `convert_WMO0513_to_BUFR20012`, `wreport/conv.cc` lines 362-370. -/
def convert_WMO0513_to_BUFR20012 (x : Int) : Res Int :=
  if 0 ≤ x ∧ x ≤ 9 then .ok (x + 30) else if x = -1 then .ok 62 else .err .domain

/-- `convert_BUFR20012_to_WMO0513`, `wreport/conv.cc` lines 372-382. -/
def convert_BUFR20012_to_WMO0513 (x : Int) : Res Int :=
  if 30 ≤ x ∧ x ≤ 39 then .ok (x - 30) else if x = 62 then .ok (-1) else .err .domain

/-- `convert_WMO4677_to_BUFR20003`, `wreport/conv.cc` lines 384-390. -/
def convert_WMO4677_to_BUFR20003 (x : Int) : Res Int := if x ≤ 99 then .ok x else .err .domain

/-- `convert_BUFR20003_to_WMO4677`, `wreport/conv.cc` lines 392-398. -/
def convert_BUFR20003_to_WMO4677 (x : Int) : Res Int := if x ≤ 99 then .ok x else .err .domain

/-- `convert_WMO4561_to_BUFR20004`, `wreport/conv.cc` lines 400-406. -/
def convert_WMO4561_to_BUFR20004 (x : Int) : Res Int := if x ≤ 9 then .ok x else .err .domain

/-- `convert_BUFR20004_to_WMO4561`, `wreport/conv.cc` lines 408-414. -/
def convert_BUFR20004_to_WMO4561 (x : Int) : Res Int := if x ≤ 9 then .ok x else .err .domain

/-! ### Vertical sounding significance

Constants of `wreport/codetables.h` lines 14-52. -/

namespace BUFR08001
def MISSING : Nat := 0x01
def SIGWIND : Nat := 0x02
def SIGTH : Nat := 0x04
def MAXWIND : Nat := 0x08
def TROPO : Nat := 0x10
def STD : Nat := 0x20
def SURFACE : Nat := 0x40
def ALL_MISSING : Nat := 0x7f
end BUFR08001

namespace BUFR08042
def MISSING : Nat := 0x00001
def SIGWIND : Nat := 0x00800
def SIGHUM : Nat := 0x01000
def SIGTEMP : Nat := 0x02000
def MAXWIND : Nat := 0x04000
def TROPO : Nat := 0x08000
def STD : Nat := 0x10000
def SURFACE : Nat := 0x20000
def ALL_MISSING : Nat := 0x3ffff
end BUFR08042

/-- `if (from & mask) res |= bits;` -/
def orIf (x mask bits res : Nat) : Nat := if x &&& mask ≠ 0 then res ||| bits else res

/-- `convert_BUFR08001_to_BUFR08042`, `wreport/conv.cc` lines 416-430. `unsigned` is a
natural number below 2^32; the `int res` never gets its sign bit. -/
def convert_BUFR08001_to_BUFR08042 (x : Nat) : Nat :=
  if x &&& BUFR08001.MISSING ≠ 0 then BUFR08042.ALL_MISSING
  else orIf x BUFR08001.SURFACE BUFR08042.SURFACE <|
    orIf x BUFR08001.STD BUFR08042.STD <|
    orIf x BUFR08001.TROPO BUFR08042.TROPO <|
    orIf x BUFR08001.MAXWIND BUFR08042.MAXWIND <|
    orIf x BUFR08001.SIGTH (BUFR08042.SIGTEMP ||| BUFR08042.SIGHUM) <|
    orIf x BUFR08001.SIGWIND BUFR08042.SIGWIND 0

/-- `convert_BUFR08042_to_BUFR08001`, `wreport/conv.cc` lines 432-446. -/
def convert_BUFR08042_to_BUFR08001 (x : Nat) : Nat :=
  if x &&& BUFR08042.MISSING ≠ 0 then BUFR08001.ALL_MISSING
  else orIf x BUFR08042.SURFACE BUFR08001.SURFACE <|
    orIf x BUFR08042.STD BUFR08001.STD <|
    orIf x BUFR08042.TROPO BUFR08001.TROPO <|
    orIf x BUFR08042.MAXWIND BUFR08001.MAXWIND <|
    orIf x BUFR08042.SIGTEMP BUFR08001.SIGTH <|
    orIf x BUFR08042.SIGHUM BUFR08001.SIGTH <|
    orIf x BUFR08042.SIGWIND BUFR08001.SIGWIND 0

/-- `convert_AOFVSS_to_BUFR08042`, `wreport/conv.cc` lines 504-524. -/
def convert_AOFVSS_to_BUFR08042 (x : Nat) : Nat :=
  orIf x (1 <<< 8) BUFR08042.SIGTEMP <|
  orIf x (1 <<< 7) BUFR08042.SIGWIND <|
  orIf x (1 <<< 6) BUFR08042.SURFACE <|
  orIf x (1 <<< 5) BUFR08042.STD <|
  orIf x (1 <<< 3) BUFR08042.STD <|
  orIf x (1 <<< 1) BUFR08042.TROPO <|
  orIf x (1 <<< 0) BUFR08042.MAXWIND 0

/-! ### Octants -/

/-- `convert_octants_to_degrees`, `wreport/conv.cc` lines 469-474. The multiples of 45 up
to 360 are doubles, so nothing is rounded. -/
def convert_octants_to_degrees (x : Int) : Res ℚ :=
  if x < 0 ∨ 8 < x then .err .domain else .ok (x * 45)

/-- `convert_degrees_to_octants`, `wreport/conv.cc` lines 476-502, with the comparisons of
doubles: those with NaN are false. -/
def convert_degrees_to_octants (d : Dbl) : Res Int :=
  if d.lt 0 || d.gt 360 then .err .domain
  else if d = .fin 0 then .ok 0
  else if d.gt 337.5 || d.lt 22.5 || d = .fin 22.5 then .ok 8
  else if d.gt 22.5 && (d.lt 67.5 || d = .fin 67.5) then .ok 1
  else if d.gt 67.5 && (d.lt 112.5 || d = .fin 112.5) then .ok 2
  else if d.gt 112.5 && (d.lt 157.5 || d = .fin 157.5) then .ok 3
  else if d.gt 157.5 && (d.lt 202.5 || d = .fin 202.5) then .ok 4
  else if d.gt 202.5 && (d.lt 247.5 || d = .fin 247.5) then .ok 5
  else if d.gt 247.5 && (d.lt 292.5 || d = .fin 292.5) then .ok 6
  else .ok 7

/-! ## Units -/

/-- `strcmp` on two strings without NUL. Bytes are compared as `unsigned char`. -/
def strcmp : List Byte → List Byte → Ordering
  | [], [] => .eq
  | [], _ :: _ => .lt
  | _ :: _, [] => .gt
  | a :: s, b :: t =>
    if a.toNat < b.toNat then .lt else if b.toNat < a.toNat then .gt else strcmp s t

/-- `Convert` and its subclasses, `wreport/conv.cc` lines 16-44. The two functions of the
only `add_function` are named. -/
inductive Convert where
  | ident
  | linear (mul add : ℚ)
  | octantsToDegrees
  | degreesToOctants
deriving DecidableEq

/-- `val * mul` on a double and a finite double. -/
def mulD (fl : ℚ → ℚ) (d : Dbl) (m : ℚ) : Dbl :=
  match d with
  | .fin q => .fin (fl (q * m))
  | .nan => .nan
  | .pinf => if 0 < m then .pinf else if m < 0 then .ninf else .nan
  | .ninf => if 0 < m then .ninf else if m < 0 then .pinf else .nan

/-- `val + add` on a double and a finite double. -/
def addD (fl : ℚ → ℚ) (d : Dbl) (a : ℚ) : Dbl :=
  match d with
  | .fin q => .fin (fl (q + a))
  | d => d

/-- The conversion of a `double` argument to the `int` parameter: the fraction is dropped,
values outside `int` are undefined. -/
def truncInt : Dbl → Res Int
  | .fin q => dblToInt (if 0 ≤ q then ⌊q⌋ else -⌊-q⌋)
  | _ => .ub

/-- `Convert::convert`, `wreport/conv.cc` lines 24, 34 and 43. -/
def Convert.convert (fl : ℚ → ℚ) (c : Convert) (d : Dbl) : Res Dbl :=
  match c with
  | .ident => .ok d
  | .linear m a => .ok (addD fl (mulD fl d m) a)
  | .octantsToDegrees => do
    let i ← truncInt d
    let r ← convert_octants_to_degrees i
    .ok (.fin r)
  | .degreesToOctants => do
    let i ← convert_degrees_to_octants d
    .ok (.fin i)

/-- `Conv`, `wreport/conv.cc` lines 46-68. -/
structure Entry where
  src : List Byte
  dst : List Byte
  conv : Convert
deriving DecidableEq

/-- `Conv::compare`, `wreport/conv.cc` lines 70-75 (and 77-82 with the fields of another). -/
def Entry.compare (e : Entry) (src dst : List Byte) : Ordering :=
  match strcmp e.src src with
  | .eq => strcmp e.dst dst
  | o => o

/-- `Conv::operator<`, `wreport/conv.cc` lines 84-87. -/
def Entry.lt (a b : Entry) : Bool := a.compare b.src b.dst = .lt

/-- A call in the constructor of `ConvertRepository`. -/
inductive Call where
  | linear (src dst : String) (mul add : ℚ)
  | ident (src dst : String)
  | octants (src dst : String)

/-- The calls in the constructor, `wreport/conv.cc` lines 101-201. Literals are the numbers
as written, they are rounded in `Call.entries`. -/
def calls : List Call := [
  .linear "K" "C" 1 (-273.15001),
  .linear "K" "C/10" 10 (-2731.5001),
  .linear "C" "C/10" 10 0,
  .linear "minuti" "S" 60 0,
  .linear "MINUTE" "S" 60 0,
  .linear "S" "MINUTE" (1 / 60) 0,
  .linear "G/M**3" "KG/M**3" 0.001 0,
  .linear "KG/M**3" "G/M**3" 1000 0,
  .linear "ug/m**3" "KG/M**3" 0.000000001 0,
  .linear "KG/M**3" "ug/m**3" 1000000000 0,
  .linear "mg/l" "KG/M**3" 0.001 0,
  .linear "KG/M**3" "mg/l" 1000 0,
  .linear "PA" "KPA" 0.001 0,
  .linear "KPA" "PA" 1000 0,
  .linear "M" "MM" 1000 0,
  .linear "MM" "M" 0.001 0,
  .linear "M" "cm" 100 0,
  .linear "cm" "M" 0.01 0,
  .linear "M" "KM" 0.001 0,
  .linear "KM" "M" 1000 0,
  .linear "%" "PERCENT" 1 0,
  .linear "PERCENT" "%" 1 0,
  .linear "M" "FT" 3.2808 0,
  .linear "FT" "M" 0.3048 0,
  .linear "cal/cm**2" "J/M**2" 41868 0,
  .linear "J/M**2" "cal/cm**2" 0.000023885 0,
  .linear "J/M**2" "MJ/M**2" 0.000001 0,
  .linear "MJ/M**2" "J/M**2" 1000000 0,
  .linear "m/s/10" "M/S" 0.1 0,
  .linear "M/S" "m/s/10" 10 0,
  .linear "nodi" "M/S" 0.51444 0,
  .linear "M/S" "nodi" 1.94384 0,
  .linear "PA" "mBar" 0.01 0,
  .linear "mBar" "PA" 100 0,
  .linear "PA" "hPa" 0.01 0,
  .linear "hPa" "PA" 100 0,
  .linear "PA" "Bar" 0.00001 0,
  .linear "Bar" "PA" 100000 0,
  .linear "PA" "NBAR" 0.0001 0,
  .linear "NBAR" "PA" 10000 0,
  .linear "hm" "M" 100 0,
  .linear "M" "hm" 0.01 0,
  .linear "mm" "M" 0.001 0,
  .linear "M" "mm" 1000 0,
  .linear "mV" "V" 0.001 0,
  .linear "V" "mV" 1000 0,
  .linear "1/8" "%" 12.5 0,
  .linear "%" "1/8" 0.08 0,
  .linear "mm/10" "KG/M**2" 0.1 0,
  .linear "GPM" "m**2/s**2" 9.80665 0,
  .linear "GPM" "M**2/S**2" 9.80665 0,
  .linear "MGP" "m**2/s**2" 9.80665 0,
  .linear "MGP" "M**2/S**2" 9.80665 0,
  .linear "m**2/s**2" "GPM" 0.101971621 0,
  .linear "M**2/S**2" "GPM" 0.101971621 0,
  .linear "m**2/s**2" "MGP" 0.101971621 0,
  .linear "M**2/S**2" "MGP" 0.101971621 0,
  .linear "cal/s/cm**2" "W/M**2" 41868 0,
  .linear "cal/h/cm**2" "W/M**2" 11.63 0,
  .linear "Mj/m**2" "J/M**2" 1000000 0,
  .linear "RATIO" "%" 100 0,
  .linear "%" "RATIO" 0.01 0,
  .linear "ms/cm" "S/M" 0.1 0,
  .linear "S/M" "ms/cm" 10 0,
  .linear "mS/cm" "S/M" 0.1 0,
  .linear "S/M" "mS/cm" 10 0,
  .ident "A" "YEAR",
  .ident "YEARS" "YEAR",
  .ident "MON" "MONTH",
  .ident "MONTHS" "MONTH",
  .ident "D" "DAY",
  .ident "DAYS" "DAY",
  .ident "H" "HOUR",
  .ident "HOURS" "HOUR",
  .ident "MIN" "MINUTE",
  .ident "MINUTES" "MINUTE",
  .ident "SECONDS" "SECOND",
  .ident "SECOND" "S",
  .ident "sec" "S",
  .ident "G/G" "KG/KG",
  .ident "m**(2/3)/S" "M**(2/3)/S",
  .ident "DEGREE**2" "DEGREE2",
  .ident "KG/M**2" "KGM-2",
  .ident "KG/M**2" "KG M-2",
  .ident "J/M**2" "JM-2",
  .ident "Bq/L" "BQ L-1",
  .ident "DOBSON" "DU",
  .ident "LOG(1/M**2)" "LOG (M-2)",
  .ident "DEGREE" "DEG",
  .ident "DEGREE TRUE" "DEG",
  .ident "DEGREE TRUE" "gsess",
  .ident "m/sec" "M/S",
  .ident "m" "M",
  .ident "mm" "KG/M**2",
  .ident "degree true" "DEGREE TRUE",
  .ident "GPM" "MGP",
  .ident "W/m**2" "W/M**2",
  .ident "J M-2" "J/M**2",
  .ident "ppt" "PART PER THOUSAND",
  .ident "NTU" "LM",
  .octants "octants" "DEGREE TRUE"]

/-- What a call appends, `wreport/conv.cc` lines 209-228. -/
def Call.entries (fl : ℚ → ℚ) : Call → List Entry
  | .linear src dst mul add =>
    [⟨ascii src, ascii dst, .linear (fl mul) (fl add)⟩,
     ⟨ascii dst, ascii src, .linear (fl (1 / fl mul)) (-fl add)⟩]
  | .ident src dst => [⟨ascii src, ascii dst, .ident⟩, ⟨ascii dst, ascii src, .ident⟩]
  | .octants src dst =>
    [⟨ascii src, ascii dst, .octantsToDegrees⟩, ⟨ascii dst, ascii src, .degreesToOctants⟩]

/-- `repo` before it is sorted. -/
def registered (fl : ℚ → ℚ) : List Entry := calls.flatMap (Call.entries fl)

/-- What `repo` can be after `sort(repo.begin(), repo.end())`, `wreport/conv.cc` line 203.
The standard only promises a sorted permutation: entries with the same units can come in
any order. -/
structure IsRepo (fl : ℚ → ℚ) (repo : List Entry) : Prop where
  perm : repo.Perm (registered fl)
  sorted : repo.Pairwise fun a b => b.lt a = false

/-- The loop of `ConvertRepository::find`, `wreport/conv.cc` lines 236-243. An access outside
`repo` is undefined. -/
def findLoop (repo : List Entry) (src dst : List Byte) (b e : Int) : Res Int :=
  if e - b > 1 then
    let cur := (e + b).tdiv 2
    if cur < 0 then .ub else
    match repo[cur.toNat]? with
    | none => .ub
    | some x =>
      if x.compare src dst = .gt then findLoop repo src dst b cur
      else findLoop repo src dst cur e
  else .ok b
termination_by (e - b).toNat
decreasing_by
  all_goals
    have h1 : (e + b).tdiv 2 * 2 + (e + b).tmod 2 = e + b := Int.tdiv_mul_add_tmod ..
    have h2 : (e + b).tmod 2 < 2 := Int.tmod_lt_of_pos _ (by omega)
    have h3 : -2 < (e + b).tmod 2 := Int.lt_tmod_of_pos _ (by omega)
    omega

/-- `ConvertRepository::find`, `wreport/conv.cc` lines 230-248. -/
def find (repo : List Entry) (src dst : List Byte) : Res (Option Convert) := do
  let b ← findLoop repo src dst (-1) repo.length
  if b = -1 then .ok none
  else match repo[b.toNat]? with
    | none => .ub
    | some x => if x.compare src dst ≠ .eq then .ok none else .ok (some x.conv)

/-- `convert_units`, `wreport/conv.cc` lines 254-264, once the repository is there. -/
def convert_units (fl : ℚ → ℚ) (repo : List Entry) (src dst : List Byte) (d : Dbl) : Res Dbl :=
  if strcmp src dst = .eq then .ok d
  else do
    match ← find repo src dst with
    | none => .err .unimplemented
    | some c => c.convert fl d

end Conv

end Wreport
