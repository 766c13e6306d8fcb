import Verif.Model.Float

/-!
# What conversions mean

Independent of the model. Cloud type and significance tables are those of the WMO code
tables quoted in the comments of `wreport/conv.cc` and `wreport/codetables.h`; units have
their usual definitions.
-/

namespace Wreport.Spec

/-- The pairs (SYNOP code, BUFR 20012 code): ten types from `base` on and `/`, for which the
code uses -1, as `slash`. -/
def cloudTypes (base slash : Int) : List (Int × Int) :=
  [(0, base), (1, base + 1), (2, base + 2), (3, base + 3), (4, base + 4), (5, base + 5),
   (6, base + 6), (7, base + 7), (8, base + 8), (9, base + 9), (-1, slash)]

/-- Level significance: bit of 08001 (from the least significant, which means missing) and
the bits of 08042 with the same meaning. -/
def levelFlags : List (Nat × List Nat) :=
  [(1, [11]), (2, [12, 13]), (3, [14]), (4, [15]), (5, [16]), (6, [17])]

/-- Level significance of AOF: bit and bit of 08042. -/
def aofFlags : List (Nat × Nat) := [(0, 14), (1, 15), (3, 16), (5, 16), (6, 17), (7, 11), (8, 13)]

/-- Octant `o` is the 45 degrees around direction `45 * o`, the last included; directions
are equal modulo 360. -/
def InOctant (d : ℚ) (o : Int) : Prop :=
  1 ≤ o ∧ o ≤ 8 ∧ ∃ k : Int, 45 * o - 45 / 2 < d + 360 * k ∧ d + 360 * k ≤ 45 * o + 45 / 2

/-- Kinds of quantities. -/
inductive Dim where
  | temperature | time | density | pressure | length | ratio | energyPerArea | speed
  | voltage | geopotential | powerPerArea | conductivity | month | year | mixing | dissipation
  | squareAngle | massPerArea | activity | ozone | logArea | angle | salinity | turbidity
deriving DecidableEq

/-- A unit: `scale * v + zero` is the value in the base unit of its dimension. -/
structure Unit' where
  dim : Dim
  scale : ℚ
  zero : ℚ
deriving DecidableEq

/-- What a unit name can mean. Only `mm` has two meanings: a length, and the mass of that
depth of water on a square metre. -/
def units : List (String × Unit') := [
  ("K", ⟨.temperature, 1, 0⟩), ("C", ⟨.temperature, 1, 273.15⟩),
  ("C/10", ⟨.temperature, 0.1, 273.15⟩),
  ("S", ⟨.time, 1, 0⟩), ("SECOND", ⟨.time, 1, 0⟩), ("SECONDS", ⟨.time, 1, 0⟩),
  ("sec", ⟨.time, 1, 0⟩), ("minuti", ⟨.time, 60, 0⟩), ("MINUTE", ⟨.time, 60, 0⟩),
  ("MIN", ⟨.time, 60, 0⟩), ("MINUTES", ⟨.time, 60, 0⟩), ("H", ⟨.time, 3600, 0⟩),
  ("HOUR", ⟨.time, 3600, 0⟩), ("HOURS", ⟨.time, 3600, 0⟩), ("D", ⟨.time, 86400, 0⟩),
  ("DAY", ⟨.time, 86400, 0⟩), ("DAYS", ⟨.time, 86400, 0⟩), ("MON", ⟨.month, 1, 0⟩),
  ("MONTH", ⟨.month, 1, 0⟩), ("MONTHS", ⟨.month, 1, 0⟩), ("A", ⟨.year, 1, 0⟩),
  ("YEAR", ⟨.year, 1, 0⟩), ("YEARS", ⟨.year, 1, 0⟩),
  ("KG/M**3", ⟨.density, 1, 0⟩), ("G/M**3", ⟨.density, 0.001, 0⟩),
  ("ug/m**3", ⟨.density, 0.000000001, 0⟩), ("mg/l", ⟨.density, 0.001, 0⟩),
  ("PA", ⟨.pressure, 1, 0⟩), ("KPA", ⟨.pressure, 1000, 0⟩), ("hPa", ⟨.pressure, 100, 0⟩),
  ("mBar", ⟨.pressure, 100, 0⟩), ("Bar", ⟨.pressure, 100000, 0⟩),
  ("NBAR", ⟨.pressure, 0.0001, 0⟩),
  ("M", ⟨.length, 1, 0⟩), ("m", ⟨.length, 1, 0⟩), ("MM", ⟨.length, 0.001, 0⟩),
  ("mm", ⟨.length, 0.001, 0⟩), ("cm", ⟨.length, 0.01, 0⟩), ("hm", ⟨.length, 100, 0⟩),
  ("KM", ⟨.length, 1000, 0⟩), ("FT", ⟨.length, 0.3048, 0⟩),
  ("RATIO", ⟨.ratio, 1, 0⟩), ("%", ⟨.ratio, 0.01, 0⟩), ("PERCENT", ⟨.ratio, 0.01, 0⟩),
  ("1/8", ⟨.ratio, 0.125, 0⟩),
  ("J/M**2", ⟨.energyPerArea, 1, 0⟩), ("JM-2", ⟨.energyPerArea, 1, 0⟩),
  ("J M-2", ⟨.energyPerArea, 1, 0⟩), ("MJ/M**2", ⟨.energyPerArea, 1000000, 0⟩),
  ("Mj/m**2", ⟨.energyPerArea, 1000000, 0⟩), ("cal/cm**2", ⟨.energyPerArea, 41868, 0⟩),
  ("M/S", ⟨.speed, 1, 0⟩), ("m/sec", ⟨.speed, 1, 0⟩), ("m/s/10", ⟨.speed, 0.1, 0⟩),
  ("nodi", ⟨.speed, 1852 / 3600, 0⟩),
  ("V", ⟨.voltage, 1, 0⟩), ("mV", ⟨.voltage, 0.001, 0⟩),
  ("m**2/s**2", ⟨.geopotential, 1, 0⟩), ("M**2/S**2", ⟨.geopotential, 1, 0⟩),
  ("GPM", ⟨.geopotential, 9.80665, 0⟩), ("MGP", ⟨.geopotential, 9.80665, 0⟩),
  ("W/M**2", ⟨.powerPerArea, 1, 0⟩), ("W/m**2", ⟨.powerPerArea, 1, 0⟩),
  ("cal/s/cm**2", ⟨.powerPerArea, 41868, 0⟩), ("cal/h/cm**2", ⟨.powerPerArea, 41868 / 3600, 0⟩),
  ("S/M", ⟨.conductivity, 1, 0⟩), ("mS/cm", ⟨.conductivity, 0.1, 0⟩),
  ("ms/cm", ⟨.conductivity, 0.1, 0⟩),
  ("G/G", ⟨.mixing, 1, 0⟩), ("KG/KG", ⟨.mixing, 1, 0⟩),
  ("m**(2/3)/S", ⟨.dissipation, 1, 0⟩), ("M**(2/3)/S", ⟨.dissipation, 1, 0⟩),
  ("DEGREE**2", ⟨.squareAngle, 1, 0⟩), ("DEGREE2", ⟨.squareAngle, 1, 0⟩),
  ("KG/M**2", ⟨.massPerArea, 1, 0⟩), ("KGM-2", ⟨.massPerArea, 1, 0⟩),
  ("KG M-2", ⟨.massPerArea, 1, 0⟩), ("mm", ⟨.massPerArea, 1, 0⟩),
  ("mm/10", ⟨.massPerArea, 0.1, 0⟩),
  ("Bq/L", ⟨.activity, 1000, 0⟩), ("BQ L-1", ⟨.activity, 1000, 0⟩),
  ("DOBSON", ⟨.ozone, 1, 0⟩), ("DU", ⟨.ozone, 1, 0⟩),
  ("LOG(1/M**2)", ⟨.logArea, 1, 0⟩), ("LOG (M-2)", ⟨.logArea, 1, 0⟩),
  ("DEGREE", ⟨.angle, 1, 0⟩), ("DEG", ⟨.angle, 1, 0⟩), ("DEGREE TRUE", ⟨.angle, 1, 0⟩),
  ("degree true", ⟨.angle, 1, 0⟩), ("gsess", ⟨.angle, 1, 0⟩),
  ("ppt", ⟨.salinity, 1, 0⟩), ("PART PER THOUSAND", ⟨.salinity, 1, 0⟩),
  ("NTU", ⟨.turbidity, 1, 0⟩), ("LM", ⟨.turbidity, 1, 0⟩)]

/-- The same quantity in another unit. -/
def Unit'.value (u w : Unit') (v : ℚ) : ℚ := (u.scale * v + u.zero - w.zero) / w.scale

/-- `u` and `w` measure the same quantity and are named `src` and `dst`. -/
def Named (src dst : List Byte) (u w : Unit') : Prop :=
  ∃ s t, (s, u) ∈ units ∧ (t, w) ∈ units ∧ ascii s = src ∧ ascii t = dst ∧ u.dim = w.dim

/-- Tolerated absolute error: conversions from kelvin use 273.15001. -/
def Unit'.tolerance (u : Unit') : ℚ := if u.dim = .temperature then 1 / 5000 else 0

/-- A pair of units, in either order. -/
def Among (l : List (String × String)) (src dst : List Byte) : Prop :=
  ∃ p ∈ l, (ascii p.1 = src ∧ ascii p.2 = dst) ∨ (ascii p.1 = dst ∧ ascii p.2 = src)

instance (l : List (String × String)) (src dst : List Byte) : Decidable (Among l src dst) :=
  inferInstanceAs (Decidable (∃ p ∈ l, _))

/-- The zero points of kelvin and degrees Celsius differ by this. -/
def zeroShift (src dst : List Byte) : ℚ := if Among [("K", "C")] src dst then 274 else 0

end Wreport.Spec
