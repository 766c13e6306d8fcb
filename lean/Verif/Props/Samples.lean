import Verif.Lemmas.Var

/-! # Sample data used to show that hypotheses can be met -/

namespace Wreport

/-- A concrete environment. -/
def Env0 : Env where
  fl := flNearest
  wrapv := false
  lroundOut := 0
  conv := fun a b d => if a = b then .ok d else .err .unimplemented
  strtod := fun _ => .fin 0

theorem Env0_rounding : IsRounding Env0.fl := isRounding_flNearest

/-- The descriptor made from raw fields. -/
def made (raw : Varinfo) : Varinfo :=
  match raw.compute_range Env0 with
  | .ok i => i
  | _ => raw

/-- B12101, temperature, K, scale 2, 5 digits, 16 bits. -/
def sampleTemp : Varinfo := made (Varinfo.raw (WR_VAR 0 12 101) .decimal (ascii "K") 2 5 0 16)

/-- B05002, latitude, degrees, scale 2, reference -9000, 15 bits. -/
def sampleLat : Varinfo := made (Varinfo.raw (WR_VAR 0 5 2) .decimal (ascii "DEGREE") 2 5 (-9000) 15)

/-- B02001, type of station, code table, 2 bits. -/
def sampleCode : Varinfo := made (Varinfo.raw (WR_VAR 0 2 1) .integer (ascii "CODE TABLE") 0 1 0 2)

/-- B01019, station name, 32 characters. -/
def sampleStr : Varinfo := made (Varinfo.raw (WR_VAR 0 1 19) .string (ascii "CCITTIA5") 0 32 0 256)

/-- A binary value of 11 bits. -/
def sampleBin : Varinfo := made (Varinfo.raw (WR_VAR 0 63 1) .binary (ascii "UNKNOWN") 0 2 0 11)

theorem sampleTemp_made : sampleTemp.Made Env0 :=
  ⟨⟨Varinfo.raw (WR_VAR 0 12 101) .decimal (ascii "K") 2 5 0 16, rfl⟩, rfl, nofun, nofun⟩
theorem sampleLat_made : sampleLat.Made Env0 :=
  ⟨⟨Varinfo.raw (WR_VAR 0 5 2) .decimal (ascii "DEGREE") 2 5 (-9000) 15, rfl⟩, rfl, nofun, nofun⟩
theorem sampleCode_made : sampleCode.Made Env0 :=
  ⟨⟨Varinfo.raw (WR_VAR 0 2 1) .integer (ascii "CODE TABLE") 0 1 0 2, rfl⟩, rfl, fun _ => rfl, nofun⟩
theorem sampleStr_made : sampleStr.Made Env0 :=
  ⟨⟨Varinfo.raw (WR_VAR 0 1 19) .string (ascii "CCITTIA5") 0 32 0 256, rfl⟩, rfl, nofun, nofun⟩
theorem sampleBin_made : sampleBin.Made Env0 :=
  ⟨⟨Varinfo.raw (WR_VAR 0 63 1) .binary (ascii "UNKNOWN") 0 2 0 11, rfl⟩, rfl, nofun, fun _ => rfl⟩

example : sampleTemp.imin = 0 ∧ sampleTemp.imax = 65534 := by decide +kernel
example : sampleLat.imin = -9000 ∧ sampleLat.imax = 23766 := by decide +kernel
example : sampleCode.imin = 0 ∧ sampleCode.imax = 2 := by decide +kernel

end Wreport
