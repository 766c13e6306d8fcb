import Verif.Model.Format

/-!
# Variables from Lua

Modelled code: `wreport/var-lua.cc` lines 41-107. Not modelled: the Lua state, arguments
that are not variables, and that `lua_error` leaves the handler of an exception without
releasing it.
-/

namespace Wreport.Lua

/-- What a function leaves on the stack. -/
inductive Val where
  | nil
  | int (i : Int)
  | num (q : ℚ)
  | str (s : List Byte)
deriving DecidableEq

/-- `dbalua_var_enqi`, `wreport/var-lua.cc` lines 41-54. -/
def enqi (v : VarCore) : Res Val :=
  if v.isset then do let i ← v.enqi; return .int i else .ok .nil

/-- `dbalua_var_enqd`, `wreport/var-lua.cc` lines 56-69. -/
def enqd (E : Env) (v : VarCore) : Res Val :=
  if v.isset then do let d ← v.enqd E; return .num d else .ok .nil

/-- `dbalua_var_enqc`, `wreport/var-lua.cc` lines 71-84: `lua_pushstring` takes a C
string. -/
def enqc (E : Env) (v : VarCore) : Res Val :=
  if v.isset then do let m ← v.enqc E; let s ← cstr m; return .str s else .ok .nil

/-- `dbalua_var_code`, `wreport/var-lua.cc` lines 86-94: as `varcode_format`, with the
letter taken from an array. -/
def code (v : VarCore) : Res Val :=
  match (ascii "BRCD")[WR_VAR_F v.info.code]? with
  | some f => .ok (.str (f :: (varcode_format v.info.code).drop 1))
  | none => .ub

/-- `dbalua_var_tostring`, `wreport/var-lua.cc` lines 96-107. -/
def tostring (E : Env) (v : VarCore) : Res Val := do
  let s ← v.format E (ascii "(undef)")
  return .str s

end Wreport.Lua
