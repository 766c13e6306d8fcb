import Verif.Model.Conv
import Verif.Model.PythonTables

/-!
The Python module: descriptions of variables, and conversion of units.
-/

namespace Wreport.Py

/-! ## `wreport.Varinfo` -/

/-- The getter `type`, `python/varinfo.cc` lines 20-32. -/
def infoType (info : Varinfo) : Ret Obj := strToPython (vartype_format info.type)

/-- The getter `len`, `python/varinfo.cc` lines 48-60. -/
def infoLen (info : Varinfo) : Ret Obj := .ret (some (.int info.len)) none

/-- The getter `unit`, `python/varinfo.cc` lines 62-74. -/
def infoUnit (info : Varinfo) : Ret Obj := strToPython info.unit

/-- The getter `scale`, `python/varinfo.cc` lines 90-102. -/
def infoScale (info : Varinfo) : Ret Obj := .ret (some (.int info.scale)) none

/-- The getter `bit_ref`, `python/varinfo.cc` lines 104-116. -/
def infoBitRef (info : Varinfo) : Ret Obj := .ret (some (.int info.bit_ref)) none

/-- The getter `bit_len`, `python/varinfo.cc` lines 118-130. -/
def infoBitLen (info : Varinfo) : Ret Obj := .ret (some (.int info.bit_len)) none

/-- The attributes of a `wreport.Varinfo`, `python/varinfo.cc` line 144, but for `desc`: texts of
descriptions are not modelled. -/
inductive Getter where
  | type | code | len | unit | scale | bit_ref | bit_len
deriving DecidableEq, Repr

/-- What a program sees when it reads an attribute. -/
def infoGet (info : Varinfo) : Getter → Done Obj
  | .type => (infoType info).done
  | .code => (infoCode info).done
  | .len => (infoLen info).done
  | .unit => (infoUnit info).done
  | .scale => (infoScale info).done
  | .bit_ref => (infoBitRef info).done
  | .bit_len => (infoBitLen info).done

/-! ## `wreport.convert_units` -/

/-- `PyArg_ParseTupleAndKeywords` with format `d`: integers are rounded to a double; those that
round to 2^1024 or more are refused. Other objects have neither `__float__` nor `__index__`. -/
def argDouble (fl : ℚ → ℚ) : Obj → Except Exc Dbl
  | .float d => .ok d
  | .int i => if |i| < 2 ^ 1024 - 2 ^ 970 then .ok (.fin (fl i)) else .error .overflow
  | _ => .error .type

/-- `convert_units`, `python/wreport.cc` lines 16-38, once the repository of `wreport/conv.cc` is
there. The arguments are parsed in order. -/
def convert_units (fl : ℚ → ℚ) (repo : List Conv.Entry) (from_unit to_unit value : Obj) : Ret Obj :=
  match argText from_unit with
  | .error e => .ret none (some e)
  | .ok src => match argText to_unit with
    | .error e => .ret none (some e)
    | .ok dst => match argDouble fl value with
      | .error e => .ret none (some e)
      | .ok d => caught none (do let r ← Conv.convert_units fl repo src dst d; return .float r)

end Wreport.Py
