import Verif.Model.Python
import Verif.Spec.Sane

/-!
What Python programs may expect from variables.
-/

namespace Wreport.Spec

open Py

/-- The text is a whole number in decimal. -/
def Whole (b : List Byte) (i : Int) : Prop := IsDecimalInt b i ∧ inInt i = true

/-- What is read (`r`) from a variable that was given the whole number `i`. -/
def KeptInt (info : Varinfo) (i : Int) (r : Obj) : Prop :=
  match info.type with
  | .integer => r = .int i
  | .decimal => ∃ q : ℚ, r = .float (.fin q) ∧
      |q * (10 : ℚ) ^ info.scale - i| ≤ |(i : ℚ)| / 2 ^ 53
  | _ => False

/-- What is read (`r`) from a variable that was given the number `x`: the nearest whole
number, or the nearest number with the digits of the variable, but for the rounding of
floating point numbers. -/
def KeptFloat (info : Varinfo) (x : ℚ) (r : Obj) : Prop :=
  match info.type with
  | .integer => ∃ i : Int, r = .int i ∧ |x - i| ≤ 1 / 2
  | .decimal => ∃ q : ℚ, r = .float (.fin q) ∧
      |q * (10 : ℚ) ^ info.scale - x * (10 : ℚ) ^ info.scale| ≤
        1 / 2 + (3 * |x * (10 : ℚ) ^ info.scale| + 1) / 2 ^ 53
  | _ => False

/-- What is read (`r`) from a variable that was made with the value `o`. -/
def GivesBack (info : Varinfo) (o r : Obj) : Prop :=
  match info.type, o with
  | _, .int i => KeptInt info i r
  | _, .float d => ∃ x, d = .fin x ∧ KeptFloat info x r
  | .string, .str s => r = .str s
  | .string, .bytes b => ∃ s, encode s = b ∧ r = .str s
  | .binary, .bytes b => r = .bytes b
  | .binary, .str s => r = .bytes (encode s)
  | _, .str s => ∃ i, Whole (encode s) i ∧ KeptInt info i r
  | _, .bytes b => ∃ i, Whole b i ∧ KeptInt info i r
  | _, _ => False

/-- Numbers that a variable cannot hold. -/
def OutOfRange (info : Varinfo) (o : Obj) : Prop :=
  match o, info.type with
  | .int i, _ => i < info.imin ∨ info.imax < i
  | .float (.fin x), .integer => ∃ i : Int, |x - i| ≤ 1 / 2 ∧ (i < info.imin ∨ info.imax < i)
  | .float (.fin x), _ => x < info.dmin ∨ info.dmax < x
  | .float _, _ => True
  | .str s, _ => ∃ i, Whole (encode s) i ∧ (i < info.imin ∨ info.imax < i)
  | .bytes b, _ => ∃ i, Whole b i ∧ (i < info.imin ∨ info.imax < i)
  | _, _ => False

/-- Values of a kind that a variable does not take. -/
def WrongKind (info : Varinfo) (o : Obj) : Prop :=
  match o with
  | .int _ | .float _ => ¬ info.IsNum
  | .none | .other => True
  | _ => False

/-- Values that do not touch the limits of the C++ types: integers of 32 bits; texts
without NUL that fit the variable; for numbers, texts that are numbers. -/
def WithinTypes (info : Varinfo) (o : Obj) : Prop :=
  match o with
  | .int i => inInt i = true
  | .float (.fin x) => info.type = .integer → inInt (lroundQ x) = true
  | .float _ => info.type ≠ .integer
  | .str s => (info.IsNum → ∃ i, Whole (encode s) i) ∧
      (¬ info.IsNum → NulFree (encode s) ∧ (encode s).length ≤ info.len)
  | .bytes b => (info.IsNum → ∃ i, Whole b i) ∧
      (¬ info.IsNum → NulFree b ∧ b.length ≤ info.len ∧ ∃ s, encode s = b)
  | _ => True

/-- Descriptions of variables that a program uses: one per code (`T`), as the library
makes them, not binary, and whose range does not include the smallest `int`. -/
structure FromTable (E : Env) (T : Varcode → Varinfo) (info : Varinfo) : Prop where
  made : info.Made E
  text : info.type ≠ .binary
  low : info.IsNum → -2147483648 < info.imin
  table : T info.code = info

/-- A variable that a program holds is sane, and it and its attributes are from the
tables. -/
structure Held (E : Env) (T : Varcode → Varinfo) (v : Var) : Prop where
  sane : v.Sane E
  own : FromTable E T v.info
  attrs : ∀ a ∈ v.attrs, FromTable E T a.info

/-- The text of a code that the library can look at: not cut before the second digit
from the end. -/
def CodeArg (o : Obj) : Prop := ∀ s, argText o = .ok s → varcode_parse s ≠ .ub

/-- Calls of programs that keep to one set of tables, to integers of 64 bits and to
codes of the right length. -/
def OpWithin (E : Env) (T : Varcode → Varinfo) : Op → Prop
  | .make info none => FromTable E T info
  | .make info (some o) => FromTable E T info ∧
      ∀ i, o = .int i → -9223372036854775808 ≤ i ∧ i ≤ 9223372036854775807
  | .enqa _ c | .unseta _ c => CodeArg c
  | _ => True

/-- The text of the variable is not UTF-8. -/
def NotUtf8 (v : Var) : Prop :=
  ∃ t, v.toVarCore.view = some (.text t) ∧ ∀ s, encode s ≠ t

/-- The exceptions that an argument that should be a string without NUL may cause. -/
def ArgRaises (o : Obj) (e : Exc) : Prop :=
  match o with
  | .str s => (0 : Byte) ∈ encode s ∧ e = .value
  | .surrogates => e = .unicodeEncode
  | _ => e = .type

/-- The argument is a text that is not a code. -/
def NotACode (o : Obj) : Prop := ∃ s, o = .str s ∧ varcode_parse (encode s) = .err .consistency

/-- The exceptions that a call on the variables `h` may raise, and why. -/
def Allows (h : List Var) : Op → Exc → Prop
  | .make info (some (.int _)), e => (¬ info.IsNum ∧ e = .type) ∨ (info.IsNum ∧ e = .overflow)
  | .make info (some (.float _)), e => (¬ info.IsNum ∧ e = .type) ∨ (info.IsNum ∧ e = .overflow)
  | .make info (some (.str _)), e => info.IsNum ∧ e = .overflow
  | .make info (some (.bytes _)), e => info.IsNum ∧ e = .overflow
  | .make _ (some .surrogates), e => e = .unicodeEncode
  | .make _ (some _), e => e = .type
  | .enqi i, e | .enqd i, e => ∃ v, h[i]? = some v ∧
      ((v.isset = false ∧ e = .key) ∨ (v.isset = true ∧ ¬ v.info.IsNum ∧ e = .type))
  | .enqc i, e | .enq i, e => ∃ v, h[i]? = some v ∧
      ((v.isset = false ∧ e = .key) ∨ (NotUtf8 v ∧ e = .unicodeDecode))
  | .get i _, e | .str i, e | .repr i, e => ∃ v, h[i]? = some v ∧ NotUtf8 v ∧ e = .unicodeDecode
  | .format i d, e => ∃ v, h[i]? = some v ∧ (ArgRaises d e ∨ (NotUtf8 v ∧ e = .unicodeDecode))
  | .enqa _ c, e | .unseta _ c, e => ArgRaises c e ∨ (NotACode c ∧ e = .runtime)
  | _, _ => False

/-- `w` is what `a` is, without attributes. -/
def AttrCopy (a : VarCore) (w : Var) : Prop :=
  w.info = a.info ∧ w.toVarCore.view = a.view ∧ w.attrs = []

end Wreport.Spec
