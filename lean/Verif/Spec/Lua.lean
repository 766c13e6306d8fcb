import Verif.Model.Lua
import Verif.Spec.Format
import Verif.Spec.Sane
import Verif.Spec.Num

/-! What Lua programs may expect from variables. -/

namespace Wreport.Spec

/-- What the functions give for a variable described by `info` that holds `x`. Failures
are Lua errors. -/
def LuaShows (info : Varinfo) : Option Value → (i d c s : Res Lua.Val) → Prop
  | none, i, d, c, s => i = .ok .nil ∧ d = .ok .nil ∧ c = .ok .nil ∧ s = .ok (.str (ascii "(undef)"))
  | some (.num n), i, d, c, s => i = .ok (.int n) ∧
      (∃ q, d = .ok (.num q) ∧ |q - decimalValue info.scale n| ≤ |decimalValue info.scale n| / 2 ^ 53) ∧
      (∃ b, c = .ok (.str b) ∧ IsDecimalInt b n) ∧
      (|wholeUnits info.scale n| < 2 ^ 52 →
        ∃ b, s = .ok (.str b) ∧ FixedText b (decimals info.scale) (wholeUnits info.scale n))
  | some (.text t), i, d, c, s => i = .err .type ∧ d = .err .type ∧ c = .ok (.str t) ∧ s = .ok (.str t)
  | some (.bits t), i, d, c, _ => i = .err .type ∧ d = .err .type ∧ c = .ok (.str t)

end Wreport.Spec
