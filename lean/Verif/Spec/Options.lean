import Verif.Model.Options

/-!
# Options: lexical scoping
-/

namespace Wreport.Spec

/-- The value of an option. -/
inductive OptValue where
  | bool (b : Bool)
  | hook (h : Option Hook)

/-- The value of an option in a set of options. -/
def optValue (o : Opts) : OptName → OptValue
  | .silent => .bool o.silent
  | .clamp => .bool o.clamp
  | .hook => .hook o.hook

/-- The value to be given to an option. -/
def newValue : OptVal → OptValue
  | .silent v => .bool v
  | .clamp v => .bool v
  | .hook v => .hook v

/-- The options with another value of one of them. -/
def withValue (o : Opts) (v : OptVal) : Opts :=
  ⟨match v with | .silent b => b | _ => o.silent,
   match v with | .clamp b => b | _ => o.clamp,
   match v with | .hook h => h | _ => o.hook⟩

/-- The options to which the program assigns outside of the scope of an override of the
same option. -/
def assigns : Stmt → OptName → Prop
  | .skip, _ => False
  | .seq a b, n => assigns a n ∨ assigns b n
  | .assign v, n => n = v.name
  | .call _, _ => False
  | .scope v body, n => n ≠ v.name ∧ assigns body n
  | .tryCatch body, n => assigns body n

/-- The program does not assign. -/
def pureScopes : Stmt → Prop
  | .skip => True
  | .seq a b => pureScopes a ∧ pureScopes b
  | .assign _ => False
  | .call _ => True
  | .scope _ body => pureScopes body
  | .tryCatch body => pureScopes body

/-- The meaning of a program if options never change but a scope has its own: the
exception and what the calls see. -/
def meaning : Stmt → Opts → Bool × List Opts
  | .skip, _ => (false, [])
  | .seq a b, o =>
    if (meaning a o).1 then meaning a o else ((meaning b o).1, (meaning a o).2 ++ (meaning b o).2)
  | .assign _, _ => (false, [])
  | .call f, o => (f o, [o])
  | .scope v body, o => meaning body (withValue o v)
  | .tryCatch body, o => (false, (meaning body o).2)

/-- Events nested like scopes. -/
inductive Nested : List OverrideEvent → Prop
  | nil : Nested []
  | scope (v : OptVal) {a b : List OverrideEvent} (ha : Nested a) (hb : Nested b) :
      Nested (.construct v :: a ++ .destruct 0 :: b)

end Wreport.Spec
