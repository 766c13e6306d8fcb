import Verif.Model.Targets

/-!
# What validation leaves out
-/

namespace Wreport.Spec

open Enc

/-- What has to hold, besides fitting, for a value to be written: a missing one needs
a field of 1 to 32 bits; one that is there has the type of the field, and as many
bytes as the field if it is binary. -/
def writable (info : Varinfo) (v : VarCore) : Bool :=
  if v.isset then
    decide (v.info.type = info.type ∧ (info.type = .binary → info.bit_len ≤ 8 * v.info.len))
  else decide (1 ≤ info.bit_len ∧ info.bit_len ≤ 32)

/-- The same for the attribute of a variable, which may be missing. -/
def writableAttr (info : Varinfo) (v : Var) : Bool :=
  match v.enqa info.code with
  | some a => writable info a
  | none => decide (1 ≤ info.bit_len ∧ info.bit_len ≤ 32)

/-- The associated field of a variable is missing or a number. -/
def writableField (f : AssociatedField) (v : Var) : Bool :=
  decide (1 ≤ f.bit_count ∧ f.bit_count ≤ 32) &&
  match f.get_attribute v with
  | .ok (some a) => !a.isset || decide (a.info.type = .integer ∨ a.info.type = .decimal)
  | .ok none => true
  | _ => false

/-- A step allowed if the variable at a position is as wanted. -/
def ifAt {α : Type} (st : St Unit) (pos : Nat) (p : Var → Bool) (r : Res α) : Res α :=
  match st.tgt.subset[pos]? with
  | some v => if p v then r else .err .consistency
  | none => .err .consistency

/-- The next variable. -/
def ifNext {α : Type} (st : St Unit) (p : Var → Bool) (r : Res α) : Res α :=
  ifAt st st.tgt.current_var p r

/-- Validation, and what it leaves out: that values are writable, that bitmaps have as
many marks as the descriptors say, that changed references have at most 32 bits, and
that associated fields are numbers. -/
def strict (C : Ctx) : Target (Enc Unit) :=
  let T := Validator.target C false
  { define_bitmap := fun st size => ifNext st (fun v => v.info.len = size) (T.define_bitmap st size)
    define_variable := fun st info =>
      ifNext st (fun v => writable info v.toVarCore) (T.define_variable st info)
    define_variable_with_associated_field := fun st info =>
      ifNext st (fun v => writable info v.toVarCore && writableField st.associated_field v)
        (T.define_variable_with_associated_field st info)
    define_delayed_replication_factor := fun st info =>
      ifNext st (fun v => writable info v.toVarCore) (T.define_delayed_replication_factor st info)
    define_bitmap_delayed_replication_factor := fun st info =>
      if (info.type = .integer ∨ info.type = .decimal) ∧ 1 ≤ info.bit_len ∧ info.bit_len ≤ 32 then
        T.define_bitmap_delayed_replication_factor st info
      else .err .consistency
    define_associated_field_significance := fun st info =>
      ifNext st (fun v => writable info v.toVarCore) (T.define_associated_field_significance st info)
    define_substituted_value := fun st pos =>
      ifAt st pos (fun v => writableAttr v.info v) (T.define_substituted_value st pos)
    define_attribute := fun st info pos =>
      ifAt st pos (writableAttr info) (T.define_attribute st info pos)
    define_raw_character_data := fun st code =>
      ifNext st (fun v => v.info.type = .string) (T.define_raw_character_data st code)
    define_c03_refval_override := fun st code =>
      if st.c03_refval_override_bits ≤ 32 then T.define_c03_refval_override st code
      else .err .consistency }

end Wreport.Spec
