import Verif.Model.Dump
import Verif.Spec.Var

/-! # What a printed message tells -/

namespace Wreport.Spec

/-- A text on one line. -/
def OneLine (s : List Byte) : Prop := (10 : Byte) ∉ s

/-- What two messages that differ in nothing but names, places and values have in common. -/
structure HeadAlike (b b' : Bulletin) : Prop where
  data_category : b.data_category = b'.data_category
  data_subcategory : b.data_subcategory = b'.data_subcategory
  data_subcategory_local : b.data_subcategory_local = b'.data_subcategory_local
  originating_centre : b.originating_centre = b'.originating_centre
  originating_subcentre : b.originating_subcentre = b'.originating_subcentre
  rep_year : b.rep_year = b'.rep_year
  rep_month : b.rep_month = b'.rep_month
  rep_day : b.rep_day = b'.rep_day
  rep_hour : b.rep_hour = b'.rep_hour
  rep_minute : b.rep_minute = b'.rep_minute
  rep_second : b.rep_second = b'.rep_second
  update_sequence_number : b.update_sequence_number = b'.update_sequence_number
  master_table_number : b.master_table_number = b'.master_table_number
  datadesc : b.datadesc = b'.datadesc
  subsets : b.subsets.length = b'.subsets.length
  details : match b.details, b'.details with
    | .bufr d, .bufr d' => { d with optional_section := [] } = { d' with optional_section := [] } ∧
        d.optional_section.length = d'.optional_section.length
    | .crex d, .crex d' => d = d'
    | _, _ => False

/-- Tables with a name on one line, and descriptors of 16 bits. -/
structure HeadPlain (b : Bulletin) : Prop where
  btable : ∀ t, b.tables.btable = some t → OneLine t.1
  dtable : ∀ t, b.tables.dtable = some t → OneLine t.1
  codes : ∀ c ∈ b.datadesc, c < 65536

/-- A variable whose name, unit and value are on one line, when `name` tells the names and
units of codes. -/
structure LinePlain (E : Env) (desc : Varinfo → List Byte) (name : Varcode → List Byte × List Byte)
    (v : VarCore) : Prop where
  code : v.code < 65536
  name : ((desc v.info).take 64, v.info.unit) = name v.code
  desc : OneLine ((desc v.info).take 64)
  unit : OneLine v.info.unit
  value : ∀ x, v.formatFile E (ascii "(undef)") = .ok x → OneLine x

/-- The same for all variables of a message and their attributes. -/
def LinesPlain (E : Env) (desc : Varinfo → List Byte) (name : Varcode → List Byte × List Byte)
    (b : Bulletin) : Prop :=
  ∀ s ∈ b.subsets, ∀ v ∈ s, LinePlain E desc name v.toVarCore ∧
    ∀ a ∈ v.attrs, LinePlain E desc name a

/-- Variables with the same code whose values have the same text. -/
def SameShown (E : Env) (v v' : VarCore) : Prop :=
  v.code = v'.code ∧ ∃ x, v.formatFile E (ascii "(undef)") = .ok x ∧
    v'.formatFile E (ascii "(undef)") = .ok x

/-- The same of variables and all their attributes. -/
def ShownVar (E : Env) (v v' : Var) : Prop :=
  SameShown E v.toVarCore v'.toVarCore ∧ List.Forall₂ (SameShown E) v.attrs v'.attrs

/-- One has no value, and the other says so in its text. -/
def SaysUndef (v v' : VarCore) : Prop :=
  v.view = none ∧ v'.view = some (.text (ascii "(undef)"))

end Wreport.Spec
