import Verif.Model.Bulletin
import Verif.Spec.Var

/-!
# Bulletins and subsets: what comparison and bitmaps mean
-/

namespace Wreport.Spec

/-- Two variables that users cannot tell apart. -/
def SameVar (a b : Var) : Prop := a.view = b.view

/-- Two lists, element by element. -/
inductive Pairwise₂ {α : Type} (r : α → α → Prop) : List α → List α → Prop
  | nil : Pairwise₂ r [] []
  | cons {a b : α} {l m : List α} (h : r a b) (t : Pairwise₂ r l m) : Pairwise₂ r (a :: l) (b :: m)

/-- The members of any bulletin that say what it contains. -/
structure SameHeader (a b : Bulletin) : Prop where
  master_table_number : a.master_table_number = b.master_table_number
  data_category : a.data_category = b.data_category
  data_subcategory : a.data_subcategory = b.data_subcategory
  data_subcategory_local : a.data_subcategory_local = b.data_subcategory_local
  originating_centre : a.originating_centre = b.originating_centre
  originating_subcentre : a.originating_subcentre = b.originating_subcentre
  update_sequence_number : a.update_sequence_number = b.update_sequence_number
  rep_year : a.rep_year = b.rep_year
  rep_month : a.rep_month = b.rep_month
  rep_day : a.rep_day = b.rep_day
  rep_hour : a.rep_hour = b.rep_hour
  rep_minute : a.rep_minute = b.rep_minute
  rep_second : a.rep_second = b.rep_second
  btable : a.tables.btable.map (·.1) = b.tables.btable.map (·.1)
  dtable : a.tables.dtable.map (·.1) = b.tables.dtable.map (·.1)
  datadesc : a.datadesc = b.datadesc

/-- Two bulletins that say the same. -/
structure SameBulletin (a b : Bulletin) : Prop where
  header : SameHeader a b
  details : a.details = b.details
  subsets : Pairwise₂ (Pairwise₂ SameVar) a.subsets b.subsets

/-- The details, without compression and without the version of the BUFR table that a
CREX message gives. -/
def comparedDetails : Details → Details
  | .bufr d => .bufr { d with compression := false }
  | .crex d => .crex { d with master_table_version_number_bufr := 0 }

/-- The element variables of a subset: those with F = 0. -/
def elements (s : List Var) : List Var := s.filter fun v => WR_VAR_F v.code = 0

/-- The variable has the attribute. -/
def HasAttr (v : Var) (code : Varcode) : Prop := ∃ a ∈ v.attrs, a.code = code

end Wreport.Spec
