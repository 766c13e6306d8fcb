import Verif.Model.Tabledir
import Verif.Spec.Crex

/-!
# Which table is closest

A candidate gets a list of numbers, smaller is closer, the first difference decides.
-/

namespace Wreport.Spec

/-- Comparison of two lists by their first difference: negative if the first is
smaller. -/
def lexCmp : List Nat → List Nat → Int
  | [], [] => 0
  | [], _ :: _ => -1
  | _ :: _, [] => 1
  | x :: xs, y :: ys => if x < y then -1 else if y < x then 1 else lexCmp xs ys

/-- How far the centre is from the one wanted: it is the same, it is the WMO (0), it is
missing (65535), it is another one. -/
def centreRank (wanted c : Nat) : Nat :=
  if c = wanted then 0 else if c = 0 then 1 else if c = 65535 then 2 else 3

/-- How far the version of the local table is from the one wanted, if one is: the
distance of a newer version, and any older version is farther. -/
def localRank (wanted v : Nat) : Nat :=
  if wanted = 0 then 0 else if wanted ≤ v then v - wanted else 256 + (wanted - v)

/-- The numbers of a candidate after its versions: the local version and the subcentre
count only if the centre is the one wanted. -/
def originRank (centre subcentre localv : Nat) (c s l : Nat) : List Nat :=
  centreRank centre c ::
    if c = centre then [localRank localv l, if s = subcentre then 0 else 1] else []

/-- A BUFR table for a BUFR message. -/
def closeness (w c : BufrTableID) : List Nat :=
  c.master_table_version_number.toNat ::
    originRank w.originating_centre.toNat w.originating_subcentre.toNat
      w.master_table_version_number_local.toNat c.originating_centre.toNat
      c.originating_subcentre.toNat c.master_table_version_number_local.toNat

/-- A BUFR table for a CREX message. -/
def closenessCB (w : CrexTableID) (c : BufrTableID) : List Nat :=
  c.master_table_version_number.toNat ::
    originRank w.originating_centre.toNat w.originating_subcentre.toNat
      w.master_table_version_number_local.toNat c.originating_centre.toNat
      c.originating_subcentre.toNat c.master_table_version_number_local.toNat

/-- A CREX table for a CREX message, among CREX tables. -/
def closenessCC (w c : CrexTableID) : List Nat :=
  c.master_table_version_number.toNat :: c.master_table_version_number_bufr.toNat ::
    originRank w.originating_centre.toNat w.originating_subcentre.toNat
      w.master_table_version_number_local.toNat c.originating_centre.toNat
      c.originating_subcentre.toNat c.master_table_version_number_local.toNat

/-- A CREX table for a CREX message, compared to a BUFR table. -/
def closenessCM (w c : CrexTableID) : List Nat :=
  c.master_table_version_number_bufr.toNat ::
    originRank w.originating_centre.toNat w.originating_subcentre.toNat
      w.master_table_version_number_local.toNat c.originating_centre.toNat
      c.originating_subcentre.toNat c.master_table_version_number_local.toNat

/-- A table that can be used for a BUFR message: a BUFR table with the same master
table and at least its version. -/
def UsableB (w : BufrTableID) : Tabledir.Kind → Prop
  | .bufr id => id.master_table_number = w.master_table_number ∧
      w.master_table_version_number ≤ id.master_table_version_number
  | _ => False

/-- A table that can be used for a CREX message. -/
def UsableC (w : CrexTableID) : Tabledir.Kind → Prop
  | .bufr id => id.master_table_number = w.master_table_number ∧
      w.master_table_version_number_bufr ≤ id.master_table_version_number
  | .crex id => id.edition_number = w.edition_number ∧ id.master_table_number = w.master_table_number ∧
      w.master_table_version_number ≤ id.master_table_version_number ∧
      w.master_table_version_number_bufr ≤ id.master_table_version_number_bufr
  | .raw => False

/-- The first of two tables is closer to what a BUFR message wants. -/
def CloserB (w : BufrTableID) : Tabledir.Kind → Tabledir.Kind → Prop
  | .bufr a, .bufr b => lexCmp (closeness w a) (closeness w b) < 0
  | _, _ => False

/-- The first of two tables is closer to what a CREX message wants. -/
def CloserC (w : CrexTableID) : Tabledir.Kind → Tabledir.Kind → Prop
  | .bufr a, .bufr b => lexCmp (closenessCB w a) (closenessCB w b) < 0
  | .bufr a, .crex b => lexCmp (closenessCB w a) (closenessCM w b) < 0
  | .crex a, .bufr b => lexCmp (closenessCM w a) (closenessCB w b) < 0
  | .crex a, .crex b => lexCmp (closenessCC w a) (closenessCC w b) < 0
  | _, _ => False

/-- The table is a best one among those available. -/
def IsBest (usable : Tabledir.Kind → Prop) (closer : Tabledir.Kind → Tabledir.Kind → Prop)
    (tables : List Tabledir.Table) (t : Tabledir.Table) : Prop :=
  t ∈ tables ∧ usable t.kind ∧ ∀ u ∈ tables, usable u.kind → ¬ closer u.kind t.kind

/-! ## File names -/

/-- The name of a CREX table. -/
def crexTableName (mt ed v : Nat) : List Byte :=
  ascii "B" ++ zeroPadded 2 mt ++ zeroPadded 2 ed ++ zeroPadded 2 v ++ ascii ".txt"

/-- The short form of the name of a BUFR table. -/
def bufrTableName (sc ce v l : Nat) : List Byte :=
  ascii "B00000" ++ zeroPadded 3 sc ++ zeroPadded 3 ce ++ zeroPadded 2 v ++ zeroPadded 2 l ++ ascii ".txt"

/-- The long form of the name of a BUFR table. -/
def bufrTableLongName (mt sc ce v l : Nat) : List Byte :=
  ascii "B00" ++ zeroPadded 3 mt ++ zeroPadded 4 sc ++ zeroPadded 4 ce ++ zeroPadded 3 v ++
    zeroPadded 3 l ++ ascii ".txt"

/-- What can be asked of a set of table directories. -/
inductive DirOp where
  | add (dir : List Byte)
  | bufr (id : BufrTableID)
  | crex (id : CrexTableID)

end Wreport.Spec
