import Verif.Spec.TableText
import Verif.Model.ImportTable

/-! # What imported tables say

The tables of the WMO list elements with texts and numbers, and members of sequences one by
one. -/

namespace Wreport.Spec

/-- Printable characters of ASCII. -/
def PlainText (s : List Char) : Prop := ∀ c ∈ s, 32 ≤ c.toNat ∧ c.toNat < 127

/-- The bytes of a plain text. -/
def plainBytes (s : List Char) : List Byte := s.map fun c => UInt8.ofNat c.toNat

/-- Capital letters for small ones. -/
def capital (b : Byte) : Byte := if 97 ≤ b.toNat ∧ b.toNat ≤ 122 then b - 32 else b

/-- Units are in capitals, and there is another name for text. -/
def importedUnit (u : List Char) : List Byte :=
  let v := (plainBytes u).map capital
  if v = ascii "CCITT IA5" then ascii "CCITTIA5" else v

/-- `s` is six digits: F, X and Y. -/
def SixDigits (s : List Char) (f x y : Nat) : Prop :=
  PlainText s ∧ IsDescriptorText (plainBytes s) f x y ∧ (plainBytes s).head? = some (UInt8.ofNat (48 + f))

/-- A unit that fits in its column. -/
def UnitFits (u : List Byte) : Prop := u.length < 24 ∧ u.getLast? ≠ some 32

/-- What an element says in the columns of BUFR and of CREX, which may be missing, if it is
plain text and the numbers are not too big for their columns or for the library. -/
structure ElementSays (e : Import.BEntry) (r : BufrRow) (c : Option CrexRow) : Prop where
  code : SixDigits e.FXY 0 r.x r.y
  name : ∃ n, (e.ElementName_en = some n ∨ e.ElementName_en = none ∧ e.ElementName_E = some n) ∧
    PlainText n
  unit : PlainText e.BUFR_Unit ∧ r.unit = importedUnit e.BUFR_Unit ∧ UnitFits r.unit
  scale : e.BUFR_Scale = r.scale ∧ -16 ≤ r.scale ∧ r.scale ≤ 16
  ref : e.BUFR_ReferenceValue = r.ref ∧ -1073741824 ≤ r.ref ∧ r.ref ≤ 1073741824
  bits : e.BUFR_DataWidth_Bits = r.bits ∧ r.bits < 1000
  crex : ∀ d ∈ c, d.x = r.x ∧ d.y = r.y ∧ UnitFits d.unit ∧
    (∃ u, e.CREX_Unit = some u ∧ PlainText u ∧ d.unit = (plainBytes u).map capital) ∧
    e.CREX_Scale = some d.scale ∧ -9 ≤ d.scale ∧ d.scale ≤ 16 ∧
    e.CREX_DataWidth_Char = some (d.len : Int) ∧ d.len < 10000000
  nocrex : c = none → e.CREX_Unit = none ∨ e.CREX_Scale = none ∨ e.CREX_DataWidth_Char = none

/-- The column of a member of a sequence list: texts and what they stand for. -/
structure PairSays (p : List Char × List Char) (r : (Nat × Nat) × (Nat × Nat × Nat)) : Prop where
  key : SixDigits p.1 3 r.1.1 r.1.2
  plain : PlainText p.2
  member : IsDescriptorText (plainBytes p.2) r.2.1 r.2.2.1 r.2.2.2

end Wreport.Spec
