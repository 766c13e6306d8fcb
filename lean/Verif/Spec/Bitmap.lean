import Verif.Spec.Interp

/-! # What data present bitmaps promise -/

namespace Wreport.Spec

/-- Positions of the elements among the first `anchor` variables, in data order. -/
def elementsBefore (codes : List Varcode) (anchor : Nat) : List Nat :=
  (List.range anchor).filter fun p => (codes[p]?).any fun c => WR_VAR_F c = 0

/-- Positions selected by a bitmap: its characters stand for the last elements
before the anchor, in data order; `+` is present. -/
def selected (codes : List Varcode) (anchor : Nat) (text : List Byte) : List Nat :=
  let elems := elementsBefore codes anchor
  (((elems.drop (elems.length - text.length)).zip text).filter fun p => p.2 = 43).map (·.1)

/-- Taking `n` positions from the bitmap in use. -/
def draws (n : Nat) (b : Bitmaps) : Res (List Nat × Bitmaps) :=
  match n with
  | 0 => .ok ([], b)
  | n + 1 => do
    let r ← b.next
    let r' ← draws n r.2
    return (r.1 :: r'.1, r'.2)

end Wreport.Spec
