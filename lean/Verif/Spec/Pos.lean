import Verif.Model.Token

/-! Source positions. -/

namespace NP.Spec

/-- Number of the line (from 0) of offset `i` of a text. -/
def lineAt (s : Str) (i : Nat) : Nat := (s.take i).count '\n'

/-- Distance of offset `i` from the beginning of its line. Offsets behind the end count on in the last line. -/
def colAt (s : Str) (i : Nat) : Nat := ((s.take i).reverse.takeWhile (· != '\n')).length + (i - s.length)

/-- The token carries the position of offset `i`. -/
def TokenAt (s : Str) (i : Nat) (t : Token) : Prop := t.line = lineAt s i ∧ t.col = colAt s i

/-- The tokens that are not marked carry positions of the source at offsets that never decrease, from `lo` on. -/
def Positions (src : Str) : Nat → List (Token × Bool) → Prop
  | _, [] => True
  | lo, (_, true) :: ts => Positions src lo ts
  | lo, (t, false) :: ts => ∃ i, lo ≤ i ∧ TokenAt src i t ∧ Positions src i ts

end NP.Spec
