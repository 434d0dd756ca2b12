import Verif.Model.Ruby
import Verif.Spec.Filter
import Verif.Spec.Pos

/-! What the hashes of `NatalieParser.tokens` tell: an entry is there exactly if the token has the data. -/

namespace NP.Spec

/-- The types whose text is given as a symbol. -/
def namesThing : List Ttype :=
  [.BackRef, .BareName, .ClassVariable, .Constant, .GlobalVariable, .InstanceVariable, .OperatorName, .Symbol, .SymbolKey]

/-- The hash tells the type of the token, its text or number (and as what kind of value), and, if asked for, its place. -/
structure Describes (loc : Bool) (t : Token) (h : RHash) : Prop where
  type : ∃ ty, t.type.value = some ty ∧ h.lookup (cs! "type") = some (.sym ty)
  text : ∀ s, h.lookup (cs! "literal") = some (.str s) ↔ t.type ∈ [Ttype.Bignum, .String] ∧ t.lit = some s
  name : ∀ s, h.lookup (cs! "literal") = some (.sym s) ↔ t.type ∈ namesThing ∧ t.lit = some s
  number : ∀ n, h.lookup (cs! "literal") = some (.int n) ↔ t.type ∈ [Ttype.Fixnum, .NthRef] ∧ t.fix = n
  float : ∀ s, h.lookup (cs! "literal") = some (.float s) ↔ t.type = .Float ∧ t.flt = s
  options : ∀ v, h.lookup (cs! "options") = some v ↔ t.type = .InterpolatedRegexpEnd ∧ ∃ s, t.lit = some s ∧ v = .str s
  line : h.lookup (cs! "line") = if loc then some (.int t.line) else none
  column : h.lookup (cs! "column") = if loc then some (.int t.col) else none
  keys : ∀ e ∈ h, e.1 ∈ [cs! "type", cs! "literal", cs! "options", cs! "line", cs! "column"]

/-- A token with a name that is not UTF-8. -/
def BadName (t : Token) : Prop := t.type ∈ namesThing ∧ ∃ s, t.lit = some s ∧ isUtf8 s = false

/-- The same array without the places. -/
def dropPlaces (h : RHash) : RHash := h.filter fun e => e.1 != cs! "line" && e.1 != cs! "column"

/-- The same outcome without the places. -/
def withoutPlaces : ROut (List RHash) → ROut (List RHash)
  | .value hs => .value (hs.map dropPlaces)
  | r => r

/-- The hashes tell the lines and columns of offsets of the source that never decrease, from `lo` on. -/
def Located (src : Str) : Nat → List RHash → Prop
  | _, [] => True
  | lo, h :: hs => ∃ i, lo ≤ i ∧ h.lookup (cs! "line") = some (.int (lineAt src i)) ∧
      h.lookup (cs! "column") = some (.int (colAt src i)) ∧ Located src i hs

end NP.Spec
