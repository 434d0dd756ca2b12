import Verif.Model.Token

/-! What it means that the begin and end tokens of literals are properly nested. -/

namespace NP.Spec

/-- The type of the token that closes what a token of the given type opens. Word arrays are closed by the same token
as `[ ]`. -/
def closer : Ttype → Option Ttype
  | .InterpolatedStringBegin => some .InterpolatedStringEnd
  | .InterpolatedShellBegin => some .InterpolatedShellEnd
  | .InterpolatedSymbolBegin => some .InterpolatedSymbolEnd
  | .InterpolatedRegexpBegin => some .InterpolatedRegexpEnd
  | .EvaluateToStringBegin => some .EvaluateToStringEnd
  | .PercentLowerW | .PercentUpperW | .PercentLowerI | .PercentUpperI => some .RBracket
  | _ => none

/-- Tokens that can only close something. -/
def isCloser : Ttype → Bool
  | .InterpolatedStringEnd | .InterpolatedShellEnd | .InterpolatedSymbolEnd | .InterpolatedRegexpEnd
  | .EvaluateToStringEnd => true
  | _ => false

/-- What is still to be closed (innermost first) after one more token; `none`: a token closes something that is not
open, or not the innermost. -/
def track (opened : List Ttype) (t : Ttype) : Option (List Ttype) :=
  match closer t with
  | some e => some (e :: opened)
  | none => if opened.head? = some t then some opened.tail else if isCloser t then none else some opened

def trackAll (opened : List Ttype) : List Ttype → Option (List Ttype)
  | [] => some opened
  | t :: ts => (track opened t).bind fun o => trackAll o ts

/-- Begin and end tokens match like brackets. -/
def Nested (ts : List Token) : Prop := trackAll [] (ts.map (·.type)) = some []

instance (ts : List Token) : Decidable (Nested ts) := inferInstanceAs (Decidable (_ = _))

end NP.Spec
