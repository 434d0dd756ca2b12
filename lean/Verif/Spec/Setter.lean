import Verif.Spec.Nesting

/-! Where names of setters (`name=`) may be read as one token. -/

namespace NP.Spec

/-- A name that ends in `=`. -/
def SetterName (t : Token) : Prop := (t.type = .BareName ∨ t.type = .Constant) ∧ ∃ n, t.lit = some (n ++ ['='])

/-- Tokens after which method names are expected. -/
def expectsName : Ttype → Bool
  | .DefKeyword | .ConstantResolution | .AliasKeyword | .UndefKeyword => true
  | _ => false

/-- Tokens that take part in a list of (qualified) method names or in a literal. -/
def inNames : Ttype → Bool
  | .Dot | .Comma | .String | .RBracket | .InterpolatedStringBegin | .EvaluateToStringBegin => true
  | t => isCloser t

/-- The reach of `def`, `::`, `alias` and `undef`: `some n` while method names are expected, with the number `n` of
tokens in a row that are no part of a list of names; three of them end it. -/
def reach (r : Option Nat) (t : Ttype) : Option Nat :=
  if expectsName t then some 0
  else if inNames t then r.map fun _ => 0
  else match r with
    | some 0 => some 1
    | some 1 => some 2
    | _ => none

/-- Method names are expected after the tokens `ts`. -/
def NamesExpected (ts : List Token) : Prop := (ts.map (·.type)).foldl reach none ≠ none

instance (ts : List Token) : Decidable (NamesExpected ts) := inferInstanceAs (Decidable (_ ≠ _))

end NP.Spec
