import Verif.Spec.Grammar
import Verif.Spec.Lines

/-! The texts of the programs of `Verif/Spec/Grammar.lean`. -/

namespace NP.Gram
open Spec

/-- A line end or a semicolon. -/
def EndPart : Part → Prop
  | .line _ => True
  | .tok i => i.p = semi.p
  | _ => False

/-- The part may stand for the token: it is the token, with a blank in front of it if one is required and without one if
none is allowed; or it is a line end for a semicolon, or a line end or a semicolon for a `then`. -/
def Fills (w : Want) : Part → Prop
  | .tok i => (i.p = w.p ∨ w.p.type = .ThenKeyword ∧ i.p = semi.p) ∧ ∀ b, w.ws = some b → i.ws = b
  | .line _ => w.ws = none ∧ (w.p = semi.p ∨ w.p = .fixed (cs! "then") .ThenKeyword)
  | _ => False

/-- The parts are the tokens, with more line ends and semicolons where they are allowed. -/
inductive Match : List Want → List Part → Prop where
  | nil : Match [] []
  | cons {w : Want} {p : Part} {es : List Part} {ws : List Want} {ps : List Part} : Fills w p → (∀ e ∈ es, EndPart e) →
    (es = [] ∨ breaks w ws = true) → Match ws ps → Match (w :: ws) (p :: (es ++ ps))

/-- The text consists of the tokens of the program: with blanks where they are required and, anywhere else, with or without;
with line ends where they do not count and, instead of or in addition to semicolons, between statements; and with
comments. -/
def Writes (ss : Ex .sts) (ps : List Part) : Prop :=
  ∃ es qs, visible .Invalid ps = es ++ qs ∧ (∀ e ∈ es, EndPart e) ∧ Match (toks none ss) qs

/-- One way to write it: blanks wherever they are allowed. -/
def spaced (ss : Ex .sts) : List Item := (toks none ss).map fun w => ⟨if w.ws = some false then [] else [' '], w.p⟩

/-- Its names, numbers and strings can be written: the names are names and so on. -/
def Legal : Piece → Prop
  | .fixed _ _ => True
  | .name x | .gvar x | .key x => IsName x
  | .const x => IsConst x
  | .int n => n < 2 ^ 62
  | .str s => ∀ c ∈ s, c ≠ '\'' ∧ c ≠ '\\' ∧ c ≠ NUL
  | .sym x => SymbolText x []
  | .ivar x | .cvar x => (∀ c ∈ x, nameByte c = true) ∧ x ≠ []

/-- A program that can stand alone. -/
def Program (ss : Ex .sts) : Prop := WF [] ss = true ∧ after ss .Eof = true

end NP.Gram
