import Verif.Model.Parser
import Verif.Model.Tokens

/-! Parsing of a source: how it can end. -/

namespace NP

/-- `Parser(code, file).tree()` on the source `src` ends in the outcome `r`: the lexer fails, or the parser ends so on
the vector of tokens. -/
inductive Parses (src file : Str) : PRes Node → Prop where
  | tokens (ts : List Token) (h : Lexes src ts) : Parses src file (parseToks ⟨src, file⟩ ts)
  | abort (h : Ends src .abort) : Parses src file .abort
  | ub (h : Ends src .ub) : Parses src file .ub

namespace Spec

/-- The call returned a tree, or it raised an error. -/
def TreeOrError : PRes Node → Prop
  | .ok _ _ => True
  | .err _ => True
  | _ => False

/-- The call returned a tree, raised an error, or the process was stopped by an assertion. -/
def Stops : PRes Node → Prop
  | .ok _ _ => True
  | .err _ => True
  | .abort => True
  | _ => False

end Spec
end NP
