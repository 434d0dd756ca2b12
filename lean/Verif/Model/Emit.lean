import Verif.Model.Tokens

/-!
How a run of tokens comes out of a stack of lexer objects: the part of the loop of `tokens()` (src/lexer.cpp:17-61)
that concerns the lexer objects, for tokens that `tokens()` neither drops nor stops at.
-/

namespace NP

/-- `next_token` for a stack of lexer objects, innermost first. -/
def next : List Lx → Res (Token × List Lx)
  | [] => .abort
  | l :: ps => nextToken l ps

/-- Tokens that `tokens()` always appends to its vector and goes on after. -/
def plainType (t : Ttype) : Bool := t != .Comment && t != .Doc && t != .Newline && t != .Eof && t.isValid

/-- `Emits st ts st'`: the stack `st` produces the tokens `ts`; from then on it behaves like the stack `st'`. -/
inductive Emits : List Lx → List Token → List Lx → Prop where
  | done (st : List Lx) : Emits st [] st
  | token (st st1 st' : List Lx) (t : Token) (ts : List Token) (h : next st = .ok (t, st1)) (hp : plainType t.type = true)
      (hs : Emits (setLast t.type st1) ts st') : Emits st (t :: ts) st'
  | same (st st1 st' : List Lx) (ts : List Token) (h : next st = next st1) (hs : Emits st1 ts st') : Emits st ts st'

/-- Type and literal. -/
def Token.key (t : Token) : Ttype × Option Str := (t.type, t.lit)

end NP
