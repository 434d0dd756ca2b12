import Verif.Model.Node

/-!
The state of `Parser` (include/natalie_parser/parser.hpp:236-242), the ways in which one of its functions can end, and
the functions that read and move the token position.

The token vector and `m_index` are a zipper: `prev` are the tokens before the index (last first), `rest` the tokens
from the index on. The hash map of local variables is passed by reference from function to function in C++; here the
map in use is part of the state, and a function that passes on another map sets and restores it.
-/

namespace NP

/-- src/parser.cpp:6-47 `Parser::Precedence`. -/
inductive Prec where
  | LOWEST | ARRAY | WORD_ARRAY | HASH | CASE | COMPOSITION | EXPR_MODIFIER | TERNARY_FALSE | ASSIGNMENT_RHS
  | INLINE_RESCUE | ITER_BLOCK | BARE_CALL_ARG | OP_ASSIGNMENT_RHS | TERNARY_TRUE | CALL_ARG | TERNARY_QUESTION
  | LOGICAL_OR | LOGICAL_AND | ASSIGNMENT_LHS | SPLAT | RANGE | LOGICAL_NOT | EQUALITY | LESS_GREATER
  | OP_ASSIGNMENT_LHS | BITWISE_OR | BITWISE_AND | BITWISE_SHIFT | DEF_ARG | SUM | PRODUCT | NUMBER_DOT | UNARY_MINUS
  | EXPONENT | UNARY_PLUS | ITER_CURLY | CONSTANT_RESOLUTION | DOT | CALL | REF
  deriving DecidableEq, Repr

/-- `p > q` on the enumeration. -/
def Prec.higher (p q : Prec) : Bool := q.ctorIdx < p.ctorIdx

/-- include/natalie_parser/parser.hpp:52-56 `Parser::IterAllow`. -/
inductive IterAllow where
  | NONE | CURLY_ONLY | CURLY_AND_BLOCK
  deriving DecidableEq, Repr

/-- include/natalie_parser/parser.hpp:102-106 `Parser::ArgsContext`. -/
inductive ArgsContext where
  | Block | Method | Proc
  deriving DecidableEq, Repr

/-- `m_code` and `m_file`. -/
structure Cx where
  code : Str
  file : Str
  deriving DecidableEq, Repr

/-- The members of `Parser` that change, and the map of local variables in use. -/
structure PS where
  prev : List Token := []
  rest : List Token
  depth : List Nat := [0]
  precs : List Prec := []
  locals : List Str := []
  deriving DecidableEq, Repr

/-- `Parser::SyntaxError`, by the place that throws it. `excerpt` is the source line quoted in the message. -/
inductive SErr where
  /-- src/parser.cpp:3122-3174 `throw_error` (`isError`) and `throw_unexpected`. -/
  | unexpected (t : Token) (isError : Bool) (help excerpt : Str)
  /-- src/parser.cpp:3176-3230 `throw_unterminated_thing`. -/
  | unterminated (t start : Token) (thing excerpt : Str)
  /-- src/parser.cpp:3251-3260, the first three cases of `validate_current_token`. -/
  | invalid (t : Token)
  /-- `throw SyntaxError { … }` with a fixed text. -/
  | plain (msg : Str)
  deriving DecidableEq, Repr

/-- How a function of the parser ends. `err`: a `SyntaxError` is thrown. `abort`: TM_UNREACHABLE, a failed assertion.
`ub`: undefined behaviour (a null `const char *` is formatted, the last element of an empty vector is used).
`overrun`: the index is moved out of the token vector (shown not to happen). `fuel`: the recursion bound of the model
was exhausted (shown not to happen). -/
inductive PRes (α : Type) where
  | ok (a : α) (s : PS)
  | err (e : SErr)
  | abort
  | ub
  | overrun
  | fuel

/-- A function of `Parser`. -/
def P (α : Type) : Type := Cx → PS → PRes α

namespace P

def pure {α : Type} (a : α) : P α := fun _ s => .ok a s

def bind {α β : Type} (p : P α) (f : α → P β) : P β := fun c s =>
  match p c s with
  | .ok a s' => f a c s'
  | .err e => .err e
  | .abort => .abort
  | .ub => .ub
  | .overrun => .overrun
  | .fuel => .fuel

instance : Monad P where
  pure := P.pure
  bind := P.bind

def abort {α : Type} : P α := fun _ _ => .abort
def ub {α : Type} : P α := fun _ _ => .ub
def fuel {α : Type} : P α := fun _ _ => .fuel

/-- Read the state. -/
def get : P PS := fun _ s => .ok s s

/-- Change the state. -/
def modify (f : PS → PS) : P Unit := fun _ s => .ok () (f s)

/-- `throw SyntaxError { … }`. -/
def throw {α : Type} (e : SErr) : P α := fun _ _ => .err e

end P

/-- src/parser.cpp:3093-3097 `current_token`. -/
def PS.cur (s : PS) : Token := s.rest.headD {}
/-- src/parser.cpp:3099-3103 `peek_token`. -/
def PS.peek (s : PS) : Token := s.rest.tail.headD {}
/-- src/parser.cpp:3087-3091 `previous_token`. -/
def PS.prevTok (s : PS) : Token := s.prev.headD {}

/-- `current_token()`. -/
def cur : P Token := fun _ s => .ok s.cur s
/-- `current_token().type()`. -/
def curTy : P Ttype := fun _ s => .ok s.cur.type s
/-- `peek_token()`. -/
def peek : P Token := fun _ s => .ok s.peek s
/-- `previous_token()`. -/
def prevTok : P Token := fun _ s => .ok s.prevTok s

/-- include/natalie_parser/parser.hpp:228 `advance`. -/
def advance : P Unit := fun _ s =>
  match s.rest with
  | [] => .overrun
  | t :: ts => .ok () { s with prev := t :: s.prev, rest := ts }

/-- include/natalie_parser/parser.hpp:229 `rewind`. -/
def rewind : P Unit := fun _ s =>
  match s.prev with
  | [] => .overrun
  | t :: ts => .ok () { s with prev := ts, rest := t :: s.rest }

/-- `m_tokens->insert(m_index, Token { Newline, … })` with the position of `t` (src/parser.cpp:295, 2697). -/
def insertNewline (t : Token) : P Unit :=
  P.modify fun s => { s with rest := { type := .Newline, line := t.line, col := t.col, ws := t.ws } :: s.rest }

/-- src/parser.cpp:3112-3115 `skip_newlines`. -/
def skipNewlines : P Unit := fun _ s =>
  let rec go : List Token → List Token → List Token × List Token
    | prev, [] => (prev, [])
    | prev, t :: ts => if t.type.isEndOfLine then go (t :: prev) ts else (prev, t :: ts)
  let r := go s.prev s.rest
  .ok () { s with prev := r.1, rest := r.2 }

/-- src/parser.cpp:3232-3245 `code_line`. -/
def codeLine (code : Str) (number : Nat) : Str :=
  let rec go : Str → Nat → Str → Str
    | [], _, buf => buf
    | c :: cs, line, buf =>
      if line = number ∧ c ≠ '\n' then go cs line (buf ++ [c])
      else if number < line then buf
      else go cs (if c = '\n' then line + 1 else line) buf
  go code 0 []

/-- src/parser.cpp:3126-3170 `throw_unexpected(token, expected, error)`. A token of type `Invalid` without a literal
(the token past the end of the vector) makes it format a null pointer. -/
def throwTok {α : Type} (t : Token) (isError : Bool) (help : Str) : P α := fun c s =>
  if t.type = .Invalid ∧ t.lit = none then .ub
  else .err (.unexpected t isError help (codeLine c.code s.cur.line))

/-- src/parser.cpp:3172-3174 `throw_unexpected(expected)`. -/
def throwUnexpected {α : Type} (help : Str) : P α := fun c s => throwTok s.cur false help c s

/-- src/parser.cpp:3122-3124 `throw_error`. -/
def throwError {α : Type} (t : Token) (help : Str) : P α := throwTok t true help

/-- src/parser.cpp:3117-3120 `expect`. -/
def expect (ty : Ttype) (help : Str) : P Unit := do
  if (← curTy) = ty then pure () else throwUnexpected help

/-- src/parser.cpp:3105-3110 `next_expression`. -/
def nextExpression : P Unit := do
  if (← curTy).isEndOfExpression then skipNewlines else throwUnexpected (cs! "end-of-line")

/-- src/parser.cpp:3198-3220, the word for what is not terminated (`none`: TM_UNREACHABLE). -/
def unterminatedThing : Ttype → Option Str
  | .InterpolatedRegexpBegin | .UnterminatedRegexp => some (cs! "regexp")
  | .InterpolatedShellBegin => some (cs! "shell")
  | .InterpolatedStringBegin | .String | .UnterminatedString => some (cs! "string")
  | .InterpolatedSymbolBegin => some (cs! "symbol")
  | .UnterminatedWordArray => some (cs! "word array")
  | _ => none

/-- src/parser.cpp:3176-3230 `throw_unterminated_thing`. -/
def throwUnterminated {α : Type} (t start : Token) : P α := fun c _ =>
  let start := if start.type.isValid then start else t
  match unterminatedThing t.type with
  | some thing => .err (.unterminated t start thing (codeLine c.code start.line))
  | none => .abort

/-- src/parser.cpp:3251-3271 `validate_current_token`. -/
def validateCurrent : P Unit := do
  let t ← cur
  match t.type with
  | .Invalid | .InvalidUnicodeEscape | .InvalidCharacterEscape => P.throw (.invalid t)
  | .UnterminatedRegexp | .UnterminatedString | .UnterminatedWordArray => throwUnterminated t {}
  | ty => if ty.value.isSome then pure () else P.abort

/-- `token.literal_string()`: asserts that there is a literal (include/natalie_parser/token.hpp:246-249). -/
def litOf (t : Token) : P Str :=
  match t.lit with
  | some s => pure s
  | none => P.abort

/-- `String(token.type_value())` for tokens that have a type value. -/
def tyValue (t : Ttype) : Str := t.value.getD []

/-- `m_call_depth.push(0)`. -/
def pushDepth : P Unit := P.modify fun s => { s with depth := 0 :: s.depth }

/-- `m_call_depth.pop()`. -/
def popDepth : P Unit := fun _ s =>
  match s.depth with
  | [] => .ub
  | _ :: ds => .ok () { s with depth := ds }

/-- `m_call_depth.last()++` and `m_call_depth.last()--` (`unsigned int`). -/
def bumpDepth (by_ : Nat) : P Unit := fun _ s =>
  match s.depth with
  | [] => .ub
  | d :: ds => .ok () { s with depth := (d + by_) % 4294967296 :: ds }

def incDepth : P Unit := bumpDepth 1
def decDepth : P Unit := bumpDepth 4294967295

/-- `m_precedence_stack.push(p)`. -/
def pushPrec (p : Prec) : P Unit := P.modify fun s => { s with precs := p :: s.precs }

/-- `m_precedence_stack.pop()`. -/
def popPrec : P Unit := fun _ s =>
  match s.precs with
  | [] => .ub
  | _ :: ps => .ok () { s with precs := ps }

/-- `locals.set(name)`. -/
def addLocal (name : Str) : P Unit := P.modify fun s => { s with locals := name :: s.locals }

/-- Run a function with another map of local variables. -/
def withLocals {α : Type} (ls : List Str) (p : P α) : P α := do
  let s ← P.get
  P.modify fun s => { s with locals := ls }
  let a ← p
  P.modify fun s' => { s' with locals := s.locals }
  pure a

/-- What one run of the body of a loop does. -/
inductive Loop (σ α : Type) where
  | again (x : σ)
  | done (a : α)

/-- A `while` loop with loop variables `x`, bounded by fuel. -/
def loop {σ α : Type} (body : σ → P (Loop σ α)) : Nat → σ → P α
  | 0, _ => P.fuel
  | n + 1, x => do
    match ← body x with
    | .again y => loop body n y
    | .done a => pure a

end NP
