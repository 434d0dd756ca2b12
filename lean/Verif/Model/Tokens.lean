import Verif.Model.Lexer

/-!
`Lexer::next_token` with nested lexers and `Lexer::tokens`.

A lexer object and the chain of its nested lexers is a non-empty list, innermost object first; the last element is
the object on which `tokens()` was called.
-/

namespace NP

/-- src/lexer.cpp:65-119 `Lexer::next_token`, for the innermost object `l` with enclosing objects `ps`. When `l`
answers `Eof` it is deleted, its parent takes over the cursor and goes on. -/
def nextToken (l : Lx) : List Lx → Res (Token × List Lx)
  | [] =>
    match l.step with
    | .ok o => .ok (o.tok, o.child.toList ++ [o.lx])
    | .abort => .abort
    | .ub => .ub
    | .fuel => .fuel
  | p :: ps =>
    match l.step with
    | .ok o =>
      if o.tok.type = .Eof then nextToken (p.sync o.lx) ps
      else .ok (o.tok, o.child.toList ++ o.lx :: p :: ps)
    | .abort => .abort
    | .ub => .ub
    | .fuel => .fuel

/-- The variables of `tokens()` (src/lexer.cpp:14-16): the vector (last element first), `skip_next_newline` and the
literal of `last_doc_token` (`none`: no valid token). -/
structure Filt where
  out : List Token := []
  skip : Bool := false
  lastDoc : Option Str := none
  deriving DecidableEq, Repr

/-- src/lexer.cpp:39-40: newlines popped before certain tokens. -/
def popNewlines (out : List Token) : List Token := out.dropWhile fun t => t.type == .Newline

/-- src/lexer.cpp:19-61: one iteration of `tokens()` after `next_token()`. The second component is the token pushed,
if one is. -/
def Filt.step (f : Filt) (t : Token) : Filt × Option Token :=
  if t.type = .Comment then (f, none)
  else if t.type = .Doc then
    match f.lastDoc with
    | some d => ({ f with lastDoc := some (d ++ t.lit.getD []) }, none)
    | none => ({ f with lastDoc := some (t.lit.getD []) }, none)
  else if f.skip ∧ t.type = .Newline then (f, none)
  else
    let out := if t.type.canFollowCollapsibleNewline then popNewlines f.out else f.out
    let (t', doc) : Token × Option Str :=
      match f.lastDoc with
      | some d =>
        if t.type.canHaveDoc then ({ t with doc := some d }, none)
        else if t.type.isEndOfLine then (t, some d)
        else (t, none)
      | none => (t, none)
    ({ out := t' :: out, skip := t'.type.canPrecedeCollapsibleNewline, lastDoc := doc }, some t')

/-- src/lexer.cpp:53: `m_last_token` of the outermost object. -/
def setLast (t : Ttype) : List Lx → List Lx
  | [] => []
  | [l] => [{ l with lastType := t }]
  | l :: m :: ls => l :: setLast t (m :: ls)

/-- src/lexer.cpp:17-61, the loop of `tokens()`. -/
def tokensLoop : Nat → Lx → List Lx → Filt → Res (List Token)
  | 0, _, _, _ => .fuel
  | fuel + 1, l, ps, f =>
    match nextToken l ps with
    | .ok (t, stack) =>
      match f.step t with
      | (f', none) =>
        match stack with
        | [] => .abort
        | l' :: ps' => tokensLoop fuel l' ps' f'
      | (f', some t') =>
        if t'.type = .Eof ∨ !t'.type.isValid then .ok f'.out.reverse
        else
          match setLast t'.type stack with
          | [] => .abort
          | l' :: ps' => tokensLoop fuel l' ps' f'
    | .abort => .abort
    | .ub => .ub
    | .fuel => .fuel

/-- The object created by `Lexer { input, file }` (include/natalie_parser/lexer.hpp:11-14). -/
def Lx.init (src : Str) : Lx := { input := src }

/-- src/lexer.cpp:13-63 `Lexer::tokens` with a bound on the number of iterations. -/
def tokensFuel (fuel : Nat) (src : Str) : Res (List Token) := tokensLoop fuel (Lx.init src) [] {}

/-- The raw token stream: what the calls `next_token()` of src/lexer.cpp:18 return in turn while `tokens()` runs. -/
def rawLoop : Nat → Lx → List Lx → Filt → List Token
  | 0, _, _, _ => []
  | fuel + 1, l, ps, f =>
    match nextToken l ps with
    | .ok (t, stack) =>
      match f.step t with
      | (f', none) =>
        match stack with
        | [] => [t]
        | l' :: ps' => t :: rawLoop fuel l' ps' f'
      | (f', some t') =>
        if t'.type = .Eof ∨ !t'.type.isValid then [t]
        else
          match setLast t'.type stack with
          | [] => [t]
          | l' :: ps' => t :: rawLoop fuel l' ps' f'
    | _ => []

/-- The raw token stream of a source. -/
def rawFuel (fuel : Nat) (src : Str) : List Token := rawLoop fuel (Lx.init src) [] {}

/-- `tokens()` on the source `src` ends with the outcome `r` after finitely many iterations. -/
def Ends (src : Str) (r : Res (List Token)) : Prop := ∃ fuel, tokensFuel fuel src = r ∧ r ≠ .fuel

/-- `tokens()` on the source `src` returns the vector `ts`. -/
def Lexes (src : Str) (ts : List Token) : Prop := Ends src (.ok ts)

/-- The types of the tokens returned (for examples). -/
def Res.types : Res (List Token) → List Ttype
  | .ok ts => ts.map (·.type)
  | _ => []

/-- Types and literals of the tokens returned (for examples). -/
def Res.lits : Res (List Token) → List (Ttype × Option Str)
  | .ok ts => ts.map fun t => (t.type, t.lit)
  | _ => []

end NP
