import Verif.Model.Tokens

/-!
Brackets of a program: which tokens open something, which close it, and when a list of tokens is balanced.
-/

namespace NP.Spec

/-- `c` closes what `o` opens. -/
def closes : Ttype → Ttype → Bool
  | .LParen, .RParen | .LCurlyBrace, .RCurlyBrace => true
  | .LBracket, .RBracket | .PercentLowerW, .RBracket | .PercentUpperW, .RBracket | .PercentLowerI, .RBracket
  | .PercentUpperI, .RBracket => true
  | .EvaluateToStringBegin, .EvaluateToStringEnd | .InterpolatedStringBegin, .InterpolatedStringEnd
  | .InterpolatedSymbolBegin, .InterpolatedSymbolEnd | .InterpolatedRegexpBegin, .InterpolatedRegexpEnd
  | .InterpolatedShellBegin, .InterpolatedShellEnd => true
  | .BeginKeyword, .EndKeyword | .CaseKeyword, .EndKeyword | .ClassKeyword, .EndKeyword | .ModuleKeyword, .EndKeyword
  | .ForKeyword, .EndKeyword | .DefKeyword, .EndKeyword | .DoKeyword, .EndKeyword | .IfKeyword, .EndKeyword
  | .UnlessKeyword, .EndKeyword | .WhileKeyword, .EndKeyword | .UntilKeyword, .EndKeyword => true
  | _, _ => false

/-- Tokens that open something that must be closed, except the ones with `end`. -/
def isOpen : Ttype → Bool
  | .LParen | .LCurlyBrace | .LBracket | .PercentLowerW | .PercentUpperW | .PercentLowerI | .PercentUpperI
  | .EvaluateToStringBegin | .InterpolatedStringBegin | .InterpolatedSymbolBegin | .InterpolatedRegexpBegin
  | .InterpolatedShellBegin => true
  | _ => false

/-- Tokens that close something, except `end`. -/
def isClose : Ttype → Bool
  | .RParen | .RCurlyBrace | .RBracket | .EvaluateToStringEnd | .InterpolatedStringEnd | .InterpolatedSymbolEnd
  | .InterpolatedRegexpEnd | .InterpolatedShellEnd => true
  | _ => false

/-- Keywords that always go together with an `end`. (`if`, `unless`, `while`, `until`, `do` and `def` do not always.) -/
def needsEnd : Ttype → Bool
  | .BeginKeyword | .CaseKeyword | .ClassKeyword | .ModuleKeyword | .ForKeyword => true
  | _ => false

/-- Tokens that neither have to be closed nor close something. -/
def isPlain (t : Ttype) : Bool := !isOpen t && !isClose t && !needsEnd t && t != .EndKeyword

/-- The next token can be a keyword in the place of a name; `l` are the tokens before it, the last one first. -/
inductive NamePos : List Token → Prop where
  /-- after `.`, `&.`, `::`, `def`, `alias`, `undef`, `**` -/
  | after (t : Token) (l : List Token)
      (h : t.type ∈ [.Dot, .SafeNavigation, .ConstantResolution, .DefKeyword, .AliasKeyword, .UndefKeyword, .StarStar]) :
      NamePos (t :: l)
  /-- the second name of `alias` -/
  | second (x a : Token) (l : List Token) (hx : x.type ≠ .Newline) (h : a.type = .AliasKeyword) : NamePos (x :: a :: l)
  /-- the second name of `alias`, after a dynamic symbol -/
  | dynamic (x a : Token) (m l : List Token) (hx : x.type = .InterpolatedSymbolEnd) (h : a.type = .AliasKeyword) :
      NamePos (x :: m ++ a :: l)
  /-- the further names of `undef` -/
  | further (x a : Token) (m l : List Token) (hx : x.type = .Comma) (h : a.type = .UndefKeyword) :
      NamePos (x :: m ++ a :: l)

/-- After the tokens `l` (the last one first) the things opened by `st` (the innermost one first) are open. -/
inductive Opened : List Ttype → List Token → Prop where
  | nil : Opened [] []
  | plain {st : List Ttype} {l : List Token} (t : Token) (h : isPlain t.type = true) : Opened st l → Opened st (t :: l)
  | opens {st : List Ttype} {l : List Token} (t : Token) (c : Ttype) (h : closes t.type c = true) :
      Opened st l → Opened (t.type :: st) (t :: l)
  | closed {st : List Ttype} {l : List Token} (t : Token) (o : Ttype) (h : closes o t.type = true) :
      Opened (o :: st) l → Opened st (t :: l)
  | name {st : List Ttype} {l : List Token} (t : Token) (h : t.type.isKeyword = true) (hp : NamePos l) :
      Opened st l → Opened st (t :: l)

/-- Every bracket and every `end` has its counterpart, properly nested. -/
def Balanced (ts : List Token) : Prop := Opened [] ts.reverse

/-- The brackets other than keywords, read with a stack; `none` if one does not fit. -/
def readBrackets : List Ttype → List Ttype → Option (List Ttype)
  | st, [] => some st
  | st, t :: ts =>
    if isOpen t then readBrackets (t :: st) ts
    else if isClose t then
      match st with
      | o :: st' => if closes o t then readBrackets st' ts else none
      | [] => none
    else readBrackets st ts

end NP.Spec
