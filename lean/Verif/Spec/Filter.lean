import Verif.Model.Token

/-!
What a consumer may expect of the token vector in terms of the raw token stream (all tokens including comments).
These definitions do not mention the loop of `Lexer::tokens`.
-/

namespace NP.Spec

/-- The types of error tokens. -/
def isError : Ttype → Bool
  | .Invalid | .InvalidCharacterEscape | .InvalidUnicodeEscape
  | .UnterminatedRegexp | .UnterminatedString | .UnterminatedWordArray => true
  | _ => false

/-- The type is `EOF` or an error type: nothing follows such a token. -/
def Terminal (t : Ttype) : Prop := t = .Eof ∨ isError t = true

instance (t : Ttype) : Decidable (Terminal t) := inferInstanceAs (Decidable (_ ∨ _))

/-- Tokens after which an expression goes on in the next line: binary and unary operators, the assignments `=`, `+=`,
`-=`, `*=`, `/=`, `%=`, `**=`, comma, opening brackets, `.`, `&.`, `::`, `->`, `=>`, `? :`, `case` and `in`. (The other
operator assignments are not in the list of the implementation.) -/
def mustContinue (t : Ttype) : Bool :=
  [.AmpersandAmpersand, .PipePipe, .AndKeyword, .OrKeyword, .Not, .Tilde,
   .Plus, .Minus, .Star, .StarStar, .Slash, .Percent, .Ampersand, .Pipe, .Caret, .LeftShift, .RightShift,
   .Comparison, .EqualEqual, .EqualEqualEqual, .NotEqual, .Match, .NotMatch,
   .GreaterThan, .GreaterThanOrEqual, .LessThan, .LessThanOrEqual,
   .Equal, .PlusEqual, .MinusEqual, .StarEqual, .SlashEqual, .PercentEqual, .StarStarEqual,
   .Comma, .LParen, .LBracket, .LCurlyBrace, .Dot, .SafeNavigation, .ConstantResolution, .Arrow, .HashRocket,
   .TernaryQuestion, .TernaryColon, .CaseKeyword, .InKeyword].contains t

/-- Tokens that continue the previous line: closing brackets, leading `.` and `&.`, ternary colon and `then`. -/
def continuesLine (t : Ttype) : Bool :=
  [.RParen, .RBracket, .RCurlyBrace, .Dot, .SafeNavigation, .TernaryColon, .ThenKeyword].contains t

/-- Tokens that start a definition. -/
def isDefinition (t : Ttype) : Bool := [.DefKeyword, .ClassKeyword, .ModuleKeyword].contains t

/-- Tokens a consumer never sees. -/
def isComment (t : Token) : Bool := t.type == .Comment || t.type == .Doc

/-- The first token that is not a newline, if it continues the previous line. -/
def nextContinues : List Token → Bool
  | [] => false
  | t :: ts => if t.type = .Newline then nextContinues ts else continuesLine t.type

/-- Whether the token before requires the expression to go on in the next line. -/
def prevContinues : Option Ttype → Bool
  | none => false
  | some t => mustContinue t

/-- Removes the newlines next to continuation tokens. `prev` is the type of the last token that is not a newline. -/
def collapse (prev : Option Ttype) : List Token → List Token
  | [] => []
  | t :: ts =>
    if t.type = .Newline then
      if prevContinues prev || nextContinues ts then collapse prev ts else t :: collapse prev ts
    else t :: collapse (some t.type) ts

/-- Tokens that may stand between a documentation comment and its definition. -/
def neutral (t : Token) : Bool := isComment t || t.type == .Newline || t.type == .Semicolon

/-- The documentation that belongs to a definition after the tokens `seen` (in order): the concatenation of the
documentation comments since the last token that is not neutral; `none` if there is no such comment. -/
def docsBefore (seen : List Token) : Option Str :=
  match ((seen.reverse.takeWhile neutral).filter fun t => t.type == .Doc) with
  | [] => none
  | ds => some (ds.reverse.flatMap fun t => t.lit.getD [])

/-- Gives every `def`, `class` and `module` token its documentation. -/
def annotate (seen : List Token) : List Token → List Token
  | [] => []
  | t :: ts =>
    (if isDefinition t.type then { t with doc := docsBefore seen } else t) :: annotate (seen ++ [t]) ts

/-- The token vector for a raw token stream. -/
def filtered (raw : List Token) : List Token :=
  collapse none ((annotate [] raw).filter fun t => !isComment t)

end NP.Spec
