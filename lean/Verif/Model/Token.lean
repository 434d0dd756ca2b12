import Verif.Model.Basic

/-!
Tokens: include/natalie_parser/token.hpp. Constructor names are those of `Token::Type`.
-/

namespace NP

/-- include/natalie_parser/token.hpp:14-158 `Token::Type`. -/
inductive Ttype where
  | Invalid
  | InvalidCharacterEscape
  | InvalidUnicodeEscape
  | AliasKeyword
  | Ampersand
  | AmpersandAmpersand
  | AmpersandEqual
  | AmpersandAmpersandEqual
  | AndKeyword
  | Arrow
  | BackRef
  | BareName
  | BeginKeyword
  | BEGINKeyword
  | Bignum
  | BreakKeyword
  | Caret
  | CaretEqual
  | CaseKeyword
  | ClassKeyword
  | ClassVariable
  | Comma
  | Comment
  | Comparison
  | Complex
  | Constant
  | ConstantResolution
  | DefinedKeyword
  | DefKeyword
  | Doc
  | DoKeyword
  | Dot
  | DotDot
  | DotDotDot
  | ElseKeyword
  | ElsifKeyword
  | ENCODINGKeyword
  | EndKeyword
  | ENDKeyword
  | EnsureKeyword
  | Eof
  | Equal
  | EqualEqual
  | EqualEqualEqual
  | EvaluateToStringBegin
  | EvaluateToStringEnd
  | FalseKeyword
  | FILEKeyword
  | Fixnum
  | Float
  | ForKeyword
  | GlobalVariable
  | GreaterThan
  | GreaterThanOrEqual
  | HashRocket
  | IfKeyword
  | InKeyword
  | InstanceVariable
  | InterpolatedHeredocBegin
  | InterpolatedHeredocEnd
  | InterpolatedRegexpBegin
  | InterpolatedRegexpEnd
  | InterpolatedShellBegin
  | InterpolatedShellEnd
  | InterpolatedStringBegin
  | InterpolatedStringEnd
  | InterpolatedSymbolBegin
  | InterpolatedSymbolEnd
  | InterpolatedStringSymbolKey
  | LCurlyBrace
  | LBracket
  | LBracketRBracket
  | LBracketRBracketEqual
  | LeftShift
  | LeftShiftEqual
  | LessThan
  | LessThanOrEqual
  | LINEKeyword
  | LParen
  | Match
  | Minus
  | MinusEqual
  | ModuleKeyword
  | Newline
  | NextKeyword
  | NilKeyword
  | Not
  | NotEqual
  | NotKeyword
  | NotMatch
  | NthRef
  | OperatorName
  | OrKeyword
  | Percent
  | PercentEqual
  | PercentLowerI
  | PercentLowerW
  | PercentUpperI
  | PercentUpperW
  | Pipe
  | PipeEqual
  | PipePipe
  | PipePipeEqual
  | Plus
  | PlusEqual
  | Rational
  | RationalComplex
  | RCurlyBrace
  | RBracket
  | RedoKeyword
  | RescueKeyword
  | RetryKeyword
  | ReturnKeyword
  | RightShift
  | RightShiftEqual
  | RParen
  | SafeNavigation
  | SelfKeyword
  | Semicolon
  | Slash
  | SlashEqual
  | Star
  | StarEqual
  | StarStar
  | StarStarEqual
  | String
  | SuperKeyword
  | Symbol
  | SymbolKey
  | TernaryColon
  | TernaryQuestion
  | ThenKeyword
  | Tilde
  | TrueKeyword
  | UndefKeyword
  | UnlessKeyword
  | UnterminatedRegexp
  | UnterminatedString
  | UnterminatedWordArray
  | UntilKeyword
  | WhenKeyword
  | WhileKeyword
  | YieldKeyword
  deriving DecidableEq, Repr, Inhabited

namespace Ttype

/-- include/natalie_parser/token.hpp:255-539 `Token::type_value` (`none` models `nullptr`). -/
def value : Ttype → Option Str
  | Invalid => none
  | InvalidCharacterEscape => none
  | InvalidUnicodeEscape => none
  | AliasKeyword => some (cs! "alias")
  | Ampersand => some (cs! "&")
  | AmpersandAmpersand => some (cs! "&&")
  | AmpersandEqual => some (cs! "&=")
  | AmpersandAmpersandEqual => some (cs! "&&=")
  | AndKeyword => some (cs! "and")
  | Arrow => some (cs! "->")
  | BackRef => some (cs! "back_ref")
  | BareName => some (cs! "name")
  | BeginKeyword => some (cs! "begin")
  | BEGINKeyword => some (cs! "BEGIN")
  | Bignum => some (cs! "bignum")
  | BreakKeyword => some (cs! "break")
  | Caret => some (cs! "^")
  | CaretEqual => some (cs! "^=")
  | CaseKeyword => some (cs! "case")
  | ClassKeyword => some (cs! "class")
  | ClassVariable => some (cs! "cvar")
  | Comma => some (cs! ",")
  | Comment => some (cs! "comment")
  | Comparison => some (cs! "<=>")
  | Complex => some (cs! "complex")
  | Constant => some (cs! "constant")
  | ConstantResolution => some (cs! "::")
  | DefinedKeyword => some (cs! "defined?")
  | DefKeyword => some (cs! "def")
  | Doc => some (cs! "doc")
  | DoKeyword => some (cs! "do")
  | Dot => some (cs! ".")
  | DotDot => some (cs! "..")
  | DotDotDot => some (cs! "...")
  | ElseKeyword => some (cs! "else")
  | ElsifKeyword => some (cs! "elsif")
  | ENCODINGKeyword => some (cs! "__ENCODING__")
  | EndKeyword => some (cs! "end")
  | ENDKeyword => some (cs! "END")
  | EnsureKeyword => some (cs! "ensure")
  | Eof => some (cs! "EOF")
  | Equal => some (cs! "=")
  | EqualEqual => some (cs! "==")
  | EqualEqualEqual => some (cs! "===")
  | EvaluateToStringBegin => some (cs! "evstr")
  | EvaluateToStringEnd => some (cs! "evstrend")
  | FalseKeyword => some (cs! "false")
  | FILEKeyword => some (cs! "__FILE__")
  | Fixnum => some (cs! "fixnum")
  | Float => some (cs! "float")
  | ForKeyword => some (cs! "for")
  | GlobalVariable => some (cs! "gvar")
  | GreaterThan => some (cs! ">")
  | GreaterThanOrEqual => some (cs! ">=")
  | HashRocket => some (cs! "=>")
  | IfKeyword => some (cs! "if")
  | InKeyword => some (cs! "in")
  | InstanceVariable => some (cs! "ivar")
  | InterpolatedHeredocBegin => some (cs! "dstr")
  | InterpolatedHeredocEnd => some (cs! "dstrend")
  | InterpolatedRegexpBegin => some (cs! "dregx")
  | InterpolatedRegexpEnd => some (cs! "dregxend")
  | InterpolatedShellBegin => some (cs! "dxstr")
  | InterpolatedShellEnd => some (cs! "dxstrend")
  | InterpolatedStringBegin => some (cs! "dstr")
  | InterpolatedStringEnd => some (cs! "dstrend")
  | InterpolatedSymbolBegin => some (cs! "dsym")
  | InterpolatedSymbolEnd => some (cs! "dsymend")
  | InterpolatedStringSymbolKey => some (cs! "dstr_symbol_key")
  | LCurlyBrace => some (cs! "{")
  | LBracket => some (cs! "[")
  | LBracketRBracket => some (cs! "[]")
  | LBracketRBracketEqual => some (cs! "[]=")
  | LeftShift => some (cs! "<<")
  | LeftShiftEqual => some (cs! "<<=")
  | LessThan => some (cs! "<")
  | LessThanOrEqual => some (cs! "<=")
  | LINEKeyword => some (cs! "__LINE__")
  | LParen => some (cs! "(")
  | Match => some (cs! "=~")
  | Minus => some (cs! "-")
  | MinusEqual => some (cs! "-=")
  | ModuleKeyword => some (cs! "module")
  | Newline => some (cs! "\n")
  | NextKeyword => some (cs! "next")
  | NilKeyword => some (cs! "nil")
  | Not => some (cs! "!")
  | NotEqual => some (cs! "!=")
  | NotKeyword => some (cs! "not")
  | NotMatch => some (cs! "!~")
  | NthRef => some (cs! "nth_ref")
  | OperatorName => some (cs! "operator")
  | OrKeyword => some (cs! "or")
  | Percent => some (cs! "%")
  | PercentEqual => some (cs! "%=")
  | PercentLowerI => some (cs! "%i[")
  | PercentLowerW => some (cs! "%w[")
  | PercentUpperI => some (cs! "%I[")
  | PercentUpperW => some (cs! "%W[")
  | Pipe => some (cs! "|")
  | PipeEqual => some (cs! "|=")
  | PipePipe => some (cs! "||")
  | PipePipeEqual => some (cs! "||=")
  | Plus => some (cs! "+")
  | PlusEqual => some (cs! "+=")
  | Rational => some (cs! "rational")
  | RationalComplex => some (cs! "rational_complex")
  | RCurlyBrace => some (cs! "}")
  | RBracket => some (cs! "]")
  | RedoKeyword => some (cs! "redo")
  | RescueKeyword => some (cs! "rescue")
  | RetryKeyword => some (cs! "retry")
  | ReturnKeyword => some (cs! "return")
  | RightShift => some (cs! ">>")
  | RightShiftEqual => some (cs! ">>=")
  | RParen => some (cs! ")")
  | SafeNavigation => some (cs! "&.")
  | SelfKeyword => some (cs! "self")
  | Semicolon => some (cs! ";")
  | Slash => some (cs! "/")
  | SlashEqual => some (cs! "/=")
  | Star => some (cs! "*")
  | StarEqual => some (cs! "*=")
  | StarStar => some (cs! "**")
  | StarStarEqual => some (cs! "**=")
  | String => some (cs! "string")
  | SuperKeyword => some (cs! "super")
  | Symbol => some (cs! "symbol")
  | SymbolKey => some (cs! "symbol_key")
  | TernaryColon => some (cs! ":")
  | TernaryQuestion => some (cs! "?")
  | ThenKeyword => some (cs! "then")
  | Tilde => some (cs! "~")
  | TrueKeyword => some (cs! "true")
  | UndefKeyword => some (cs! "undef")
  | UnlessKeyword => some (cs! "unless")
  | UnterminatedRegexp => none
  | UnterminatedString => none
  | UnterminatedWordArray => none
  | UntilKeyword => some (cs! "until")
  | WhenKeyword => some (cs! "when")
  | WhileKeyword => some (cs! "while")
  | YieldKeyword => some (cs! "yield")

/-- include/natalie_parser/token.hpp:541-553 `Token::is_assignable`. -/
def isAssignable : Ttype → Bool
  | BareName
  | ClassVariable
  | Constant
  | ConstantResolution
  | GlobalVariable
  | InstanceVariable => true
  | _ => false

/-- include/natalie_parser/token.hpp:555-602 `Token::is_keyword`. -/
def isKeyword : Ttype → Bool
  | AliasKeyword
  | AndKeyword
  | BeginKeyword
  | BEGINKeyword
  | BreakKeyword
  | CaseKeyword
  | ClassKeyword
  | DefinedKeyword
  | DefKeyword
  | DoKeyword
  | ElseKeyword
  | ElsifKeyword
  | ENCODINGKeyword
  | EndKeyword
  | ENDKeyword
  | EnsureKeyword
  | FalseKeyword
  | FILEKeyword
  | ForKeyword
  | IfKeyword
  | InKeyword
  | LINEKeyword
  | ModuleKeyword
  | NextKeyword
  | NilKeyword
  | NotKeyword
  | OrKeyword
  | RedoKeyword
  | RescueKeyword
  | RetryKeyword
  | ReturnKeyword
  | SelfKeyword
  | SuperKeyword
  | ThenKeyword
  | TrueKeyword
  | UndefKeyword
  | UnlessKeyword
  | UntilKeyword
  | WhenKeyword
  | WhileKeyword
  | YieldKeyword => true
  | _ => false

/-- include/natalie_parser/token.hpp:604-635 `Token::is_operator`. -/
def isOperator : Ttype → Bool
  | Ampersand
  | Caret
  | Comparison
  | EqualEqual
  | EqualEqualEqual
  | GreaterThan
  | GreaterThanOrEqual
  | LBracketRBracket
  | LBracketRBracketEqual
  | LeftShift
  | LessThan
  | LessThanOrEqual
  | Match
  | Minus
  | Not
  | NotEqual
  | NotMatch
  | Percent
  | Pipe
  | Plus
  | RightShift
  | Slash
  | Star
  | StarStar
  | Tilde => true
  | _ => false

/-- include/natalie_parser/token.hpp:665-667 `Token::is_valid` (`type_value()` is not null). -/
def isValid (t : Ttype) : Bool := t.value.isSome

/-- include/natalie_parser/token.hpp:652 `Token::is_end_of_line`. -/
def isEndOfLine (t : Ttype) : Bool := t == Newline || t == Semicolon

/-- include/natalie_parser/token.hpp:654 `Token::is_expression_modifier`. -/
def isExpressionModifier (t : Ttype) : Bool :=
  t == IfKeyword || t == UnlessKeyword || t == WhileKeyword || t == UntilKeyword

/-- include/natalie_parser/token.hpp:649 `Token::is_end_of_expression`. -/
def isEndOfExpression (t : Ttype) : Bool :=
  t == EndKeyword || t == RCurlyBrace || t == Newline || t == Semicolon || t == Eof || t.isExpressionModifier

/-- include/natalie_parser/token.hpp:639 `Token::is_closing_token`. -/
def isClosing (t : Ttype) : Bool := t == RBracket || t == RCurlyBrace || t == RParen

/-- include/natalie_parser/token.hpp:662 `Token::is_splat`. -/
def isSplat (t : Ttype) : Bool := t == Star || t == StarStar

/-- include/natalie_parser/token.hpp:669-682 `Token::can_follow_collapsible_newline`. -/
def canFollowCollapsibleNewline : Ttype → Bool
  | Dot
  | RCurlyBrace
  | RBracket
  | RParen
  | SafeNavigation
  | TernaryColon
  | ThenKeyword => true
  | _ => false

/-- include/natalie_parser/token.hpp:684-737 `Token::can_precede_collapsible_newline`. -/
def canPrecedeCollapsibleNewline : Ttype → Bool
  | AmpersandAmpersand
  | AndKeyword
  | Arrow
  | Ampersand
  | Caret
  | CaseKeyword
  | Comma
  | Comparison
  | ConstantResolution
  | Dot
  | Equal
  | EqualEqual
  | EqualEqualEqual
  | GreaterThan
  | GreaterThanOrEqual
  | HashRocket
  | InKeyword
  | LCurlyBrace
  | LBracket
  | LeftShift
  | LessThan
  | LessThanOrEqual
  | LParen
  | Match
  | Minus
  | MinusEqual
  | Not
  | NotEqual
  | NotMatch
  | OrKeyword
  | Percent
  | PercentEqual
  | Pipe
  | PipePipe
  | Plus
  | PlusEqual
  | RightShift
  | SafeNavigation
  | Slash
  | SlashEqual
  | Star
  | StarEqual
  | StarStar
  | StarStarEqual
  | TernaryColon
  | TernaryQuestion
  | Tilde => true
  | _ => false

/-- include/natalie_parser/token.hpp:739-748 `Token::can_have_doc`. -/
def canHaveDoc : Ttype → Bool
  | ClassKeyword
  | DefKeyword
  | ModuleKeyword => true
  | _ => false

/-- include/natalie_parser/token.hpp:750-761 `Token::can_be_first_arg_of_def`. -/
def canBeFirstArgOfDef : Ttype → Bool
  | Ampersand
  | BareName
  | Star
  | StarStar
  | SymbolKey => true
  | _ => false

/-- include/natalie_parser/token.hpp:763-815 `Token::can_be_first_arg_of_implicit_call`. -/
def canBeFirstArgOfImplicitCall : Ttype → Bool
  | Arrow
  | BackRef
  | BareName
  | BeginKeyword
  | Bignum
  | ClassVariable
  | Constant
  | ConstantResolution
  | DefKeyword
  | DefinedKeyword
  | DoKeyword
  | ENCODINGKeyword
  | FalseKeyword
  | FILEKeyword
  | Fixnum
  | Float
  | GlobalVariable
  | InstanceVariable
  | InterpolatedRegexpBegin
  | InterpolatedShellBegin
  | InterpolatedStringBegin
  | InterpolatedSymbolBegin
  | LCurlyBrace
  | LBracket
  | LBracketRBracket
  | LINEKeyword
  | LParen
  | Minus
  | NilKeyword
  | Not
  | NotKeyword
  | NthRef
  | PercentLowerI
  | PercentLowerW
  | PercentUpperI
  | PercentUpperW
  | Plus
  | SelfKeyword
  | Star
  | String
  | SuperKeyword
  | Symbol
  | SymbolKey
  | Tilde
  | TrueKeyword
  | YieldKeyword => true
  | _ => false

/-- include/natalie_parser/token.hpp:817-828 `Token::can_precede_heredoc_that_looks_like_left_shift_operator`. -/
def canPrecedeHeredoc (t : Ttype) : Bool := t == Equal || t == LBracket || t == LParen || t.isOperator

/-- include/natalie_parser/token.hpp:830-844 `Token::can_precede_regexp_literal`. -/
def canPrecedeRegexpLiteral : Ttype → Bool
  | ElsifKeyword
  | IfKeyword
  | RescueKeyword
  | ReturnKeyword
  | UnlessKeyword
  | UntilKeyword
  | WhenKeyword
  | WhileKeyword => true
  | _ => false

/-- include/natalie_parser/token.hpp:846-862 `Token::can_precede_symbol_key`. -/
def canPrecedeSymbolKey : Ttype → Bool
  | Arrow
  | BareName
  | Comma
  | Constant
  | LBracket
  | LCurlyBrace
  | LParen
  | Pipe
  | PipePipe
  | SuperKeyword => true
  | _ => false

/-- include/natalie_parser/token.hpp:864-873 `Token::can_be_complex_or_rational`. -/
def canBeComplexOrRational : Ttype → Bool
  | Bignum
  | Fixnum
  | Float => true
  | _ => false

/-- include/natalie_parser/token.hpp:875-892 `Token::can_be_range_arg_token`. -/
def canBeRangeArg (t : Ttype) : Bool :=
  if t.isClosing then false
  else if t == Semicolon || t == Eof then false
  else match t with
    | ElseKeyword | ElsifKeyword | EndKeyword | InKeyword | ThenKeyword | WhenKeyword => false
    | _ => true

end Ttype

/-- include/natalie_parser/token.hpp:917-927, the data of a token. `m_file` is constant and dropped. `flt` stands
for `m_double`: it is the character string that was handed to `atof`. -/
structure Token where
  type : Ttype := Ttype.Invalid
  lit : Option Str := none
  doc : Option Str := none
  fix : Int := 0
  flt : Str := []
  line : Nat := 0
  col : Nat := 0
  ws : Bool := false
  deriving DecidableEq, Repr, Inhabited

end NP
