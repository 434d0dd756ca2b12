import Verif.Model.Token

/-! The text of tokens: blanks, spellings, names, operators. -/

namespace NP.Spec

/-- What may stand between two tokens without being a token: blanks, tabs and escaped line ends. -/
inductive Blank : Str → Prop where
  | nil : Blank []
  | space (s : Str) (h : Blank s) : Blank (' ' :: s)
  | tab (s : Str) (h : Blank s) : Blank ('\t' :: s)
  | line (s : Str) (h : Blank s) : Blank ('\\' :: '\n' :: s)

/-- A byte order mark, or the beginning of one. -/
def Bom (s : Str) : Prop := s = ['\xEF'] ∨ s = ['\xEF', '\xBB'] ∨ s = ['\xEF', '\xBF'] ∨ s = ['\xEF', '\xBB', '\xBF']

/-- No blank at the beginning. -/
def NoBlank (s : Str) : Prop := ∀ b r, Blank b → s = b ++ r → b = []

/-- `pre` is what is skipped in front of `s`: all blanks, or a byte order mark at the beginning of the text. -/
def Skipped (atStart : Bool) (pre s : Str) : Prop :=
  (Blank pre ∧ NoBlank s) ∨ (atStart = true ∧ Bom pre)

/-- Keywords. -/
def keywordTable : List (Str × Ttype) := [
  (cs! "BEGIN", .BEGINKeyword), (cs! "END", .ENDKeyword), (cs! "__ENCODING__", .ENCODINGKeyword),
  (cs! "__FILE__", .FILEKeyword), (cs! "__LINE__", .LINEKeyword), (cs! "alias", .AliasKeyword),
  (cs! "and", .AndKeyword), (cs! "begin", .BeginKeyword), (cs! "break", .BreakKeyword), (cs! "case", .CaseKeyword),
  (cs! "class", .ClassKeyword), (cs! "def", .DefKeyword), (cs! "defined?", .DefinedKeyword), (cs! "do", .DoKeyword),
  (cs! "else", .ElseKeyword), (cs! "elsif", .ElsifKeyword), (cs! "end", .EndKeyword), (cs! "ensure", .EnsureKeyword),
  (cs! "false", .FalseKeyword), (cs! "for", .ForKeyword), (cs! "if", .IfKeyword), (cs! "in", .InKeyword),
  (cs! "module", .ModuleKeyword), (cs! "next", .NextKeyword), (cs! "nil", .NilKeyword), (cs! "not", .NotKeyword),
  (cs! "or", .OrKeyword), (cs! "redo", .RedoKeyword), (cs! "rescue", .RescueKeyword), (cs! "retry", .RetryKeyword),
  (cs! "return", .ReturnKeyword), (cs! "self", .SelfKeyword), (cs! "super", .SuperKeyword),
  (cs! "then", .ThenKeyword), (cs! "true", .TrueKeyword), (cs! "undef", .UndefKeyword),
  (cs! "unless", .UnlessKeyword), (cs! "until", .UntilKeyword), (cs! "when", .WhenKeyword),
  (cs! "while", .WhileKeyword), (cs! "yield", .YieldKeyword)]

/-- Operators and punctuation whose reading does not depend on what precedes them. -/
def operatorTable : List (Str × Ttype) := [
  (cs! "=", .Equal), (cs! "==", .EqualEqual), (cs! "===", .EqualEqualEqual), (cs! "=>", .HashRocket),
  (cs! "=~", .Match), (cs! "+", .Plus), (cs! "+=", .PlusEqual), (cs! "-", .Minus), (cs! "-=", .MinusEqual),
  (cs! "->", .Arrow), (cs! "*", .Star), (cs! "*=", .StarEqual), (cs! "**", .StarStar), (cs! "**=", .StarStarEqual),
  (cs! "!", .Not), (cs! "!=", .NotEqual), (cs! "!~", .NotMatch), (cs! "<", .LessThan), (cs! "<=", .LessThanOrEqual),
  (cs! "<=>", .Comparison), (cs! "<<=", .LeftShiftEqual), (cs! ">", .GreaterThan), (cs! ">=", .GreaterThanOrEqual),
  (cs! ">>", .RightShift), (cs! ">>=", .RightShiftEqual), (cs! "&", .Ampersand), (cs! "&=", .AmpersandEqual),
  (cs! "&&", .AmpersandAmpersand), (cs! "&&=", .AmpersandAmpersandEqual), (cs! "&.", .SafeNavigation),
  (cs! "|", .Pipe), (cs! "|=", .PipeEqual), (cs! "||", .PipePipe), (cs! "||=", .PipePipeEqual), (cs! "^", .Caret),
  (cs! "^=", .CaretEqual), (cs! "~", .Tilde), (cs! "::", .ConstantResolution), (cs! ".", .Dot), (cs! "..", .DotDot),
  (cs! "...", .DotDotDot), (cs! "{", .LCurlyBrace), (cs! "[", .LBracket), (cs! "[]", .LBracketRBracket),
  (cs! "[]=", .LBracketRBracketEqual), (cs! "(", .LParen), (cs! "}", .RCurlyBrace), (cs! "]", .RBracket),
  (cs! ")", .RParen), (cs! "\n", .Newline), (cs! ";", .Semicolon), (cs! ",", .Comma)]

/-- Operators whose reading depends on what precedes them. -/
def contextOperators : List (Str × Ttype) := [
  (cs! "<<", .LeftShift), (cs! "/", .Slash), (cs! "/=", .SlashEqual), (cs! "%", .Percent), (cs! "%=", .PercentEqual),
  (cs! "?", .TernaryQuestion), (cs! ":", .TernaryColon)]

/-- Tokens with a fixed spelling. -/
def fixedSpelling : List (Str × Ttype) := keywordTable ++ operatorTable ++ contextOperators

/-- A byte of a name: letter, digit, underscore or a byte of a multi-byte character. -/
def nameByte (c : Char) : Bool :=
  ('a' ≤ c && c ≤ 'z') || ('A' ≤ c && c ≤ 'Z') || ('0' ≤ c && c ≤ '9') || c == '_' || '\x80' ≤ c

/-- The word at the beginning of a text: name bytes and possibly a `?` or `!`. -/
def wordOf (s : Str) : Str :=
  let w := s.takeWhile nameByte
  match s.drop w.length with
  | '?' :: _ => w ++ ['?']
  | '!' :: _ => w ++ ['!']
  | _ => w

/-- `w` is the longest operator of the table at the beginning of `s`. -/
def LongestOperator (w s : Str) : Prop := w <+: s ∧ ∀ p ∈ operatorTable, p.1 <+: s → p.1.length ≤ w.length

/-- Suffixes of method names. -/
def isNameSuffix (s : Str) : Prop := s = [] ∨ s = ['?'] ∨ s = ['!'] ∨ s = ['=']

/-- No name byte follows. -/
def NameEnds (post : Str) : Prop := ∀ c r, post = c :: r → nameByte c = false

/-- Global variables of one or two punctuation bytes. -/
def specialGlobals : List Char :=
  ['?', '!', '=', '@', '&', '`', '\'', '"', '+', '/', '\\', ';', '<', '>', '$', '*', '.', ',', ':', '~']

/-- `w` is a complete name of the given kind, in front of `post`. -/
inductive NameText : Ttype → Str → Str → Prop where
  | name (t : Ttype) (c : Char) (n suffix post : Str) (hc : nameByte c = true) (hn : ∀ b ∈ n, nameByte b = true)
      (ht : (t = .Constant ∧ 'A' ≤ c ∧ c ≤ 'Z') ∨ (t = .BareName ∧ ¬ ('A' ≤ c ∧ c ≤ 'Z') ∧ ¬ ('0' ≤ c ∧ c ≤ '9')))
      (hs : isNameSuffix suffix)
      (he : suffix = [] → NameEnds post ∧ ∀ r, post ≠ '?' :: r ∧ post ≠ '!' :: r) :
      NameText t (c :: n ++ suffix) post
  | ivar (n post : Str) (hn : ∀ b ∈ n, nameByte b = true) (he : NameEnds post) : NameText .InstanceVariable ('@' :: n) post
  | cvar (n post : Str) (hn : ∀ b ∈ n, nameByte b = true) (he : NameEnds post) :
      NameText .ClassVariable ('@' :: '@' :: n) post
  | gvar (n post : Str) (hn : ∀ b ∈ n, nameByte b = true) (he : NameEnds post) : NameText .GlobalVariable ('$' :: n) post
  | special (c : Char) (post : Str) (h : c ∈ specialGlobals) : NameText .GlobalVariable ['$', c] post
  | dash (c : Char) (post : Str) : NameText .GlobalVariable ['$', '-', c] post

/-- The kinds of names. -/
def isNameType (t : Ttype) : Bool :=
  t == .BareName || t == .Constant || t == .InstanceVariable || t == .ClassVariable || t == .GlobalVariable

end NP.Spec
