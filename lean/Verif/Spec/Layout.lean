import Verif.Spec.Scope
import Verif.Spec.Number
import Verif.Spec.Lexeme

/-! Texts that are put together from tokens: the tokens of the text are the ones that were put together. -/

namespace NP.Spec

/-- A token as it is written. -/
inductive Piece where
  | fixed (w : Str) (t : Ttype)
  | name (x : Str)
  | const (x : Str)
  | int (n : Nat)
  | str (s : Str)
  | sym (x : Str)
  | ivar (x : Str)
  | cvar (x : Str)
  | gvar (x : Str)
  | key (x : Str)
  deriving DecidableEq, Repr

namespace Piece

/-- How it is written. -/
def spell : Piece → Str
  | fixed w _ => w
  | name x | const x => x
  | int n => Nat.toDigits 10 n
  | str s => '\'' :: s ++ ['\'']
  | sym x => ':' :: x
  | ivar x => '@' :: x
  | cvar x => '@' :: '@' :: x
  | gvar x => '$' :: x
  | key x => x ++ [':']

/-- The type of the token. -/
def type : Piece → Ttype
  | fixed _ t => t
  | name _ => .BareName
  | const _ => .Constant
  | int _ => .Fixnum
  | str _ => .String
  | sym _ => .Symbol
  | ivar _ => .InstanceVariable
  | cvar _ => .ClassVariable
  | gvar _ => .GlobalVariable
  | key _ => .SymbolKey

/-- The text of the token. -/
def lit : Piece → Option Str
  | fixed _ _ | int _ => none
  | name x | const x | sym x | key x => some x
  | str s => some s
  | ivar x => some ('@' :: x)
  | cvar x => some ('@' :: '@' :: x)
  | gvar x => some ('$' :: x)

/-- The number of the token. -/
def fix : Piece → Int
  | int n => n
  | _ => 0

end Piece

/-- A token with the blanks in front of it. -/
structure Item where
  sp : Str
  p : Piece
  deriving DecidableEq, Repr

/-- There is a blank in front. -/
def Item.ws (i : Item) : Bool := i.sp != []

/-- The text of an item. -/
def Item.text (i : Item) : Str := i.sp ++ i.p.spell

/-- The text of a list of items. -/
def layout (is : List Item) : Str := is.flatMap Item.text

/-- The token `t` is what was written. -/
structure Reads (i : Item) (t : Token) : Prop where
  type : t.type = i.p.type
  lit : t.lit = i.p.lit
  fix : t.fix = i.p.fix
  ws : t.ws = i.ws

/-- A word ends: no byte of a name follows and nothing that could belong to the word. -/
def WordStops (post : Str) : Prop :=
  ∀ c r, post = c :: r → nameByte c = false ∧ c ∉ ['?', '!', '='] ∧ (c = ':' → ∃ r', r = ':' :: r')

/-- Operators with the bytes that may not follow them. -/
def operatorEnd : List ((Str × Ttype) × List Char) := [
  ((cs! "=", .Equal), ['=', '>', '~', 'b']), ((cs! "==", .EqualEqual), ['=']), ((cs! "===", .EqualEqualEqual), []),
  ((cs! "=>", .HashRocket), []), ((cs! "=~", .Match), []), ((cs! "+", .Plus), ['=']), ((cs! "+=", .PlusEqual), []),
  ((cs! "-", .Minus), ['=', '>']), ((cs! "-=", .MinusEqual), []), ((cs! "->", .Arrow), []),
  ((cs! "*", .Star), ['*', '=']), ((cs! "*=", .StarEqual), []), ((cs! "**", .StarStar), ['=']),
  ((cs! "**=", .StarStarEqual), []), ((cs! "!", .Not), ['=', '~']), ((cs! "!=", .NotEqual), []),
  ((cs! "!~", .NotMatch), []), ((cs! "<", .LessThan), ['<', '=']), ((cs! "<=", .LessThanOrEqual), ['>']),
  ((cs! "<=>", .Comparison), []), ((cs! "<<=", .LeftShiftEqual), []), ((cs! ">", .GreaterThan), ['>', '=']),
  ((cs! ">=", .GreaterThanOrEqual), []), ((cs! ">>", .RightShift), ['=']), ((cs! ">>=", .RightShiftEqual), []),
  ((cs! "&", .Ampersand), ['&', '=', '.']), ((cs! "&=", .AmpersandEqual), []),
  ((cs! "&&", .AmpersandAmpersand), ['=']), ((cs! "&&=", .AmpersandAmpersandEqual), []),
  ((cs! "&.", .SafeNavigation), []), ((cs! "|", .Pipe), ['|', '=']), ((cs! "|=", .PipeEqual), []),
  ((cs! "||", .PipePipe), ['=']), ((cs! "||=", .PipePipeEqual), []), ((cs! "^", .Caret), ['=']),
  ((cs! "^=", .CaretEqual), []), ((cs! "%=", .PercentEqual), []), ((cs! "~", .Tilde), []), ((cs! "::", .ConstantResolution), []),
  ((cs! ".", .Dot), ['.']), ((cs! "..", .DotDot), ['.']), ((cs! "...", .DotDotDot), []), ((cs! "{", .LCurlyBrace), []),
  ((cs! "[", .LBracket), [']']), ((cs! "[]", .LBracketRBracket), ['=']), ((cs! "[]=", .LBracketRBracketEqual), []),
  ((cs! "(", .LParen), []), ((cs! "}", .RCurlyBrace), []), ((cs! "]", .RBracket), []), ((cs! ")", .RParen), []),
  ((cs! ";", .Semicolon), []), ((cs! ",", .Comma), [])]

/-- Tokens that end a value: a division follows, not a regular expression. -/
def endsValue : Ttype → Bool
  | .BareName | .Constant | .Fixnum | .String | .Symbol | .InstanceVariable | .ClassVariable | .GlobalVariable
  | .RParen | .RBracket | .RCurlyBrace | .EndKeyword | .NilKeyword | .TrueKeyword | .FalseKeyword | .SelfKeyword
  | .LBracketRBracket | .RedoKeyword | .RetryKeyword | .SuperKeyword | .YieldKeyword => true
  | _ => false

/-- Tokens after which `name:` is the key of a hash or the name of an argument. -/
def beforeKey : Ttype → Bool
  | .Comma | .LParen | .LCurlyBrace | .LBracket | .Pipe | .BareName | .Constant => true
  | _ => false

/-- The number of method names that are expected after a token. -/
def expects (k : Nat) : Ttype → Nat
  | .DefKeyword | .Dot | .ConstantResolution => 1
  | _ => k - 1

/-- Operators as symbols, with the bytes that may not follow them. -/
def symbolEnd : List (Str × List Char) := [
  (cs! "+", ['@']), (cs! "+@", []), (cs! "-", ['@']), (cs! "-@", []), (cs! "*", ['*']), (cs! "**", []), (cs! "/", []),
  (cs! "%", []), (cs! "==", ['=']), (cs! "===", []), (cs! "=~", []), (cs! "!", ['=', '~', '@']), (cs! "!=", []),
  (cs! "!~", []), (cs! "<", ['=', '<']), (cs! "<=", ['>']), (cs! "<=>", []), (cs! "<<", []), (cs! ">", ['=', '>']),
  (cs! ">=", []), (cs! ">>", []), (cs! "&", []), (cs! "|", []), (cs! "^", []), (cs! "~", ['@']), (cs! "[]", ['=']),
  (cs! "[]=", [])]

/-- `SymbolText x post`: behind a colon and in front of `post`, `x` is the whole name of a symbol. -/
inductive SymbolText : Str → Str → Prop where
  | op {w : Str} {cs : List Char} {post : Str} (hw : (w, cs) ∈ symbolEnd) (he : ∀ c r, post = c :: r → c ∉ cs) :
      SymbolText w post
  | name {c : Char} {n post : Str} (hc : nameByte c = true ∧ ¬ ('0' ≤ c ∧ c ≤ '9')) (hn : ∀ b ∈ n, nameByte b = true)
      (he : NameEnds post) (hs : ∀ d r, post = d :: r → d ∈ ['?', '!', '='] → d = '=' ∧ ∃ r', r = '>' :: r') :
      SymbolText (c :: n) post
  | suffixed {c d : Char} {n post : Str} (hc : nameByte c = true ∧ ¬ ('0' ≤ c ∧ c ≤ '9')) (hn : ∀ b ∈ n, nameByte b = true)
      (hd : d ∈ ['?', '!', '=']) (he : ∀ e r, post = e :: r → e ∉ ['=', '>', '~']) : SymbolText (c :: n ++ [d]) post
  | var {s n post : Str} (hs : s ∈ [cs! "@", cs! "@@", cs! "$"]) (hn : ∀ b ∈ n, nameByte b = true) (hne : n ≠ [])
      (he : NameEnds post) : SymbolText (s ++ n) post

/-- `FitOne k last i post`: after the token `last`, with `k` method names expected, the item can be told from the text
`post` that follows it. -/
def FitOne (k : Nat) (last : Ttype) (i : Item) (post : Str) : Prop :=
  match i.p with
  | .name x => IsName x ∧ WordStops post ∧ last ≠ .Fixnum
  | .const x => IsConst x ∧ WordStops post
  | .int n => n < 2 ^ 62 ∧ NumberEnds post
  | .str s => (∀ c ∈ s, c ≠ '\'' ∧ c ≠ '\\' ∧ c ≠ NUL) ∧ ∀ r, post ≠ ':' :: r
  | .sym x => SymbolText x post
  | .ivar x | .cvar x => (∀ c ∈ x, nameByte c = true) ∧ x ≠ [] ∧ NameEnds post
  | .gvar x => IsName x ∧ NameEnds post
  | .key x => IsName x ∧ last ≠ .Fixnum ∧ beforeKey last = true ∧ k = 0 ∧ ∀ r, post ≠ ':' :: r
  | .fixed w t =>
    ((w, t) ∈ keywordTable ∧ t ≠ .DefinedKeyword ∧ t ≠ .AliasKeyword ∧ t ≠ .UndefKeyword ∧ k = 0 ∧ WordStops post) ∨
    (∃ cs, ((w, t), cs) ∈ operatorEnd ∧ k = 0 ∧ ∀ c r, post = c :: r → c ∉ cs) ∨
    ((w, t) ∈ [(cs! "<<", Ttype.LeftShift), (cs! "%", .Percent), (cs! "?", .TernaryQuestion), (cs! ":", .TernaryColon)] ∧
      k = 0 ∧ i.ws = true ∧ ∃ r, post = ' ' :: r) ∨
    ((w, t) = (cs! "/", Ttype.Slash) ∧ endsValue last = true ∧ k = 0 ∧ ∃ r, post = ' ' :: r) ∨
    ((w, t) = (cs! "self", Ttype.SelfKeyword) ∧ last = .DefKeyword ∧ ∃ r, post = '.' :: r) ∨
    ((w, t) = (cs! "/=", Ttype.SlashEqual) ∧ endsValue last = true ∧ k = 0)

/-- All items of a text can be told apart. -/
def Fit (k : Nat) (last : Ttype) : List Item → Str → Prop
  | [], _ => True
  | i :: is, post => Blank i.sp ∧ FitOne k last i (layout is ++ post) ∧ Fit (expects k i.p.type) i.p.type is post

end NP.Spec
