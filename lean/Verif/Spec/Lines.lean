import Verif.Spec.Layout

/-! Texts of several lines: tokens, line ends and comments. -/

namespace NP.Spec

/-- A part of a text. -/
inductive Part where
  /-- a token -/
  | tok (i : Item)
  /-- the end of a line -/
  | line (sp : Str)
  /-- a comment after other tokens of its line, without the end of the line -/
  | note (sp s : Str)
  /-- comments that begin their lines; with each of them the white space that follows it -/
  | doc (sp : Str) (ls : List (Str × Str))
  deriving DecidableEq, Repr

/-- Its text. -/
def Part.text : Part → Str
  | .tok i => i.text
  | .line sp => sp ++ ['\n']
  | .note sp s => sp ++ '#' :: s
  | .doc sp ls => sp ++ ls.flatMap fun p => '#' :: p.1 ++ '\n' :: p.2

/-- The text of the parts. -/
def text (ps : List Part) : Str := ps.flatMap Part.text

/-- Tokens after which a line end does not count. -/
def continues : Ttype → Bool
  | .AmpersandAmpersand | .AndKeyword | .Arrow | .Ampersand | .Caret | .CaseKeyword | .Comma | .Comparison
  | .ConstantResolution | .Dot | .Equal | .EqualEqual | .EqualEqualEqual | .GreaterThan | .GreaterThanOrEqual
  | .HashRocket | .InKeyword | .LCurlyBrace | .LBracket | .LeftShift | .LessThan | .LessThanOrEqual | .LParen | .Match
  | .Minus | .MinusEqual | .Not | .NotEqual | .NotMatch | .OrKeyword | .Percent | .PercentEqual | .Pipe | .PipePipe
  | .Plus | .PlusEqual | .RightShift | .SafeNavigation | .Slash | .SlashEqual | .Star | .StarEqual | .StarStar
  | .StarStarEqual | .TernaryColon | .TernaryQuestion | .Tilde => true
  | _ => false

/-- Tokens before which line ends do not count. -/
def resumes : Ttype → Bool
  | .Dot | .SafeNavigation | .RCurlyBrace | .RBracket | .RParen | .TernaryColon | .ThenKeyword => true
  | _ => false

/-- The next token is one before which line ends do not count. -/
def resumed : List Part → Bool
  | [] => false
  | .tok i :: _ => resumes i.p.type
  | _ :: ps => resumed ps

/-- The last token that counts. -/
def Part.last (last : Ttype) : Part → Ttype
  | .tok i => i.p.type
  | .line _ => if continues last then last else .Newline
  | _ => last

/-- The tokens and line ends that count. -/
def visible (last : Ttype) : List Part → List Part
  | [] => []
  | p :: ps =>
    match p with
    | .tok _ => p :: visible (p.last last) ps
    | .line _ => if continues last || resumed ps then visible (p.last last) ps else p :: visible (p.last last) ps
    | _ => visible (p.last last) ps

/-- What the token of a part is. -/
def Shows : Part → Token → Prop
  | .tok i, t => Reads i t
  | .line sp, t => t.type = .Newline ∧ t.lit = none ∧ t.fix = 0 ∧ t.ws = (sp != [])
  | _, _ => False

/-- The last token, behind the blanks `tr`. -/
def ShowsEnd (tr : Str) (t : Token) : Prop := t.type = .Eof ∧ t.lit = none ∧ t.fix = 0 ∧ t.ws = (tr != [])

/-- A token that begins a line: nothing or only line ends are in front of it. -/
def lineBegins (last : Ttype) : Prop := last = .Invalid ∨ last = .Newline

/-- No byte ends the line or the text. -/
def OneLine (s : Str) : Prop := ∀ c ∈ s, c ≠ '\n' ∧ c ≠ '\r' ∧ c ≠ NUL

/-- White space: blanks, tabs, line ends and so on. -/
def isWhite (c : Char) : Bool := c == ' ' || (9 ≤ c.toNat && c.toNat ≤ 13)

/-- `FitPart k last p post`: after the token `last`, with `k` method names expected, the part can be told from the text
`post` that follows it. -/
def FitPart (k : Nat) (last : Ttype) (post : Str) : Part → Prop
  | .tok i => Blank i.sp ∧ FitOne k last i post
  | .line sp => Blank sp
  | .note sp s => Blank sp ∧ OneLine s ∧ ¬ lineBegins last ∧ (post = [] ∨ ∃ r, post = '\n' :: r)
  | .doc sp ls => Blank sp ∧ lineBegins last ∧ ls ≠ [] ∧ (∀ p ∈ ls, OneLine p.1 ∧ ∀ c ∈ p.2, isWhite c = true) ∧
      ∀ c r, post = c :: r → c ≠ '#' ∧ isWhite c = false

/-- The number of method names expected after a part. -/
def Part.expects (k : Nat) : Part → Nat
  | .tok i => NP.Spec.expects k i.p.type
  | _ => k - 1

/-- All parts of a text can be told apart. `post` is what follows them. -/
def FitText (k : Nat) (last : Ttype) : List Part → Str → Prop
  | [], _ => True
  | p :: ps, post => FitPart k last (text ps ++ post) p ∧ FitText (p.expects k) (p.last last) ps post

end NP.Spec
