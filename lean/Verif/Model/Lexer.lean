import Verif.Model.Scan

/-!
`Lexer`, `InterpolatedStringLexer`, `RegexpLexer` and `WordArrayLexer`: one step (`next_token` without the
delegation to the nested lexer).
-/

namespace NP

/-- `m_index`, `m_cursor_line`, `m_cursor_column` (include/natalie_parser/lexer.hpp:112-119). -/
structure Cursor where
  index : Nat := 0
  line : Nat := 0
  col : Nat := 0
  deriving DecidableEq, Repr, Inhabited

/-- src/lexer.cpp:152-161 `Lexer::advance()`. -/
def Cursor.next (input : Str) (c : Cursor) : Cursor :=
  if input.ch c.index = '\n' then ⟨c.index + 1, c.line + 1, 0⟩ else ⟨c.index + 1, c.line, c.col + 1⟩

/-- src/lexer.cpp:163-167 `Lexer::advance(bytes)`. -/
def Cursor.nextN (input : Str) : Nat → Cursor → Cursor
  | 0, c => c
  | n + 1, c => Cursor.nextN input n (c.next input)

/-- include/natalie_parser/lexer/interpolated_string_lexer.hpp:52-58 and regexp_lexer.hpp:26-32. -/
inductive IState where
  | InProgress | EvaluateBegin | EvaluateEnd | EndToken | Done
  deriving DecidableEq, Repr

/-- include/natalie_parser/lexer/word_array_lexer.hpp:29-38. -/
inductive WState where
  | InProgress | DynamicStringBegin | DynamicStringInProgress | DynamicStringEnd
  | EvaluateBegin | EvaluateEnd | EndToken | Done
  deriving DecidableEq, Repr

/-- The dynamic type of a lexer object with the fields of the subclass. -/
inductive Kind where
  /-- `Lexer` -/
  | base
  /-- `InterpolatedStringLexer`: `m_state`, `m_end_type`, `m_alters_parent_cursor_position` -/
  | istr (state : IState) (endType : Ttype) (alters : Bool)
  /-- `RegexpLexer`: `m_state`, `m_options` (a null pointer is modelled by the empty string: the only use,
  regexp_lexer.cpp:28, treats them alike) -/
  | regexp (state : IState) (options : Str)
  /-- `WordArrayLexer`: `m_state`, `m_interpolated`, its own `m_start_char` and `m_pair_depth`, `m_buffer` -/
  | words (state : WState) (interp : Bool) (start : Char) (depth : Nat) (buf : Str)
  deriving DecidableEq, Repr

/-- The fields of a lexer object (include/natalie_parser/lexer.hpp:109-146), without `m_file` (constant) and
`m_nested_lexer` (nested lexers are kept in a list, see Verif/Model/Tokens.lean). Of `m_last_token` only the type
is ever used, of `m_last_method_name` only whether it is valid. `int m_pair_depth` is a natural number: overflow at
2^31 open pairs is not modelled. -/
structure Lx where
  input : Str
  cur : Cursor := {}
  heredocStack : List Nat := []
  tokenLine : Nat := 0
  tokenCol : Nat := 0
  ws : Bool := false
  lastType : Ttype := .Invalid
  openTernary : Bool := false
  stopChar : Char := NUL
  startChar : Char := NUL
  pairDepth : Nat := 0
  remaining : Nat := 0
  allowAssign : Bool := false
  sep : Ttype := .Invalid
  lastName : Bool := false
  kind : Kind := .base
  deriving DecidableEq, Repr

namespace Lx

/-- The text from the current position on. -/
def rest (l : Lx) : Str := l.input.drop l.cur.index

/-- Byte at an offset from the current position: `current_char()` is `l.ch 0`, `peek()` is `l.ch 1`
(include/natalie_parser/lexer.hpp:47-68). -/
def ch (l : Lx) (k : Nat) : Char := l.rest.ch k

/-- `advance(n)`. -/
def adv (l : Lx) (n : Nat) : Lx := { l with cur := l.cur.nextN l.input n }

/-- `Token { t, m_file, m_token_line, m_token_column, m_whitespace_precedes }`. -/
def tk (l : Lx) (t : Ttype) : Token := { type := t, line := l.tokenLine, col := l.tokenCol, ws := l.ws }

/-- `Token { t, m_file, m_cursor_line, m_cursor_column, m_whitespace_precedes }`. -/
def tkCur (l : Lx) (t : Ttype) : Token := { type := t, line := l.cur.line, col := l.cur.col, ws := l.ws }

/-- The same with a literal, at the token position. -/
def tkLit (l : Lx) (t : Ttype) (s : Str) : Token := { l.tk t with lit := some s }

/-- The same with a literal, at the cursor position. -/
def tkCurLit (l : Lx) (t : Ttype) (s : Str) : Token := { l.tkCur t with lit := some s }

end Lx

/-- What `build_next_token` does: the token, the lexer object afterwards and the `m_nested_lexer` created, if any. -/
structure Out where
  tok : Token
  lx : Lx
  child : Option Lx := none
  deriving DecidableEq, Repr

namespace Lx

/-- Advance and return a token without literal. -/
def op (l : Lx) (n : Nat) (t : Ttype) : Out := { tok := l.tk t, lx := l.adv n }

/-- Advance and return a token with literal. -/
def opLit (l : Lx) (n : Nat) (t : Ttype) (s : Str) : Out := { tok := l.tkLit t s, lx := l.adv n }

/-! ### Operators (src/lexer.cpp:205-518, 559-643) -/

/-- src/lexer.cpp:205-239. -/
def lexEqual (l : Lx) : Out :=
  if l.ch 1 = '=' then (if l.ch 2 = '=' then l.op 3 .EqualEqualEqual else l.op 2 .EqualEqual)
  else if l.ch 1 = '>' then l.op 2 .HashRocket
  else if l.ch 1 = '~' then l.op 2 .Match
  else if (l.adv 1).cur.col = 1 ∧ matchWord (l.rest.drop 1) (cs! "begin") then
    let r := beginDocLoop (l.rest.drop 6)
    l.opLit (6 + r.2) .Doc (cs! "=begin" ++ r.1 ++ cs! "=end\n")
  else l.op 1 .Equal

/-- src/lexer.cpp:240-256. -/
def lexPlus (l : Lx) : Out :=
  if l.ch 1 = '=' then l.op 2 .PlusEqual
  else if l.ch 1 = '@' ∧ l.remaining > 0 then l.opLit 2 .OperatorName (cs! "+@")
  else l.op 1 .Plus

/-- src/lexer.cpp:257-276. -/
def lexMinus (l : Lx) : Out :=
  if l.ch 1 = '>' then l.op 2 .Arrow
  else if l.ch 1 = '=' then l.op 2 .MinusEqual
  else if l.ch 1 = '@' ∧ l.remaining > 0 then l.opLit 2 .OperatorName (cs! "-@")
  else l.op 1 .Minus

/-- src/lexer.cpp:277-294. -/
def lexStar (l : Lx) : Out :=
  if l.ch 1 = '*' then (if l.ch 2 = '=' then l.op 3 .StarStarEqual else l.op 2 .StarStar)
  else if l.ch 1 = '=' then l.op 2 .StarEqual
  else l.op 1 .Star

/-- src/lexer.cpp:361-380. -/
def lexBang (l : Lx) : Out :=
  if l.ch 1 = '=' then l.op 2 .NotEqual
  else if l.ch 1 = '~' then l.op 2 .NotMatch
  else if l.ch 1 = '@' ∧ l.remaining > 0 then l.opLit 2 .OperatorName (cs! "!@")
  else l.op 1 .Not

/-- src/lexer.cpp:439-456. -/
def lexGreater (l : Lx) : Out :=
  if l.ch 1 = '>' then (if l.ch 2 = '=' then l.op 3 .RightShiftEqual else l.op 2 .RightShift)
  else if l.ch 1 = '=' then l.op 2 .GreaterThanOrEqual
  else l.op 1 .GreaterThan

/-- src/lexer.cpp:457-477. -/
def lexAmpersand (l : Lx) : Out :=
  if l.ch 1 = '&' then
    (if l.ch 2 = '=' then l.op 3 .AmpersandAmpersandEqual else l.op 2 .AmpersandAmpersand)
  else if l.ch 1 = '=' then l.op 2 .AmpersandEqual
  else if l.ch 1 = '.' then l.op 2 .SafeNavigation
  else l.op 1 .Ampersand

/-- src/lexer.cpp:478-495. -/
def lexPipe (l : Lx) : Out :=
  if l.ch 1 = '|' then (if l.ch 2 = '=' then l.op 3 .PipePipeEqual else l.op 2 .PipePipe)
  else if l.ch 1 = '=' then l.op 2 .PipeEqual
  else l.op 1 .Pipe

/-- src/lexer.cpp:496-504. -/
def lexCaret (l : Lx) : Out := if l.ch 1 = '=' then l.op 2 .CaretEqual else l.op 1 .Caret

/-- src/lexer.cpp:505-518. -/
def lexTilde (l : Lx) : Out :=
  if l.ch 1 = '@' ∧ l.remaining > 0 then l.opLit 2 .OperatorName (cs! "~@") else l.op 1 .Tilde

/-- src/lexer.cpp:580-594. -/
def lexDot (l : Lx) : Out :=
  if l.ch 1 = '.' then (if l.ch 2 = '.' then l.op 3 .DotDotDot else l.op 2 .DotDot)
  else l.op 1 .Dot

/-- src/lexer.cpp:598-615. -/
def lexLBracket (l : Lx) : Out :=
  if l.ch 1 = ']' then
    (if l.ch 2 = '=' then l.op 3 .LBracketRBracketEqual else l.op 2 .LBracketRBracket)
  else l.op 1 .LBracket

/-- src/lexer.cpp:630-640. -/
def lexNewline (l : Lx) : Out :=
  let l1 := l.adv 1
  match l.heredocStack with
  | [] => { tok := l.tk .Newline, lx := l1 }
  | new :: _ => { tok := l.tk .Newline, lx := { l1.adv (new - l1.cur.index) with heredocStack := [] } }

/-- src/lexer.cpp:1548-1550 `Lexer::token_is_first_on_line`. -/
def firstOnLine (l : Lx) : Bool := !l.lastType.isValid || l.lastType == .Newline

/-- src/lexer.cpp:662-688. -/
def lexHash (l : Lx) : Out :=
  if l.firstOnLine then
    let r := docCommentLoop true l.rest
    l.opLit r.2 .Doc r.1
  else l.op (commentLen l.rest) .Comment

/-! ### Variables, names, numbers -/

/-- src/lexer.cpp:559-570. -/
def lexAt (l : Lx) : Out :=
  if l.ch 1 = '@' then
    let r := consumeWord (l.rest.drop 1)
    l.opLit (r.2 + 1) .ClassVariable ('@' :: r.1)
  else
    let r := consumeWord l.rest
    l.opLit r.2 .InstanceVariable r.1

/-- src/lexer.cpp:1004-1024, the punctuation global variables. -/
def isPunctGlobal (c : Char) : Bool :=
  c == '?' || c == '!' || c == '=' || c == '@' || c == '&' || c == '`' || c == '\'' || c == '"' || c == '+' ||
  c == '/' || c == '\\' || c == ';' || c == '<' || c == '>' || c == '$' || c == '*' || c == '.' || c == ',' ||
  c == ':' || c == '~'

/-- src/lexer.cpp:1003-1042 `Lexer::consume_global_variable`. -/
def globalVariable (l : Lx) : Out :=
  if isPunctGlobal (l.ch 1) then l.opLit 2 .GlobalVariable ['$', l.ch 1]
  else if l.ch 1 = '-' then l.opLit 3 .GlobalVariable ['$', '-', l.ch 2]
  else
    let r := consumeWord l.rest
    l.opLit r.2 .GlobalVariable r.1

/-- src/lexer.cpp:571-579, with 1362-1371 `Lexer::consume_nth_ref`. -/
def lexDollar (l : Lx) : Res Out :=
  if l.ch 1 = '&' then .ok (l.opLit 2 .BackRef ['&'])
  else if between '1' '9' (l.ch 1) then
    let ds := (l.rest.drop 1).takeWhile isDigit
    match nthRefVal ds with
    | some v => .ok { tok := { l.tk .NthRef with fix := v }, lx := l.adv (1 + ds.length) }
    | none => .ub
  else .ok l.globalVariable

/-- src/lexer.cpp:1202-1360 as seen from `build_next_token` (lines 689-701). The value of a `Float` token is kept as
the text handed to `atof`. -/
def lexNumber (l : Lx) : Out :=
  let r := numeric l.rest
  let l' := l.adv r.2
  match r.1 with
  | .fix v => { tok := { l.tk .Fixnum with fix := v }, lx := l' }
  | .big s => { tok := l.tkLit .Bignum s, lx := l' }
  | .flt s => { tok := { l.tk .Float with flt := s }, lx := l' }
  | .bad c => { tok := l'.tkCurLit .Invalid [c], lx := l' }

/-- src/lexer.cpp:972-1001 `Lexer::consume_bare_name_or_constant`. -/
def bareName (l : Lx) (t : Ttype) : Out :=
  let r := consumeWord l.rest
  let c := l.ch r.2
  let d := l.ch (r.2 + 1)
  if c = '?' ∨ c = '!' then
    if d = ':' ∧ l.lastType.canPrecedeSymbolKey then l.opLit (r.2 + 2) .SymbolKey (r.1 ++ [c])
    else l.opLit (r.2 + 1) t (r.1 ++ [c])
  else if c = '=' then
    if l.allowAssign ∨ (l.lastType ≠ .Dot ∧ l.remaining > 0) then l.opLit (r.2 + 1) t (r.1 ++ [c])
    else l.opLit r.2 t r.1
  else if c = ':' ∧ d ≠ ':' ∧ l.lastType.canPrecedeSymbolKey then l.opLit (r.2 + 1) .SymbolKey r.1
  else l.opLit r.2 t r.1

/-- src/lexer.cpp:731-812: the keywords in the order in which they are tried. -/
def keywords : List (Str × Ttype) := [
  (cs! "__ENCODING__", .ENCODINGKeyword), (cs! "__LINE__", .LINEKeyword), (cs! "__FILE__", .FILEKeyword),
  (cs! "BEGIN", .BEGINKeyword), (cs! "END", .ENDKeyword), (cs! "alias", .AliasKeyword),
  (cs! "and", .AndKeyword), (cs! "begin", .BeginKeyword), (cs! "break", .BreakKeyword),
  (cs! "case", .CaseKeyword), (cs! "class", .ClassKeyword), (cs! "defined?", .DefinedKeyword),
  (cs! "def", .DefKeyword), (cs! "do", .DoKeyword), (cs! "else", .ElseKeyword), (cs! "elsif", .ElsifKeyword),
  (cs! "end", .EndKeyword), (cs! "ensure", .EnsureKeyword), (cs! "false", .FalseKeyword),
  (cs! "for", .ForKeyword), (cs! "if", .IfKeyword), (cs! "in", .InKeyword), (cs! "module", .ModuleKeyword),
  (cs! "next", .NextKeyword), (cs! "nil", .NilKeyword), (cs! "not", .NotKeyword), (cs! "or", .OrKeyword),
  (cs! "redo", .RedoKeyword), (cs! "rescue", .RescueKeyword), (cs! "retry", .RetryKeyword),
  (cs! "return", .ReturnKeyword), (cs! "self", .SelfKeyword), (cs! "super", .SuperKeyword),
  (cs! "then", .ThenKeyword), (cs! "true", .TrueKeyword), (cs! "undef", .UndefKeyword),
  (cs! "unless", .UnlessKeyword), (cs! "until", .UntilKeyword), (cs! "when", .WhenKeyword),
  (cs! "while", .WhileKeyword), (cs! "yield", .YieldKeyword)]

/-- src/lexer.cpp:721-813: the keyword at the current position and its length. When `self.` or `self::` is found at
lines 723-728, the tries of lines 731-812 happen at the `.` or `:` and all fail; otherwise the cursor is back where
it was. -/
def keywordAt (l : Lx) : Option (Ttype × Nat) :=
  if l.lastType ≠ .Dot ∧ l.lastType ≠ .ConstantResolution ∧ matchWord l.rest (cs! "self") ∧
      (l.ch 4 = '.' ∨ (l.ch 4 = ':' ∧ l.ch 5 = ':')) then some (.SelfKeyword, 4)
  else if l.remaining = 0 then
    (keywords.find? fun k => matchWord l.rest k.1).map fun k => (k.2, k.1.length)
  else none

/-- src/lexer.cpp:721-836, the end of `build_next_token`. -/
def lexWord (l : Lx) : Out :=
  match l.keywordAt with
  | some (t, n) =>
    if l.ch n = ':' ∧ l.ch (n + 1) ≠ ':' ∧ !l.openTernary then l.opLit (n + 1) .SymbolKey (t.value.getD [])
    else l.op n t
  | none =>
    let c := l.ch 0
    if isNameStart c then l.bareName .BareName
    else if between 'A' 'Z' c then l.bareName .Constant
    else
      let r := nonWs l.rest
      l.opLit r.2 .Invalid r.1

/-! ### Literals with their own lexer -/

/-- src/lexer.cpp:1552-1555 `Lexer::consume_double_quoted_string`, called with the cursor `n` bytes ahead (behind the
opening delimiter). The nested lexer is a copy of this object
(include/natalie_parser/lexer/interpolated_string_lexer.hpp:12-18). -/
def doubleQuoted (l : Lx) (n : Nat) (start stop : Char) (b e : Ttype) : Out :=
  let l := l.adv n
  { tok := l.tkLit b [start], lx := l,
    child := some { l with startChar := if start = stop then NUL else start, stopChar := stop,
                           kind := .istr .InProgress e true } }

/-- src/lexer.cpp:1604-1607 `Lexer::consume_regexp`, include/natalie_parser/lexer/regexp_lexer.hpp:12-17. -/
def regexp (l : Lx) (n : Nat) (start stop : Char) : Out :=
  let l := l.adv n
  { tok := l.tkLit .InterpolatedRegexpBegin [start], lx := l,
    child := some { l with startChar := if start = stop then NUL else start, stopChar := stop,
                           kind := .regexp .InProgress [] } }

/-- src/lexer.cpp:1594-1602 `consume_quoted_array_with[out]_interpolation`,
include/natalie_parser/lexer/word_array_lexer.hpp:12-18. -/
def wordArray (l : Lx) (n : Nat) (start stop : Char) (interp : Bool) (t : Ttype) : Out :=
  let l := l.adv n
  { tok := l.tkLit t [start], lx := l,
    child := some { l with stopChar := stop, kind := .words .InProgress interp start 0 [] } }

/-- src/lexer.cpp:1557-1592 `Lexer::consume_single_quoted_string`, called with the cursor `n` bytes ahead. -/
def singleQuotedString (l : Lx) (n : Nat) (start stop : Char) : Out :=
  match singleQuoted start stop 0 (l.rest.drop n) with
  | (some buf, k) =>
    if l.ch (n + k) = ':' ∧ !l.openTernary then l.opLit (n + k + 1) .SymbolKey buf
    else l.opLit (n + k) .String buf
  | (none, k) => l.opLit (n + k) .UnterminatedString [start]

/-- The literal constructors passed to `consume_percent_string`. -/
inductive PKind where
  | q | Q | r | s | x | w | W | i | I
  deriving DecidableEq, Repr

/-- src/lexer.cpp:1604-1637, the consumers of `%` literals. -/
def percentConsumer (l : Lx) (n : Nat) (k : PKind) (start stop : Char) : Out :=
  match k with
  | .q => l.singleQuotedString n start stop
  | .Q => l.doubleQuoted n start stop .InterpolatedStringBegin .InterpolatedStringEnd
  | .r => l.regexp n start stop
  | .s => let o := l.singleQuotedString n start stop; { o with tok := { o.tok with type := .Symbol } }
  | .x => l.doubleQuoted n start stop .InterpolatedShellBegin .InterpolatedShellEnd
  | .w => l.wordArray n start stop false .PercentLowerW
  | .W => l.wordArray n start stop true .PercentUpperW
  | .i => l.wordArray n start stop false .PercentLowerI
  | .I => l.wordArray n start stop true .PercentUpperI

/-- src/lexer.cpp:1639-1666 `Lexer::consume_percent_string`; `n` is the number of bytes up to and including the
delimiter, counted from the `%`. -/
def percentString (l : Lx) (n : Nat) (k : PKind) : Out :=
  if l.remaining > 0 then l.op 1 .Percent
  else
    let c := l.ch (n - 1)
    if c = '[' then l.percentConsumer n k '[' ']'
    else if c = '{' then l.percentConsumer n k '{' '}'
    else if c = '<' then l.percentConsumer n k '<' '>'
    else if c = '(' then l.percentConsumer n k '(' ')'
    else if canDelimit c then l.percentConsumer n k c c
    else l.op 1 .Percent

/-- src/lexer.cpp:334-360. -/
def lexPercent (l : Lx) : Out :=
  let c := l.ch 1
  if c = '=' then l.op 2 .PercentEqual
  else if c = 'q' then l.percentString 3 .q
  else if c = 'Q' then l.percentString 3 .Q
  else if c = 'r' then l.percentString 3 .r
  else if c = 's' then l.percentString 3 .s
  else if c = 'x' then l.percentString 3 .x
  else if c = 'w' then l.percentString 3 .w
  else if c = 'W' then l.percentString 3 .W
  else if c = 'i' then l.percentString 3 .i
  else if c = 'I' then l.percentString 3 .I
  else l.percentString 2 .Q

/-- src/lexer.cpp:301-312, the tokens after which `/` starts a regexp. -/
def slashAfter : Ttype → Bool
  | .Comma | .Doc | .Equal | .LBracket | .LCurlyBrace | .LParen | .Match | .Newline | .Not | .Pipe => true
  | _ => false

/-- src/lexer.cpp:295-333. -/
def lexSlash (l : Lx) : Out :=
  if !l.lastType.isValid then l.regexp 1 '/' '/'
  else if l.remaining > 0 then l.op 1 .Slash
  else if slashAfter l.lastType then l.regexp 1 '/' '/'
  else if l.ch 1 = ' ' then
    if l.lastType.isKeyword ∧ l.lastType.canPrecedeRegexpLiteral then l.regexp 1 '/' '/' else l.op 1 .Slash
  else if l.ch 1 = '=' then l.op 2 .SlashEqual
  else if l.ws then l.regexp 1 '/' '/'
  else l.op 1 .Slash

/-- src/lexer.cpp:1154-1166: the offset at which the heredoc body starts; `none`: there is no further line. -/
def heredocBegin (l : Lx) : Option Nat :=
  match l.heredocStack with
  | [] => (lineLen l.rest).map (l.cur.index + ·)
  | last :: _ => some last

/-- src/lexer.cpp:1095-1200 `Lexer::consume_heredoc`, called with the cursor behind the `<<`. The nested lexer of an
interpolating heredoc is a new object over the body
(include/natalie_parser/lexer/interpolated_string_lexer.hpp:21-28). -/
def heredoc (l : Lx) : Out :=
  let dash : Bool := l.ch 0 == '-' || l.ch 0 == '~'
  let dedent : Bool := l.ch 0 == '~'
  let l := if dash then l.adv 1 else l
  let c := l.ch 0
  let quoted : Bool := c == '"' || c == '`' || c == '\''
  let (name, n) : Option Str × Nat :=
    if quoted then let r := heredocQuotedName c (l.rest.drop 1); (r.1, r.2 + 1)
    else let r := consumeWord l.rest; (some r.1, r.2)
  let l := l.adv n
  match name with
  | none => { tok := l.tkLit .UnterminatedString (cs! "heredoc identifier"), lx := l }
  | some name =>
    match l.heredocBegin with
    | none => { tok := l.tkLit .UnterminatedString (cs! "heredoc"), lx := l }
    | some start =>
      match heredocBody dash name [] (l.input.drop start) with
      | (none, _) => { tok := l.tkLit .UnterminatedString (l.input.drop start), lx := l }
      | (some doc, k) =>
        let doc := stripTrailingSpaces (doc.take (doc.length - name.length))
        let doc := if dedent then dedentHeredoc doc else doc
        let l := { l with heredocStack := (start + k) :: l.heredocStack }
        if c = '\'' then { tok := l.tkLit .String doc, lx := l }
        else
          let shell : Bool := c == '`'
          { tok := l.tk (if shell then .InterpolatedShellBegin else .InterpolatedStringBegin), lx := l,
            child := some { input := doc, cur := { index := 0, line := l.cur.line + 1, col := 0 },
                            kind := .istr .InProgress
                              (if shell then .InterpolatedShellEnd else .InterpolatedStringEnd) false } }

/-- The bytes that may follow `<<`, `<<-` or `<<~` in a heredoc (src/lexer.cpp:390-397, 414-421). -/
def heredocStart (c : Char) : Bool := isAlpha c || c == '_' || c == '"' || c == '`' || c == '\''

/-- src/lexer.cpp:381-438. -/
def lexLess (l : Lx) : Out :=
  if l.ch 1 = '<' then
    if l.ch 2 = '~' ∨ l.ch 2 = '-' then
      if heredocStart (l.ch 3) then (l.adv 2).heredoc else l.op 2 .LeftShift
    else if l.ch 2 = '=' then l.op 3 .LeftShiftEqual
    else if !l.ws then
      if l.firstOnLine then (l.adv 2).heredoc
      else if l.lastType.canPrecedeHeredoc then (l.adv 2).heredoc
      else l.op 2 .LeftShift
    else if heredocStart (l.ch 2) then (l.adv 2).heredoc
    else l.op 2 .LeftShift
  else if l.ch 1 = '=' then (if l.ch 2 = '>' then l.op 3 .Comparison else l.op 2 .LessThanOrEqual)
  else l.op 1 .LessThan

/-- src/lexer.cpp:519-536. -/
def lexQuestion (l : Lx) : Res Out :=
  let c := l.ch 1
  if isSpace c ∨ c = NUL then
    .ok { tok := l.tk .TernaryQuestion, lx := { l.adv 1 with openTernary := true } }
  else if c = '\\' then
    match escapedByte (l.rest.drop 2) with
    | .ok bytes n => .ok (l.opLit (2 + n) .String bytes)
    | .bad t n => .ok (l.opLit (2 + n) t [l.ch (2 + n)])
    | .abort => .abort
    | .fuel => .fuel
  else .ok (l.opLit 2 .String [c])

/-- src/lexer.cpp:537-558. Line 550 builds the symbol from `literal()`, a C string: what follows a NUL byte is
lost. -/
def lexColon (l : Lx) : Out :=
  let c := l.ch 1
  if c = ':' then l.op 2 .ConstantResolution
  else if l.lastType = .InterpolatedStringEnd ∧ !l.ws ∧ !l.openTernary then l.op 1 .InterpolatedStringSymbolKey
  else if c = '"' then l.doubleQuoted 2 '"' '"' .InterpolatedSymbolBegin .InterpolatedSymbolEnd
  else if c = '\'' then
    let o := l.singleQuotedString 2 '\'' '\''
    { o with tok := l.tkLit .Symbol ((o.tok.lit.getD []).takeWhile (· != NUL)) }
  else if isSpace c ∨ c = NUL then { tok := l.tk .TernaryColon, lx := { l.adv 1 with openTernary := false } }
  else
    match symbolName (l.rest.drop 1) with
    | .ok (s, n) => l.opLit (n + 1) .Symbol s
    | .error c => l.opLit 1 .Invalid [c]

/-- src/lexer.cpp:653-661. -/
def lexBacktick (l : Lx) : Out :=
  if l.remaining > 0 then l.opLit 1 .OperatorName (cs! "`")
  else l.doubleQuoted 1 '`' '`' .InterpolatedShellBegin .InterpolatedShellEnd

/-- src/lexer.cpp:702-707 and 721-836. -/
def lexI (l : Lx) : Out :=
  if l.lastType.canBeComplexOrRational ∧ !isAlnum (l.ch 1) then l.op 1 .Complex else l.lexWord

/-- src/lexer.cpp:708-718 and 721-836. -/
def lexR (l : Lx) : Out :=
  if l.lastType.canBeComplexOrRational then
    if l.ch 1 = 'i' then l.op 2 .RationalComplex
    else if !isAlnum (l.ch 1) then l.op 1 .Rational
    else l.lexWord
  else l.lexWord

/-- src/lexer.cpp:203-836: `build_next_token` from the `switch` on. -/
def dispatch (l : Lx) : Res Out :=
  let c := l.ch 0
  if c = '=' then .ok l.lexEqual
  else if c = '+' then .ok l.lexPlus
  else if c = '-' then .ok l.lexMinus
  else if c = '*' then .ok l.lexStar
  else if c = '/' then .ok l.lexSlash
  else if c = '%' then .ok l.lexPercent
  else if c = '!' then .ok l.lexBang
  else if c = '<' then .ok l.lexLess
  else if c = '>' then .ok l.lexGreater
  else if c = '&' then .ok l.lexAmpersand
  else if c = '|' then .ok l.lexPipe
  else if c = '^' then .ok l.lexCaret
  else if c = '~' then .ok l.lexTilde
  else if c = '?' then l.lexQuestion
  else if c = ':' then .ok l.lexColon
  else if c = '@' then .ok l.lexAt
  else if c = '$' then l.lexDollar
  else if c = '.' then .ok l.lexDot
  else if c = '{' then .ok (l.op 1 .LCurlyBrace)
  else if c = '[' then .ok l.lexLBracket
  else if c = '(' then .ok (l.op 1 .LParen)
  else if c = '}' then .ok (l.op 1 .RCurlyBrace)
  else if c = ']' then .ok (l.op 1 .RBracket)
  else if c = ')' then .ok (l.op 1 .RParen)
  else if c = '\n' then .ok l.lexNewline
  else if c = ';' then .ok (l.op 1 .Semicolon)
  else if c = ',' then .ok (l.op 1 .Comma)
  else if c = '"' then .ok (l.doubleQuoted 1 '"' '"' .InterpolatedStringBegin .InterpolatedStringEnd)
  else if c = '\'' then .ok (l.singleQuotedString 1 '\'' '\'')
  else if c = '`' then .ok l.lexBacktick
  else if c = '#' then .ok l.lexHash
  else if isDigit c then .ok l.lexNumber
  else if c = 'i' then .ok l.lexI
  else if c = 'r' then .ok l.lexR
  else .ok l.lexWord

/-- src/lexer.cpp:197-202: bytes skipped for a byte order mark. -/
def bomLen (l : Lx) : Nat :=
  if l.ch 1 = '\xBB' then (if l.ch 2 = '\xBF' then 3 else 2)
  else if l.ch 1 = '\xBF' then 2 else 1

/-- src/lexer.cpp:188-836 `Lexer::build_next_token`. -/
def buildBase (l : Lx) : Res Out :=
  if l.cur.index ≥ l.input.length then .ok { tok := l.tkCur .Eof, lx := l }
  else if l.startChar ≠ NUL ∧ l.ch 0 = l.startChar then dispatch { l with pairDepth := l.pairDepth + 1 }
  else if l.stopChar ≠ NUL ∧ l.ch 0 = l.stopChar then
    if l.pairDepth = 0 then .ok { tok := l.tkCur .Eof, lx := l }
    else dispatch { l with pairDepth := l.pairDepth - 1 }
  else if l.cur.index = 0 ∧ l.ch 0 = '\xEF' then dispatch (l.adv l.bomLen)
  else dispatch l

/-! ### `InterpolatedStringLexer` (src/lexer/interpolated_string_lexer.cpp) -/

/-- include/natalie_parser/lexer.hpp:16-26: the `Lexer { *this, '{', '}' }` of an interpolation. -/
def evalChild (l : Lx) : Lx :=
  { input := l.input, cur := l.cur, tokenLine := l.tokenLine, tokenCol := l.tokenCol, stopChar := '}',
    startChar := '{' }

/-- interpolated_string_lexer.cpp:71-75 `start_evaluation`. -/
def istrStartEval (l : Lx) (e : Ttype) (alters : Bool) : Out :=
  { tok := l.tk .EvaluateToStringBegin, lx := { l with kind := .istr .EvaluateEnd e alters },
    child := some l.evalChild }

/-- interpolated_string_lexer.cpp:83-86 `finish`. -/
def istrFinish (l : Lx) (e : Ttype) (alters : Bool) : Out :=
  { tok := l.tkCur e, lx := { l with kind := .istr .Done e alters } }

/-- interpolated_string_lexer.cpp:22-69 `consume_string`. -/
def istrConsume (l : Lx) (e : Ttype) (alters : Bool) : Res Out :=
  match interpLoop l.startChar l.stopChar (l.rest.length + 1) l.pairDepth [] 0 l.rest with
  | .eval buf d n =>
    let l := { l.adv n with pairDepth := d }
    if buf = [] then .ok (l.istrStartEval e alters)
    else .ok { tok := l.tkLit .String buf, lx := { l with kind := .istr .EvaluateBegin e alters } }
  | .stop buf d n =>
    let l := { l.adv n with pairDepth := d }
    if buf = [] then .ok (l.istrFinish e alters)
    else .ok { tok := l.tkLit .String buf, lx := { l with kind := .istr .EndToken e alters } }
  | .eos buf d n =>
    let l := { l.adv n with pairDepth := d }
    if l.stopChar = NUL then
      .ok { tok := l.tkLit .String buf, lx := { l.adv 1 with kind := .istr .EndToken e alters } }
    else .ok { tok := l.tkLit .UnterminatedString buf, lx := l }
  | .bad t d n =>
    let l := { l.adv n with pairDepth := d }
    .ok { tok := l.tkCurLit t [l.ch 0], lx := l }
  | .abort => .abort
  | .fuel => .fuel

/-- interpolated_string_lexer.cpp:6-20 `build_next_token`. -/
def buildIstr (l : Lx) (st : IState) (e : Ttype) (alters : Bool) : Res Out :=
  match st with
  | .InProgress => l.istrConsume e alters
  | .EvaluateBegin => .ok (l.istrStartEval e alters)
  | .EvaluateEnd =>
    .ok { tok := l.tk .EvaluateToStringEnd, lx := { l.adv 1 with kind := .istr .InProgress e alters } }
  | .EndToken => .ok (l.istrFinish e alters)
  | .Done => .ok { tok := l.tkCur .Eof, lx := l }

/-! ### `RegexpLexer` (src/lexer/regexp_lexer.cpp) -/

/-- regexp_lexer.cpp:38-83 `consume_regexp`. -/
def regexpConsume (l : Lx) (opts : Str) : Res Out :=
  match regexpLoop l.startChar l.stopChar (l.rest.length + 1) l.pairDepth [] 0 l.rest with
  | .eval buf d n =>
    .ok { tok := l.tkLit .String buf, lx := { l.adv n with pairDepth := d, kind := .regexp .EvaluateBegin opts } }
  | .stop buf d n =>
    let l := { l.adv n with pairDepth := d }
    let o := regexpOptions l.rest
    .ok { tok := l.tkLit .String buf, lx := { l.adv o.length with kind := .regexp .EndToken o } }
  | .eos buf d n => .ok { tok := l.tkLit .UnterminatedRegexp buf, lx := { l.adv n with pairDepth := d } }
  | .bad _ _ _ => .abort
  | .abort => .abort
  | .fuel => .fuel

/-- regexp_lexer.cpp:6-36 `build_next_token`. The nested lexer of an interpolation is a copy of this object as a
plain `Lexer` with another stop byte. -/
def buildRegexp (l : Lx) (st : IState) (opts : Str) : Res Out :=
  match st with
  | .InProgress => l.regexpConsume opts
  | .EvaluateBegin =>
    .ok { tok := l.tk .EvaluateToStringBegin, lx := { l with kind := .regexp .EvaluateEnd opts },
          child := some { l with stopChar := '}', kind := .base } }
  | .EvaluateEnd =>
    let l1 := l.adv 1
    if l1.ch 0 = l1.stopChar then
      let l2 := l1.adv 1
      let o := regexpOptions l2.rest
      .ok { tok := l.tk .EvaluateToStringEnd, lx := { l2.adv o.length with kind := .regexp .EndToken o } }
    else .ok { tok := l.tk .EvaluateToStringEnd, lx := { l1 with kind := .regexp .InProgress opts } }
  | .EndToken =>
    .ok { tok := { l.tkCur .InterpolatedRegexpEnd with lit := if opts = [] then none else some opts },
          lx := { l with kind := .regexp .Done opts } }
  | .Done => .ok { tok := l.tkCur .Eof, lx := l }

/-! ### `WordArrayLexer` (src/lexer/word_array_lexer.cpp) -/

/-- word_array_lexer.cpp:115-122 `dynamic_string_finish`. -/
def wordsDynFinish (l : Lx) (interp : Bool) (start : Char) (depth : Nat) (buf : Str) : Out :=
  if buf ≠ [] then
    { tok := l.tkCurLit .String buf, lx := { l with kind := .words .DynamicStringEnd interp start depth buf } }
  else
    { tok := l.tk .InterpolatedStringEnd, lx := { l with kind := .words .InProgress interp start depth buf } }

/-- word_array_lexer.cpp:124-132 `in_progress_finish`. -/
def wordsFinish (l : Lx) (interp : Bool) (start : Char) (depth : Nat) (buf : Str) : Out :=
  let l := l.adv 1
  if buf ≠ [] then
    { tok := l.tkCurLit .String buf, lx := { l with kind := .words .EndToken interp start depth buf } }
  else { tok := l.tkCur .RBracket, lx := { l with kind := .words .Done interp start depth buf } }

/-- word_array_lexer.cpp:38-101 `consume_array`. -/
def wordsConsume (l : Lx) (st : WState) (interp : Bool) (start : Char) (depth : Nat) : Res Out :=
  let dyn : Bool := st == .DynamicStringInProgress
  match wordLoop interp dyn start l.stopChar (l.rest.length + 1) depth [] 0 l.rest with
  | .space buf d n =>
    let l := l.adv n
    if dyn then .ok ((l.adv 1).wordsDynFinish interp start d buf)
    else .ok { tok := l.tkCurLit .String buf, lx := { l.adv 1 with kind := .words st interp start d buf } }
  | .eval buf d n =>
    let l := l.adv (n + 2)
    .ok { tok := l.tkCur .InterpolatedStringBegin,
          lx := { l with kind := .words .DynamicStringBegin interp start d buf } }
  | .stop buf d n =>
    let l := l.adv n
    if dyn then .ok (l.wordsDynFinish interp start d buf) else .ok (l.wordsFinish interp start d buf)
  | .eos buf d n =>
    let l := l.adv n
    .ok { tok := l.tkLit .UnterminatedWordArray buf, lx := { l with kind := .words st interp start d buf } }
  | .fuel => .fuel

/-- word_array_lexer.cpp:6-36 `build_next_token`. -/
def buildWords (l : Lx) (st : WState) (interp : Bool) (start : Char) (depth : Nat) (buf : Str) : Res Out :=
  match st with
  | .InProgress | .DynamicStringInProgress => l.wordsConsume st interp start depth
  | .DynamicStringBegin =>
    .ok { tok := l.tkLit .String buf, lx := { l with kind := .words .EvaluateBegin interp start depth buf } }
  | .DynamicStringEnd =>
    if l.ch 0 = l.stopChar then
      .ok { tok := l.tk .InterpolatedStringEnd,
            lx := { l.adv 1 with kind := .words .EndToken interp start depth buf } }
    else
      .ok { tok := l.tk .InterpolatedStringEnd, lx := { l with kind := .words .InProgress interp start depth buf } }
  | .EvaluateBegin =>
    .ok { tok := l.tk .EvaluateToStringBegin, lx := { l with kind := .words .EvaluateEnd interp start depth buf },
          child := some l.evalChild }
  | .EvaluateEnd =>
    .ok { tok := l.tk .EvaluateToStringEnd,
          lx := { l.adv 1 with kind := .words .DynamicStringInProgress interp start depth buf } }
  | .EndToken => .ok { tok := l.tkCur .RBracket, lx := { l with kind := .words .Done interp start depth buf } }
  | .Done => .ok { tok := l.tkCur .Eof, lx := l }

/-! ### One step of a lexer object -/

/-- The virtual call `build_next_token()`. -/
def build (l : Lx) : Res Out :=
  match l.kind with
  | .base => l.buildBase
  | .istr st e a => l.buildIstr st e a
  | .regexp st o => l.buildRegexp st o
  | .words st i s d b => l.buildWords st i s d b

/-- src/lexer.cpp:84-117: the bookkeeping about method names after a token of type `t`. -/
def post (l : Lx) (t : Ttype) : Lx :=
  match t with
  | .AliasKeyword => { l with remaining := 2 }
  | .ConstantResolution | .DefKeyword => { l with remaining := 1, allowAssign := true }
  | .Dot => { l with remaining := 1 }
  | .UndefKeyword => { l with remaining := sizeMax, sep := .Comma }
  | t =>
    if l.sep ≠ .Invalid then
      if l.lastName then
        if t ≠ l.sep then { l with lastName := false, remaining := 0, sep := .Invalid }
        else { l with lastName := false }
      else { l with lastName := t.isValid }
    else if l.remaining > 0 then { l with remaining := l.remaining - 1 }
    else { l with allowAssign := false }

/-- The virtual call `skip_whitespace()`: only the base class skips (interpolated_string_lexer.hpp:39,
regexp_lexer.hpp:24, word_array_lexer.hpp:24). -/
def skipped (l : Lx) : Nat :=
  match l.kind with
  | .base => skipWs l.rest
  | _ => 0

/-- src/lexer.cpp:80-82. -/
def start (l : Lx) : Lx :=
  let n := l.skipped
  let l := l.adv n
  { l with ws := n != 0, tokenLine := l.cur.line, tokenCol := l.cur.col }

/-- src/lexer.cpp:80-118: `next_token` of an object without nested lexer. -/
def step (l : Lx) : Res Out :=
  match l.start.build with
  | .ok o => .ok { o with lx := o.lx.post o.tok.type }
  | .abort => .abort
  | .ub => .ub
  | .fuel => .fuel

/-- `alters_parent_cursor_position()` (lexer.hpp:44, interpolated_string_lexer.hpp:30). -/
def alters (l : Lx) : Bool :=
  match l.kind with
  | .istr _ _ a => a
  | _ => true

/-- src/lexer.cpp:69-73: the parent's cursor after the nested lexer `child` has finished. -/
def sync (parent child : Lx) : Lx := if child.alters then { parent with cur := child.cur } else parent

end Lx

end NP
