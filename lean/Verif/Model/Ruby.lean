import Verif.Model.Message
import Verif.Model.Tokens

/-!
The Ruby method `NatalieParser.tokens` (ext/natalie_parser/natalie_parser.cpp:56-133). A Ruby hash is the list of its
entries in the order of insertion, which is the order in which Ruby shows them. The functions of MRI that are called:
`StringValueCStr` raises `ArgumentError` for a string with a NUL byte, `rb_intern3` raises `EncodingError` for a name that
is not UTF-8, and all others are taken to succeed.
-/

namespace NP

/-- How a call from Ruby ends: with a value, an exception of Ruby, a failed assertion or undefined behaviour. -/
inductive ROut (α : Type) where
  | value (a : α)
  | argumentError
  | encodingError
  | syntaxError (message : Str)
  | abort
  | ub
  deriving DecidableEq, Repr

/-- The values in the hash of a token. `float` has the characters handed to `atof`. -/
inductive RVal where
  | str (s : Str)
  | sym (s : Str)
  | int (n : Int)
  | float (s : Str)
  deriving DecidableEq, Repr

abbrev RHash := List (Str × RVal)

/-- A byte that continues a character in UTF-8, from `lo` on and up to `hi`. -/
def contByte (lo hi : Nat) : Option Char → Bool
  | none => false
  | some c => lo ≤ c.toNat && c.toNat ≤ hi

/-- The number of bytes of the first character of a string in UTF-8, 0 if there is none (RFC 3629, section 4). -/
def utf8First (s : Str) : Nat :=
  match s with
  | [] => 0
  | c :: r =>
    let b := c.toNat
    let cont (k : Nat) := contByte 0x80 0xBF r[k]?
    if b < 0x80 then 1
    else if 0xC2 ≤ b && b ≤ 0xDF && cont 0 then 2
    else if b == 0xE0 && contByte 0xA0 0xBF r[0]? && cont 1 then 3
    else if b == 0xED && contByte 0x80 0x9F r[0]? && cont 1 then 3
    else if 0xE1 ≤ b && b ≤ 0xEF && b != 0xED && cont 0 && cont 1 then 3
    else if b == 0xF0 && contByte 0x90 0xBF r[0]? && cont 1 && cont 2 then 4
    else if 0xF1 ≤ b && b ≤ 0xF3 && cont 0 && cont 1 && cont 2 then 4
    else if b == 0xF4 && contByte 0x80 0x8F r[0]? && cont 1 && cont 2 then 4
    else 0

/-- The check of `rb_intern3`, after `k` bytes that belong to a character already checked. -/
def utf8From : Nat → Str → Bool
  | _, [] => true
  | k + 1, _ :: r => utf8From k r
  | 0, c :: r =>
    match utf8First (c :: r) with
    | 0 => false
    | k + 1 => utf8From k r

/-- The check of `rb_intern3`: the string is a sequence of characters in UTF-8. -/
def isUtf8 (s : Str) : Bool := utf8From 0 s

/-- src/token.cpp:7-25 `Token::validate`: the text of the error, if one is thrown. Lines count from 0 in the last three. -/
def Token.validateError (t : Token) : Option Str :=
  let open_ (what : Str) := some (cs! "unterminated " ++ what ++ cs! " meets end of file at line " ++ natStr t.line ++
    cs! " and column " ++ natStr t.col ++ cs! ": " ++ cStr (t.lit.getD []))
  match t.type with
  | .Invalid => some (natStr (t.line + 1) ++ cs! ": syntax error, unexpected '" ++ cStr (t.lit.getD []) ++ cs! "'")
  | .InvalidUnicodeEscape => some (natStr (t.line + 1) ++ cs! ": invalid Unicode escape")
  | .InvalidCharacterEscape => some (natStr (t.line + 1) ++ cs! ": invalid character escape")
  | .UnterminatedRegexp => open_ (cs! "regexp")
  | .UnterminatedString => open_ (cs! "string")
  | .UnterminatedWordArray => open_ (cs! "word array")
  | _ => none

/-- natalie_parser.cpp:69-102, the entry for the literal of the token (at most one). -/
def literalEntry (t : Token) : ROut RHash :=
  match t.type with
  | .Bignum | .Doc | .String =>
    match t.lit with
    | none => .abort
    | some s => .value [(cs! "literal", .str s)]
  | .BackRef | .BareName | .ClassVariable | .Constant | .GlobalVariable | .InstanceVariable | .OperatorName | .Symbol
  | .SymbolKey =>
    match t.lit with
    | none => .abort
    | some s => if isUtf8 s then .value [(cs! "literal", .sym s)] else .encodingError
  | .Fixnum | .NthRef => .value [(cs! "literal", .int t.fix)]
  | .Float => .value [(cs! "literal", .float t.flt)]
  | .InterpolatedRegexpEnd =>
    match t.lit with
    | some s => .value [(cs! "options", .str s)]
    | none => .value []
  | _ => .value []

/-- natalie_parser.cpp:56-108 `token_to_ruby` (`none` is `nil`). -/
def tokenToRuby (loc : Bool) (t : Token) : ROut (Option RHash) :=
  if t.type = .Eof then .value none
  else
    match t.validateError with
    | some m => .syntaxError m
    | none =>
      match t.type.value with
      | none => .abort
      | some ty =>
        match literalEntry t with
        | .value l =>
          .value (some ((cs! "type", .sym ty) :: l ++
            if loc then [(cs! "line", .int t.line), (cs! "column", .int t.col)] else []))
        | .argumentError => .argumentError
        | .encodingError => .encodingError
        | .syntaxError m => .syntaxError m
        | .abort => .abort
        | .ub => .ub

/-- natalie_parser.cpp:117-126, the loop of `tokens_on_instance`. -/
def tokensToRuby (loc : Bool) : List Token → ROut (List RHash)
  | [] => .value []
  | t :: ts =>
    match tokenToRuby loc t with
    | .value v =>
      match tokensToRuby loc ts with
      | .value hs => .value (v.toList ++ hs)
      | r => r
    | .argumentError => .argumentError
    | .encodingError => .encodingError
    | .syntaxError m => .syntaxError m
    | .abort => .abort
    | .ub => .ub

/-- natalie_parser.cpp:110-133: `NatalieParser.tokens(code, loc)` ends with the outcome `r`. -/
inductive RubyTokens (code : Str) (loc : Bool) : ROut (List RHash) → Prop where
  | nul (h : '\x00' ∈ code) : RubyTokens code loc .argumentError
  | tokens (h : '\x00' ∉ code) (ts : List Token) (hl : Lexes code ts) : RubyTokens code loc (tokensToRuby loc ts)
  | abort (h : '\x00' ∉ code) (hl : Ends code .abort) : RubyTokens code loc .abort
  | ub (h : '\x00' ∉ code) (hl : Ends code .ub) : RubyTokens code loc .ub

end NP
