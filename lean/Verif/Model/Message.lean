import Verif.Model.Parser

/-!
The text of a `Parser::SyntaxError`. The file of a token is the file given to the parser (every token the lexer
makes carries it; the token past the end of the vector, which has none, is shown not to be reached). C strings end at
their first NUL byte when they are formatted.
-/

namespace NP

/-- A string formatted through `const char *`. -/
def cStr (s : Str) : Str := s.takeWhile (· ≠ '\x00')

/-- A number formatted by `String::format`. -/
def natStr (n : Nat) : Str := Nat.toDigits 10 n

/-- src/parser.cpp:3178-3197, the expected delimiter. -/
def expectedDelimiter (start : Token) : Str :=
  match start.lit with
  | none => cs! "delimiter"
  | some s =>
    let s := cStr s
    if s = cs! "(" then cs! "')'"
    else if s = cs! "[" then cs! "']'"
    else if s = cs! "{" then cs! "'}'"
    else if s = cs! "<" then cs! "'>'"
    else if s = cs! "'" then cs! "\"'\""
    else cs! "'" ++ s ++ cs! "'"

/-- The first lines of `throw_unexpected` and `throw_unterminated_thing`: file and line number. -/
def place (file : Str) (t : Token) : Str := file ++ cs! "#" ++ natStr (t.line + 1)

/-- The lines that follow the first line of a message: the excerpt and the pointer below it. -/
def pointer (excerpt : Str) (t : Token) (what : Str) : Str :=
  cs! "\n" ++ excerpt ++ cs! "\n" ++ List.replicate t.col ' ' ++ cs! "^ " ++ what

/-- `SyntaxError::message` (src/parser.cpp:3126-3170, 3176-3230, 3251-3260). -/
def SErr.message (file : Str) : SErr → Str
  | .unexpected t isError help excerpt =>
    let descr := if isError then cs! "error" else cs! "expected"
    let helped := cs! " (" ++ descr ++ cs! ": '" ++ help ++ cs! "')"
    let here := pointer excerpt t (cs! "here, " ++ descr ++ cs! " '" ++ help ++ cs! "'")
    if t.type = .Invalid then
      place file t ++ cs! ": syntax error, unexpected '" ++ cStr (t.lit.getD []) ++ cs! "'" ++ helped
    else
      match t.type.value with
      | none =>
        place file t ++ cs! ": syntax error, " ++ descr ++ cs! " '" ++ help ++ cs! "' (token type: " ++
          natStr t.type.ctorIdx ++ cs! ")"
      | some ty =>
        if t.type = .Eof then place file t ++ cs! ": syntax error, unexpected end-of-input" ++ helped ++ here
        else
          match t.lit with
          | some l =>
            place file t ++ cs! ": syntax error, unexpected " ++ ty ++ cs! " '" ++ cStr l ++ cs! "'" ++ helped ++ here
          | none => place file t ++ cs! ": syntax error, unexpected '" ++ ty ++ cs! "'" ++ helped ++ here
  | .unterminated _ start thing excerpt =>
    let expected := expectedDelimiter start
    place file start ++ cs! ": syntax error, unterminated " ++ thing ++ cs! " meets end of file (expected: " ++
      expected ++ cs! ")" ++
      pointer excerpt start (cs! "starts here, expected closing " ++ expected ++ cs! " somewhere after")
  | .invalid t =>
    natStr (t.line + 1) ++
      match t.type with
      | .InvalidUnicodeEscape => cs! ": invalid Unicode escape"
      | .InvalidCharacterEscape => cs! ": invalid character escape"
      | _ => cs! ": syntax error, unexpected '" ++ cStr (t.lit.getD []) ++ cs! "'"
  | .plain msg => msg

end NP
