/-!
Bytes, `<ctype.h>` and outcomes.

A source byte is a `Char` with code < 256. C++ `char` is signed on the modelled platform, so a byte ≥ 128 is
negative there; `(unsigned int)c >= 128` (src/lexer.cpp:123,128) holds for exactly these bytes.
-/

namespace NP

/-- A C++ `TM::String` seen as its bytes. -/
abbrev Str := List Char

/-- `cs! "abc"` is the list of characters `['a', 'b', 'c']`, built when the file is elaborated. -/
syntax "cs!" str : term

macro_rules
  | `(cs! $s:str) => do
    let cs := s.getString.toList.toArray.map fun c => Lean.Syntax.mkCharLit c
    `(([$cs,*] : List Char))

/-- The NUL byte, also what `current_char()` and `peek()` return past the end (include/natalie_parser/lexer.hpp:47-68). -/
abbrev NUL : Char := '\x00'

/-- `lo <= c && c <= hi` on bytes below 128. -/
def between (lo hi c : Char) : Bool := lo.toNat ≤ c.toNat && c.toNat ≤ hi.toNat

/-- C library `isdigit`. -/
def isDigit (c : Char) : Bool := between '0' '9' c
/-- `c >= '0' && c <= '7'`. -/
def isOctal (c : Char) : Bool := between '0' '7' c
/-- `c == '0' || c == '1'`. -/
def isBinary (c : Char) : Bool := c == '0' || c == '1'
/-- C library `isxdigit`. -/
def isXDigit (c : Char) : Bool := isDigit c || between 'a' 'f' c || between 'A' 'F' c
/-- C library `isalpha` ("C" locale). -/
def isAlpha (c : Char) : Bool := between 'a' 'z' c || between 'A' 'Z' c
/-- C library `isalnum` ("C" locale). -/
def isAlnum (c : Char) : Bool := isAlpha c || isDigit c
/-- C library `isspace` ("C" locale): space, \t \n \v \f \r. -/
def isSpace (c : Char) : Bool := c == ' ' || between '\x09' '\x0d' c

/-- src/lexer.cpp:121-124 `is_name_start_char`. -/
def isNameStart (c : Char) : Bool := c != NUL && (between 'a' 'z' c || c == '_' || 128 ≤ c.toNat)

/-- src/lexer.cpp:126-129 `is_identifier_char`. -/
def isIdent (c : Char) : Bool := c != NUL && (isAlnum c || c == '_' || 128 ≤ c.toNat)

/-- src/lexer.cpp:131-134 `is_message_suffix`. -/
def isSuffix (c : Char) : Bool := c == '?' || c == '!'

/-- src/lexer.cpp:136-138 `is_identifier_char_or_message_suffix`. -/
def isIdentOrSuffix (c : Char) : Bool := isIdent c || isSuffix c

/-- include/natalie_parser/lexer.hpp:105-107 `char_can_be_string_or_regexp_delimiter`. -/
def canDelimit (c : Char) : Bool :=
  between '!' '/' c || c == ':' || c == ';' || c == '=' || c == '?' || c == '@' || c == '\\' || c == '~' ||
  c == '|' || between '^' '`' c

/-- The value of a C++ (signed) `char` holding this byte. -/
def sval (c : Char) : Int := if c.toNat < 128 then c.toNat else (c.toNat : Int) - 256

/-- `String::append_char(n)` with an integer argument: the byte it is narrowed to. -/
def narrow (n : Int) : Char := Char.ofNat (n % 256).toNat

/-- How a computation ends. `abort`: TM_UNREACHABLE or a failed assertion ends the process. `ub`: undefined
behaviour of C++ (signed overflow). `fuel`: the recursion bound of the model was exhausted (shown not to happen). -/
inductive Res (α : Type) where
  | ok (a : α)
  | abort
  | ub
  | fuel
  deriving DecidableEq, Repr

namespace Res
def bind {α β : Type} (x : Res α) (f : α → Res β) : Res β :=
  match x with
  | ok a => f a
  | abort => abort
  | ub => ub
  | fuel => fuel
def map {α β : Type} (f : α → β) (x : Res α) : Res β :=
  match x with
  | ok a => ok (f a)
  | abort => abort
  | ub => ub
  | fuel => fuel
end Res

instance : Monad Res where
  pure := Res.ok
  bind := Res.bind

end NP
