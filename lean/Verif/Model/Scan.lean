import Verif.Model.Token

/-!
Text scanners of src/lexer.cpp as functions of the remaining text.

Every scanner takes the text from the current position on and returns what it read together with the number of
bytes by which the C++ function advances `m_index` (which can exceed the length of the text, as in C++).
-/

namespace NP

/-- The byte at offset `k` of a text; NUL past the end (include/natalie_parser/lexer.hpp:47-68). -/
def _root_.List.ch (s : List Char) (k : Nat) : Char := s.getD k NUL

/-- src/lexer.cpp:140-150 `Lexer::match`, the test only: the text starts with `w` and no identifier byte or
`?`/`!` follows. -/
def matchWord (s w : Str) : Bool := w.isPrefixOf s && !isIdentOrSuffix (s.ch w.length)

/-- src/lexer.cpp:176-186 `Lexer::skip_whitespace`: number of bytes skipped. -/
def skipWs : Str → Nat
  | '\\' :: '\n' :: cs => skipWs cs + 2
  | ' ' :: cs => skipWs cs + 1
  | '\t' :: cs => skipWs cs + 1
  | _ => 0

/-- src/lexer.cpp:958-966 `Lexer::consume_word()` (a do-while loop: the first byte is taken unconditionally). -/
def consumeWord (s : Str) : Str × Nat :=
  let w := s.tail.takeWhile isIdent
  (s.ch 0 :: w, w.length + 1)

/-- src/lexer.cpp:228-232, the loop of `=begin` comments, from the byte after `=begin`. -/
def beginDocLoop : Str → Str × Nat
  | [] => ([NUL], 1)
  | c :: cs =>
    if cs.ch 0 = NUL then ([c], 1)
    else if c = '\n' ∧ matchWord cs (cs! "=end") then ([c], 5)
    else let r := beginDocLoop cs; (c :: r.1, r.2 + 1)

/-- src/lexer.cpp:667-680, the loop of `#` documentation comments; the flag is `found_comment_marker`. -/
def docCommentLoop : Bool → Str → Str × Nat
  | _, [] => ([], 0)
  | found, c :: cs =>
    if c = NUL then ([], 0)
    else if !found && c != '#' && !isSpace c then ([], 0)
    else if c = '\n' ∨ c = '\r' then
      let r := docCommentLoop false cs; (c :: r.1, r.2 + 1)
    else if found || c == '#' then
      let r := docCommentLoop true cs; (c :: r.1, r.2 + 1)
    else
      let r := docCommentLoop false cs; (r.1, r.2 + 1)

/-- src/lexer.cpp:683-686, length of a plain comment, from its `#` on. -/
def commentLen (s : Str) : Nat := (s.tail.takeWhile fun c => c != NUL && c != '\n' && c != '\r').length + 1

/-- src/lexer.cpp:1668-1676 `Lexer::consume_non_whitespace`. -/
def nonWs (s : Str) : Str × Nat :=
  let w := s.tail.takeWhile fun c => c != NUL && c != ' ' && c != '\t' && c != '\n' && c != '\r'
  (s.ch 0 :: w, w.length + 1)

/-! ### Numbers -/

/-- The digit loops of src/lexer.cpp:1206-1212, 1230-1235, 1247-1252, 1264-1269, 1281-1286, 1301-1306, 1335-1340,
1351-1356: digits accepted by `p`, each possibly followed by one underscore that is dropped. All these loops are
entered on a byte accepted by `p`. -/
def digitRun (p : Char → Bool) : Str → Str × Nat
  | c :: '_' :: cs =>
    if p c then let r := digitRun p cs; (c :: r.1, r.2 + 2) else ([], 0)
  | c :: cs =>
    if p c then let r := digitRun p cs; (c :: r.1, r.2 + 1) else ([], 0)
  | [] => ([], 0)

/-- The value of a digit for `strtoll` and for `consume_hex_number`. -/
def digitVal (c : Char) : Nat :=
  if isDigit c then c.toNat - '0'.toNat
  else if between 'a' 'z' c then c.toNat - 'a'.toNat + 10
  else c.toNat - 'A'.toNat + 10

def llongMax : Nat := 2 ^ 63 - 1
/-- src/lexer.cpp:1319. -/
def maxFixnum : Nat := llongMax / 2

/-- C library `strtoll` on a string of digits of the base: the value and whether `errno` is set (`ERANGE`). -/
def strtoll (s : Str) (base : Nat) : Nat × Bool :=
  let v := s.foldl (fun a c => a * base + digitVal c) 0
  if v ≤ llongMax then (v, false) else (llongMax, true)

/-- What `consume_numeric` ends with. -/
inductive Num where
  /-- `Fixnum` token with this value. -/
  | fix (v : Nat)
  /-- `Bignum` token with these characters. -/
  | big (chars : Str)
  /-- `Float` token made from these characters. -/
  | flt (chars : Str)
  /-- `Invalid` token holding this byte. -/
  | bad (c : Char)
  deriving DecidableEq, Repr

/-- src/lexer.cpp:1321-1328 `Lexer::chars_to_fixnum_or_bignum_token`. -/
def charsToNum (chars : Str) (base offset : Nat) : Num :=
  let r := strtoll (chars.drop offset) base
  if r.2 ∨ r.1 > maxFixnum then .big chars else .fix r.1

/-- src/lexer.cpp:1342-1357, exponent part; text from the current byte on; `.error` is the invalid byte. -/
def exponentPart (s : Str) : Except Char Str × Nat :=
  if s.ch 0 = 'e' ∨ s.ch 0 = 'E' then
    let sign : Str := if s.ch 1 = '-' ∨ s.ch 1 = '+' then [s.ch 1] else []
    let k := sign.length + 1
    if isDigit (s.ch k) then
      let r := digitRun isDigit (s.drop k)
      (.ok ('e' :: sign ++ r.1), k + r.2)
    else (.error (s.ch k), k)
  else (.ok [], 0)

/-- src/lexer.cpp:1330-1360 `Lexer::consume_numeric_as_float`, from the byte after the integer digits. -/
def floatPart (chars : Str) (s : Str) : Num × Nat :=
  let (frac, n) : Str × Nat :=
    if s.ch 0 = '.' then let r := digitRun isDigit (s.drop 1); ('.' :: r.1, r.2 + 1) else ([], 0)
  match exponentPart (s.drop n) with
  | (.ok e, k) => (.flt (chars ++ frac ++ e), n + k)
  | (.error c, k) => (.bad c, n + k)

/-- src/lexer.cpp:1205-1217 `consume_decimal_digits_and_build_token`. -/
def decimal (s : Str) : Num × Nat :=
  let r := digitRun isDigit s
  let t := s.drop r.2
  if (t.ch 0 = '.' ∧ isDigit (t.ch 1)) ∨ t.ch 0 = 'e' ∨ t.ch 0 = 'E' then
    let f := floatPart r.1 t
    (f.1, r.2 + f.2)
  else (charsToNum r.1 10 0, r.2)

/-- src/lexer.cpp:1224-1289, the prefixed literals: text from the leading `0` on, two prefix bytes. -/
def prefixed (s : Str) (p : Char → Bool) (pre : Str) (base : Nat) : Num × Nat :=
  if p (s.ch 2) then
    let r := digitRun p (s.drop 2)
    (charsToNum (pre ++ r.1) base pre.length, r.2 + 2)
  else (.bad (s.ch 2), 2)

/-- src/lexer.cpp:1202-1317 `Lexer::consume_numeric`. -/
def numeric (s : Str) : Num × Nat :=
  if s.ch 0 = '0' then
    if s.ch 1 = 'd' ∨ s.ch 1 = 'D' then prefixed s isDigit [] 10
    else if s.ch 1 = 'o' ∨ s.ch 1 = 'O' then prefixed s isOctal (cs! "0o") 8
    else if s.ch 1 = 'x' ∨ s.ch 1 = 'X' then prefixed s isXDigit (cs! "0x") 16
    else if s.ch 1 = 'b' ∨ s.ch 1 = 'B' then prefixed s isBinary (cs! "0b") 2
    else if isDigit (s.ch 1) then
      if isOctal (s.ch 1) then
        -- line 1299 appends the peeked digit (instead of the leading 0), line 1302 appends it again
        let r := digitRun isOctal (s.drop 1)
        (charsToNum (s.ch 1 :: r.1) 8 1, r.2 + 1)
      else (.bad (s.ch 1), 0)
    else decimal s
  else decimal s

/-- src/lexer.cpp:1362-1371 `Lexer::consume_nth_ref`, the accumulation; `none`: signed overflow. -/
def nthRefVal (ds : Str) : Option Nat :=
  ds.foldl (fun a c => a.bind fun n =>
    if n * 10 ≤ llongMax then
      if n * 10 + digitVal c ≤ llongMax then some (n * 10 + digitVal c) else none
    else none) (some 0)

/-! ### Escapes -/

/-- src/lexer.cpp:1373-1390 `Lexer::consume_hex_number(max_length)` (do-while: the first byte is taken
unconditionally, whatever it is; `allow_underscore` is never set). `max ≥ 1`. -/
def hexNumber (s : Str) (max : Nat) : Int × Nat :=
  let val (c : Char) : Int :=
    if between 'a' 'f' c then sval c - sval 'a' + 10
    else if between 'A' 'F' c then sval c - sval 'A' + 10
    else sval c - sval '0'
  let more := (s.tail.take (max - 1)).takeWhile isXDigit
  (more.foldl (fun a c => a * 16 + val c) (val (s.ch 0)), more.length + 1)

/-- src/lexer.cpp:1392-1404 `Lexer::consume_octal_number(max_length)`. -/
def octalNumber (s : Str) (max : Nat) : Int × Nat :=
  let more := (s.tail.take (max - 1)).takeWhile isOctal
  (more.foldl (fun a c => a * 8 + (sval c - sval '0')) (sval (s.ch 0) - sval '0'), more.length + 1)

/-- src/lexer.cpp:1408-1426 `Lexer::utf32_codepoint_to_utf8`; `none`: TM_UNREACHABLE. -/
def utf8Encode (cp : Int) : Option Str :=
  if cp < 0x80 then some [narrow cp]
  else
    let n := cp.toNat
    if n < 0x800 then some [narrow ↑(0b11000000 ||| (n >>> 6)), narrow ↑(0b10000000 ||| (n &&& 0x3f))]
    else if n < 0x10000 then
      some [narrow ↑(0b11100000 ||| (n >>> 12)), narrow ↑(0b10000000 ||| ((n >>> 6) &&& 0x3f)),
            narrow ↑(0b10000000 ||| (n &&& 0x3f))]
    else if n < 0x200000 then
      some [narrow ↑(0b11110000 ||| (n >>> 18)), narrow ↑(0b10000000 ||| ((n >>> 12) &&& 0x3f)),
            narrow ↑(0b10000000 ||| ((n >>> 6) &&& 0x3f)), narrow ↑(0b10000000 ||| (n &&& 0x3f))]
    else none

/-- Result of `consume_escaped_byte`: bytes appended, or the error token type. -/
inductive Esc where
  | ok (bytes : Str) (n : Nat)
  | bad (t : Ttype) (n : Nat)
  | abort
  | fuel
  deriving DecidableEq, Repr

/-- src/lexer.cpp:1466-1479, `\u{...}` from the byte after the `{`. -/
def unicodeList : Nat → Str → Esc
  | 0, _ => .fuel
  | fuel + 1, s =>
    if s.ch 0 = '}' then .ok [] 1
    else if !isXDigit (s.ch 0) then .bad .InvalidUnicodeEscape 0
    else
      let h := hexNumber s 6
      match utf8Encode h.1 with
      | none => .abort
      | some bytes =>
        let sp := ((s.drop h.2).takeWhile (· == ' ')).length
        match unicodeList fuel (s.drop (h.2 + sp)) with
        | .ok more n => .ok (bytes ++ more) (h.2 + sp + n)
        | .bad t n => .bad t (h.2 + sp + n)
        | .abort => .abort
        | .fuel => .fuel

/-- src/lexer.cpp:1429-1454 `control_character`, from the `c`/`C` on; `none` models the result -1. The second
component is the number of bytes advanced; the byte then current has not been advanced over. -/
def controlChar (meta_ : Bool) (s : Str) : Option Int × Nat :=
  let k := if s.ch 1 = '-' then 2 else 1
  let num (c : Char) : Int :=
    if c = '?' then 127
    else if between ' ' '>' c then sval c - sval ' '
    else if between '@' '_' c then sval c - sval '@'
    else if between '`' '~' c then sval c - sval '`'
    else 0
  if !meta_ ∧ s.ch k = '\\' ∧ s.ch (k + 1) = 'M' then
    if s.ch (k + 2) = '-' then (some (num (s.ch (k + 3)) + 128), k + 3)
    else (none, k + 2)
  else if meta_ then (some (num (s.ch k) + 128), k)
  else (some (num (s.ch k)), k)

/-- src/lexer.cpp:1428-1546 `Lexer::consume_escaped_byte`, from the byte after the backslash. -/
def escapedByte (s : Str) : Esc :=
  let c := s.ch 0
  if isOctal c then
    let r := octalNumber s 3
    .ok [narrow r.1] r.2
  else if c = 'x' then
    let r := hexNumber (s.drop 1) 2
    .ok [narrow r.1] (r.2 + 1)
  else if c = 'u' then
    if s.ch 1 = '{' then
      match unicodeList (s.length + 1) (s.drop 2) with
      | .ok bytes n => .ok bytes (n + 2)
      | .bad t n => .bad t (n + 2)
      | .abort => .abort
      | .fuel => .fuel
    else
      let r := hexNumber (s.drop 1) 4
      match utf8Encode r.1 with
      | none => .abort
      | some bytes => .ok bytes (r.2 + 1)
  else if c = 'a' then .ok ['\x07'] 1
  else if c = 'b' then .ok ['\x08'] 1
  else if c = 'c' ∨ c = 'C' then
    match controlChar false s with
    | (some num, n) => .ok [narrow num] (n + 1)
    | (none, n) => .bad .InvalidCharacterEscape n
  else if c = 'e' then .ok ['\x1b'] 1
  else if c = 'f' then .ok ['\x0c'] 1
  else if c = 'M' then
    if s.ch 1 = '-' then
      if s.ch 2 = '\\' ∧ (s.ch 3 = 'c' ∨ s.ch 3 = 'C') then
        match controlChar true (s.drop 3) with
        | (some num, n) => .ok [narrow num] (n + 4)
        -- control_character(true) never returns -1; its result is used unchecked at lines 1515-1519
        | (none, n) => .ok [narrow (-1)] (n + 4)
      else .ok [narrow (sval (s.ch 2) + 128)] 3
    else .bad .InvalidCharacterEscape 1
  else if c = 'n' then .ok ['\n'] 1
  else if c = 'r' then .ok ['\r'] 1
  else if c = 's' then .ok [' '] 1
  else if c = 't' then .ok ['\t'] 1
  else if c = 'v' then .ok ['\x0b'] 1
  else if c = '\n' then .ok [] 1
  else .ok [c] 1

/-! ### Quoted literals -/

/-- src/lexer.cpp:1557-1592 `Lexer::consume_single_quoted_string`, the loop. `some buf`: the closing delimiter was
found (and is included in the count); `none`: end of input or a NUL byte was reached. -/
def singleQuoted (start stop : Char) : Nat → Str → Option Str × Nat
  | _, [] => (none, 0)
  | depth, c :: cs =>
    if c = NUL then (none, 0)
    else if c = '\\' ∧ stop ≠ '\\' then
      match cs with
      | [] => (none, 2)
      | d :: ds =>
        let r := singleQuoted start stop depth ds
        if d = stop ∨ d = '\\' then (r.1.map (d :: ·), r.2 + 2)
        else (r.1.map ('\\' :: d :: ·), r.2 + 2)
    else if c = start ∧ start ≠ stop then
      let r := singleQuoted start stop (depth + 1) cs
      (r.1.map (c :: ·), r.2 + 1)
    else if c = stop then
      match depth with
      | depth + 1 =>
        let r := singleQuoted start stop depth cs
        (r.1.map (c :: ·), r.2 + 1)
      | 0 => (some [], 1)
    else
      let r := singleQuoted start stop depth cs
      (r.1.map (c :: ·), r.2 + 1)

/-- How the loop of `InterpolatedStringLexer::consume_string` ends; `n` bytes have been advanced over, `depth` is
the new `m_pair_depth`. -/
inductive StrEnd where
  /-- `#{` found; the two bytes are included in `n`. -/
  | eval (buf : Str) (depth n : Nat)
  /-- closing delimiter found; it is included in `n`. -/
  | stop (buf : Str) (depth n : Nat)
  /-- `current_char()` is 0. -/
  | eos (buf : Str) (depth n : Nat)
  /-- invalid escape. -/
  | bad (t : Ttype) (depth n : Nat)
  | abort
  | fuel
  deriving DecidableEq, Repr

/-- src/lexer/interpolated_string_lexer.cpp:22-57, the loop of `consume_string`. -/
def interpLoop (start stop : Char) : Nat → Nat → Str → Nat → Str → StrEnd
  | 0, _, _, _, _ => .fuel
  | fuel + 1, depth, buf, n, s =>
    let c := s.ch 0
    if c = NUL then .eos buf depth n
    else if c = '\\' ∧ stop ≠ '\\' then
      match escapedByte (s.drop 1) with
      | .ok bytes k => interpLoop start stop fuel depth (buf ++ bytes) (n + 1 + k) (s.drop (1 + k))
      | .bad t k => .bad t depth (n + 1 + k)
      | .abort => .abort
      | .fuel => .fuel
    else if c = '#' ∧ s.ch 1 = '{' then .eval buf depth (n + 2)
    else if c = start ∧ start ≠ stop then
      interpLoop start stop fuel (depth + 1) (buf ++ [c]) (n + 1) (s.drop 1)
    else if c = stop then
      if depth > 0 then interpLoop start stop fuel (depth - 1) (buf ++ [c]) (n + 1) (s.drop 1)
      else .stop buf depth (n + 1)
    else interpLoop start stop fuel depth (buf ++ [c]) (n + 1) (s.drop 1)

/-- src/lexer/regexp_lexer.cpp:83-91 `RegexpLexer::consume_options`. -/
def regexpOptions (s : Str) : Str :=
  s.takeWhile fun c => c == 'i' || c == 'm' || c == 'x' || c == 'o' || c == 'u' || c == 'e' || c == 's' || c == 'n'

/-- src/lexer/regexp_lexer.cpp:36-81, the loop of `consume_regexp`. -/
def regexpLoop (start stop : Char) : Nat → Nat → Str → Nat → Str → StrEnd
  | 0, _, _, _, _ => .fuel
  | fuel + 1, depth, buf, n, s =>
    let c := s.ch 0
    if c = NUL then .eos buf depth n
    else if c = '\\' ∧ stop ≠ '\\' then
      let d := s.ch 1
      let add := if d = '/' ∨ d = stop then [d] else ['\\', d]
      regexpLoop start stop fuel depth (buf ++ add) (n + 2) (s.drop 2)
    else if c = '#' ∧ s.ch 1 = '{' then .eval buf depth (n + 2)
    else if c = start ∧ start ≠ stop then
      regexpLoop start stop fuel (depth + 1) (buf ++ [c]) (n + 1) (s.drop 1)
    else if c = stop then
      if depth > 0 then regexpLoop start stop fuel (depth - 1) (buf ++ [c]) (n + 1) (s.drop 1)
      else .stop buf depth (n + 1)
    else regexpLoop start stop fuel depth (buf ++ [c]) (n + 1) (s.drop 1)

/-- How the loop of `WordArrayLexer::consume_array` ends. -/
inductive WordEnd where
  /-- whitespace ends a word (`buf` not empty, or a dynamic string in progress); `n` does not include it. -/
  | space (buf : Str) (depth n : Nat)
  /-- `#{` in an interpolating array; `n` does not include it. -/
  | eval (buf : Str) (depth n : Nat)
  /-- closing delimiter; `n` does not include it. -/
  | stop (buf : Str) (depth n : Nat)
  | eos (buf : Str) (depth n : Nat)
  | fuel
  deriving DecidableEq, Repr

/-- src/lexer/word_array_lexer.cpp:39-102, the loop of `consume_array`; `dyn`: the state is
`DynamicStringInProgress`. -/
def wordLoop (interp dyn : Bool) (start stop : Char) : Nat → Nat → Str → Nat → Str → WordEnd
  | 0, _, _, _, _ => .fuel
  | fuel + 1, depth, buf, n, s =>
    let c := s.ch 0
    if c = NUL then .eos buf depth n
    else if c = '\\' ∧ stop ≠ '\\' then
      let d := s.ch 1
      let add :=
        if d = ' ' then [d]
        else if interp then (if d = 'n' then ['\n'] else if d = 't' then ['\t'] else [d])
        else if isSpace d then [d]
        else ['\\', d]
      wordLoop interp dyn start stop fuel depth (buf ++ add) (n + 2) (s.drop 2)
    else if isSpace c then
      if dyn then .space buf depth n
      else if buf ≠ [] then .space buf depth n
      else wordLoop interp dyn start stop fuel depth buf (n + 1) (s.drop 1)
    else if interp ∧ c = '#' ∧ s.ch 1 = '{' then .eval buf depth n
    else if c = start ∧ start ≠ stop then
      wordLoop interp dyn start stop fuel (depth + 1) (buf ++ [c]) (n + 1) (s.drop 1)
    else if c = stop then
      if depth > 0 then wordLoop interp dyn start stop fuel (depth - 1) (buf ++ [c]) (n + 1) (s.drop 1)
      else .stop buf depth n
    else wordLoop interp dyn start stop fuel depth (buf ++ [c]) (n + 1) (s.drop 1)

/-! ### Symbols -/

/-- src/lexer.cpp:838-956 `Lexer::consume_symbol`, from the byte after the colon: the name and the bytes advanced,
or the byte of an `Invalid` token (nothing advanced). -/
def symbolName (s : Str) : Except Char (Str × Nat) :=
  let c := s.ch 0
  let c1 := s.ch 1
  let c2 := s.ch 2
  if c = '@' then
    if c1 = '@' then let r := consumeWord (s.drop 2); .ok ('@' :: '@' :: r.1, r.2 + 2)
    else let r := consumeWord (s.drop 1); .ok ('@' :: r.1, r.2 + 1)
  else if c = '$' then let r := consumeWord (s.drop 1); .ok ('$' :: r.1, r.2 + 1)
  else if c = '~' then (if c1 = '@' then .ok (['~'], 2) else .ok (['~'], 1))
  else if c = '+' ∨ c = '-' then (if c1 = '@' then .ok ([c, '@'], 2) else .ok ([c], 1))
  else if c = '&' ∨ c = '|' ∨ c = '^' ∨ c = '%' ∨ c = '/' then .ok ([c], 1)
  else if c = '*' then (if c1 = '*' then .ok (['*', '*'], 2) else .ok (['*'], 1))
  else if c = '=' then
    if c1 = '=' then (if c2 = '=' then .ok (['=', '=', '='], 3) else .ok (['=', '='], 2))
    else if c1 = '~' then .ok (['=', '~'], 2)
    else .error c
  else if c = '!' then (if c1 = '=' ∨ c1 = '~' ∨ c1 = '@' then .ok ([c, c1], 2) else .ok ([c], 1))
  else if c = '>' then (if c1 = '=' ∨ c1 = '>' then .ok ([c, c1], 2) else .ok ([c], 1))
  else if c = '<' then
    if c1 = '=' then (if c2 = '>' then .ok (['<', '=', '>'], 3) else .ok (['<', '='], 2))
    else if c1 = '<' then .ok (['<', '<'], 2)
    else .ok (['<'], 1)
  else if c = '[' then
    if c1 = ']' then (if c2 = '=' then .ok (['[', ']', '='], 3) else .ok (['[', ']'], 2))
    else .error c
  else
    let r := consumeWord s
    let d := s.ch r.2
    if (d = '?' ∨ d = '!' ∨ d = '=') ∧ s.ch (r.2 + 1) ≠ '>' then .ok (r.1 ++ [d], r.2 + 1)
    else .ok r

/-! ### Heredocs -/

/-- src/lexer.cpp:1044-1051 `is_valid_heredoc`. -/
def validHeredoc (dash : Bool) (doc name : Str) : Bool :=
  if !name.isSuffixOf doc then false
  else if doc.length - name.length = 0 then true
  else
    let pre := doc.ch (doc.length - name.length - 1)
    if dash then isSpace pre else pre == '\n'

def sizeMax : Nat := 2 ^ 64 - 1

/-- src/lexer.cpp:1059-1072, the loop of `get_heredoc_indent`. -/
def indentLoop : Str → (indent line : Nat) → (blank : Bool) → Nat
  | [], indent, _, _ => indent
  | c :: cs, indent, line, blank =>
    if c = '\n' then indentLoop cs (if !blank ∧ line < indent then line else indent) 0 true
    else if isSpace c then indentLoop cs indent (if blank then line + 1 else line) blank
    else indentLoop cs indent line false

/-- src/lexer.cpp:1053-1074 `get_heredoc_indent`. -/
def heredocIndent (doc : Str) : Nat := if doc = [] then 0 else indentLoop doc sizeMax 0 true

/-- src/lexer.cpp:1082-1091, the loop of `dedent_heredoc` over the offsets `i` of the rest `s` of `doc`;
`lineBegin` is a `size_t` and wraps. -/
def dedentLoop (doc : Str) (indent : Nat) : Str → (i lineBegin : Nat) → Str
  | [], _, _ => []
  | c :: cs, i, lineBegin =>
    if c = '\n' then
      let lb := (lineBegin + indent) % 2 ^ 64
      (if lb < i then (doc.drop lb).take (i - lb) else []) ++ '\n' :: dedentLoop doc indent cs (i + 1) (i + 1)
    else dedentLoop doc indent cs (i + 1) lineBegin

/-- src/lexer.cpp:1076-1093 `dedent_heredoc`. -/
def dedentHeredoc (doc : Str) : Str :=
  let indent := heredocIndent doc
  if indent = 0 then doc else dedentLoop doc indent doc 0 0

/-- src/lexer.cpp:1133-1145, a quoted heredoc identifier from the byte after the opening quote; `none`: newline,
carriage return or end of input first. -/
def heredocQuotedName (delim : Char) : Str → Option Str × Nat
  | [] => (none, 0)
  | c :: cs =>
    if c = delim then (some [], 1)
    else if c = '\n' ∨ c = '\r' ∨ c = NUL then (none, 0)
    else let r := heredocQuotedName delim cs; (r.1.map (c :: ·), r.2 + 1)

/-- src/lexer.cpp:1156-1161: number of bytes up to and including the next newline, if there is one. -/
def lineLen : Str → Option Nat
  | [] => none
  | c :: cs => if c = '\n' then some 1 else (lineLen cs).map (· + 1)

/-- src/lexer.cpp:1168-1179: collects the heredoc text including its terminator; the count of bytes read.
`none`: the input ends first. -/
def heredocBody (dash : Bool) (name : Str) : Str → Str → Option Str × Nat
  | doc, [] => if validHeredoc dash doc name then (some doc, 0) else (none, 0)
  | doc, c :: cs =>
    if c = '\n' ∧ validHeredoc dash doc name then (some doc, 1)
    else let r := heredocBody dash name (doc ++ [c]) cs; (r.1, r.2 + 1)

/-- `String::strip_trailing_spaces` of TM. -/
def stripTrailingSpaces (s : Str) : Str := (s.reverse.dropWhile (· == ' ')).reverse

end NP
