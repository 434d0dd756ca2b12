import Verif.Spec.Number

/-! The contents of quoted literals. -/

namespace NP.Spec

/-- The byte with a number. -/
def byte (n : Nat) : Char := Char.ofNat n

/-- The UTF-8 encoding of a code point. -/
inductive Utf8 : Nat → Str → Prop where
  | one (a : Nat) (h : a < 0x80) : Utf8 a [byte a]
  | two (a b : Nat) (ha : a < 32) (hb : b < 64) (h : 0x80 ≤ a * 64 + b) :
      Utf8 (a * 64 + b) [byte (0xC0 + a), byte (0x80 + b)]
  | three (a b c : Nat) (ha : a < 16) (hb : b < 64) (hc : c < 64) (h : 0x800 ≤ (a * 64 + b) * 64 + c) :
      Utf8 ((a * 64 + b) * 64 + c) [byte (0xE0 + a), byte (0x80 + b), byte (0x80 + c)]
  | four (a b c d : Nat) (ha : a < 8) (hb : b < 64) (hc : c < 64) (hd : d < 64)
      (h : 0x10000 ≤ ((a * 64 + b) * 64 + c) * 64 + d) :
      Utf8 (((a * 64 + b) * 64 + c) * 64 + d) [byte (0xF0 + a), byte (0x80 + b), byte (0x80 + c), byte (0x80 + d)]

/-- Escapes of one letter. -/
def escapeLetters : List (Char × Char) := [
  ('a', '\x07'), ('b', '\x08'), ('t', '\t'), ('n', '\n'), ('v', '\x0b'), ('f', '\x0c'), ('r', '\r'), ('e', '\x1b'),
  ('s', ' ')]

/-- Bytes that do not stand for themselves behind a backslash. -/
def escapeSpecial : List Char :=
  ['0', '1', '2', '3', '4', '5', '6', '7', 'a', 'b', 'c', 'C', 'e', 'f', 'M', 'n', 'r', 's', 't', 'u', 'v', 'x', '\n',
   NUL]

/-- A list of hexadecimal code points with its closing brace, and its UTF-8 encoding. -/
inductive CodePoints : Str → Str → Prop where
  | last (ds sp bs : Str) (hne : ds ≠ []) (hl : ds.length ≤ 6) (hd : ∀ c ∈ ds, isHex c = true)
      (hv : valueOf 16 ds < 0x110000) (hs : ∀ c ∈ sp, c = ' ') (hb : Utf8 (valueOf 16 ds) bs) :
      CodePoints (ds ++ sp ++ ['}']) bs
  | cons (ds sp bs t bs' : Str) (hne : ds ≠ []) (hl : ds.length ≤ 6) (hd : ∀ c ∈ ds, isHex c = true)
      (hv : valueOf 16 ds < 0x110000) (hs : ∀ c ∈ sp, c = ' ') (hsp : sp ≠ []) (hb : Utf8 (valueOf 16 ds) bs)
      (ht : CodePoints t bs') : CodePoints (ds ++ sp ++ t) (bs ++ bs')

/-- The byte of a control escape. -/
def controlOf (c : Char) : Nat := if c = '?' then 127 else c.toNat % 32

/-- `Escape e bs post`: behind a backslash and in front of `post`, `e` denotes the bytes `bs`. -/
inductive Escape : Str → Str → Str → Prop where
  | letter (c b : Char) (post : Str) (h : (c, b) ∈ escapeLetters) : Escape [c] [b] post
  | itself (c : Char) (post : Str) (h : c ∉ escapeSpecial) : Escape [c] [c] post
  | lineEnd (post : Str) : Escape ['\n'] [] post
  | octal (ds post : Str) (hne : ds ≠ []) (hl : ds.length ≤ 3) (hd : ∀ c ∈ ds, isOct c = true)
      (he : ds.length < 3 → ∀ c r, post = c :: r → isOct c = false) : Escape ds [byte (valueOf 8 ds % 256)] post
  | hex (ds post : Str) (hne : ds ≠ []) (hl : ds.length ≤ 2) (hd : ∀ c ∈ ds, isHex c = true)
      (he : ds.length < 2 → ∀ c r, post = c :: r → isHex c = false) : Escape ('x' :: ds) [byte (valueOf 16 ds)] post
  | unicode (ds bs post : Str) (hl : ds.length = 4) (hd : ∀ c ∈ ds, isHex c = true) (hb : Utf8 (valueOf 16 ds) bs) :
      Escape ('u' :: ds) bs post
  | codePoints (t bs post : Str) (h : CodePoints t bs) : Escape ('u' :: '{' :: t) bs post
  | control (c : Char) (post : Str) (h : ' ' ≤ c ∧ c ≤ '~') (hc : c ≠ '\\') : Escape ['C', '-', c] [byte (controlOf c)] post
  | control' (c : Char) (post : Str) (h : ' ' ≤ c ∧ c ≤ '~') (hc : c ≠ '\\') (hm : c ≠ '-') :
      Escape ['c', c] [byte (controlOf c)] post
  | meta_ (c : Char) (post : Str) (h : ' ' ≤ c ∧ c ≤ '~') (hc : c ≠ '\\') : Escape ['M', '-', c] [byte (c.toNat + 128)] post
  | metaControl (c : Char) (post : Str) (h : ' ' ≤ c ∧ c ≤ '~') (hc : c ≠ '\\') :
      Escape ['M', '-', '\\', 'C', '-', c] [byte (controlOf c + 128)] post
  | controlMeta (c : Char) (post : Str) (h : ' ' ≤ c ∧ c ≤ '~') (hc : c ≠ '\\') :
      Escape ['C', '-', '\\', 'M', '-', c] [byte (controlOf c + 128)] post

/-- `Content start stop text bs post`: in a literal with interpolation between `start` and `stop` (`start` is NUL if
both delimiters are the same) and in front of `post`, `text` denotes `bs`. It contains no interpolation, and delimiters
only escaped or in pairs. -/
inductive Content (start stop : Char) : Str → Str → Str → Prop where
  | nil (post : Str) : Content start stop [] [] post
  | plain (c : Char) (t bs post : Str) (h0 : c ≠ NUL) (h1 : c ≠ '\\') (h2 : c ≠ start) (h3 : c ≠ stop)
      (h4 : c = '#' → (t ++ post).head? ≠ some '{') (ht : Content start stop t bs post) :
      Content start stop (c :: t) (c :: bs) post
  | escape (e bs t bs' post : Str) (hs : stop ≠ '\\') (he : Escape e bs (t ++ post))
      (ht : Content start stop t bs' post) : Content start stop ('\\' :: e ++ t) (bs ++ bs') post
  | pair (t bs t' bs' post : Str) (h : start ≠ NUL) (hne : start ≠ stop) (h1 : start ≠ '\\') (h2 : start ≠ '#')
      (h3 : stop ≠ NUL ∧ stop ≠ '\\' ∧ stop ≠ '#')
      (ht : Content start stop t bs (stop :: t' ++ post)) (ht' : Content start stop t' bs' post) :
      Content start stop (start :: t ++ stop :: t') (start :: bs ++ stop :: bs') post

/-- A text with backslash, double quote and `#` escaped. -/
def quoteDouble : Str → Str
  | [] => []
  | c :: s => (if c = '\\' ∨ c = '"' ∨ c = '#' then ['\\', c] else [c]) ++ quoteDouble s

/-- `Single start stop text bs`: in a literal without interpolation between `start` and `stop` the text denotes `bs`. -/
inductive Single (start stop : Char) : Str → Str → Prop where
  | nil : Single start stop [] []
  | plain (c : Char) (t bs : Str) (h0 : c ≠ NUL) (h1 : c ≠ '\\') (h2 : c ≠ start) (h3 : c ≠ stop)
      (ht : Single start stop t bs) : Single start stop (c :: t) (c :: bs)
  | escaped (c : Char) (t bs : Str) (hs : stop ≠ '\\') (h : c = stop ∨ c = '\\') (ht : Single start stop t bs) :
      Single start stop ('\\' :: c :: t) (c :: bs)
  | backslash (c : Char) (t bs : Str) (hs : stop ≠ '\\') (h : c ≠ stop ∧ c ≠ '\\') (ht : Single start stop t bs) :
      Single start stop ('\\' :: c :: t) ('\\' :: c :: bs)
  | pair (t bs t' bs' : Str) (h : start ≠ NUL) (hne : start ≠ stop) (h1 : start ≠ '\\') (h2 : stop ≠ NUL ∧ stop ≠ '\\')
      (ht : Single start stop t bs) (ht' : Single start stop t' bs') :
      Single start stop (start :: t ++ stop :: t') (start :: bs ++ stop :: bs')

/-- The delimiters of `%` literals. -/
inductive Delims : Char → Char → Prop where
  | round : Delims '(' ')'
  | square : Delims '[' ']'
  | curly : Delims '{' '}'
  | angle : Delims '<' '>'
  | same (c : Char) (h : c ∈ ['!', '"', '#', '$', '%', '&', '\'', ')', '*', '+', ',', '-', '.', '/', ':', ';', '=', '?',
      '@', '\\', '^', '_', '`', '|', '~']) : Delims c c

/-- A text with backslashes and the closing delimiter escaped. -/
def quoteSingle (stop : Char) : Str → Str
  | [] => []
  | c :: s => (if c = '\\' ∨ c = stop then ['\\', c] else [c]) ++ quoteSingle stop s

end NP.Spec
