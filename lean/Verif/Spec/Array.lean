import Verif.Spec.Quoted

/-! Regexp literals and word arrays. -/

namespace NP.Spec

/-- `Pattern start stop text bs post`: in a regexp literal between `start` and `stop` (`start` is NUL if both delimiters
are the same) and in front of `post`, `text` is written for the pattern `bs`: only escaped slashes and closing delimiters
lose their backslash. It contains no interpolation, and delimiters only escaped or in pairs. -/
inductive Pattern (start stop : Char) : Str → Str → Str → Prop where
  | nil (post : Str) : Pattern start stop [] [] post
  | plain (c : Char) (t bs post : Str) (h0 : c ≠ NUL) (h1 : c ≠ '\\') (h2 : c ≠ start) (h3 : c ≠ stop)
      (h4 : c = '#' → (t ++ post).head? ≠ some '{') (ht : Pattern start stop t bs post) :
      Pattern start stop (c :: t) (c :: bs) post
  | escaped (c : Char) (t bs post : Str) (hs : stop ≠ '\\') (h : c = '/' ∨ c = stop) (ht : Pattern start stop t bs post) :
      Pattern start stop ('\\' :: c :: t) (c :: bs) post
  | kept (c : Char) (t bs post : Str) (hs : stop ≠ '\\') (h : c ≠ '/' ∧ c ≠ stop) (ht : Pattern start stop t bs post) :
      Pattern start stop ('\\' :: c :: t) ('\\' :: c :: bs) post
  | pair (t bs t' bs' post : Str) (h : start ≠ NUL) (hne : start ≠ stop) (h1 : start ≠ '\\') (h2 : start ≠ '#')
      (h3 : stop ≠ NUL ∧ stop ≠ '\\' ∧ stop ≠ '#')
      (ht : Pattern start stop t bs (stop :: t' ++ post)) (ht' : Pattern start stop t' bs' post) :
      Pattern start stop (start :: t ++ stop :: t') (start :: bs ++ stop :: bs') post

/-- The option letters of regexps. -/
def optionLetters : List Char := ['i', 'm', 'x', 'o', 'u', 'e', 's', 'n']

/-- Token types after which `/` starts a regexp, wherever it stands. -/
def regexpAfter : List Ttype :=
  [.Comma, .Doc, .Equal, .LBracket, .LCurlyBrace, .LParen, .Match, .Newline, .Not, .Pipe]

/-- Whitespace in word arrays. -/
def isWs (c : Char) : Bool := c == ' ' || c == '\t' || c == '\n' || c == '\x0b' || c == '\x0c' || c == '\r'

/-- `Word interp start stop text bs`: in a word array between `start` and `stop`, with or without interpolation, the
text is written for the word `bs`. -/
inductive Word (interp : Bool) (start stop : Char) : Str → Str → Prop where
  | nil : Word interp start stop [] []
  | plain (c : Char) (t bs : Str) (h0 : c ≠ NUL) (h1 : c ≠ '\\') (hw : isWs c = false) (h2 : c ≠ start) (h3 : c ≠ stop)
      (hi : interp = true → c ≠ '#') (ht : Word interp start stop t bs) : Word interp start stop (c :: t) (c :: bs)
  | space (c : Char) (t bs : Str) (hs : stop ≠ '\\') (hc : isWs c = true) (ht : Word interp start stop t bs) :
      Word interp start stop ('\\' :: c :: t) (c :: bs)
  | kept (c : Char) (t bs : Str) (hs : stop ≠ '\\') (hi : interp = false) (hc : isWs c = false)
      (ht : Word interp start stop t bs) : Word interp start stop ('\\' :: c :: t) ('\\' :: c :: bs)
  | letter (c b : Char) (t bs : Str) (hs : stop ≠ '\\') (hi : interp = true)
      (hc : (c = 'n' ∧ b = '\n') ∨ (c = 't' ∧ b = '\t') ∨ (c ≠ 'n' ∧ c ≠ 't' ∧ b = c))
      (ht : Word interp start stop t bs) : Word interp start stop ('\\' :: c :: t) (b :: bs)
  | pair (t bs t' bs' : Str) (h : start ≠ NUL) (hne : start ≠ stop) (h1 : start ≠ '\\' ∧ start ≠ '#')
      (hw : isWs start = false ∧ isWs stop = false) (h2 : stop ≠ NUL ∧ stop ≠ '\\' ∧ stop ≠ '#')
      (ht : Word interp start stop t bs) (ht' : Word interp start stop t' bs') :
      Word interp start stop (start :: t ++ stop :: t') (start :: bs ++ stop :: bs')

/-- `Words interp start stop text ws`: the text is written for the words `ws`, none of them empty, with whitespace
before, between and behind them. -/
inductive Words (interp : Bool) (start stop : Char) : Str → List Str → Prop where
  | none (sp : Str) (h : ∀ c ∈ sp, isWs c = true) : Words interp start stop sp []
  | last (sp t bs : Str) (h : ∀ c ∈ sp, isWs c = true) (ht : Word interp start stop t bs) (hne : bs ≠ []) :
      Words interp start stop (sp ++ t) [bs]
  | cons (sp t bs : Str) (c : Char) (rest : Str) (ws : List Str) (h : ∀ c ∈ sp, isWs c = true)
      (ht : Word interp start stop t bs) (hne : bs ≠ []) (hc : isWs c = true) (hr : Words interp start stop rest ws) :
      Words interp start stop (sp ++ t ++ c :: rest) (bs :: ws)

end NP.Spec
