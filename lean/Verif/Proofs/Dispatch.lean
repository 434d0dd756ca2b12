import Verif.Proofs.Cursor

/-! The branches of `dispatch` as an inductive predicate. -/

namespace NP

/-- The bytes with a `case` of their own in src/lexer.cpp:204-688. -/
def isPunct (c : Char) : Bool :=
  c == '=' || c == '+' || c == '-' || c == '*' || c == '/' || c == '%' || c == '!' || c == '<' || c == '>' ||
  c == '&' || c == '|' || c == '^' || c == '~' || c == '?' || c == ':' || c == '@' || c == '$' || c == '.' ||
  c == '{' || c == '[' || c == '(' || c == '}' || c == ']' || c == ')' || c == '\n' || c == ';' || c == ',' ||
  c == '"' || c == '\'' || c == '`' || c == '#'

open Lx in
/-- `Disp l r`: `r` is the result of the branch of `Lx.dispatch` selected by the current byte. -/
inductive Disp (l : Lx) : Res Out → Prop where
  | equal (h : l.ch 0 = '=') : Disp l (.ok l.lexEqual)
  | plus (h : l.ch 0 = '+') : Disp l (.ok l.lexPlus)
  | minus (h : l.ch 0 = '-') : Disp l (.ok l.lexMinus)
  | star (h : l.ch 0 = '*') : Disp l (.ok l.lexStar)
  | slash (h : l.ch 0 = '/') : Disp l (.ok l.lexSlash)
  | percent (h : l.ch 0 = '%') : Disp l (.ok l.lexPercent)
  | bang (h : l.ch 0 = '!') : Disp l (.ok l.lexBang)
  | less (h : l.ch 0 = '<') : Disp l (.ok l.lexLess)
  | greater (h : l.ch 0 = '>') : Disp l (.ok l.lexGreater)
  | ampersand (h : l.ch 0 = '&') : Disp l (.ok l.lexAmpersand)
  | pipe (h : l.ch 0 = '|') : Disp l (.ok l.lexPipe)
  | caret (h : l.ch 0 = '^') : Disp l (.ok l.lexCaret)
  | tilde (h : l.ch 0 = '~') : Disp l (.ok l.lexTilde)
  | question (h : l.ch 0 = '?') : Disp l (l.lexQuestion)
  | colon (h : l.ch 0 = ':') : Disp l (.ok l.lexColon)
  | at (h : l.ch 0 = '@') : Disp l (.ok l.lexAt)
  | dollar (h : l.ch 0 = '$') : Disp l (l.lexDollar)
  | dot (h : l.ch 0 = '.') : Disp l (.ok l.lexDot)
  | lcurly (h : l.ch 0 = '{') : Disp l (.ok (l.op 1 .LCurlyBrace))
  | lbracket (h : l.ch 0 = '[') : Disp l (.ok l.lexLBracket)
  | lparen (h : l.ch 0 = '(') : Disp l (.ok (l.op 1 .LParen))
  | rcurly (h : l.ch 0 = '}') : Disp l (.ok (l.op 1 .RCurlyBrace))
  | rbracket (h : l.ch 0 = ']') : Disp l (.ok (l.op 1 .RBracket))
  | rparen (h : l.ch 0 = ')') : Disp l (.ok (l.op 1 .RParen))
  | newline (h : l.ch 0 = '\n') : Disp l (.ok l.lexNewline)
  | semicolon (h : l.ch 0 = ';') : Disp l (.ok (l.op 1 .Semicolon))
  | comma (h : l.ch 0 = ',') : Disp l (.ok (l.op 1 .Comma))
  | dquote (h : l.ch 0 = '"') : Disp l (.ok (l.doubleQuoted 1 '"' '"' .InterpolatedStringBegin .InterpolatedStringEnd))
  | squote (h : l.ch 0 = '\'') : Disp l (.ok (l.singleQuotedString 1 '\'' '\''))
  | backtick (h : l.ch 0 = '`') : Disp l (.ok l.lexBacktick)
  | hash (h : l.ch 0 = '#') : Disp l (.ok l.lexHash)
  | digit (h : isDigit (l.ch 0) = true) : Disp l (.ok l.lexNumber)
  | i (h : l.ch 0 = 'i') : Disp l (.ok l.lexI)
  | r (h : l.ch 0 = 'r') : Disp l (.ok l.lexR)
  | word (h : isPunct (l.ch 0) = false) (hd : isDigit (l.ch 0) = false) (hi : l.ch 0 ≠ 'i') (hr : l.ch 0 ≠ 'r') :
      Disp l (.ok l.lexWord)

theorem dispatch_disp (l : Lx) : Disp l l.dispatch := by
  unfold Lx.dispatch
  extract_lets c
  by_cases h_equal : c = '='
  · rw [if_pos h_equal]; exact .equal h_equal
  rw [if_neg h_equal]
  by_cases h_plus : c = '+'
  · rw [if_pos h_plus]; exact .plus h_plus
  rw [if_neg h_plus]
  by_cases h_minus : c = '-'
  · rw [if_pos h_minus]; exact .minus h_minus
  rw [if_neg h_minus]
  by_cases h_star : c = '*'
  · rw [if_pos h_star]; exact .star h_star
  rw [if_neg h_star]
  by_cases h_slash : c = '/'
  · rw [if_pos h_slash]; exact .slash h_slash
  rw [if_neg h_slash]
  by_cases h_percent : c = '%'
  · rw [if_pos h_percent]; exact .percent h_percent
  rw [if_neg h_percent]
  by_cases h_bang : c = '!'
  · rw [if_pos h_bang]; exact .bang h_bang
  rw [if_neg h_bang]
  by_cases h_less : c = '<'
  · rw [if_pos h_less]; exact .less h_less
  rw [if_neg h_less]
  by_cases h_greater : c = '>'
  · rw [if_pos h_greater]; exact .greater h_greater
  rw [if_neg h_greater]
  by_cases h_ampersand : c = '&'
  · rw [if_pos h_ampersand]; exact .ampersand h_ampersand
  rw [if_neg h_ampersand]
  by_cases h_pipe : c = '|'
  · rw [if_pos h_pipe]; exact .pipe h_pipe
  rw [if_neg h_pipe]
  by_cases h_caret : c = '^'
  · rw [if_pos h_caret]; exact .caret h_caret
  rw [if_neg h_caret]
  by_cases h_tilde : c = '~'
  · rw [if_pos h_tilde]; exact .tilde h_tilde
  rw [if_neg h_tilde]
  by_cases h_question : c = '?'
  · rw [if_pos h_question]; exact .question h_question
  rw [if_neg h_question]
  by_cases h_colon : c = ':'
  · rw [if_pos h_colon]; exact .colon h_colon
  rw [if_neg h_colon]
  by_cases h_at : c = '@'
  · rw [if_pos h_at]; exact .at h_at
  rw [if_neg h_at]
  by_cases h_dollar : c = '$'
  · rw [if_pos h_dollar]; exact .dollar h_dollar
  rw [if_neg h_dollar]
  by_cases h_dot : c = '.'
  · rw [if_pos h_dot]; exact .dot h_dot
  rw [if_neg h_dot]
  by_cases h_lcurly : c = '{'
  · rw [if_pos h_lcurly]; exact .lcurly h_lcurly
  rw [if_neg h_lcurly]
  by_cases h_lbracket : c = '['
  · rw [if_pos h_lbracket]; exact .lbracket h_lbracket
  rw [if_neg h_lbracket]
  by_cases h_lparen : c = '('
  · rw [if_pos h_lparen]; exact .lparen h_lparen
  rw [if_neg h_lparen]
  by_cases h_rcurly : c = '}'
  · rw [if_pos h_rcurly]; exact .rcurly h_rcurly
  rw [if_neg h_rcurly]
  by_cases h_rbracket : c = ']'
  · rw [if_pos h_rbracket]; exact .rbracket h_rbracket
  rw [if_neg h_rbracket]
  by_cases h_rparen : c = ')'
  · rw [if_pos h_rparen]; exact .rparen h_rparen
  rw [if_neg h_rparen]
  by_cases h_newline : c = '\n'
  · rw [if_pos h_newline]; exact .newline h_newline
  rw [if_neg h_newline]
  by_cases h_semicolon : c = ';'
  · rw [if_pos h_semicolon]; exact .semicolon h_semicolon
  rw [if_neg h_semicolon]
  by_cases h_comma : c = ','
  · rw [if_pos h_comma]; exact .comma h_comma
  rw [if_neg h_comma]
  by_cases h_dquote : c = '"'
  · rw [if_pos h_dquote]; exact .dquote h_dquote
  rw [if_neg h_dquote]
  by_cases h_squote : c = '\''
  · rw [if_pos h_squote]; exact .squote h_squote
  rw [if_neg h_squote]
  by_cases h_backtick : c = '`'
  · rw [if_pos h_backtick]; exact .backtick h_backtick
  rw [if_neg h_backtick]
  by_cases h_hash : c = '#'
  · rw [if_pos h_hash]; exact .hash h_hash
  rw [if_neg h_hash]
  by_cases hd : isDigit c = true
  · rw [if_pos hd]; exact .digit hd
  rw [if_neg hd]
  by_cases hi : c = 'i'
  · rw [if_pos hi]; exact .i hi
  rw [if_neg hi]
  by_cases hr : c = 'r'
  · rw [if_pos hr]; exact .r hr
  rw [if_neg hr]
  refine .word ?_ (by simpa using hd) hi hr
  show isPunct c = false
  simp only [isPunct, Bool.or_eq_false_iff, beq_eq_false_iff_ne]
  simp only [ne_eq, *, not_false_eq_true, and_self]

end NP
