import Verif.Spec.Lexeme

/-! Number literals. -/

namespace NP.Spec

def isDec (c : Char) : Bool := '0' ≤ c && c ≤ '9'
def isOct (c : Char) : Bool := '0' ≤ c && c ≤ '7'
def isBin (c : Char) : Bool := c == '0' || c == '1'
def isHex (c : Char) : Bool := isDec c || ('a' ≤ c && c ≤ 'f') || ('A' ≤ c && c ≤ 'F')

/-- `Digits p text ds`: `text` is a non-empty sequence `ds` of digits, with or without single underscores between
them. -/
inductive Digits (p : Char → Bool) : Str → Str → Prop where
  | one (c : Char) (h : p c = true) : Digits p [c] [c]
  | cons (c : Char) (t ds : Str) (h : p c = true) (ht : Digits p t ds) : Digits p (c :: t) (c :: ds)
  | under (c : Char) (t ds : Str) (h : p c = true) (ht : Digits p t ds) : Digits p (c :: '_' :: t) (c :: ds)

/-- The value of a digit. -/
def digitOf (c : Char) : Nat := (cs! "0123456789abcdef").idxOf c.toLower

/-- Positional notation. -/
def valueOf (base : Nat) : Str → Nat
  | [] => 0
  | c :: cs => digitOf c * base ^ cs.length + valueOf base cs

/-- `IntLit base text ds`: `text` is an integer literal of the base with the digits `ds`. -/
inductive IntLit : Nat → Str → Str → Prop where
  | zero : IntLit 10 ['0'] ['0']
  | decimal (c : Char) (t ds : Str) (hc : c ≠ '0') (h : Digits isDec (c :: t) ds) : IntLit 10 (c :: t) ds
  | decimalPrefix (x : Char) (t ds : Str) (hx : x = 'd' ∨ x = 'D') (h : Digits isDec t ds) : IntLit 10 ('0' :: x :: t) ds
  | octalPrefix (x : Char) (t ds : Str) (hx : x = 'o' ∨ x = 'O') (h : Digits isOct t ds) : IntLit 8 ('0' :: x :: t) ds
  | hexPrefix (x : Char) (t ds : Str) (hx : x = 'x' ∨ x = 'X') (h : Digits isHex t ds) : IntLit 16 ('0' :: x :: t) ds
  | binaryPrefix (x : Char) (t ds : Str) (hx : x = 'b' ∨ x = 'B') (h : Digits isBin t ds) : IntLit 2 ('0' :: x :: t) ds
  | octal (t ds : Str) (h : Digits isOct t ds) : IntLit 8 ('0' :: t) ds
  | octalUnder (t ds : Str) (h : Digits isOct t ds) : IntLit 8 ('0' :: '_' :: t) ds

/-- A number ends where no name byte follows, other than the `i` or `r` of complex and rational numbers, and no
fraction. -/
def NumberEnds (post : Str) : Prop :=
  ∀ c r, post = c :: r → (nameByte c = false ∨ c = 'i' ∨ c = 'r') ∧ (c = '.' → ∀ d r', r = d :: r' → isDec d = false)

/-- A fraction. -/
inductive Fraction : Str → Prop where
  | none : Fraction []
  | some (t ds : Str) (h : Digits isDec t ds) : Fraction ('.' :: t)

/-- An exponent. -/
inductive Exponent : Str → Prop where
  | none : Exponent []
  | some (e : Char) (sign t ds : Str) (he : e = 'e' ∨ e = 'E') (hs : sign = [] ∨ sign = ['+'] ∨ sign = ['-'])
      (h : Digits isDec t ds) : Exponent (e :: sign ++ t)

/-- A float literal: digits and a fraction or an exponent. -/
structure FloatLit (text : Str) : Prop where
  parts : ∃ int ds frac exp, text = int ++ frac ++ exp ∧ Digits isDec int ds ∧ (int = ['0'] ∨ int.head? ≠ some '0') ∧
    Fraction frac ∧ Exponent exp ∧ ¬ (frac = [] ∧ exp = [])

/-- The `E` of an exponent written small. -/
def lowE (c : Char) : Char := if c = 'E' then 'e' else c

/-- How Ruby's `Integer()` reads a string of digits: a prefix `0x`, `0o`, `0b` or `0` tells the base. -/
def rubyInteger : Str → Nat
  | '0' :: 'x' :: ds => valueOf 16 ds
  | '0' :: 'o' :: ds => valueOf 8 ds
  | '0' :: 'b' :: ds => valueOf 2 ds
  | '0' :: ds => valueOf 8 ds
  | ds => valueOf 10 ds

end NP.Spec
