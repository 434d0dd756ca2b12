import Verif.Spec.Array
import Verif.Spec.Lexeme

/-! Heredocs. -/

namespace NP.Spec

/-- Lines and the text they make up. -/
def joinLines (ls : List Str) : Str := ls.flatMap (· ++ ['\n'])

/-- The lines at which a heredoc may end: its identifier or, for `<<-` and `<<~`, its identifier behind white space
(and whatever stands before that: see `C23_false`). -/
def Closes (dash : Bool) (id line : Str) : Prop :=
  line = id ∨ dash = true ∧ ∃ p w, isWs w = true ∧ line = p ++ w :: id

/-- Letters. -/
def letter (c : Char) : Bool := decide ('a' ≤ c ∧ c ≤ 'z') || decide ('A' ≤ c ∧ c ≤ 'Z')

/-- The beginnings of heredocs: behind `<<`, a sign, a quote (the space stands for none) and the identifier. -/
inductive Opener : (sign : Str) → (quote : Char) → (id text : Str) → Prop where
  | quoted (sign : Str) (q : Char) (id : Str) (hs : sign ∈ [[], ['-'], ['~']]) (hq : q ∈ ['\'', '"', '`'])
      (hn : ∀ c ∈ id, c ≠ q ∧ c ≠ '\n' ∧ c ≠ '\r' ∧ c ≠ NUL) :
      Opener sign q id ('<' :: '<' :: sign ++ q :: id ++ [q])
  | bare (sign : Str) (c : Char) (id : Str) (hs : sign ∈ [[], ['-'], ['~']]) (hc : letter c = true ∨ c = '_')
      (hn : ∀ c ∈ id, nameByte c = true) : Opener sign ' ' (c :: id) ('<' :: '<' :: sign ++ c :: id)

/-- The indentation of a line that is not blank. -/
def indentOf (line : Str) : Option Nat :=
  if line.all isWs then none else some (line.takeWhile isWs).length

/-- The least indentation of the lines that are not blank. -/
def commonIndent (ls : List Str) : Option Nat := (ls.filterMap indentOf).min?

/-- Every line without the common indentation. -/
def dedentLines (ls : List Str) : List Str := ls.map (·.drop ((commonIndent ls).getD 0))

end NP.Spec
