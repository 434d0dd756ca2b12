import Verif.Model.Basic

/-! Lines of a source. -/

namespace NP.Spec

/-- `x` is the text of line `k` of the source, counted from 0 and without its newline. -/
def IsLine (src : Str) (k : Nat) (x : Str) : Prop :=
  ∃ a b, src = a ++ x ++ b ∧ a.count '\n' = k ∧ '\n' ∉ x ∧ (a = [] ∨ a.getLast? = some '\n') ∧
    (b = [] ∨ b.head? = some '\n')

end NP.Spec
