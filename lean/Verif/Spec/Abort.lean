import Verif.Spec.Quoted

/-! The two kinds of text that make tokenising fail instead of returning a vector. -/

namespace NP.Spec

/-- Six hexadecimal digits of a number that UTF-8 has no encoding for, in a text with a `\u{` escape. -/
def HugeEscape (s : Str) : Prop :=
  cs! "\\u{" <:+: s ∧ ∃ ds : Str, ds.length = 6 ∧ (∀ c ∈ ds, isHex c = true) ∧ 0x200000 ≤ valueOf 16 ds ∧ ds <:+: s

/-- A reference whose number does not fit into `long long`. -/
def HugeRef (s : Str) : Prop := ∃ ds : Str, (∀ c ∈ ds, isDec c = true) ∧ 2 ^ 63 ≤ valueOf 10 ds ∧ '$' :: ds <:+: s

end NP.Spec
