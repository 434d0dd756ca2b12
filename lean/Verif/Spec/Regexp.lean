import Verif.Model.Basic

/-! The options of regexps. -/

namespace NP.Spec

/-- The bit that an option letter stands for, as numbered by Ruby: IGNORECASE, EXTENDED, MULTILINE, FIXEDENCODING,
NOENCODING. The letter `o` has none. -/
def optionBit : Char → Option Nat
  | 'i' => some 0
  | 'x' => some 1
  | 'm' => some 2
  | 'e' => some 4
  | 's' => some 4
  | 'u' => some 4
  | 'n' => some 5
  | _ => none

/-- `mask` has exactly the bits of the letters in `letters`. -/
def ExactBits (letters : List Char) (mask : Nat) : Prop :=
  ∀ k, mask.testBit k = true ↔ ∃ c ∈ letters, optionBit c = some k

end NP.Spec
