import Verif.Proofs.Abort
import Verif.Props.Tokens
import Verif.Props.Nesting

/-! Property C19: when tokenising fails to return a vector. -/

namespace NP
open Spec

/-- C19 as stated is false of the code: two well-formed byte strings on which tokenising aborts and overflows. -/
theorem C19_false : Ends (cs! "\"\\u{200000}\"") .abort ∧ Ends (cs! "$9223372036854775808") .ub := by
  refine ⟨⟨10, ?_, nofun⟩, ⟨10, ?_, nofun⟩⟩
  · have : (match tokensFuel 10 (cs! "\"\\u{200000}\"") with | .abort => true | _ => false) = true := by decide +kernel
    revert this
    cases tokensFuel 10 (cs! "\"\\u{200000}\"") <;> simp
  · have : (match tokensFuel 10 (cs! "$9223372036854775808") with | .ub => true | _ => false) = true := by decide +kernel
    revert this
    cases tokensFuel 10 (cs! "$9223372036854775808") <;> simp

/-- C19, partial: tokenising aborts only on sources with a `\u{` escape and six hexadecimal digits in a row that are the
number of no encodable character (heredoc bodies included). -/
theorem C19_abort_partial (src : Str) (hs : ∀ c ∈ src, c.toNat < 256) (h : Ends src .abort) : HugeEscape src := by
  obtain ⟨fuel, h, _⟩ := h
  have hst : StackOk src [Lx.init src] := .init
  exact (tokensLoop_fails hs fuel _ _ _ hst).1 h

/-- C19, partial: undefined behaviour occurs only on sources with a `$` followed by the digits of a number that does not
fit into `long long`. -/
theorem C19_ub_partial (src : Str) (hs : ∀ c ∈ src, c.toNat < 256) (h : Ends src .ub) : HugeRef src := by
  obtain ⟨fuel, h, _⟩ := h
  have hst : StackOk src [Lx.init src] := .init
  exact (tokensLoop_fails hs fuel _ _ _ hst).2 h

/-- C19, partial: on every other source tokenising returns a vector. What is missing for C19 are the sources with these
two kinds of text, on which it is false. -/
theorem C19_returns_partial (src : Str) (hs : ∀ c ∈ src, c.toNat < 256) (hl : src.length < 2 ^ 63)
    (h1 : ¬HugeEscape src) (h2 : ¬HugeRef src) : ∃ ts, Lexes src ts := by
  obtain ⟨r, hr, _⟩ := C01_terminates src hl
  cases r with
  | ok ts => exact ⟨ts, hr⟩
  | abort => exact absurd (C19_abort_partial src hs hr) h1
  | ub => exact absurd (C19_ub_partial src hs hr) h2
  | fuel => obtain ⟨_, _, h⟩ := hr; exact absurd rfl h

/-- Non-vacuity: the hypotheses of the first two theorems hold of the witnesses of `C19_false`. -/
example : (∀ c ∈ cs! "\"\\u{200000}\"", c.toNat < 256) ∧ (∀ c ∈ cs! "$9223372036854775808", c.toNat < 256) := by
  decide +kernel

/-- Non-vacuity of `C19_returns_partial`: a heredoc with an escape, and a reference. -/
example : let s := cs! "<<A+$1\n\\u{41}\nA\n"
    (∀ c ∈ s, c.toNat < 256) ∧ s.length < 2 ^ 63 ∧ ¬HugeEscape s ∧ ¬HugeRef s := by
  have e : (cs! "<<A+$1\n\\u{41}\nA\n").length = 16 := by decide +kernel
  refine ⟨by decide +kernel, by decide +kernel, ?_, ?_⟩
  · rintro ⟨_, ds, h1, h2, _, a, b, h⟩
    have hn : ∀ k ≤ 10, ∃ c ∈ ((cs! "<<A+$1\n\\u{41}\nA\n").drop k).take 6, isHex c = false := by
      decide +kernel
    have hk : a.length ≤ 10 := by
      have := congrArg List.length h
      simp only [List.length_append, h1] at this
      omega
    obtain ⟨c, hc, hf⟩ := hn _ hk
    rw [← h] at hc
    rw [List.append_assoc, List.drop_left, ← h1, List.take_left] at hc
    rw [h2 c hc] at hf
    cases hf
  · rintro ⟨ds, h1, h2, h⟩
    have hl := h.length_le
    rw [e] at hl
    have := valueOf_dec_lt ds h1
    have := Nat.pow_le_pow_right (show 0 < 10 by decide) (show ds.length ≤ 15 by simpa using hl)
    omega

end NP
