import Verif.Props.Tokens
import Verif.Proofs.Nesting

/-! Property C20: begin and end tokens of literals and of interpolated sections match like brackets. -/

namespace NP
open Spec

/-- The last token the lexer produced is the last token of the vector. -/
theorem filtered_last (raw : List Token) (e : Token) (h : Terminal e.type) :
    ∃ r, filtered (raw ++ [e]) = r ++ [e] := by
  have hec : isComment e = false ∧ e.type ≠ .Newline ∧ e.type.canHaveDoc = false := by
    rcases h with h5 | h5
    · simp [isComment, h5, Ttype.canHaveDoc]
    · cases he : e.type <;> rw [he] at h5 <;> simp [isError] at h5 <;> simp [isComment, he, Ttype.canHaveDoc]
  have hf : (annotate [] (raw ++ [e])).filter (fun t => !isComment t) =
      (annotate [] raw).filter (fun t => !isComment t) ++ [e] := by
    rw [annotate_append, List.filter_append]
    simp [annotate, hec, isDefinition_eq]
  obtain ⟨r, hr⟩ := collapse_last none ((annotate [] raw).filter (fun t => !isComment t)) e hec.2.1
  exact ⟨r, by rw [filtered, hf, hr]⟩

/-- The tokens of a result (for examples). -/
def Res.toks : Res (List Token) → List Token
  | .ok ts => ts
  | _ => []

theorem Lexes.of_toks (fuel : Nat) (src : Str) (h : tokensFuel fuel src = .ok (tokensFuel fuel src).toks) :
    Lexes src (tokensFuel fuel src).toks := ⟨fuel, h, by simp⟩

/-- C20 fails: in `%W[#{1}#{2}]` the second interpolated section of a word opens a second string, which is never
closed. -/
theorem C20_false : ∃ ts, Lexes (cs! "%W[#{1}#{2}]") ts ∧ ts.getLast?.map (·.type) = some .Eof ∧ ¬ Nested ts := by
  refine ⟨_, .of_toks 40 _ ?_, ?_, ?_⟩
  all_goals decide +kernel

/-- C20: in a vector that ends in `EOF`, begin and end tokens match like brackets, unless some `}` of an interpolated
section is directly followed by the begin token of a string. Missing for the full property: those vectors (see
`C20_false`). -/
theorem C20_nested_partial (src : Str) (ts : List Token) (h : Lexes src ts)
    (hend : ts.getLast?.map (·.type) = some .Eof)
    (hb : ¬ [.EvaluateToStringEnd, .InterpolatedStringBegin] <:+: ts.map (·.type)) : Nested ts := by
  obtain ⟨fuel, h, -⟩ := h
  obtain ⟨h1, h2, raw, e, h3, h4, h5⟩ := lexes_raw h
  obtain ⟨r, hr⟩ := filtered_last raw e h5
  have hts : ts = r ++ [e] := by rw [h1, h3, hr]
  have he : e.type = .Eof := by rw [hts] at hend; simpa using hend
  have hb' : ¬ badPair <:+: [] ++ (rawFuel fuel src).map (·.type) := by
    intro hx
    exact hb (h1 ▸ badPair_filtered _ hx)
  have hv : ∀ t ∈ rawFuel fuel src, t.type.isValid = true := by
    intro t ht
    rw [h3] at ht
    rcases List.mem_append.1 ht with ht | ht
    · have := h4 t ht
      unfold Terminal at this
      rw [isError_eq] at this
      simpa using fun h => this (.inr h)
    · rw [List.mem_singleton.1 ht, he]; rfl
  have := rawLoop_nest fuel (Lx.init src) [] {} ts [] .init rfl (fun _ h => by cases h) (fun h => by cases h) h hv hb'
  unfold Nested
  rw [h1, trackAll_filtered]
  exact this

/-- Non-vacuity for C20: strings inside interpolated sections inside strings, a regexp and a word array. -/
example : ∃ ts, Lexes (cs! "\"a#{\"b#{c}\"}\" + /x#{%w[a b]}/") ts ∧ ts.getLast?.map (·.type) = some .Eof ∧
    ¬ [.EvaluateToStringEnd, .InterpolatedStringBegin] <:+: ts.map (·.type) ∧
    ts.map (·.type) =
      [.InterpolatedStringBegin, .String, .EvaluateToStringBegin, .InterpolatedStringBegin, .String,
       .EvaluateToStringBegin, .BareName, .EvaluateToStringEnd, .InterpolatedStringEnd, .EvaluateToStringEnd,
       .InterpolatedStringEnd, .Plus, .InterpolatedRegexpBegin, .String, .EvaluateToStringBegin, .PercentLowerW,
       .String, .String, .RBracket, .EvaluateToStringEnd, .InterpolatedRegexpEnd, .Eof] := by
  refine ⟨_, .of_toks 60 _ ?_, ?_, ?_, ?_⟩
  all_goals decide +kernel

end NP
