import Verif.Proofs.Filter
import Verif.Proofs.Term

/-!
C01 to C06: the token vector as a whole.

`Ends src r`: `tokens()` on the source `src` stops with outcome `r` after finitely many iterations
(Verif/Model/Tokens.lean). `Lexes src ts`: it returns the vector `ts`. `rawFuel n src`: the results of the first `n`
calls of `next_token()`.
-/

namespace NP

open Spec

/-! ### C01 -/

/-- C01: tokenising stops on every source (shorter than 2^63 bytes, the limit of the address space), with exactly one
outcome. -/
theorem C01_terminates (src : Str) (h : src.length < 2 ^ 63) : ∃ r, Ends src r ∧ ∀ r', Ends src r' → r' = r := by
  have hst : StackOk src [Lx.init src] := .init
  have hne := tokensLoop_ne_fuel h (measure (Lx.init src) [] + 1) _ _ {} hst (by omega)
  refine ⟨_, ⟨_, rfl, hne⟩, ?_⟩
  rintro r' ⟨fuel, rfl, hr⟩
  rcases Nat.le_total fuel (measure (Lx.init src) [] + 1) with hl | hl
  · exact (tokensLoop_mono _ _ _ _ _ hl hr).symm
  · exact tokensLoop_mono _ _ _ _ _ hl hne

/-- Non-vacuity for C01: a source with a heredoc, nested interpolations and an unterminated word array. -/
example : (cs! "x = <<~A\n #{\"b#{1}\"}\n A\n%w[a b").length < 2 ^ 63 ∧
    (tokensFuel 60 (cs! "x = <<~A\n #{\"b#{1}\"}\n A\n%w[a b")).types =
      [.BareName, .Equal, .InterpolatedStringBegin, .EvaluateToStringBegin, .InterpolatedStringBegin, .String,
       .EvaluateToStringBegin, .Fixnum, .EvaluateToStringEnd, .InterpolatedStringEnd, .EvaluateToStringEnd, .String,
       .InterpolatedStringEnd, .Newline, .PercentLowerW, .String, .UnterminatedWordArray] := by
  decide +kernel

/-- Two runs that return a vector return the same one. -/
theorem Lexes.unique {src : Str} {ts ts' : List Token} (h : Lexes src ts) (h' : Lexes src ts') : ts = ts' := by
  obtain ⟨n, hn, hr⟩ := h
  obtain ⟨m, hm, hr'⟩ := h'
  unfold tokensFuel at hn hm
  rcases Nat.le_total n m with hl | hl
  · have := tokensLoop_mono _ _ _ _ _ hl (by rw [hn]; exact hr)
    rw [hn, hm] at this; cases this; rfl
  · have := tokensLoop_mono _ _ _ _ _ hl (by rw [hm]; exact hr')
    rw [hn, hm] at this; cases this; rfl

/-! ### C02 -/

/-- C02: the vector is non-empty, ends in `EOF` or an error token, and contains no other such token. -/
theorem C02_one_terminal (src : Str) (ts : List Token) (h : Lexes src ts) :
    ∃ init last, ts = init ++ [last] ∧ Terminal last.type ∧ ∀ t ∈ init, ¬ Terminal t.type := by
  obtain ⟨fuel, h, -⟩ := h
  obtain ⟨h1, h2, raw, e, h3, h4, h5⟩ := lexes_raw h
  have hec : isComment e = false ∧ e.type ≠ .Newline ∧ e.type.canHaveDoc = false := by
    rcases h5 with h5 | h5
    · simp [isComment, h5, Ttype.canHaveDoc]
    · cases he : e.type <;> rw [he] at h5 <;> simp [isError] at h5 <;> simp [isComment, he, Ttype.canHaveDoc]
  have hf : (annotate [] (raw ++ [e])).filter (fun t => !isComment t) =
      (annotate [] raw).filter (fun t => !isComment t) ++ [e] := by
    rw [annotate_append, List.filter_append]
    simp [annotate, hec, isDefinition_eq]
  obtain ⟨r, hr⟩ := collapse_last none ((annotate [] raw).filter (fun t => !isComment t)) e hec.2.1
  refine ⟨r, e, ?_, h5, ?_⟩
  · rw [h1, h3, filtered, hf, hr]
  · intro t ht
    have hsub : r.Sublist ((annotate [] raw).filter (fun t => !isComment t)) := by
      have := collapse_sublist none ((annotate [] raw).filter (fun t => !isComment t) ++ [e])
      rw [hr] at this
      exact (List.append_sublist_append_right _).1 this
    have := hsub.mem ht
    simp only [List.mem_filter] at this
    obtain ⟨t0, ht0, hty⟩ := annotate_mem_type _ _ _ this.1
    rw [hty]
    exact h4 t0 ht0

/-- Non-vacuity for C02 (end of input inside an interpolation, closed by an error token). -/
example : Lexes (cs! "\"a#{b") (
    [{ type := .InterpolatedStringBegin, lit := some (cs! "\"") }, { type := .String, lit := some (cs! "a"), col := 1 },
     { type := .EvaluateToStringBegin, col := 4 }, { type := .BareName, lit := some (cs! "b"), col := 4 },
     { type := .EvaluateToStringEnd, col := 5 }, { type := .UnterminatedString, lit := some [], col := 6 }]) :=
  ⟨20, by decide +kernel, by simp⟩

/-! ### C03 -/

/-- C03: no comment and no documentation comment reaches the consumer. -/
theorem C03_no_comments (src : Str) (ts : List Token) (h : Lexes src ts) :
    ∀ t ∈ ts, t.type ≠ .Comment ∧ t.type ≠ .Doc := by
  obtain ⟨fuel, h, -⟩ := h
  obtain ⟨h1, -⟩ := lexes_raw h
  intro t ht
  rw [h1] at ht
  have := (filtered_types _ _ ht).1
  simpa [isComment] using this

/-- Non-vacuity for C03: the source has both kinds of comments. -/
example : (rawFuel 20 (cs! "#d\nx #c\n")).map (·.type) = [.Doc, .BareName, .Comment, .Newline, .Eof] ∧
    (tokensFuel 20 (cs! "#d\nx #c\n")).types =
      [.BareName, .Newline, .Eof] := by
  decide +kernel

/-! ### C04 -/

/-- C04: no newline stands directly behind a token after which the expression goes on, nor directly before a token
that continues the previous line. -/
theorem C04_collapsed_newlines (src : Str) (ts : List Token) (h : Lexes src ts)
    (pre post : List Token) (a b : Token) (hab : ts = pre ++ a :: b :: post) :
    (mustContinue a.type = true → b.type ≠ .Newline) ∧ (continuesLine b.type = true → a.type ≠ .Newline) := by
  obtain ⟨fuel, h, -⟩ := h
  obtain ⟨h1, -⟩ := lexes_raw h
  rw [mustContinue_eq, continuesLine_eq]
  exact collapse_adjacent _ none pre post a b (by rw [← hab, h1]; rfl)

/-- Non-vacuity for C04: newlines in the source on both sides, with a comment in between. -/
example : (tokensFuel 30 (cs! "a +\n#x\n\nb\n# y\n.c\n")).types =
    [.BareName, .Plus, .BareName, .Dot, .BareName, .Newline, .Eof] := by
  decide +kernel

/-! ### C05 -/

/-- C05: the vector is the raw stream with documentation attached (`annotate`), comments removed and collapsible
newlines removed (`collapse`); see Verif/Spec/Filter.lean. -/
theorem C05_filter_lossless (src : Str) (ts : List Token) (fuel : Nat) (h : tokensFuel fuel src = .ok ts) :
    ts = filtered (rawFuel fuel src) := (lexes_raw h).1

/-- C05 for arbitrary raw streams, whatever produced them. -/
theorem C05_filter_any_stream (raw : List Token) (h : ∀ t ∈ raw, t.doc = none) :
    (raw.foldl (fun f t => (Filt.step f t).1) {}).out.reverse = filtered raw := run_filtered raw h

/-- C05, consequence: apart from attached documentation, all tokens but comments and newlines arrive unchanged and in
order. -/
theorem C05_keeps_tokens (src : Str) (ts : List Token) (fuel : Nat) (h : tokensFuel fuel src = .ok ts) :
    (ts.filter fun t => t.type != .Newline).map (fun t => { t with doc := none }) =
      (rawFuel fuel src).filter (fun t => !isComment t && t.type != .Newline) := by
  obtain ⟨h1, h2, -⟩ := lexes_raw h
  rw [h1, filtered, collapse_keeps, List.filter_filter]
  have key : ∀ (raw seen : List Token), (∀ t ∈ raw, t.doc = none) →
      ((annotate seen raw).filter (fun t => t.type != .Newline && !isComment t)).map (fun t => { t with doc := none }) =
      raw.filter (fun t => !isComment t && t.type != .Newline) := by
    intro raw
    induction raw with
    | nil => intro _ _; rfl
    | cons t ts ih =>
      intro seen hd
      have hsame : (({ (if isDefinition t.type = true then { t with doc := docsBefore seen } else t) with doc := none } : Token)) = t := by
        have := hd t (by simp)
        split <;> (cases t; simp_all)
      have h3 : ∀ x : Token, x = (if isDefinition t.type = true then { t with doc := docsBefore seen } else t) →
          (x.type != .Newline && !isComment x) = (!isComment t && t.type != .Newline) := by
        rintro x rfl
        rw [Bool.and_comm]
        split <;> rfl
      rw [annotate, List.filter_cons, List.filter_cons, h3 _ rfl]
      split
      · rw [List.map_cons, hsame, ih _ (fun x hx => hd x (by simp [hx]))]
      · rw [ih _ (fun x hx => hd x (by simp [hx]))]
  exact key _ _ fun t ht => (h2 t ht).doc

example : tokensFuel 30 (cs! "a\n .b\nc") = .ok (filtered (rawFuel 30 (cs! "a\n .b\nc"))) ∧
    (rawFuel 30 (cs! "a\n .b\nc")).length = 7 ∧ (filtered (rawFuel 30 (cs! "a\n .b\nc"))).length = 6 := by
  decide +kernel

/-! ### C06 -/

/-- C06: the documentation of the `def`, `class` and `module` tokens of the vector, in order, is for each such token of
the raw stream the concatenation of the documentation comments since the last token other than newline, semicolon and
comment (`docsBefore`), and absent if there is none. -/
theorem C06_documentation (src : Str) (ts : List Token) (fuel : Nat) (h : tokensFuel fuel src = .ok ts) :
    (ts.filter fun t => isDefinition t.type).map (·.doc) =
      ((List.range (rawFuel fuel src).length).filter fun i =>
          isDefinition ((rawFuel fuel src).getD i default).type).map
        fun i => docsBefore ((rawFuel fuel src).take i) := by
  obtain ⟨h1, h2, -⟩ := lexes_raw h
  rw [h1, filtered]
  generalize rawFuel fuel src = raw
  have e1 : ∀ prev (s : List Token), (collapse prev s).filter (fun t => isDefinition t.type) =
      s.filter fun t => isDefinition t.type := by
    intro prev s
    have h := congrArg (List.filter fun t => isDefinition t.type) (collapse_keeps prev s)
    simp only [List.filter_filter] at h
    have hp : (fun t : Token => isDefinition t.type && t.type != .Newline) = fun t => isDefinition t.type := by
      funext t; cases t.type <;> rfl
    rw [hp] at h
    exact h
  rw [e1, List.filter_filter]
  have hp : (fun t : Token => isDefinition t.type && !isComment t) = fun t => isDefinition t.type := by
    funext t; simp only [isComment]; cases t.type <;> rfl
  rw [hp]
  have key : ∀ (post seen : List Token), ((annotate seen post).filter fun t => isDefinition t.type).map (·.doc) =
      ((List.range post.length).filter fun i => isDefinition ((seen ++ post).getD (seen.length + i) default).type).map
        fun i => docsBefore ((seen ++ post).take (seen.length + i)) := by
    intro post
    induction post with
    | nil => intro seen; rfl
    | cons t ts ih =>
      intro seen
      have ih' := ih (seen ++ [t])
      simp only [List.append_assoc, List.singleton_append, List.length_append, List.length_cons, List.length_nil] at ih'
      rw [annotate, List.length_cons, List.range_succ_eq_map, List.filter_cons, List.filter_cons]
      have h0 : ((seen ++ t :: ts).getD (seen.length + 0) default) = t := by simp
      have hty : (if isDefinition t.type = true then { t with doc := docsBefore seen } else t).type = t.type := by
        split <;> rfl
      rw [h0, hty]
      have hrest : ((annotate (seen ++ [t]) ts).filter fun t => isDefinition t.type).map (·.doc) =
          (((List.range ts.length).map Nat.succ).filter fun i =>
            isDefinition ((seen ++ t :: ts).getD (seen.length + i) default).type).map
            fun i => docsBefore ((seen ++ t :: ts).take (seen.length + i)) := by
        rw [ih', List.filter_map, List.map_map]
        congr 1
        · funext i; simp only [Function.comp]; congr 2; omega
        · congr 1; funext i; simp only [Function.comp]; congr 3; omega
      by_cases hd : isDefinition t.type = true
      · rw [if_pos hd, if_pos hd, if_pos hd, List.map_cons, List.map_cons, hrest]
        simp
      · rw [if_neg hd, if_neg hd]
        exact hrest
  have := key raw []
  simpa using this

/-- Non-vacuity for C06: two comment groups before a `def`, none before the `class`. -/
example : (match tokensFuel 40 (cs! "# a\n\n# b\n;def x; end; class Y; end") with
    | .ok ts => (ts.filter fun t => isDefinition t.type).map (·.doc) | _ => []) =
    [some (cs! "# a\n\n# b\n"), none] := by
  decide +kernel

end NP
