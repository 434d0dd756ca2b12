import Verif.Proofs.Setter
import Verif.Props.Tokens
import Verif.Props.Nesting

/-! Property C37: names that end in `=` are read only where method names are expected. -/

namespace NP
open Spec

/-- C37 as stated is false of the code: the reach of `::` goes on through a dot, the reach of `def` goes on into the
parameters, and in interpolated sections every dot starts one. -/
theorem C37_false :
    (∃ ts, Lexes (cs! "A::b.c=1") ts ∧ ts.map (fun t => (t.type, t.lit)) = [(.Constant, some (cs! "A")),
      (.ConstantResolution, none), (.BareName, some (cs! "b")), (.Dot, none), (.BareName, some (cs! "c=")),
      (.Fixnum, none), (.Eof, none)]) ∧
    (∃ ts, Lexes (cs! "def f a=1") ts ∧ ts.map (fun t => (t.type, t.lit)) = [(.DefKeyword, none),
      (.BareName, some (cs! "f")), (.BareName, some (cs! "a=")), (.Fixnum, none), (.Eof, none)]) ∧
    ∃ ts, Lexes (cs! "\"#{a.b=1}\"") ts ∧ ts.map (fun t => (t.type, t.lit)) = [(.InterpolatedStringBegin, some ['"']),
      (.EvaluateToStringBegin, none), (.BareName, some (cs! "a")), (.Dot, none), (.BareName, some (cs! "b=")),
      (.Fixnum, none), (.EvaluateToStringEnd, none), (.InterpolatedStringEnd, none), (.Eof, none)] := by
  refine ⟨⟨_, .of_toks 40 _ ?_, ?_⟩, ⟨_, .of_toks 40 _ ?_, ?_⟩, ⟨_, .of_toks 40 _ ?_, ?_⟩⟩
  all_goals decide +kernel

theorem AllOk.at {out a b : List Token} {t : Token} (h : AllOk out) (e : out = a ++ t :: b) (hs : SetterName t) :
    HasEval b ∨ reachOf b ≠ none := by
  induction a generalizing out with
  | nil => subst e; exact h.1 hs
  | cons u a ih => subst e; exact ih h.2 rfl

/-- C37: a name that ends in `=` has an unfinished list of method names before it, that is, one of `def`, `::`, `alias`
and `undef` with no three tokens in a row after it that are no part of such a list. `_partial`: missing are names
after the beginning of an interpolated section, and that the names in reach are all method names (see
`C37_false`). -/
theorem C37_only_partial (src : Str) (ts pre post : List Token) (t : Token) (h : Lexes src ts)
    (e : ts = pre ++ t :: post) (ht : SetterName t) (hp : ∀ u ∈ pre, u.type ≠ .EvaluateToStringBegin) :
    NamesExpected pre := by
  obtain ⟨fuel, h, -⟩ := h
  have hst : StackOk src [Lx.init src] := .init
  have hi : NameInv [Lx.init src] [] :=
    .inr (.inl ⟨_, rfl, rfl, ⟨.inl ⟨rfl, Nat.zero_le _⟩, .inl rfl⟩⟩)
  have := tokensLoop_setter fuel _ _ {} _ hst hi trivial h
  subst e
  rcases this.at (a := post.reverse) (b := pre.reverse) (t := t) (by simp) ht with ⟨u, hu, hue⟩ | hr
  · exact absurd hue (hp u (by simpa using hu))
  · unfold NamesExpected
    unfold reachOf at hr
    rw [List.foldr_reverse] at hr
    rwa [List.foldl_map]

theorem reach_none (ts : List Ttype) (h : ∀ t ∈ ts, expectsName t = false) : ts.foldl reach none = none := by
  induction ts with
  | nil => rfl
  | cons t ts ih =>
    rw [List.foldl_cons]
    have : reach none t = none := by simp [reach, h t (by simp)]
    rw [this]
    exact ih fun u hu => h u (List.mem_cons_of_mem _ hu)

/-- C37 without `def`, `::`, `alias`, `undef` before the name (and without interpolated sections): after a dot as well
as everywhere else the name and the `=` are separate tokens. `_partial` for the same reasons. -/
theorem C37_separate_partial (src : Str) (ts pre post : List Token) (t : Token) (h : Lexes src ts)
    (e : ts = pre ++ t :: post)
    (hp : ∀ u ∈ pre, u.type ≠ .EvaluateToStringBegin ∧ expectsName u.type = false) : ¬SetterName t := by
  intro ht
  refine C37_only_partial src ts pre post t h e ht (fun u hu => (hp u hu).1) (reach_none _ fun u hu => ?_)
  obtain ⟨v, hv, rfl⟩ := List.mem_map.1 hu
  exact (hp v hv).2

/-- Non-vacuity: `undef a, b=`. -/
example : ∃ ts pre t post, Lexes (cs! "undef a, b=") ts ∧ ts = pre ++ t :: post ∧ SetterName t ∧
    (∀ u ∈ pre, u.type ≠ .EvaluateToStringBegin) ∧ pre.length = 3 := by
  refine ⟨_, (tokensFuel 40 (cs! "undef a, b=")).toks.take 3, (tokensFuel 40 (cs! "undef a, b=")).toks[3]!,
    (tokensFuel 40 (cs! "undef a, b=")).toks.drop 4, .of_toks 40 _ ?_, ?_, ⟨.inl ?_, cs! "b", ?_⟩, ?_, ?_⟩
  all_goals decide +kernel

/-- Non-vacuity of `C37_separate_partial`: the tokens of `a.b=1`. -/
example : ∃ ts pre t post, Lexes (cs! "a.b=1") ts ∧ ts = pre ++ t :: post ∧
    (∀ u ∈ pre, u.type ≠ .EvaluateToStringBegin ∧ expectsName u.type = false) ∧ t.lit = some (cs! "b") := by
  refine ⟨_, (tokensFuel 40 (cs! "a.b=1")).toks.take 2, (tokensFuel 40 (cs! "a.b=1")).toks[2]!,
    (tokensFuel 40 (cs! "a.b=1")).toks.drop 3, .of_toks 40 _ ?_, ?_, ?_, ?_⟩
  all_goals decide +kernel

end NP
