import Verif.Spec.Parse
import Verif.Proofs.TokLit
import Verif.Proofs.ParseRuns7
import Verif.Proofs.ParseInst
import Verif.Props.Tokens
import Verif.Props.Open
import Verif.Props.Abort

/-! Properties C30 and C32: parsing ends, and it ends with a tree only when all tokens have been used. -/

namespace NP
open Spec

/-- A vector of tokens as the lexer returns them: one terminal token, at the end, and `Invalid` tokens have a text. -/
structure VectorOk (ts : List Token) : Prop where
  shape : ∃ init last, ts = init ++ [last] ∧ Terminal last.type ∧ ∀ t ∈ init, ¬ Terminal t.type
  text : ∀ t ∈ ts, t.type = .Invalid → t.lit ≠ none

theorem Lexes.vectorOk {src : Str} {ts : List Token} (h : Lexes src ts) : VectorOk ts :=
  ⟨C02_one_terminal src ts h, fun t ht he => h.litOk t ht (by rw [he]; rfl)⟩

theorem W_le (ts : List Token) : (ts.map fun t => wt t.type).sum ≤ 2 * ts.length := by
  induction ts with
  | nil => simp
  | cons t ts ih =>
    have := wt_le t.type
    simp only [List.map_cons, List.sum_cons, List.length_cons]
    omega

/-- The whole parser with any sufficient bound for nested calls. -/
theorem parse_run (c : Cx) (init : List Token) (last : Token) (hv : VectorOk (init ++ [last]))
    (ht : Terminal last.type) (hi : ∀ t ∈ init, ¬ Terminal t.type) (n : Nat) (hn : 2 * (init.length + 1) ≤ n) :
    wp (parseTree (knot n)) c { rest := init ++ [last] } fun _ s' =>
      s'.rest = [last] ∧ last.type = .Eof ∧ noNewlines s'.prev.reverse = noNewlines init ∧ s'.precs = [] := by
  have hf : ∀ t ∈ init ++ [last], Fmt t := hv.text
  have i : Inv ⟨last, noNewlines (init ++ [last])⟩ { rest := init ++ [last] } :=
    ⟨⟨init, rfl, fun t h => ⟨hi t h, hf t (by simp [h])⟩⟩, ht, hf last (by simp), by simp, rfl⟩
  have hw : W { rest := init ++ [last] } ≤ n := by
    have := W_le (init ++ [last])
    simp only [List.length_append, List.length_cons, List.length_nil] at this
    unfold W
    dsimp only
    omega
  refine wp_mono (parseTree_wp (knot_good _ n) i (by simp [D]) hw) ?_
  rintro a s' ⟨h1, h2, h3, h4, h5⟩
  refine ⟨h2, h3, ?_, ?_⟩
  · have := h1.all
    rw [h2] at this
    unfold noNewlines at this ⊢
    rw [List.filter_append, List.filter_append] at this
    exact List.append_cancel_right this
  · simpa [K] using h5

/-- C30 for token vectors, partial: on every vector with one terminal token, at its end, and with any bound from
`2 * length` on, parsing ends: neither does it need more nested calls or iterations, nor does it leave the vector, nor is
there undefined behaviour. Missing: a failed assertion is possible (`C30_false`). -/
theorem C30_vector_partial (c : Cx) (ts : List Token) (hv : VectorOk ts) (n : Nat) (hn : 2 * ts.length ≤ n) :
    Stops (parseTree (knot n) c { rest := ts }) := by
  obtain ⟨init, last, rfl, ht, hi⟩ := hv.shape
  have h := parse_run c init last hv ht hi n (by simpa using hn)
  unfold wp at h
  revert h
  cases parseTree (knot n) c { rest := init ++ [last] } <;> simp [Stops]

/-- The bound for nested calls has no influence: with any bound from `2 * length` on, the outcome is the same. So the
bound only serves to define the functions; it is no restriction of what is modelled. -/
theorem C30_bound_irrelevant (c : Cx) (ts : List Token) (hv : VectorOk ts) (n : Nat) (hn : 2 * ts.length ≤ n) :
    parseTree (knot n) c { rest := ts } = parseToks c ts := by
  have h := C30_vector_partial c ts hv (2 * ts.length) (Nat.le_refl _)
  have hf : parseTree (knot (2 * ts.length)) c { rest := ts } ≠ .fuel := by
    intro e
    rw [e] at h
    exact h
  unfold parseToks
  rw [parseTree_mono hn c _ hf, parseTree_mono (show 2 * ts.length ≤ 2 * ts.length + 2 by omega) c _ hf]

/-- C30, partial: parsing any source ends, in exactly one way, and with a tree, an error or a failed assertion; undefined
behaviour is left only for the references of `C19_ub_partial`. Missing for C30: no assertion fails; that is false
(`C30_false`). -/
theorem C30_terminates_partial (src file : Str) (hl : src.length < 2 ^ 63) :
    ∃ r, Parses src file r ∧ (∀ r', Parses src file r' → r' = r) ∧ (Stops r ∨ r = .ub ∧ Ends src .ub) := by
  obtain ⟨r, hr, hu⟩ := C01_terminates src hl
  cases r with
  | ok ts =>
    refine ⟨_, .tokens ts hr, ?_, .inl (C30_vector_partial _ ts (Lexes.vectorOk hr) _ (by omega))⟩
    intro r' h'
    cases h' with
    | tokens ts' h => cases hu _ h; rfl
    | abort h => cases hu _ h
    | ub h => cases hu _ h
  | abort =>
    refine ⟨_, .abort hr, ?_, .inl trivial⟩
    intro r' h'
    cases h' with
    | tokens ts' h => cases hu _ h
    | abort h => rfl
    | ub h => cases hu _ h
  | ub =>
    refine ⟨_, .ub hr, ?_, .inr ⟨rfl, hr⟩⟩
    intro r' h'
    cases h' with
    | tokens ts' h => cases hu _ h
    | abort h => cases hu _ h
    | ub h => rfl
  | fuel => obtain ⟨_, _, h⟩ := hr; exact absurd rfl h

/-- How parsing the tokens of a source ends, computed (for examples). -/
def runSource (fuel : Nat) (src : Str) : Option (PRes Node) :=
  match tokensFuel fuel src with
  | .ok ts => some (parseToks ⟨src, []⟩ ts)
  | _ => none

theorem runSource_parses {fuel : Nat} {src : Str} {r : PRes Node} (h : runSource fuel src = some r) : Parses src [] r := by
  unfold runSource at h
  split at h
  · rename_i ts ht
    cases h
    exact .tokens ts ⟨fuel, ht, nofun⟩
  · cases h

def PRes.isAbort {α : Type} : PRes α → Bool
  | .abort => true
  | _ => false

def PRes.isOk {α : Type} : PRes α → Bool
  | .ok _ _ => true
  | _ => false

theorem parses_abort {fuel : Nat} {src : Str} (h : (runSource fuel src).any PRes.isAbort = true) : Parses src [] .abort := by
  cases hr : runSource fuel src with
  | none => rw [hr] at h; cases h
  | some r =>
    rw [hr] at h
    cases r <;> first | exact runSource_parses hr | cases h

/-- C30 as stated is false of the code: the assertions of `MultipleAssignmentNode::add_locals` and of
`parse_interpolated_body` fail on these sources, the process is stopped. -/
theorem C30_false : Parses (cs! "a&.b, c = 1, 2") [] .abort ∧ Parses (cs! "\"\\u{zz}\"") [] .abort :=
  ⟨parses_abort (fuel := 30) (by decide +kernel), parses_abort (fuel := 30) (by decide +kernel)⟩

/-- Non-vacuity: a source whose parsing returns a tree. -/
example : (runSource 60 (cs! "def f(a)\n  a.each do |x| puts x end\nend\n")).any PRes.isOk = true := by decide +kernel

/-- Non-vacuity of `C30_vector_partial`. -/
example : VectorOk [{ type := .BareName, lit := some (cs! "a") }, { type := .Eof }] := by
  refine ⟨⟨[{ type := .BareName, lit := some (cs! "a") }], { type := .Eof }, rfl, .inl rfl, ?_⟩, ?_⟩
  · intro t ht
    cases List.mem_singleton.1 ht
    decide
  · intro t ht
    simp only [List.mem_cons, List.not_mem_nil, or_false] at ht
    rcases ht with rfl | rfl <;> decide

theorem Parses.ok {src file : Str} {n : Node} {s : PS} (h : Parses src file (.ok n s)) :
    ∃ ts, Lexes src ts ∧ parseToks ⟨src, file⟩ ts = .ok n s := by
  generalize hr : PRes.ok n s = r at h
  obtain ⟨ts, h⟩ | _ | _ := h
  · exact ⟨ts, h, rfl⟩
  · cases hr
  · cases hr

/-- C32, second part: when parsing a source returns a tree, its vector of tokens ends in EOF, the parser stands at this
last token, and the tokens it has passed are all the others, in this order (newlines, which it may pass over or put back,
aside). -/
theorem C32_all_consumed (src file : Str) (n : Node) (s : PS) (h : Parses src file (.ok n s)) :
    ∃ init eof, Lexes src (init ++ [eof]) ∧ eof.type = .Eof ∧ s.rest = [eof] ∧
      noNewlines s.prev.reverse = noNewlines init := by
  obtain ⟨ts, hl, hp⟩ := h.ok
  obtain ⟨init, last, rfl, ht, hi⟩ := C02_one_terminal src ts hl
  have := parse_run ⟨src, file⟩ init last hl.vectorOk ht hi (2 * (init ++ [last]).length + 2) (by simp)
  unfold wp at this
  unfold parseToks at hp
  rw [hp] at this
  exact ⟨init, last, hl, this.2.1, this.1, this.2.2.1⟩

/-- C32, first part: when the vector of a source ends in an error token, parsing does not return a tree. -/
theorem C32_error_never_succeeds (src file : Str) (ts : List Token) (h : Lexes src ts) (he : EndsInError ts)
    (n : Node) (s : PS) : ¬ Parses src file (.ok n s) := by
  intro hp
  obtain ⟨init, eof, hl, h1, -, -⟩ := C32_all_consumed src file n s hp
  cases h.unique hl
  obtain ⟨t, h2, h3⟩ := he
  simp only [List.getLast?_append, List.getLast?_singleton, Option.some_or, Option.some.injEq] at h2
  rw [← h2, h1] at h3
  cases h3

/-- Non-vacuity: a source with an error token, and one that parses. -/
example : (tokensFuel 20 (cs! "foo(1, \"bar)")).types.getLast? = some .UnterminatedString := by decide +kernel
example : (runSource 20 (cs! "x = [1,\n2]\n\n")).any PRes.isOk = true := by decide +kernel

end NP
