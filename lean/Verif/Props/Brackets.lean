import Verif.Proofs.Bal.Main
import Verif.Proofs.Bal.Count
import Verif.Props.Parse

/-!
C43: what the parser accepts is balanced.

`Spec.Balanced` says what this means: every `(`, `{`, `[`, `%w[` and every beginning of an interpolated literal is closed by
its counterpart, in the right order; `begin`, `case`, `class`, `module` and `for` are closed by an `end`; and every `end`
closes such a keyword, or a `def`, `do`, `if`, `unless`, `while` or `until`; keywords as names (`x.end`) aside.
-/

namespace NP

open Spec

/-- C43: the tokens of a source that is accepted are balanced. (Newlines are left out since the parser may pass over them
more than once.) -/
theorem C43_balanced (src file : Str) (n : Node) (s : PS) (h : Parses src file (.ok n s)) :
    ∃ ts, Lexes src ts ∧ Balanced (noNewlines ts) := by
  obtain ⟨init, eof, hl, ht, -, hp⟩ := C32_all_consumed src file n s h
  obtain ⟨ts, hl', hr⟩ := h.ok
  cases hl'.unique hl
  refine ⟨_, hl, ?_⟩
  have hb := Bal.b_parseTree (c := ⟨src, file⟩) (s := { rest := init ++ [eof] })
    (Bal.knot_good (2 * (init ++ [eof]).length + 2))
  unfold Bal.okp at hb
  unfold parseToks at hr
  rw [hr] at hb
  have ho := Bal.opened_noNewlines (hb.2 [] .nil)
  have he : noNewlines s.prev = (noNewlines init).reverse := by
    rw [← hp, Bal.noNewlines_reverse, List.reverse_reverse]
  rw [he] at ho
  unfold Balanced
  rw [Bal.noNewlines_append, List.reverse_append]
  have : noNewlines [eof] = [eof] := by simp [noNewlines, ht]
  rw [this]
  exact .plain eof (by rw [ht]; decide) ho

/-- C43, the brackets other than keywords: reading them with a stack succeeds. -/
theorem C43_brackets (src file : Str) (n : Node) (s : PS) (h : Parses src file (.ok n s)) :
    ∃ ts, Lexes src ts ∧ readBrackets [] (ts.map (·.type)) = some [] := by
  obtain ⟨ts, hl, hb⟩ := C43_balanced src file n s h
  refine ⟨ts, hl, ?_⟩
  have := Bal.opened_read hb
  rw [List.reverse_reverse, Bal.read_noNewlines] at this
  exact this

/-- C43, for sources that are not balanced: no tree is returned. -/
theorem C43_reject (src file : Str) (ts : List Token) (h : Lexes src ts)
    (hb : readBrackets [] (ts.map (·.type)) ≠ some []) (n : Node) (s : PS) : ¬ Parses src file (.ok n s) := by
  intro hp
  obtain ⟨ts', hl, hr⟩ := C43_brackets src file n s hp
  cases hl.unique h
  exact hb hr

/-- C43, counting: for every kind of closing bracket, there are as many as of the brackets it closes. -/
theorem C43_counts (src file : Str) (n : Node) (s : PS) (h : Parses src file (.ok n s)) (c : Ttype) (hc : isClose c = true) :
    ∃ ts, Lexes src ts ∧
      (ts.map (·.type)).countP (fun o => isOpen o && closes o c) = (ts.map (·.type)).count c := by
  obtain ⟨ts, hl, hr⟩ := C43_brackets src file n s h
  have := Bal.read_count c hc _ _ _ hr
  exact ⟨ts, hl, by simpa using this⟩

/-- C43, the keywords, in a program where no keyword can be a name: at least one `end` for every `begin`, `case`, `class`,
`module` and `for`, and at most one for every keyword that can have one. -/
theorem C43_ends (src file : Str) (n : Node) (s : PS) (ts : List Token) (h : Parses src file (.ok n s)) (hl : Lexes src ts)
    (hn : ∀ t ∈ ts, t.type ∉ [.Dot, .SafeNavigation, .ConstantResolution, .DefKeyword, .AliasKeyword, .UndefKeyword, .StarStar]) :
    ts.countP (fun t => needsEnd t.type) ≤ ts.countP (fun t => t.type == .EndKeyword) ∧
    ts.countP (fun t => t.type == .EndKeyword) ≤ ts.countP fun t => closes t.type .EndKeyword := by
  obtain ⟨ts', hl', hb⟩ := C43_balanced src file n s h
  cases hl'.unique hl
  have hc : ∀ p : Token → Bool, (∀ t : Token, t.type = .Newline → p t = false) →
      (noNewlines ts).reverse.countP p = ts.countP p := by
    intro p hp
    rw [List.countP_reverse]
    simp only [noNewlines, List.countP_filter]
    apply List.countP_congr
    intro t _
    by_cases e : t.type = .Newline
    · simp [hp t e]
    · simp [e]
  have := Bal.opened_ends hb fun t ht => hn t ((List.mem_filter.1 (List.mem_reverse.1 ht)).1)
  rw [hc _ fun t e => by rw [e]; rfl, hc _ fun t e => by rw [e]; rfl, hc _ fun t e => by rw [e]; rfl] at this
  simpa using this

/-- Non-vacuity: a source with brackets of many kinds that is accepted … -/
example : (runSource 60 (cs! "x = [%w(a b), { c: \"#{f(1)}\" }]\nbegin\n  g { |y| y.end }\nend while x")).any PRes.isOk = true := by
  decide +kernel

/-- … and sources that are not balanced, with their tokens. -/
example : (tokensFuel 20 (cs! "f([1)]")).types.length = 7 ∧
    readBrackets [] (tokensFuel 20 (cs! "f([1)]")).types = none := by decide +kernel
example : (runSource 20 (cs! "f([1)]")).any PRes.isOk = false ∧ (runSource 20 (cs! "begin; 1")).any PRes.isOk = false := by
  decide +kernel

end NP
