import Verif.Proofs.ParseWp

/-! What the functions of the parser do to the token position: names, symbols, strings, arguments. -/

namespace NP

open Spec

/-- What is shown of the functions in the record, for at most the weight `n`. -/
structure Good (e : Env) (n : Nat) (R : Rec) : Prop where
  fuel : n + 1 < R.fuel
  expr : ∀ p ia c s, Inv e s → 0 < D s → W s ≤ n → Runs e 1 (R.expr p ia) c s fun a _ => NodeOk a
  pattern : ∀ c s, Inv e s → 0 < D s → W s ≤ n → Runs e 1 R.pattern c s fun a _ => NodeOk a
  assignIdent : ∀ b c s, Inv e s → 0 < D s → W s ≤ n → Runs e 1 (R.assignIdent b) c s fun a _ => NodeOk a
  argDefault : ∀ ia c s, Inv e s → 0 < D s → W s + 1 ≤ n → Runs e 1 (R.argDefault ia) c s fun a _ => NodeOk a
  defSingleArg : ∀ as x ia c s, Inv e s → 0 < D s → W s ≤ n → Runs e 1 (R.defSingleArg as x ia) c s fun _ _ => True
  ifBranch : ∀ b c s, Inv e s → 0 < D s → W s ≤ n → ¬ Terminal s.cur.type →
    Runs e 1 (R.ifBranch b) c s fun a _ => NodeOk a
  string : ∀ c s, Inv e s → 0 < D s → W s ≤ n → s.cur.type = .String → Runs e 1 R.string c s fun a _ => NodeOk a
  istring : ∀ c s, Inv e s → 0 < D s → W s ≤ n → s.cur.type = .InterpolatedStringBegin →
    Runs e 1 R.istring c s fun a _ => NodeOk a

section
variable {e : Env} {n : Nat} {R : Rec} {c : Cx} {s : PS}

macro_rules | `(tactic| pspec) => `(tactic|
  ((with_reducible apply wp_of_runs); focus ((with_reducible apply Good.expr)); assumption; assumption; omega; omega;
   intro _ _ _ _ _ _ _))
macro_rules | `(tactic| pspec) => `(tactic|
  ((with_reducible apply wp_of_runs); focus ((with_reducible apply Good.pattern)); assumption; assumption; omega; omega;
   intro _ _ _ _ _ _ _))
macro_rules | `(tactic| pspec) => `(tactic|
  ((with_reducible apply wp_of_runs); focus ((with_reducible apply Good.assignIdent)); assumption; assumption; omega; omega;
   intro _ _ _ _ _ _ _))
macro_rules | `(tactic| pspec) => `(tactic|
  ((with_reducible apply wp_of_runs); focus ((with_reducible apply Good.argDefault)); assumption; assumption; omega; omega;
   intro _ _ _ _ _ _ _))
macro_rules | `(tactic| pspec) => `(tactic|
  ((with_reducible apply wp_of_runs); focus ((with_reducible apply Good.defSingleArg)); assumption; assumption; omega; omega;
   intro _ _ _ _ _ _ _))

theorem parseMethodName_runs (i : Inv e s) :
    Runs e 1 parseMethodName c s fun _ _ => True := by
  unfold Runs parseMethodName
  pgo

macro_rules | `(tactic| pspec) => `(tactic|
  ((with_reducible apply wp_of_runs); (with_reducible apply parseMethodName_runs); assumption
   intro _ _ _ _ _ _ _))

theorem parseSymbol_runs (i : Inv e s) (h : ¬ Terminal s.cur.type) :
    Runs e 1 parseSymbol c s fun a _ => NodeOk a := by
  unfold Runs parseSymbol
  pgo

macro_rules | `(tactic| pspec) => `(tactic|
  ((with_reducible apply wp_of_runs); (with_reducible apply parseSymbol_runs); assumption; nt
   intro _ _ _ _ _ _ _))

theorem parseSymbolKey_runs (i : Inv e s) (h : ¬ Terminal s.cur.type) :
    Runs e 1 parseSymbolKey c s fun a _ => NodeOk a := by
  unfold Runs parseSymbolKey
  pgo

macro_rules | `(tactic| pspec) => `(tactic|
  ((with_reducible apply wp_of_runs); (with_reducible apply parseSymbolKey_runs); assumption; nt
   intro _ _ _ _ _ _ _))

theorem parseInterpolatedBody_runs {st : Token} {ty : Ttype} (g : Good e n R) (i : Inv e s) (d : 0 < D s) (w : W s ≤ n) :
    Runs e 0 (parseInterpolatedBody R st ty) c s fun _ s' => s'.cur.type = ty := by
  have gf := g.fuel
  unfold Runs parseInterpolatedBody
  pgo

macro_rules | `(tactic| pspec) => `(tactic|
  ((with_reducible apply wp_of_runs); (with_reducible apply parseInterpolatedBody_runs); assumption; assumption; omega; omega
   intro _ _ _ _ _ _ _))

theorem parseInterpolatedRegexp_runs (g : Good e n R) (i : Inv e s) (d : 0 < D s) (w : W s ≤ n + 1)
    (h : ¬ Terminal s.cur.type) :
    Runs e 1 (parseInterpolatedRegexp R) c s fun a _ => NodeOk a := by
  have gf := g.fuel
  unfold Runs parseInterpolatedRegexp
  pgo

macro_rules | `(tactic| pspec) => `(tactic|
  ((with_reducible apply wp_of_runs); (with_reducible apply parseInterpolatedRegexp_runs); assumption; assumption; omega; omega; nt
   intro _ _ _ _ _ _ _))

theorem parseInterpolatedShell_runs (g : Good e n R) (i : Inv e s) (d : 0 < D s) (w : W s ≤ n + 1)
    (h : ¬ Terminal s.cur.type) :
    Runs e 1 (parseInterpolatedShell R) c s fun a _ => NodeOk a := by
  have gf := g.fuel
  unfold Runs parseInterpolatedShell
  pgo

macro_rules | `(tactic| pspec) => `(tactic|
  ((with_reducible apply wp_of_runs); (with_reducible apply parseInterpolatedShell_runs); assumption; assumption; omega; omega; nt
   intro _ _ _ _ _ _ _))

theorem parseInterpolatedSymbol_runs (g : Good e n R) (i : Inv e s) (d : 0 < D s) (w : W s ≤ n + 1)
    (h : ¬ Terminal s.cur.type) :
    Runs e 1 (parseInterpolatedSymbol R) c s fun a _ => NodeOk a := by
  have gf := g.fuel
  unfold Runs parseInterpolatedSymbol
  pgo

macro_rules | `(tactic| pspec) => `(tactic|
  ((with_reducible apply wp_of_runs); (with_reducible apply parseInterpolatedSymbol_runs); assumption; assumption; omega; omega; nt
   intro _ _ _ _ _ _ _))

theorem appendStringNodes_runs {a b : Node} (i : Inv e s) (h1 : NodeOk a) (h2 : NodeOk b) :
    Runs e 0 (appendStringNodes a b) c s fun a _ => NodeOk a := by
  unfold Runs appendStringNodes
  split
  · split
    · unfold stringAppend
      pgo
    · unfold istringAppend
      pgo
    · pgo
  · pgo

macro_rules | `(tactic| pspec) => `(tactic|
  ((with_reducible apply wp_of_runs); (with_reducible apply appendStringNodes_runs); assumption; assumption; assumption
   intro _ _ _ _ _ _ _))

theorem concatAdjacentStrings_runs {a : Node} (g : Good e n R) (i : Inv e s) (d : 0 < D s) (w : W s ≤ n)
    (h1 : NodeOk a) : Runs e 0 (concatAdjacentStrings R a) c s fun a _ => NodeOk a.1 := by
  have gf := g.fuel
  unfold Runs concatAdjacentStrings
  apply wp_loopA (fun x : Node × Bool => NodeOk x.1) i h1 (by omega)
  intro y s' _ _ _ _ _
  pstep
  pstep
  pstep
  · refine wp_bind (wp_of_runs (g.string _ _ ‹_› (by omega) (by omega) (by assumption)) ?_)
    intro _ _ _ _ _ _ _
    pgo
  · pstep
    · refine wp_bind (wp_of_runs (g.istring _ _ ‹_› (by omega) (by omega) (by assumption)) ?_)
      intro _ _ _ _ _ _ _
      pgo
    · pgo

macro_rules | `(tactic| pspec) => `(tactic|
  ((with_reducible apply wp_of_runs); (with_reducible apply concatAdjacentStrings_runs); assumption; assumption; omega; omega; assumption
   intro _ _ _ _ _ _ _))

theorem toSymbolKey_runs {a : Node} (i : Inv e s) (h1 : NodeOk a) :
    Runs e 0 (toSymbolKey a) c s fun a _ => NodeOk a := by
  unfold Runs toSymbolKey
  pgo

macro_rules | `(tactic| pspec) => `(tactic|
  ((with_reducible apply wp_of_runs); (with_reducible apply toSymbolKey_runs); assumption; assumption
   intro _ _ _ _ _ _ _))

theorem finishString_runs {a : Node} (g : Good e n R) (i : Inv e s) (d : 0 < D s) (w : W s ≤ n)
    (h1 : NodeOk a) : Runs e 0 (finishString R a) c s fun a _ => NodeOk a := by
  have gf := g.fuel
  unfold Runs finishString
  pgo

macro_rules | `(tactic| pspec) => `(tactic|
  ((with_reducible apply wp_of_runs); (with_reducible apply finishString_runs); assumption; assumption; omega; omega; fmt
   intro _ _ _ _ _ _ _))

theorem parseString_runs (g : Good e n R) (i : Inv e s) (d : 0 < D s) (w : W s ≤ n + 1)
    (h : ¬ Terminal s.cur.type) :
    Runs e 1 (parseString R) c s fun a _ => NodeOk a := by
  have gf := g.fuel
  unfold Runs parseString
  pgo

macro_rules | `(tactic| pspec) => `(tactic|
  ((with_reducible apply wp_of_runs); (with_reducible apply parseString_runs); assumption; assumption; omega; omega; nt
   intro _ _ _ _ _ _ _))

theorem parseInterpolatedString_runs (g : Good e n R) (i : Inv e s) (d : 0 < D s) (w : W s ≤ n + 1)
    (h : ¬ Terminal s.cur.type) :
    Runs e 1 (parseInterpolatedString R) c s fun a _ => NodeOk a := by
  have gf := g.fuel
  unfold Runs parseInterpolatedString
  pgo

macro_rules | `(tactic| pspec) => `(tactic|
  ((with_reducible apply wp_of_runs); (with_reducible apply parseInterpolatedString_runs); assumption; assumption; omega; omega; nt
   intro _ _ _ _ _ _ _))

theorem parseLit_runs (i : Inv e s) :
    Runs e 1 parseLit c s fun a _ => NodeOk a := by
  unfold Runs parseLit
  pgo

macro_rules | `(tactic| pspec) => `(tactic|
  ((with_reducible apply wp_of_runs); (with_reducible apply parseLit_runs); assumption
   intro _ _ _ _ _ _ _))

theorem parseIdentifier_runs (i : Inv e s) (h : ¬ Terminal s.cur.type) :
    Runs e 1 parseIdentifier c s fun a _ => NodeOk a := by
  unfold Runs parseIdentifier
  pgo

macro_rules | `(tactic| pspec) => `(tactic|
  ((with_reducible apply wp_of_runs); (with_reducible apply parseIdentifier_runs); assumption; nt
   intro _ _ _ _ _ _ _))

theorem parseConstant_runs (i : Inv e s) (h : ¬ Terminal s.cur.type) :
    Runs e 1 parseConstant c s fun a _ => NodeOk a := by
  unfold Runs parseConstant
  pgo

macro_rules | `(tactic| pspec) => `(tactic|
  ((with_reducible apply wp_of_runs); (with_reducible apply parseConstant_runs); assumption; nt
   intro _ _ _ _ _ _ _))

theorem parseTopLevelConstant_runs (i : Inv e s) (h : ¬ Terminal s.cur.type) :
    Runs e 1 parseTopLevelConstant c s fun a _ => NodeOk a := by
  unfold Runs parseTopLevelConstant
  pgo

macro_rules | `(tactic| pspec) => `(tactic|
  ((with_reducible apply wp_of_runs); (with_reducible apply parseTopLevelConstant_runs); assumption; nt
   intro _ _ _ _ _ _ _))

theorem parseOne_runs {f : Token → Node} (i : Inv e s) (h : ¬ Terminal s.cur.type) (hf : ∀ t, (f t).tok = t) :
    Runs e 1 (parseOne f) c s fun a _ => NodeOk a := by
  unfold Runs parseOne
  pgo
  show Fmt _
  rw [hf]
  exact i.cur_fmt

macro_rules | `(tactic| pspec) => `(tactic|
  ((with_reducible apply wp_of_runs); (with_reducible apply parseOne_runs); assumption; nt; (exact fun _ => rfl)
   intro _ _ _ _ _ _ _))

theorem parseBackRef_runs (i : Inv e s) (h : ¬ Terminal s.cur.type) :
    Runs e 1 parseBackRef c s fun a _ => NodeOk a := by
  unfold Runs parseBackRef
  pgo

macro_rules | `(tactic| pspec) => `(tactic|
  ((with_reducible apply wp_of_runs); (with_reducible apply parseBackRef_runs); assumption; nt
   intro _ _ _ _ _ _ _))

theorem parseFileConstant_runs (i : Inv e s) (h : ¬ Terminal s.cur.type) :
    Runs e 1 parseFileConstant c s fun a _ => NodeOk a := by
  unfold Runs parseFileConstant
  pstep
  pstep
  refine wp_bind (β := Node) (wp_advance i h ?_)
  intro s' _ _ _ _ _ _ _ _
  exact ⟨by assumption, by omega, by omega, by omega, i.cur_fmt⟩

theorem parseAliasArg_runs {m : Str} (g : Good e n R) (i : Inv e s) (d : 0 < D s) (w : W s ≤ n + 1) :
    Runs e 1 (parseAliasArg R m) c s fun a _ => NodeOk a := by
  have gf := g.fuel
  unfold Runs parseAliasArg
  pgo

macro_rules | `(tactic| pspec) => `(tactic|
  ((with_reducible apply wp_of_runs); (with_reducible apply parseAliasArg_runs); assumption; assumption; omega; omega
   intro _ _ _ _ _ _ _))

theorem parseValiasArg_runs {b : Bool} {m : Str} (i : Inv e s) :
    wp (parseValiasArg b m) c s fun _ s' => s' = s ∧ ¬ Terminal s.cur.type := by
  unfold parseValiasArg
  pgo
  all_goals exact ⟨rfl, by nt⟩

theorem reinsertCollapsedNewline_wp {Q : Unit → PS → Prop} (i : Inv e s)
    (k : ∀ s', Inv e s' → W s' ≤ W s + 1 → D s' = D s → K s' = K s → Q () s') :
    wp reinsertCollapsedNewline c s Q := by
  unfold reinsertCollapsedNewline
  pstep
  pstep
  pstep
  · refine wp_insertNewline i fun s' a b c d => k s' a (by omega) c d
  · exact k s i (by omega) rfl rfl

theorem parseAlias_runs (g : Good e n R) (i : Inv e s) (d : 0 < D s) (w : W s ≤ n + 1)
    (h : ¬ Terminal s.cur.type) : Runs e 1 (parseAlias R) c s fun a _ => NodeOk a := by
  unfold Runs parseAlias
  pstep
  pstep
  pstep
  pstep
  pstep
  pstep
  pstep
  · refine wp_bind (wp_mono (parseValiasArg_runs ‹_›) ?_)
    rintro _ _ ⟨rfl, _⟩
    pstep
    pstep
    refine wp_bind (wp_mono (parseValiasArg_runs ‹_›) ?_)
    rintro _ _ ⟨rfl, _⟩
    pstep
    pstep
    refine wp_bind (reinsertCollapsedNewline_wp ‹_› ?_)
    intro _ _ _ _ _
    pgo
  · pstep
    pstep
    pstep
    pstep
    refine wp_bind (reinsertCollapsedNewline_wp ‹_› ?_)
    intro _ _ _ _ _
    pgo

theorem commaLoop_runs {α : Type} {item : P α} {acc : List α} (A : α → Prop) (i : Inv e s) (hf : W s < R.fuel)
    (ha : ∀ x ∈ acc, A x)
    (hi : ∀ s', Inv e s' → W s' + 1 ≤ W s → D s ≤ D s' → K s' = K s → Runs e 0 item c s' fun x _ => A x) :
    Runs e 0 (commaLoop R item acc) c s fun xs _ => ∀ x ∈ xs, A x := by
  unfold Runs commaLoop
  apply wp_loopA (fun xs : List α => ∀ x ∈ xs, A x) i ha hf
  intro ys s' hy _ _ _ _
  pstep
  pstep
  pstep
  · pstep
    pstep
    refine wp_bind (wp_of_runs (hi _ ‹_› (by omega) (by omega) (by omega)) ?_)
    intro x _ _ _ _ _ _
    pstep
    refine ⟨by assumption, by omega, by omega, by omega, ?_⟩
    intro z hz
    rcases List.mem_append.1 hz with hz | hz
    · exact hy z hz
    · rw [List.mem_singleton.1 hz]
      assumption
  · pstep
    exact ⟨by assumption, by omega, by omega, by omega, hy⟩

macro_rules | `(tactic| pspec) => `(tactic|
  ((with_reducible apply wp_of_runs); (with_reducible apply commaLoop_runs (fun _ => True)); assumption; omega
   (exact fun _ _ => trivial)
   focus (intro _ _ _ _ _; unfold Runs; pgo)
   intro _ _ _ _ _ _ _))

theorem parseUndef_runs (g : Good e n R) (i : Inv e s) (d : 0 < D s) (w : W s ≤ n + 1)
    (h : ¬ Terminal s.cur.type) : Runs e 1 (parseUndef R) c s fun a _ => NodeOk a := by
  have gf := g.fuel
  unfold Runs parseUndef
  pstep
  pstep
  pstep
  pstep
  pstep
  pstep
  pstep
  pstep
  pstep
  · pstep
    pstep
    refine wp_bind (reinsertCollapsedNewline_wp ‹_› ?_)
    intro _ _ _ _ _
    pgo
  · refine wp_bind (reinsertCollapsedNewline_wp ‹_› ?_)
    intro _ _ _ _ _
    pgo

end
end NP
