import Verif.Proofs.ParseRuns4

/-! Definitions, conditionals, `case`. -/

namespace NP

open Spec

section
variable {e : Env} {n : Nat} {R : Rec} {c : Cx} {s : PS}

theorem parseDefName_runs (g : Good e n R) (i : Inv e s) (d : 0 < D s) (w : W s ≤ n) :
    Runs e 1 (parseDefName R) c s fun _ _ => True := by
  have gf := g.fuel
  unfold Runs parseDefName
  unfold parseIdentifier parseConstant
  pgo

macro_rules | `(tactic| pspec) => `(tactic|
  ((with_reducible apply wp_of_runs); (with_reducible apply parseDefName_runs); assumption; assumption; omega; omega
   intro _ _ _ _ _ _ _))

theorem parseDef_runs (g : Good e n R) (i : Inv e s) (d : 0 < D s) (w : W s ≤ n + 1)
    (h : ¬ Terminal s.cur.type) :
    Runs e 1 (parseDef R) c s fun a _ => NodeOk a := by
  have gf := g.fuel
  unfold Runs parseDef
  pgo

macro_rules | `(tactic| pspec) => `(tactic|
  ((with_reducible apply wp_of_runs); (with_reducible apply parseDef_runs); assumption; assumption; omega; omega; nt
   intro _ _ _ _ _ _ _))

theorem parseDefined_runs (g : Good e n R) (i : Inv e s) (d : 0 < D s) (w : W s ≤ n + 1)
    (h : ¬ Terminal s.cur.type) :
    Runs e 1 (parseDefined R) c s fun a _ => NodeOk a := by
  have gf := g.fuel
  unfold Runs parseDefined
  pgo

macro_rules | `(tactic| pspec) => `(tactic|
  ((with_reducible apply wp_of_runs); (with_reducible apply parseDefined_runs); assumption; assumption; omega; omega; nt
   intro _ _ _ _ _ _ _))

theorem parseClassOrModuleName_runs (g : Good e n R) (i : Inv e s) (d : 0 < D s) (w : W s ≤ n) :
    Runs e 1 (parseClassOrModuleName R) c s fun a _ => NodeOk a := by
  have gf := g.fuel
  unfold Runs parseClassOrModuleName
  pgo

macro_rules | `(tactic| pspec) => `(tactic|
  ((with_reducible apply wp_of_runs); (with_reducible apply parseClassOrModuleName_runs); assumption; assumption; omega; omega
   intro _ _ _ _ _ _ _))

theorem parseSclass_runs (g : Good e n R) (i : Inv e s) (d : 0 < D s) (w : W s ≤ n + 1)
    (h : ¬ Terminal s.cur.type) (h2 : s.peek.type = .LeftShift) :
    Runs e 1 (parseSclass R) c s fun a _ => NodeOk a := by
  have gf := g.fuel
  unfold Runs parseSclass
  pgo

macro_rules | `(tactic| pspec) => `(tactic|
  ((with_reducible apply wp_of_runs); (with_reducible apply parseSclass_runs); assumption; assumption; omega; omega; nt; fmt
   intro _ _ _ _ _ _ _))

theorem parseClass_runs (g : Good e n R) (i : Inv e s) (d : 0 < D s) (w : W s ≤ n + 1)
    (h : ¬ Terminal s.cur.type) :
    Runs e 1 (parseClass R) c s fun a _ => NodeOk a := by
  have gf := g.fuel
  unfold Runs parseClass
  pgo

macro_rules | `(tactic| pspec) => `(tactic|
  ((with_reducible apply wp_of_runs); (with_reducible apply parseClass_runs); assumption; assumption; omega; omega; nt
   intro _ _ _ _ _ _ _))

theorem parseModule_runs (g : Good e n R) (i : Inv e s) (d : 0 < D s) (w : W s ≤ n + 1)
    (h : ¬ Terminal s.cur.type) :
    Runs e 1 (parseModule R) c s fun a _ => NodeOk a := by
  have gf := g.fuel
  unfold Runs parseModule
  pgo

macro_rules | `(tactic| pspec) => `(tactic|
  ((with_reducible apply wp_of_runs); (with_reducible apply parseModule_runs); assumption; assumption; omega; omega; nt
   intro _ _ _ _ _ _ _))

macro_rules | `(tactic| pspec) => `(tactic|
  ((with_reducible apply wp_of_runs); (with_reducible apply parseRestOfBegin_runs); assumption; assumption; omega; omega; fmt
   intro _ _ _ _ _ _ hx; have := hx.1))

theorem parseBegin_runs (g : Good e n R) (i : Inv e s) (d : 0 < D s) (w : W s ≤ n + 1)
    (h : ¬ Terminal s.cur.type) :
    Runs e 1 (parseBegin R) c s fun a _ => NodeOk a := by
  have gf := g.fuel
  unfold Runs parseBegin
  pgo

macro_rules | `(tactic| pspec) => `(tactic|
  ((with_reducible apply wp_of_runs); (with_reducible apply parseBegin_runs); assumption; assumption; omega; omega; nt
   intro _ _ _ _ _ _ _))

theorem parseBeginlessRange_runs (g : Good e n R) (i : Inv e s) (d : 0 < D s) (w : W s ≤ n + 1)
    (h : ¬ Terminal s.cur.type) : Runs e 1 (parseBeginlessRange R) c s fun a _ => NodeOk a := by
  have gf := g.fuel
  unfold Runs parseBeginlessRange
  pgo

macro_rules | `(tactic| pspec) => `(tactic|
  ((with_reducible apply wp_of_runs); (with_reducible apply parseBeginlessRange_runs); assumption; assumption; omega; omega; nt
   intro _ _ _ _ _ _ _))

theorem parseBreakNext_runs {mk : Token → Option Node → Node} (g : Good e n R) (i : Inv e s) (d : 0 < D s) (w : W s ≤ n + 1)
    (h : ¬ Terminal s.cur.type) (hm : ∀ t x, (mk t x).tok = t) :
    Runs e 1 (parseBreakNext R mk) c s fun a _ => NodeOk a := by
  have gf := g.fuel
  unfold Runs parseBreakNext
  have hm' : ∀ t x, Fmt t → NodeOk (mk t x) := fun t x ht => by unfold NodeOk; rw [hm]; exact ht
  repeat' first | ((with_reducible apply hm'); fmt) | pstep

macro_rules | `(tactic| pspec) => `(tactic|
  ((with_reducible apply wp_of_runs); (with_reducible apply parseBreakNext_runs); assumption; assumption; omega; omega; nt; fmt
   intro _ _ _ _ _ _ _))

theorem parseReturn_runs (g : Good e n R) (i : Inv e s) (d : 0 < D s) (w : W s ≤ n + 1)
    (h : ¬ Terminal s.cur.type) :
    Runs e 1 (parseReturn R) c s fun a _ => NodeOk a := by
  have gf := g.fuel
  unfold Runs parseReturn
  pgo

macro_rules | `(tactic| pspec) => `(tactic|
  ((with_reducible apply wp_of_runs); (with_reducible apply parseReturn_runs); assumption; assumption; omega; omega; nt
   intro _ _ _ _ _ _ _))

theorem parseCaseBody_runs {ty : Ttype} (g : Good e n R) (i : Inv e s) (d : 0 < D s) (w : W s ≤ n) :
    Runs e 0 (parseCaseBody R ty) c s fun _ _ => True := by
  have gf := g.fuel
  unfold Runs parseCaseBody
  pgo

macro_rules | `(tactic| pspec) => `(tactic|
  ((with_reducible apply wp_of_runs); (with_reducible apply parseCaseBody_runs); assumption; assumption; omega; omega
   intro _ _ _ _ _ _ _))

theorem afterCondition_runs (i : Inv e s) :
    Runs e 0 afterCondition c s fun _ _ => True := by
  unfold Runs afterCondition
  pgo

macro_rules | `(tactic| pspec) => `(tactic|
  ((with_reducible apply wp_of_runs); (with_reducible apply afterCondition_runs); assumption
   intro _ _ _ _ _ _ _))

theorem parsePatternKey_runs (g : Good e n R) (i : Inv e s) (d : 0 < D s) (w : W s ≤ n + 1) :
    Runs e 1 (parsePatternKey R) c s fun a _ => NodeOk a := by
  have gf := g.fuel
  unfold Runs parsePatternKey
  pgo

macro_rules | `(tactic| pspec) => `(tactic|
  ((with_reducible apply wp_of_runs); (with_reducible apply parsePatternKey_runs); assumption; assumption; omega; omega
   intro _ _ _ _ _ _ _))

theorem patternPair_runs (g : Good e n R) (i : Inv e s) (d : 0 < D s) (w : W s ≤ n + 1) :
    Runs e 1 (patternPair R) c s fun _ _ => True := by
  have gf := g.fuel
  unfold Runs patternPair
  pgo

macro_rules | `(tactic| pspec) => `(tactic|
  ((with_reducible apply wp_of_runs); (with_reducible apply patternPair_runs); assumption; assumption; omega; omega
   intro _ _ _ _ _ _ _))

end

end NP
