import Verif.Proofs.ParseRuns2

/-! Calls with and without parentheses, multiple assignment, parameters. -/

namespace NP

open Spec

section
variable {e : Env} {n : Nat} {R : Rec} {c : Cx} {s : PS}

theorem toNodeWithArgs_wp {l : Node} {Q : Node → PS → Prop} (i : Inv e s) (h : NodeOk l) (k : ∀ n, NodeOk n → Q n s) :
    wp (toNodeWithArgs l) c s Q := by
  unfold toNodeWithArgs
  split
  all_goals first
    | exact wp_pure (k _ h)
    | exact wp_bind (wp_litOf fun _ _ => wp_pure (k _ h))
    | exact wp_bind (wp_cur (wp_throwError i.cur_fmt))

macro_rules | `(tactic| pspec) => `(tactic| ((with_reducible apply toNodeWithArgs_wp); assumption; fmt; intro _ _))

theorem ite_ok {p : Prop} [Decidable p] {a b : Node} (ha : NodeOk a) (hb : NodeOk b) : NodeOk (if p then a else b) := by
  split <;> assumption
macro_rules | `(tactic| fmt1) => `(tactic| (apply ite_ok <;> fmt))

theorem parseCallWithParens_runs {l : Node} (g : Good e n R) (i : Inv e s) (d : 0 < D s) (w : W s ≤ n + 1)
    (h : ¬ Terminal s.cur.type) (hl : NodeOk l) :
    Runs e 1 (parseCallWithParens R l) c s fun a _ => NodeOk a := by
  have gf := g.fuel
  unfold Runs parseCallWithParens
  pgo

macro_rules | `(tactic| pspec) => `(tactic|
  ((with_reducible apply wp_of_runs); (with_reducible apply parseCallWithParens_runs); assumption; assumption; omega; omega; nt; fmt
   intro _ _ _ _ _ _ _))

theorem parseCallWithoutParens_runs {l : Node} (g : Good e n R) (i : Inv e s) (d : 0 < D s) (w : W s ≤ n)
    (hl : NodeOk l) (h : s.cur.type.canBeFirstArgOfImplicitCall = true ∨ s.cur.type = .ConstantResolution) :
    Runs e 1 (parseCallWithoutParens R l) c s fun a _ => NodeOk a := by
  have gf := g.fuel
  unfold Runs parseCallWithoutParens
  pgo
  all_goals (rename_i hc; rw [hc] at h; exact absurd h (by decide))

theorem parseMultipleAssignment_runs {l : Node} (g : Good e n R) (i : Inv e s) (d : 0 < D s) (w : W s ≤ n + 1) (hl : NodeOk l) :
    Runs e 0 (parseMultipleAssignment R l) c s fun a _ => NodeOk a ∧ a.isSplat = false := by
  have gf := g.fuel
  unfold Runs parseMultipleAssignment
  pgo
  all_goals exact ⟨hl, rfl⟩

theorem parseMultipleAssignment_comma {l : Node} (g : Good e n R) (i : Inv e s) (d : 0 < D s) (w : W s ≤ n + 1) (hl : NodeOk l)
    (h : s.cur.type = .Comma) :
    Runs e 1 (parseMultipleAssignment R l) c s fun a _ => NodeOk a ∧ a.isSplat = false := by
  have gf := g.fuel
  unfold Runs parseMultipleAssignment
  obtain ⟨f, hf⟩ : ∃ f, R.fuel = f + 1 := ⟨R.fuel - 1, by omega⟩
  rw [hf]
  unfold loop
  pgo
  all_goals first | exact ⟨hl, rfl⟩ | skip

macro_rules | `(tactic| pspec) => `(tactic|
  ((with_reducible apply wp_of_runs); (with_reducible apply parseMultipleAssignment_runs); assumption; assumption; omega; omega; fmt
   intro _ _ _ _ _ _ hsp; have := hsp.1))

theorem parseConstantResolution_runs {l : Node} (g : Good e n R) (i : Inv e s) (d : 0 < D s) (w : W s ≤ n + 1)
    (h : ¬ Terminal s.cur.type) :
    Runs e 1 (parseConstantResolution R l) c s fun a _ => NodeOk a := by
  have gf := g.fuel
  unfold Runs parseConstantResolution
  pgo

macro_rules | `(tactic| pspec) => `(tactic|
  ((with_reducible apply wp_of_runs); (with_reducible apply parseConstantResolution_runs); assumption; assumption; omega; omega; nt
   intro _ _ _ _ _ _ _))

theorem parseSend_runs {l : Node} (i : Inv e s) (h : ¬ Terminal s.cur.type) :
    Runs e 1 (parseSend l) c s fun a _ => NodeOk a := by
  unfold Runs parseSend
  pgo

macro_rules | `(tactic| pspec) => `(tactic|
  ((with_reducible apply wp_of_runs); (with_reducible apply parseSend_runs); assumption; nt
   intro _ _ _ _ _ _ _))

theorem parseSafeSend_runs {l : Node} (i : Inv e s) (h : ¬ Terminal s.cur.type) :
    Runs e 1 (parseSafeSend l) c s fun a _ => NodeOk a := by
  unfold Runs parseSafeSend
  pgo

macro_rules | `(tactic| pspec) => `(tactic|
  ((with_reducible apply wp_of_runs); (with_reducible apply parseSafeSend_runs); assumption; nt
   intro _ _ _ _ _ _ _))

theorem parseRef_runs {l : Node} (g : Good e n R) (i : Inv e s) (d : 0 < D s) (w : W s ≤ n + 1)
    (h : ¬ Terminal s.cur.type) :
    Runs e 1 (parseRef R l) c s fun a _ => NodeOk a := by
  have gf := g.fuel
  unfold Runs parseRef
  pgo

macro_rules | `(tactic| pspec) => `(tactic|
  ((with_reducible apply wp_of_runs); (with_reducible apply parseRef_runs); assumption; assumption; omega; omega; nt
   intro _ _ _ _ _ _ _))

theorem parseAssignmentIdentifier_runs {b : Bool} (g : Good e n R) (i : Inv e s) (d : 0 < D s) (w : W s ≤ n + 1) :
    Runs e 1 (parseAssignmentIdentifier R b) c s fun a _ => NodeOk a := by
  have gf := g.fuel
  unfold Runs parseAssignmentIdentifier
  pgo

macro_rules | `(tactic| pspec) => `(tactic|
  ((with_reducible apply wp_of_runs); (with_reducible apply parseAssignmentIdentifier_runs); assumption; assumption; omega; omega
   intro _ _ _ _ _ _ _))

theorem parseArgDefaultValue_runs {ia : IterAllow} (g : Good e n R) (i : Inv e s) (d : 0 < D s) (w : W s ≤ n) :
    Runs e 1 (parseArgDefaultValue R ia) c s fun a _ => NodeOk a := by
  have gf := g.fuel
  unfold Runs parseArgDefaultValue
  pgo

macro_rules | `(tactic| pspec) => `(tactic|
  ((with_reducible apply wp_of_runs); (with_reducible apply parseArgDefaultValue_runs); assumption; assumption; omega; omega
   intro _ _ _ _ _ _ _))

theorem parseDefArgs_runs (g : Good e n R) (i : Inv e s) (d : 0 < D s) (w : W s ≤ n) :
    Runs e 1 (parseDefArgs R) c s fun _ _ => True := by
  have gf := g.fuel
  unfold Runs parseDefArgs
  pgo

macro_rules | `(tactic| pspec) => `(tactic|
  ((with_reducible apply wp_of_runs); (with_reducible apply parseDefArgs_runs); assumption; assumption; omega; omega
   intro _ _ _ _ _ _ _))

theorem parseDefSingleArg_runs {as : List Node} {x : ArgsContext} {ia : IterAllow} (g : Good e n R) (i : Inv e s) (d : 0 < D s) (w : W s ≤ n + 1) :
    Runs e 1 (parseDefSingleArg R as x ia) c s fun _ _ => True := by
  have gf := g.fuel
  unfold Runs parseDefSingleArg
  pgo

macro_rules | `(tactic| pspec) => `(tactic|
  ((with_reducible apply wp_of_runs); (with_reducible apply parseDefSingleArg_runs); assumption; assumption; omega; omega
   intro _ _ _ _ _ _ _))

theorem parseShadowVar_runs (i : Inv e s) :
    Runs e 1 parseShadowVar c s fun _ _ => True := by
  unfold Runs parseShadowVar
  pgo

macro_rules | `(tactic| pspec) => `(tactic|
  ((with_reducible apply wp_of_runs); (with_reducible apply parseShadowVar_runs); assumption
   intro _ _ _ _ _ _ _))

theorem parseShadowVars_runs {as : List Node} (g : Good e n R) (i : Inv e s) (d : 0 < D s) (w : W s ≤ n + 1)
    (h : ¬ Terminal s.cur.type) :
    Runs e 1 (parseShadowVars R as) c s fun _ _ => True := by
  have gf := g.fuel
  unfold Runs parseShadowVars
  pgo

end

end NP
