import Verif.Proofs.ParseRuns5

/-! Ranges, unary operators, patterns, word arrays. -/

namespace NP

open Spec

section
variable {e : Env} {n : Nat} {R : Rec} {c : Cx} {s : PS}

theorem parseRange_runs {l : Node} (g : Good e n R) (i : Inv e s) (d : 0 < D s) (w : W s ≤ n + 1)
    (h : s.cur.type = .DotDot ∨ s.cur.type = .DotDotDot) : Runs e 1 (parseRange R l) c s fun a _ => NodeOk a := by
  have gf := g.fuel
  have h2 : wt s.cur.type = 2 := by rcases h with h | h <;> rw [h] <;> rfl
  unfold Runs parseRange
  pgo

macro_rules | `(tactic| pspec) => `(tactic|
  ((with_reducible apply wp_of_runs); (with_reducible apply parseRange_runs); assumption; assumption; omega; omega; assumption
   intro _ _ _ _ _ _ _))

theorem signed_ok {t : Ttype} {l m : Node} (h : signed t l = some m) (hl : NodeOk l) : NodeOk m := by
  unfold signed at h
  split at h
  · split at h <;> (try split at h) <;> cases h <;> exact hl
  · split at h <;> cases h
    exact hl

theorem matchCondition_ok {l : Node} (hl : NodeOk l) : NodeOk (matchCondition l) := by
  unfold matchCondition
  split <;> exact hl

theorem wrapSplat_ok {l : Node} (hl : NodeOk l) : NodeOk (wrapSplat l) := by
  unfold wrapSplat
  split <;> exact hl

macro_rules | `(tactic| fmt1) => `(tactic| ((with_reducible apply signed_ok) <;> assumption))
macro_rules | `(tactic| fmt1) => `(tactic| ((with_reducible refine matchCondition_ok ?_); fmt))
macro_rules | `(tactic| fmt1) => `(tactic| ((with_reducible refine wrapSplat_ok ?_); fmt))

theorem parseUnary_runs (g : Good e n R) (i : Inv e s) (d : 0 < D s) (w : W s ≤ n + 1)
    (h : ¬ Terminal s.cur.type) :
    Runs e 1 (parseUnary R) c s fun a _ => NodeOk a := by
  have gf := g.fuel
  unfold Runs parseUnary
  pgo

macro_rules | `(tactic| pspec) => `(tactic|
  ((with_reducible apply wp_of_runs); (with_reducible apply parseUnary_runs); assumption; assumption; omega; omega; nt
   intro _ _ _ _ _ _ _))

theorem parsePatternBase_runs (g : Good e n R) (i : Inv e s) (d : 0 < D s) (w : W s ≤ n + 1) :
    Runs e 1 (parsePatternBase R) c s fun a _ => NodeOk a := by
  have gf := g.fuel
  unfold Runs parsePatternBase
  pgo

macro_rules | `(tactic| pspec) => `(tactic|
  ((with_reducible apply wp_of_runs); (with_reducible apply parsePatternBase_runs); assumption; assumption; omega; omega
   intro _ _ _ _ _ _ _))

theorem parseCaseInPattern_runs (g : Good e n R) (i : Inv e s) (d : 0 < D s) (w : W s ≤ n + 1) :
    Runs e 1 (parseCaseInPattern R) c s fun a _ => NodeOk a := by
  have gf := g.fuel
  unfold Runs parseCaseInPattern
  pgo

macro_rules | `(tactic| pspec) => `(tactic|
  ((with_reducible apply wp_of_runs); (with_reducible apply parseCaseInPattern_runs); assumption; assumption; omega; omega
   intro _ _ _ _ _ _ _))

theorem parsePatternList_runs (g : Good e n R) (i : Inv e s) (d : 0 < D s) (w : W s ≤ n) :
    Runs e 1 (parsePatternList R) c s fun a _ => NodeOk a := by
  have gf := g.fuel
  unfold Runs parsePatternList
  pstep
  pstep
  pstep
  pstep
  pstep
  (with_reducible apply wp_of_runs); (with_reducible apply commaLoop_runs NodeOk); assumption; omega
  · exact NodesOk.one (by assumption)
  · intro _ _ _ _ _; unfold Runs; pgo
  · intro _ _ _ _ _ _ hx
    split
    · have := hx _ (List.mem_singleton.2 rfl)
      pgo
    · pgo

macro_rules | `(tactic| pspec) => `(tactic|
  ((with_reducible apply wp_of_runs); (with_reducible apply parsePatternList_runs); assumption; assumption; omega; omega
   intro _ _ _ _ _ _ _))

theorem parseCaseInPatterns_runs (g : Good e n R) (i : Inv e s) (d : 0 < D s) (w : W s ≤ n) :
    Runs e 1 (parseCaseInPatterns R) c s fun a _ => NodeOk a := by
  have gf := g.fuel
  unfold Runs parseCaseInPatterns
  pstep
  pstep
  rename_i hx
  have hx := wrapSplat_ok hx
  (with_reducible apply wp_loopA (fun x : Node × Bool => NodeOk x.1)); assumption; exact hx; omega; intro _ _ _ _ _ _ _
  repeat' first | (show Fmt (ite _ _ _); split <;> first | assumption | (apply wrapSplat_ok; assumption)) | pstep

macro_rules | `(tactic| pspec) => `(tactic|
  ((with_reducible apply wp_of_runs); (with_reducible apply parseCaseInPatterns_runs); assumption; assumption; omega; omega
   intro _ _ _ _ _ _ _))

theorem parseCase_runs (g : Good e n R) (i : Inv e s) (d : 0 < D s) (w : W s ≤ n + 1)
    (h : ¬ Terminal s.cur.type) :
    Runs e 1 (parseCase R) c s fun a _ => NodeOk a := by
  have gf := g.fuel
  unfold Runs parseCase
  pgo

macro_rules | `(tactic| pspec) => `(tactic|
  ((with_reducible apply wp_of_runs); (with_reducible apply parseCase_runs); assumption; assumption; omega; omega; nt
   intro _ _ _ _ _ _ _))

theorem parseFor_runs (g : Good e n R) (i : Inv e s) (d : 0 < D s) (w : W s ≤ n + 1)
    (h : ¬ Terminal s.cur.type) :
    Runs e 1 (parseFor R) c s fun a _ => NodeOk a := by
  have gf := g.fuel
  unfold Runs parseFor
  pgo

macro_rules | `(tactic| pspec) => `(tactic|
  ((with_reducible apply wp_of_runs); (with_reducible apply parseFor_runs); assumption; assumption; omega; omega; nt
   intro _ _ _ _ _ _ _))

theorem parseForwardArgs_runs (i : Inv e s) (h : ¬ Terminal s.cur.type) :
    Runs e 1 parseForwardArgs c s fun a _ => NodeOk a := by
  unfold Runs parseForwardArgs
  pgo

macro_rules | `(tactic| pspec) => `(tactic|
  ((with_reducible apply wp_of_runs); (with_reducible apply parseForwardArgs_runs); assumption; nt
   intro _ _ _ _ _ _ _))

theorem parseTripleDot_runs (g : Good e n R) (i : Inv e s) (d : 0 < D s) (w : W s ≤ n + 1)
    (h : ¬ Terminal s.cur.type) :
    Runs e 1 (parseTripleDot R) c s fun a _ => NodeOk a := by
  have gf := g.fuel
  unfold Runs parseTripleDot
  pgo

macro_rules | `(tactic| pspec) => `(tactic|
  ((with_reducible apply wp_of_runs); (with_reducible apply parseTripleDot_runs); assumption; assumption; omega; omega; nt
   intro _ _ _ _ _ _ _))

theorem parseGroup_runs (g : Good e n R) (i : Inv e s) (d : 0 < D s) (w : W s ≤ n + 1)
    (h : ¬ Terminal s.cur.type) : Runs e 1 (parseGroup R) c s fun a _ => NodeOk a := by
  have gf := g.fuel
  unfold Runs parseGroup
  pgo
  all_goals
    rename_i hs _
    have := BlkOk.single ‹BlkOk _›
    rw [hs] at this
    exact this

macro_rules | `(tactic| pspec) => `(tactic|
  ((with_reducible apply wp_of_runs); (with_reducible apply parseGroup_runs); assumption; assumption; omega; omega; nt
   intro _ _ _ _ _ _ _))

theorem parseIfBody_runs (g : Good e n R) (i : Inv e s) (d : 0 < D s) (w : W s ≤ n) :
    Runs e 0 (parseIfBody R) c s fun a _ => NodeOk a := by
  have gf := g.fuel
  unfold Runs parseIfBody
  extract_lets div
  repeat' first
    | ((with_reducible apply wp_loopA NodesOk); assumption; fmt; omega; intro _ _ _ _ _ _ _)
    | pstep
  refine BlkOk.single ⟨?_, ?_⟩ <;> fmt

macro_rules | `(tactic| pspec) => `(tactic|
  ((with_reducible apply wp_of_runs); (with_reducible apply parseIfBody_runs); assumption; assumption; omega; omega
   intro _ _ _ _ _ _ _))

macro_rules | `(tactic| pspec) => `(tactic|
  ((with_reducible apply wp_of_runs); focus ((with_reducible apply Good.ifBranch)); assumption; assumption; omega; omega; nt;
   intro _ _ _ _ _ _ _))

theorem thenOrNewline_runs (i : Inv e s) :
    Runs e 0 thenOrNewline c s fun _ _ => True := by
  unfold Runs thenOrNewline
  pgo

macro_rules | `(tactic| pspec) => `(tactic|
  ((with_reducible apply wp_of_runs); (with_reducible apply thenOrNewline_runs); assumption
   intro _ _ _ _ _ _ _))

theorem parseIfBranch_runs {b : Bool} (g : Good e n R) (i : Inv e s) (d : 0 < D s) (w : W s ≤ n + 1)
    (h : ¬ Terminal s.cur.type) :
    Runs e 1 (parseIfBranch R b) c s fun a _ => NodeOk a := by
  have gf := g.fuel
  unfold Runs parseIfBranch
  pgo

macro_rules | `(tactic| pspec) => `(tactic|
  ((with_reducible apply wp_of_runs); (with_reducible apply parseIfBranch_runs); assumption; assumption; omega; omega; nt
   intro _ _ _ _ _ _ _))

theorem parseUnless_runs (g : Good e n R) (i : Inv e s) (d : 0 < D s) (w : W s ≤ n + 1)
    (h : ¬ Terminal s.cur.type) :
    Runs e 1 (parseUnless R) c s fun a _ => NodeOk a := by
  have gf := g.fuel
  unfold Runs parseUnless
  pgo

macro_rules | `(tactic| pspec) => `(tactic|
  ((with_reducible apply wp_of_runs); (with_reducible apply parseUnless_runs); assumption; assumption; omega; omega; nt
   intro _ _ _ _ _ _ _))

theorem parseWhile_runs (g : Good e n R) (i : Inv e s) (d : 0 < D s) (w : W s ≤ n + 1)
    (h : ¬ Terminal s.cur.type) :
    Runs e 1 (parseWhile R) c s fun a _ => NodeOk a := by
  have gf := g.fuel
  unfold Runs parseWhile
  pgo

macro_rules | `(tactic| pspec) => `(tactic|
  ((with_reducible apply wp_of_runs); (with_reducible apply parseWhile_runs); assumption; assumption; omega; omega; nt
   intro _ _ _ _ _ _ _))

theorem parseNot_runs (g : Good e n R) (i : Inv e s) (d : 0 < D s) (w : W s ≤ n + 1)
    (h : ¬ Terminal s.cur.type) :
    Runs e 1 (parseNot R) c s fun a _ => NodeOk a := by
  have gf := g.fuel
  unfold Runs parseNot
  pgo

macro_rules | `(tactic| pspec) => `(tactic|
  ((with_reducible apply wp_of_runs); (with_reducible apply parseNot_runs); assumption; assumption; omega; omega; nt
   intro _ _ _ _ _ _ _))

theorem parseSplat_runs (g : Good e n R) (i : Inv e s) (d : 0 < D s) (w : W s ≤ n + 1)
    (h : ¬ Terminal s.cur.type) :
    Runs e 1 (parseSplat R) c s fun a _ => NodeOk a := by
  have gf := g.fuel
  unfold Runs parseSplat
  pgo

macro_rules | `(tactic| pspec) => `(tactic|
  ((with_reducible apply wp_of_runs); (with_reducible apply parseSplat_runs); assumption; assumption; omega; omega; nt
   intro _ _ _ _ _ _ _))

theorem parseSuper_runs (i : Inv e s) (h : ¬ Terminal s.cur.type) :
    Runs e 1 parseSuper c s fun a _ => NodeOk a := by
  unfold Runs parseSuper
  pgo

macro_rules | `(tactic| pspec) => `(tactic|
  ((with_reducible apply wp_of_runs); (with_reducible apply parseSuper_runs); assumption; nt
   intro _ _ _ _ _ _ _))

theorem parseWordArray_runs (g : Good e n R) (i : Inv e s) (d : 0 < D s) (w : W s ≤ n + 1)
    (h : ¬ Terminal s.cur.type) :
    Runs e 1 (parseWordArray R) c s fun a _ => NodeOk a := by
  have gf := g.fuel
  unfold Runs parseWordArray
  pgo

macro_rules | `(tactic| pspec) => `(tactic|
  ((with_reducible apply wp_of_runs); (with_reducible apply parseWordArray_runs); assumption; assumption; omega; omega; nt
   intro _ _ _ _ _ _ _))

theorem parseWordSymbolArray_runs (g : Good e n R) (i : Inv e s) (d : 0 < D s) (w : W s ≤ n + 1)
    (h : ¬ Terminal s.cur.type) :
    Runs e 1 (parseWordSymbolArray R) c s fun a _ => NodeOk a := by
  have gf := g.fuel
  unfold Runs parseWordSymbolArray
  pgo

macro_rules | `(tactic| pspec) => `(tactic|
  ((with_reducible apply wp_of_runs); (with_reducible apply parseWordSymbolArray_runs); assumption; assumption; omega; omega; nt
   intro _ _ _ _ _ _ _))

end

end NP
