import Verif.Proofs.ParseRuns

/-! Hashes, arrays, calls and their arguments. -/

namespace NP

open Spec

section
variable {e : Env} {n : Nat} {R : Rec} {c : Cx} {s : PS}

/-- All nodes of a list have tokens that can be formatted. -/
def NodesOk (ns : List Node) : Prop := ∀ x ∈ ns, NodeOk x

theorem NodesOk.nil : NodesOk [] := fun _ h => by cases h
theorem NodesOk.one {x : Node} (h : NodeOk x) : NodesOk [x] := fun y hy => by rw [List.mem_singleton.1 hy]; exact h
theorem NodesOk.snoc {ns : List Node} {x : Node} (h1 : NodesOk ns) (h2 : NodeOk x) : NodesOk (ns ++ [x]) := fun y hy => by
  rcases List.mem_append.1 hy with hy | hy
  · exact h1 y hy
  · rw [List.mem_singleton.1 hy]
    exact h2

theorem addArg_tok (l a : Node) : (l.addArg a).tok = l.tok := by
  cases l <;> rfl
theorem addArg_ok {l a : Node} (h : NodeOk l) : NodeOk (l.addArg a) := by
  unfold NodeOk
  rw [addArg_tok]
  exact h

macro_rules | `(tactic| fmt1) => `(tactic| exact NodesOk.nil)
macro_rules | `(tactic| fmt1) => `(tactic| ((with_reducible refine NodesOk.one ?_); fmt))
macro_rules | `(tactic| fmt1) => `(tactic| ((with_reducible refine NodesOk.snoc ?_ ?_) <;> fmt))
macro_rules | `(tactic| fmt1) => `(tactic| (apply addArg_ok; fmt))

theorem parseHashInner_runs {p : Prec} {ty : Ttype} {b : Bool} {k : Option Node} (g : Good e n R) (i : Inv e s) (d : 0 < D s) (w : W s ≤ n) :
    Runs e 0 (parseHashInner R p ty b k) c s fun a _ => NodeOk a := by
  have gf := g.fuel
  unfold Runs parseHashInner
  pgo

macro_rules | `(tactic| pspec) => `(tactic|
  ((with_reducible apply wp_of_runs); (with_reducible apply parseHashInner_runs); assumption; assumption; omega; omega
   intro _ _ _ _ _ _ _))

theorem parseHash_runs (g : Good e n R) (i : Inv e s) (d : 0 < D s) (w : W s ≤ n + 1) :
    Runs e 1 (parseHash R) c s fun a _ => NodeOk a := by
  have gf := g.fuel
  unfold Runs parseHash
  pgo

macro_rules | `(tactic| pspec) => `(tactic|
  ((with_reducible apply wp_of_runs); (with_reducible apply parseHash_runs); assumption; assumption; omega; omega
   intro _ _ _ _ _ _ _))

theorem arrayAddNode_runs {ns : List Node} (g : Good e n R) (i : Inv e s) (d : 0 < D s) (w : W s ≤ n) :
    Runs e 1 (arrayAddNode R ns) c s fun _ _ => True := by
  have gf := g.fuel
  unfold Runs arrayAddNode
  pgo

macro_rules | `(tactic| pspec) => `(tactic|
  ((with_reducible apply wp_of_runs); (with_reducible apply arrayAddNode_runs); assumption; assumption; omega; omega
   intro _ _ _ _ _ _ _))

theorem parseArray_runs (g : Good e n R) (i : Inv e s) (d : 0 < D s) (w : W s ≤ n + 1)
    (h : ¬ Terminal s.cur.type) :
    Runs e 1 (parseArray R) c s fun a _ => NodeOk a := by
  have gf := g.fuel
  unfold Runs parseArray
  pgo

macro_rules | `(tactic| pspec) => `(tactic|
  ((with_reducible apply wp_of_runs); (with_reducible apply parseArray_runs); assumption; assumption; omega; omega; nt
   intro _ _ _ _ _ _ _))

theorem parseCommaSeparated_runs (g : Good e n R) (i : Inv e s) (d : 0 < D s) (w : W s ≤ n) :
    Runs e 1 (parseCommaSeparated R) c s fun _ _ => True := by
  have gf := g.fuel
  unfold Runs parseCommaSeparated
  pgo

macro_rules | `(tactic| pspec) => `(tactic|
  ((with_reducible apply wp_of_runs); (with_reducible apply parseCommaSeparated_runs); assumption; assumption; omega; omega
   intro _ _ _ _ _ _ _))

theorem parseKeywordSplat_runs (g : Good e n R) (i : Inv e s) (d : 0 < D s) (w : W s ≤ n + 1)
    (h : ¬ Terminal s.cur.type) :
    Runs e 1 (parseKeywordSplat R) c s fun a _ => NodeOk a := by
  have gf := g.fuel
  unfold Runs parseKeywordSplat
  pgo

macro_rules | `(tactic| pspec) => `(tactic|
  ((with_reducible apply wp_of_runs); (with_reducible apply parseKeywordSplat_runs); assumption; assumption; omega; omega; nt
   intro _ _ _ _ _ _ _))

theorem parseBlockPass_runs (g : Good e n R) (i : Inv e s) (d : 0 < D s) (w : W s ≤ n + 1)
    (h : ¬ Terminal s.cur.type) :
    Runs e 1 (parseBlockPass R) c s fun a _ => NodeOk a := by
  have gf := g.fuel
  unfold Runs parseBlockPass
  pgo

macro_rules | `(tactic| pspec) => `(tactic|
  ((with_reducible apply wp_of_runs); (with_reducible apply parseBlockPass_runs); assumption; assumption; omega; omega; nt
   intro _ _ _ _ _ _ _))

theorem parseCallHashArgs_runs {b : Bool} {ty : Ttype} {a : Node} (g : Good e n R) (i : Inv e s) (d : 0 < D s) (w : W s ≤ n) :
    Runs e 0 (parseCallHashArgs R b ty a) c s fun a _ => NodeOk a := by
  have gf := g.fuel
  unfold Runs parseCallHashArgs
  pgo

macro_rules | `(tactic| pspec) => `(tactic|
  ((with_reducible apply wp_of_runs); (with_reducible apply parseCallHashArgs_runs); assumption; assumption; omega; omega
   intro _ _ _ _ _ _ _))

theorem parseCallArgs_runs {a : Node} {b : Bool} {ty : Ttype} (g : Good e n R) (i : Inv e s) (d : 0 < D s) (w : W s ≤ n)
    (ha : NodeOk a) : Runs e 1 (parseCallArgs R a b ty) c s fun a _ => NodeOk a := by
  have gf := g.fuel
  unfold Runs parseCallArgs
  generalize (if b = true then Prec.BARE_CALL_ARG else Prec.CALL_ARG) = p
  pgo

macro_rules | `(tactic| pspec) => `(tactic|
  ((with_reducible apply wp_of_runs); (with_reducible apply parseCallArgs_runs); assumption; assumption; omega; omega; fmt
   intro _ _ _ _ _ _ _))

end

end NP
