import Verif.Proofs.ParseRuns3

/-! Parameters of procs and blocks, bodies. -/

namespace NP

open Spec

section
variable {e : Env} {n : Nat} {R : Rec} {c : Cx} {s : PS}

macro_rules | `(tactic| pspec) => `(tactic|
  ((with_reducible apply wp_of_runs); (with_reducible apply parseShadowVars_runs); assumption; assumption; omega; omega; nt
   intro _ _ _ _ _ _ _))

theorem parseProcArgs_runs {ia : IterAllow} (g : Good e n R) (i : Inv e s) (d : 0 < D s) (w : W s ≤ n) :
    Runs e 1 (parseProcArgs R ia) c s fun _ _ => True := by
  have gf := g.fuel
  unfold Runs parseProcArgs
  pgo

macro_rules | `(tactic| pspec) => `(tactic|
  ((with_reducible apply wp_of_runs); (with_reducible apply parseProcArgs_runs); assumption; assumption; omega; omega
   intro _ _ _ _ _ _ _))

theorem parseIterArgs_runs (g : Good e n R) (i : Inv e s) (d : 0 < D s) (w : W s ≤ n) :
    Runs e 1 (parseIterArgs R) c s fun _ _ => True := by
  have gf := g.fuel
  unfold Runs parseIterArgs
  pgo

macro_rules | `(tactic| pspec) => `(tactic|
  ((with_reducible apply wp_of_runs); (with_reducible apply parseIterArgs_runs); assumption; assumption; omega; omega
   intro _ _ _ _ _ _ _))

theorem addAssignmentLocals_wp {l : Node} {Q : Unit → PS → Prop} (i : Inv e s) (h : NodeOk l)
    (k : ∀ s', Inv e s' → W s' = W s → D s' = D s → K s' = K s → s'.cur = s.cur → s'.peek = s.peek → Q () s') :
    wp (addAssignmentLocals l) c s Q := by
  unfold addAssignmentLocals
  split
  all_goals first
    | exact wp_pure (k _ i rfl rfl rfl rfl rfl)
    | exact wp_throwTok h
    | exact wp_addNames i fun s' a b c d e f _ => k s' a b c d e f

macro_rules | `(tactic| pspec) => `(tactic|
  ((with_reducible apply addAssignmentLocals_wp); assumption; fmt; intro _ _ _ _ _ _ _))

/-- The block has formattable tokens. -/
def BlkOk (b : Blk) : Prop := Fmt b.tok ∧ NodesOk b.nodes

theorem BlkOk.node {b : Blk} (h : BlkOk b) : NodeOk b.node := h.1
theorem BlkOk.single {b : Blk} (h : BlkOk b) : NodeOk b.single := by
  unfold Blk.single
  split
  · rename_i m hm
    exact h.2 m (by rw [hm]; simp)
  · exact h.1
macro_rules | `(tactic| fmt1) => `(tactic| (apply BlkOk.node; assumption))
macro_rules | `(tactic| fmt1) => `(tactic| (apply BlkOk.single; assumption))
macro_rules | `(tactic| fmt1) => `(tactic| (apply And.intro; fmt; fmt))

theorem parseBody_runs {p : Prec} {f : Ttype → Bool} (g : Good e n R) (i : Inv e s) (w : W s ≤ n) :
    Runs e 0 (parseBody R p f) c s fun b _ => BlkOk b := by
  have gf := g.fuel
  unfold Runs parseBody
  repeat' first
    | ((with_reducible apply wp_loopA NodesOk); assumption; fmt; omega; intro _ _ _ _ _ _ _)
    | pstep

macro_rules | `(tactic| pspec) => `(tactic|
  ((with_reducible apply wp_of_runs); (with_reducible apply parseBody_runs); assumption; assumption; omega
   intro _ _ _ _ _ _ _))

theorem parseRestOfBegin_runs {t : Token} {b : List Node} (g : Good e n R) (i : Inv e s) (d : 0 < D s) (w : W s ≤ n)
    (ht : Fmt t) :
    Runs e 2 (parseRestOfBegin R (parseBody R .LOWEST) t b) c s fun a s' => NodeOk a ∧ s'.prev ≠ [] := by
  have gf := g.fuel
  unfold Runs parseRestOfBegin
  extract_lets f1 f2
  apply wp_bind
  apply wp_mono
  · (with_reducible apply wp_loopA (Q := fun _ s' => Inv e s' ∧ W s' ≤ W s ∧ D s ≤ D s' ∧ K s' = K s) (fun _ => True)); assumption; trivial; omega; intro _ _ _ _ _ _ _
    pgo
  · rintro ⟨_, _, _⟩ s' ⟨_, _, _, _⟩
    dsimp only
    pstep
    pstep
    rename_i he
    have : wt s'.cur.type = 2 := by rw [he]; rfl
    pgo

theorem parseBodyRescue_runs {p : Prec} {f : Ttype → Bool} (g : Good e n R) (i : Inv e s) (w : W s ≤ n) :
    Runs e 0 (parseBodyRescue R p f) c s fun b _ => BlkOk b := by
  have gf := g.fuel
  unfold Runs parseBodyRescue
  pstep
  pstep
  pstep
  pstep
  pstep
  pstep
  pstep
  pstep
  pstep
  apply wp_mono
  · (with_reducible apply wp_loopA (Q := fun (x : List Node × Bool) s' => Inv e s' ∧ W s' ≤ W s ∧ D s + 1 ≤ D s' ∧ K s' = K s ∧ NodesOk x.1) NodesOk); assumption; fmt; omega; intro _ _ _ _ _ _ _
    pstep
    pstep
    pstep
    · pgo
    pstep
    · pstep
      (with_reducible apply wp_of_runs); (with_reducible apply parseRestOfBegin_runs); assumption; assumption; omega; omega; fmt
      intro _ _ _ _ _ _ hx
      pstep
      apply wp_rewind; assumption; exact hx.2; intro _ _ _ _ _
      have := NodesOk.one hx.1
      pgo
    · pgo
  · rintro ⟨_, _⟩ s' ⟨_, _, _, _, _⟩
    pgo

macro_rules | `(tactic| pspec) => `(tactic|
  ((with_reducible apply wp_of_runs); (with_reducible apply parseBodyRescue_runs); assumption; assumption; omega
   intro _ _ _ _ _ _ _))

theorem parseBodyEnd_runs (g : Good e n R) (i : Inv e s) (w : W s ≤ n) :
    Runs e 0 (parseBodyEnd R) c s fun b _ => BlkOk b := parseBody_runs g i w
theorem parseDefBody_runs (g : Good e n R) (i : Inv e s) (w : W s ≤ n) :
    Runs e 0 (parseDefBody R) c s fun b _ => BlkOk b := parseBodyRescue_runs g i w

macro_rules | `(tactic| pspec) => `(tactic|
  ((with_reducible apply wp_of_runs); (with_reducible apply parseBodyEnd_runs); assumption; assumption; omega
   intro _ _ _ _ _ _ _))

macro_rules | `(tactic| pspec) => `(tactic|
  ((with_reducible apply wp_of_runs); (with_reducible apply parseDefBody_runs); assumption; assumption; omega
   intro _ _ _ _ _ _ _))

macro_rules | `(tactic| pspec) => `(tactic|
  ((with_reducible apply wp_withLocals); assumption; intro _ _ _ _ _ _ _))
macro_rules | `(tactic| pspec) => `(tactic|
  (refine ⟨?_, ?_⟩; assumption; intro _ _ _ _ _ _ _))

theorem parseIter_runs {l : Node} (g : Good e n R) (i : Inv e s) (d : 0 < D s) (w : W s ≤ n + 1)
    (h : ¬ Terminal s.cur.type) (hl : NodeOk l) :
    Runs e 1 (parseIter R l) c s fun a _ => NodeOk a := by
  have gf := g.fuel
  unfold Runs parseIter
  pgo

macro_rules | `(tactic| pspec) => `(tactic|
  ((with_reducible apply wp_of_runs); (with_reducible apply parseIter_runs); assumption; assumption; omega; omega; nt; fmt
   intro _ _ _ _ _ _ _))

theorem parseBeginBlock_runs (g : Good e n R) (i : Inv e s) (d : 0 < D s) (w : W s ≤ n + 1)
    (h : ¬ Terminal s.cur.type) :
    Runs e 1 (parseBeginBlock R) c s fun a _ => NodeOk a := by
  have gf := g.fuel
  unfold Runs parseBeginBlock
  pgo

macro_rules | `(tactic| pspec) => `(tactic|
  ((with_reducible apply wp_of_runs); (with_reducible apply parseBeginBlock_runs); assumption; assumption; omega; omega; nt
   intro _ _ _ _ _ _ _))

theorem parseEndBlock_runs (g : Good e n R) (i : Inv e s) (d : 0 < D s) (w : W s ≤ n + 1)
    (h : ¬ Terminal s.cur.type) :
    Runs e 1 (parseEndBlock R) c s fun a _ => NodeOk a := by
  have gf := g.fuel
  unfold Runs parseEndBlock
  pgo

macro_rules | `(tactic| pspec) => `(tactic|
  ((with_reducible apply wp_of_runs); (with_reducible apply parseEndBlock_runs); assumption; assumption; omega; omega; nt
   intro _ _ _ _ _ _ _))

theorem parseStabbyProc_runs (g : Good e n R) (i : Inv e s) (d : 0 < D s) (w : W s ≤ n + 1)
    (h : ¬ Terminal s.cur.type) :
    Runs e 1 (parseStabbyProc R) c s fun a _ => NodeOk a := by
  have gf := g.fuel
  unfold Runs parseStabbyProc
  pgo

macro_rules | `(tactic| pspec) => `(tactic|
  ((with_reducible apply wp_of_runs); (with_reducible apply parseStabbyProc_runs); assumption; assumption; omega; omega; nt
   intro _ _ _ _ _ _ _))

end

end NP
