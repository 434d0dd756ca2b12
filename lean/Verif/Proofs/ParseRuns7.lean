import Verif.Proofs.ParseRuns6

/-! Assignments, operators, expressions, and the whole parser. -/

namespace NP

open Spec

section
variable {e : Env} {n : Nat} {R : Rec} {c : Cx} {s : PS}

theorem mkAnd_ok {t : Token} {l r : Node} (ht : Fmt t) (hl : NodeOk l) : NodeOk (mkAnd t l r) := by
  unfold mkAnd
  split
  · exact hl
  · exact ht

theorem mkOr_ok {t : Token} {l r : Node} (ht : Fmt t) (hl : NodeOk l) : NodeOk (mkOr t l r) := by
  unfold mkOr
  split
  · exact hl
  · exact ht

macro_rules | `(tactic| fmt1) => `(tactic| ((with_reducible refine mkAnd_ok ?_ ?_) <;> fmt))
macro_rules | `(tactic| fmt1) => `(tactic| ((with_reducible refine mkOr_ok ?_ ?_) <;> fmt))

theorem parseAssignmentValue_runs {b : Bool} {m : Bool} (g : Good e n R) (i : Inv e s) (d : 0 < D s) (w : W s ≤ n) :
    Runs e 1 (parseAssignmentValue R b m) c s fun _ _ => True := by
  have gf := g.fuel
  unfold Runs parseAssignmentValue
  pgo

macro_rules | `(tactic| pspec) => `(tactic|
  ((with_reducible apply wp_of_runs); (with_reducible apply parseAssignmentValue_runs); assumption; assumption; omega; omega
   intro _ _ _ _ _ _ _))

theorem parseAssignment_runs {b : Bool} {l : Node} (g : Good e n R) (i : Inv e s) (d : 0 < D s) (w : W s ≤ n + 1)
    (h : ¬ Terminal s.cur.type) (hl : NodeOk l) : Runs e 0 (parseAssignment R b l) c s fun a s' =>
      NodeOk a ∧ (W s' < W s ∨ (l.isSplat = true ∧ a.isSplat = false)) := by
  have gf := g.fuel
  unfold Runs parseAssignment
  split
  · rename_i hs
    apply wp_of_runs
    apply parseMultipleAssignment_runs g i d w hl
    intro _ _ h1 h2 h3 h4 h5
    exact ⟨h1, h2, h3, h4, h5.1, Or.inr ⟨hs, h5.2⟩⟩
  · pgo
    exact ⟨by fmt, Or.inl (by omega)⟩

theorem parseInfix_runs {l : Node} (g : Good e n R) (i : Inv e s) (d : 0 < D s) (w : W s ≤ n + 1)
    (h : ¬ Terminal s.cur.type) (hl : NodeOk l) :
    Runs e 1 (parseInfix R l) c s fun a _ => NodeOk a := by
  have gf := g.fuel
  unfold Runs parseInfix
  pgo

macro_rules | `(tactic| pspec) => `(tactic|
  ((with_reducible apply wp_of_runs); (with_reducible apply parseInfix_runs); assumption; assumption; omega; omega; nt; fmt
   intro _ _ _ _ _ _ _))

theorem parseLogical_runs {l : Node} (g : Good e n R) (i : Inv e s) (d : 0 < D s) (w : W s ≤ n + 1)
    (h : ¬ Terminal s.cur.type) (hl : NodeOk l) :
    Runs e 1 (parseLogical R l) c s fun a _ => NodeOk a := by
  have gf := g.fuel
  unfold Runs parseLogical
  pgo

macro_rules | `(tactic| pspec) => `(tactic|
  ((with_reducible apply wp_of_runs); (with_reducible apply parseLogical_runs); assumption; assumption; omega; omega; nt; fmt
   intro _ _ _ _ _ _ _))

theorem parseMatch_runs {l : Node} (g : Good e n R) (i : Inv e s) (d : 0 < D s) (w : W s ≤ n + 1)
    (h : ¬ Terminal s.cur.type) (hl : NodeOk l) :
    Runs e 1 (parseMatch R l) c s fun a _ => NodeOk a := by
  have gf := g.fuel
  unfold Runs parseMatch
  pgo

macro_rules | `(tactic| pspec) => `(tactic|
  ((with_reducible apply wp_of_runs); (with_reducible apply parseMatch_runs); assumption; assumption; omega; omega; nt; fmt
   intro _ _ _ _ _ _ _))

theorem parseNotMatch_runs {l : Node} (g : Good e n R) (i : Inv e s) (d : 0 < D s) (w : W s ≤ n + 1)
    (h : ¬ Terminal s.cur.type) (hl : NodeOk l) :
    Runs e 1 (parseNotMatch R l) c s fun a _ => NodeOk a := by
  have gf := g.fuel
  unfold Runs parseNotMatch
  pgo

macro_rules | `(tactic| pspec) => `(tactic|
  ((with_reducible apply wp_of_runs); (with_reducible apply parseNotMatch_runs); assumption; assumption; omega; omega; nt; fmt
   intro _ _ _ _ _ _ _))

theorem parseModifier_runs {l : Node} (g : Good e n R) (i : Inv e s) (d : 0 < D s) (w : W s ≤ n + 1)
    (h : ¬ Terminal s.cur.type) (hl : NodeOk l) :
    Runs e 1 (parseModifier R l) c s fun a _ => NodeOk a := by
  have gf := g.fuel
  unfold Runs parseModifier
  pgo

macro_rules | `(tactic| pspec) => `(tactic|
  ((with_reducible apply wp_of_runs); (with_reducible apply parseModifier_runs); assumption; assumption; omega; omega; nt; fmt
   intro _ _ _ _ _ _ _))

theorem parseOpAttrAssign_runs {l : Node} {r : Node} {m : Str} {as : List Node} {b : Bool} (g : Good e n R) (i : Inv e s) (d : 0 < D s) (w : W s ≤ n + 1)
    (h : ¬ Terminal s.cur.type) :
    Runs e 1 (parseOpAttrAssign R l r m as b) c s fun a _ => NodeOk a := by
  have gf := g.fuel
  unfold Runs parseOpAttrAssign
  pgo

macro_rules | `(tactic| pspec) => `(tactic|
  ((with_reducible apply wp_of_runs); (with_reducible apply parseOpAttrAssign_runs); assumption; assumption; omega; omega; nt
   intro _ _ _ _ _ _ _))

theorem parseOpAssignRest_runs {l : Node} (g : Good e n R) (i : Inv e s) (d : 0 < D s) (w : W s ≤ n + 1)
    (h : ¬ Terminal s.cur.type) :
    Runs e 1 (parseOpAssignRest R l) c s fun a _ => NodeOk a := by
  have gf := g.fuel
  unfold Runs parseOpAssignRest
  pgo

macro_rules | `(tactic| pspec) => `(tactic|
  ((with_reducible apply wp_of_runs); (with_reducible apply parseOpAssignRest_runs); assumption; assumption; omega; omega; nt
   intro _ _ _ _ _ _ _))

theorem parseOpAssign_runs {l : Node} (g : Good e n R) (i : Inv e s) (d : 0 < D s) (w : W s ≤ n + 1)
    (h : ¬ Terminal s.cur.type) (hl : NodeOk l) :
    Runs e 1 (parseOpAssign R l) c s fun a _ => NodeOk a := by
  have gf := g.fuel
  unfold Runs parseOpAssign
  pgo

macro_rules | `(tactic| pspec) => `(tactic|
  ((with_reducible apply wp_of_runs); (with_reducible apply parseOpAssign_runs); assumption; assumption; omega; omega; nt; fmt
   intro _ _ _ _ _ _ _))

theorem parseProcCall_runs {l : Node} (i : Inv e s) (h : ¬ Terminal s.cur.type) :
    Runs e 1 (parseProcCall l) c s fun a _ => NodeOk a := by
  unfold Runs parseProcCall
  pgo

macro_rules | `(tactic| pspec) => `(tactic|
  ((with_reducible apply wp_of_runs); (with_reducible apply parseProcCall_runs); assumption; nt
   intro _ _ _ _ _ _ _))

theorem parseRescueMod_runs {l : Node} (g : Good e n R) (i : Inv e s) (d : 0 < D s) (w : W s ≤ n + 1)
    (h : ¬ Terminal s.cur.type) :
    Runs e 1 (parseRescueMod R l) c s fun a _ => NodeOk a := by
  have gf := g.fuel
  unfold Runs parseRescueMod
  pgo

macro_rules | `(tactic| pspec) => `(tactic|
  ((with_reducible apply wp_of_runs); (with_reducible apply parseRescueMod_runs); assumption; assumption; omega; omega; nt
   intro _ _ _ _ _ _ _))

theorem parseTernary_runs {l : Node} (g : Good e n R) (i : Inv e s) (d : 0 < D s) (w : W s ≤ n + 1)
    (h : ¬ Terminal s.cur.type) :
    Runs e 1 (parseTernary R l) c s fun a _ => NodeOk a := by
  have gf := g.fuel
  unfold Runs parseTernary
  pgo

macro_rules | `(tactic| pspec) => `(tactic|
  ((with_reducible apply wp_of_runs); (with_reducible apply parseTernary_runs); assumption; assumption; omega; omega; nt
   intro _ _ _ _ _ _ _))

set_option maxHeartbeats 1000000 in
theorem nullDenotation_runs {f : P Node} (g : Good e n R) (i : Inv e s) (d : 0 < D s) (w : W s ≤ n + 1)
    (h : nullDenotation R s.cur.type = some f) : Runs e 1 f c s fun a _ => NodeOk a := by
  have gf := g.fuel
  unfold Runs
  unfold nullDenotation at h
  split at h
  all_goals first | (injection h with h; subst h) | cases h
  all_goals rename_i hc
  all_goals have hnt : ¬ Terminal s.cur.type := by rw [hc]; decide
  all_goals first
    | (pspec; pgo; done)
    | exact parseAlias_runs g i d w hnt
    | exact parseBreakNext_runs g i d w hnt fun _ _ => rfl
    | exact parseUndef_runs g i d w hnt
    | exact parseFileConstant_runs i hnt

theorem Runs.strict {p : P Node} (h : Runs e 1 p c s fun a _ => NodeOk a) (q : Node → Prop) :
    Runs e 0 p c s fun a s' => NodeOk a ∧ (W s' < W s ∨ q a) :=
  wp_mono h fun _ _ ⟨h1, h2, h3, h4, h5⟩ => ⟨h1, by omega, h3, h4, h5, Or.inl (by omega)⟩

theorem leftDenotation_runs {f : P Node} {l : Node} {p : Prec} (g : Good e n R) (i : Inv e s) (d : 0 < D s) (w : W s ≤ n)
    (hl : NodeOk l) (h : leftDenotation R s.cur s.peek l p = some f) : Runs e 0 f c s fun a s' =>
      NodeOk a ∧ (W s' < W s ∨ (l.isSplat = true ∧ a.isSplat = false)) := by
  have gf := g.fuel
  have hd : ∀ {f}, (if isFirstArg l s.cur then some (parseCallWithoutParens R l) else none) = some f →
      Runs e 1 f c s fun a _ => NodeOk a := by
    intro f hf
    split at hf
    · rename_i hfa
      injection hf with hf
      subst hf
      unfold isFirstArg at hfa
      simp only [Bool.and_eq_true] at hfa
      exact parseCallWithoutParens_runs g i d w hl (Or.inl hfa.2)
    · cases hf
  unfold leftDenotation at h
  extract_lets dflt at h
  have w1 : W s ≤ n + 1 := by omega
  split at h
  all_goals rename_i hc
  all_goals try have hnt : ¬ Terminal s.cur.type := by rw [hc]; decide
  all_goals try split at h
  all_goals first
    | exact (hd h).strict _
    | (injection h with h; subst h)
  all_goals first
    | exact parseAssignment_runs g i d w1 hnt hl
    | exact (parseCallWithParens_runs g i d w1 hnt hl).strict _
    | exact (parseCallWithoutParens_runs g i d w hl (Or.inr hc)).strict _
    | exact (parseConstantResolution_runs g i d w1 hnt).strict _
    | exact (parseInfix_runs g i d w1 hnt hl).strict _
    | exact (parseIter_runs g i d w1 hnt hl).strict _
    | exact (parseLogical_runs g i d w1 hnt hl).strict _
    | exact (parseMatch_runs g i d w1 hnt hl).strict _
    | exact (parseModifier_runs g i d w1 hnt hl).strict _
    | exact (parseNotMatch_runs g i d w1 hnt hl).strict _
    | exact (parseOpAssign_runs g i d w1 hnt hl).strict _
    | exact (parseRange_runs g i d w1 (Or.inl hc)).strict _
    | exact (parseRange_runs g i d w1 (Or.inr hc)).strict _
    | exact (parseRef_runs g i d w1 hnt).strict _
    | exact (parseRescueMod_runs g i d w1 hnt).strict _
    | exact (parseSafeSend_runs i hnt).strict _
    | exact (parseSend_runs i hnt).strict _
    | exact (parseProcCall_runs i hnt).strict _
    | exact (parseTernary_runs g i d w1 hnt).strict _
    | exact Runs.strict (wp_mono (parseMultipleAssignment_comma g i d w1 hl hc)
        fun _ _ ⟨h1, h2, h3, h4, h5⟩ => ⟨h1, h2, h3, h4, h5.1⟩) _

theorem higherPrecedence_wp {t : Token} {l : Node} {p : Prec} {ia : IterAllow} {Q : Bool → PS → Prop} (d : 0 < D s)
    (k : ∀ b, Q b s) : wp (higherPrecedence t l p ia) c s Q := by
  unfold wp higherPrecedence
  dsimp only
  cases hd : s.depth with
  | nil => simp [D, hd] at d
  | cons x xs =>
    split <;> rename_i hx
    all_goals (repeat' split at hx)
    all_goals first | (cases hx; exact k _) | trivial | cases hx

theorem exprLoop_runs {p : Prec} {ia : IterAllow} {l : Node} (g : Good e n R) (i : Inv e s) (d : 0 < D s) (k : 0 < K s)
    (w : W s ≤ n) (hl : NodeOk l) : Runs e 0 (exprLoop R p ia l) c s fun a _ => NodeOk a := by
  have gf := g.fuel
  unfold Runs exprLoop
  refine wp_loop (fun l s' => Inv e s' ∧ W s' ≤ W s ∧ D s ≤ D s' ∧ K s' = K s ∧ NodeOk l)
    (fun l s' => 2 * W s' + if l.isSplat then 1 else 0) ?_ ⟨i, Nat.le_refl _, Nat.le_refl _, rfl, hl⟩ ?_
  · split <;> omega
  · rintro l s' ⟨i', h1, h2, h3, h4⟩
    refine wp_bind (wp_cur (wp_ite (fun _ => wp_bind (higherPrecedence_wp (by omega) fun b => ?_))
      fun _ => wp_pure ⟨i', h1, h2, h3, h4⟩))
    refine wp_ite (fun _ => wp_bind (wp_peek ?_)) fun _ => wp_pure ⟨i', h1, h2, h3, h4⟩
    split
    · exact wp_throwTok i'.cur_fmt
    · rename_i f hf
      refine wp_bind (wp_of_runs (leftDenotation_runs g i' (by omega) (by omega) h4 hf) ?_)
      intro a s2 i2 k2 k3 k4 k5
      refine wp_bind (wp_popPrec i2 (by omega) ?_)
      intro s3 i3 _ _ _ _ _
      refine wp_bind (wp_pushPrec i3 ?_)
      intro s4 i4 _ _ _ _ _
      refine wp_pure ⟨⟨i4, by omega, by omega, by omega, k5.1⟩, ?_⟩
      rcases k5.2 with hw | ⟨ha, hb⟩
      · split <;> omega
      · rw [ha, hb, if_pos rfl, if_neg (by decide)]
        omega

theorem parseExpression_runs {p : Prec} {ia : IterAllow} (g : Good e n R) (i : Inv e s) (d : 0 < D s) (w : W s ≤ n + 1) :
    Runs e 1 (parseExpression R p ia) c s fun a _ => NodeOk a := by
  have gf := g.fuel
  unfold Runs parseExpression
  refine wp_bind (wp_skipNewlines i fun s1 i1 _ _ _ _ _ => wp_bind (wp_pushPrec i1 fun s2 i2 _ _ _ _ _ =>
    wp_bind (wp_curTy ?_)))
  split
  · exact wp_throwUnexpected i2
  · rename_i f hf
    refine wp_bind (wp_of_runs (nullDenotation_runs g i2 (by omega) (by omega) hf) ?_)
    intro a s3 i3 _ _ _ ha
    refine wp_bind (wp_of_runs (exprLoop_runs g i3 (by omega) (by omega) (by omega) ha) ?_)
    intro b s4 i4 _ _ _ hb
    exact wp_bind (wp_popPrec i4 (by omega) fun s5 i5 _ _ _ _ _ => wp_pure ⟨i5, by omega, by omega, by omega, hb⟩)

theorem W_pos (i : Inv e s) : 2 ≤ W s := by
  obtain ⟨pre, h, _⟩ := i.last
  have : wt e.last.type = 2 := by
    unfold wt
    rw [if_neg]
    intro hn
    exact absurd (hn ▸ i.term) (by decide)
  simp [W, h, this]

/-- The functions do what is needed of them as long as the weight of the tokens left is at most `n`. -/
theorem knot_good (e : Env) : ∀ n, Good e n (knot n)
  | 0 => by
    refine ⟨by simp [knot], ?_, ?_, ?_, ?_, ?_, ?_, ?_, ?_⟩
    all_goals
      intros
      rename Inv e _ => i
      have := W_pos i
      omega
  | n + 1 => by
    have g := knot_good e n
    refine ⟨by simp [knot], ?_, ?_, ?_, ?_, ?_, ?_, ?_, ?_⟩
    · intro p ia c s i d w
      exact parseExpression_runs g i d w
    · intro c s i d w
      exact parseCaseInPattern_runs g i d w
    · intro b c s i d w
      exact parseAssignmentIdentifier_runs g i d w
    · intro ia c s i d w
      exact parseArgDefaultValue_runs g i d (by omega)
    · intro as x ia c s i d w
      exact parseDefSingleArg_runs g i d w
    · intro b c s i d w h
      exact parseIfBranch_runs g i d w h
    · intro c s i d w h
      exact parseString_runs g i d w (by rw [h]; decide)
    · intro c s i d w h
      exact parseInterpolatedString_runs g i d w (by rw [h]; decide)

/-- The whole parser: it stops within the vector, and a tree is returned only when all tokens have been used. -/
theorem parseTree_wp (g : Good e n R) (i : Inv e s) (d : 0 < D s) (w : W s ≤ n) :
    wp (parseTree R) c s fun _ s' => Inv e s' ∧ s'.rest = [e.last] ∧ e.last.type = .Eof ∧ D s ≤ D s' ∧ K s' = K s := by
  have gf := g.fuel
  unfold parseTree
  pstep
  pstep
  pstep
  pstep
  pstep
  pstep
  pstep
  pstep
  pstep
  (with_reducible apply wp_loopA (fun _ => True)); assumption; trivial; omega; intro _ _ _ _ _ _ _
  pstep
  pstep
  pstep
  · rename_i i2 _ _ _ hc
    have := i2.cur_eof hc
    refine wp_pure (wp_pure ⟨i2, this.1, this.2, by omega, by omega⟩)
  · pgo

end

end NP
