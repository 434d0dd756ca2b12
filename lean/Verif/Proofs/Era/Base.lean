import Lean.Elab.Tactic.Generalize
import Lean.Meta.Tactic.Cases
import Verif.Proofs.Era.Erase

/-!
Runs of the functions of the parser on tokens with and without positions: rules for the primitive operations and the tactics
that run through two copies of a function side by side.
-/

namespace NP.Era

open Spec

/-- The second run ends like the first, with the same value and state without positions. -/
def Sim {α : Type} [Er α] (r r' : PRes α) : Prop :=
  match r with
  | .ok a s => r' = .ok (er a) (er s)
  | .err _ => ∃ e, r' = .err e
  | .abort => r' = .abort
  | .ub => r' = .ub
  | .overrun => r' = .overrun
  | .fuel => r' = .fuel

/-- `q` does without positions what `p` does. -/
def N {α : Type} [Er α] (p q : P α) : Prop :=
  ∀ (c c' : Cx) (s : PS), c'.file = c.file → Sim (p c s) (q c' (er s))

section rules
variable {α β σ : Type} [Er α] [Er β] [Er σ]

theorem N_pure {a b : α} (h : b = er a) : N (pure a) (pure b) := by
  subst h
  intro c c' s _
  rfl

theorem N_bind {p q : P α} {f g : α → P β} (h : N p q) (k : ∀ a, N (f a) (g (er a))) : N (p >>= f) (q >>= g) := by
  intro c c' s hc
  show Sim (P.bind p f c s) (P.bind q g c' (er s))
  have h := h c c' s hc
  unfold P.bind
  revert h
  cases p c s with
  | ok a s' =>
    intro h
    unfold Sim at h
    rw [h]
    exact k a c c' s' hc
  | err e =>
    rintro ⟨e', h⟩
    rw [h]
    exact ⟨e', rfl⟩
  | _ =>
    intro h
    unfold Sim at h
    rw [h]
    rfl

theorem N_ite {x y : Prop} {_ : Decidable x} {_ : Decidable y} {p q p' q' : P α} (h : y ↔ x) (h1 : N p q) (h2 : N p' q') :
    N (if x then p else p') (if y then q else q') := by
  by_cases k : x
  · rw [if_pos k, if_pos (h.2 k)]
    exact h1
  · rw [if_neg k, if_neg (k ∘ h.1)]
    exact h2

theorem N_abort : N (P.abort : P α) P.abort := fun _ _ _ _ => rfl
theorem N_ub : N (P.ub : P α) P.ub := fun _ _ _ _ => rfl
theorem N_fuel : N (P.fuel : P α) P.fuel := fun _ _ _ _ => rfl
theorem N_throw {e e' : SErr} : N (P.throw e : P α) (P.throw e') := fun _ _ _ _ => ⟨e', rfl⟩
theorem n_throwTok {t v : Token} {b : Bool} {m : Str} (h : v = er t) : N (throwTok t b m : P α) (throwTok v b m) := by
  subst h
  intro c c' s _
  unfold throwTok
  simp only [ner]
  split
  · rfl
  · exact ⟨_, rfl⟩
theorem n_throwError {t v : Token} {m : Str} (h : v = er t) : N (NP.throwError t m : P α) (NP.throwError v m) := n_throwTok h
theorem n_throwUnexpected {m : Str} : N (throwUnexpected m : P α) (throwUnexpected m) := by
  intro c c' s hc
  exact n_throwTok er_cur c c' s hc
theorem n_throwUnterminated {t v x y : Token} (h : v = er t) (_ : y = er x) :
    N (throwUnterminated t x : P α) (throwUnterminated v y) := by
  subst h
  intro c c' s hc
  unfold throwUnterminated
  simp only [ner]
  cases unterminatedThing t.type
  · rfl
  · exact ⟨_, rfl⟩
theorem n_litOf {t v : Token} (h : v = er t) : N (litOf t) (litOf v) := by
  subst h
  unfold litOf
  simp only [ner]
  cases t.lit
  · exact N_abort
  · exact N_pure rfl
theorem n_cur : N cur cur := fun _ _ s _ => by
  show _ = _
  unfold cur
  rw [er_cur]
theorem n_curTy : N curTy curTy := fun _ _ s _ => by
  show _ = _
  unfold curTy
  rw [er_cur]
  rfl
theorem n_peek : N peek peek := fun _ _ s _ => by
  show _ = _
  unfold peek
  rw [er_peek]
theorem n_prevTok : N prevTok prevTok := fun _ _ s _ => by
  show _ = _
  unfold prevTok
  rw [er_prevTok]
theorem n_get : N P.get P.get := fun _ _ _ _ => rfl
theorem n_advance : N advance advance := by
  intro c c' s _
  obtain ⟨prev, rest, d, ps, ls⟩ := s
  cases rest <;> rfl
theorem n_rewind : N rewind rewind := by
  intro c c' s _
  obtain ⟨prev, rest, d, ps, ls⟩ := s
  cases prev <;> rfl
theorem N_modify {f : PS → PS} (h : ∀ s, f (er s) = er (f s)) : N (P.modify f) (P.modify f) := fun _ _ s _ => by
  show _ = _
  unfold P.modify
  rw [h]
theorem n_insertNewline {t v : Token} (h : v = er t) : N (insertNewline t) (insertNewline v) := by
  subst h
  intro _ _ s _
  rfl
theorem n_skipNewlines : N skipNewlines skipNewlines := by
  intro c c' s _
  obtain ⟨prev, rest, d, ps, ls⟩ := s
  have : ∀ (prev rest : List Token), skipNewlines.go (prev.map bareTok) (rest.map bareTok) =
      ((skipNewlines.go prev rest).1.map bareTok, (skipNewlines.go prev rest).2.map bareTok) := by
    intro prev rest
    induction rest generalizing prev with
    | nil => rfl
    | cons t rest ih =>
      rw [List.map_cons]
      unfold skipNewlines.go
      by_cases h : t.type.isEndOfLine = true
      · have h' : (bareTok t).type.isEndOfLine = true := h
        rw [if_pos h, if_pos h']
        exact ih (t :: prev)
      · have h' : ¬ (bareTok t).type.isEndOfLine = true := h
        rw [if_neg h, if_neg h']
        rfl
  show _ = _
  unfold skipNewlines
  show PRes.ok () _ = _
  simp only [er, this]
theorem n_expect {ty : Ttype} {m : Str} : N (expect ty m) (expect ty m) :=
  N_bind n_curTy fun _ => N_ite Iff.rfl (N_pure rfl) n_throwUnexpected
theorem n_nextExpression : N nextExpression nextExpression :=
  N_bind n_curTy fun _ => N_ite Iff.rfl n_skipNewlines n_throwUnexpected
theorem n_pushDepth : N pushDepth pushDepth := N_modify fun _ => rfl
theorem n_popDepth : N popDepth popDepth := by
  intro c c' s _
  obtain ⟨prev, rest, d, ps, ls⟩ := s
  cases d <;> rfl
theorem n_bumpDepth {k : Nat} : N (bumpDepth k) (bumpDepth k) := by
  intro c c' s _
  obtain ⟨prev, rest, d, ps, ls⟩ := s
  cases d <;> rfl
theorem n_incDepth : N incDepth incDepth := n_bumpDepth
theorem n_decDepth : N decDepth decDepth := n_bumpDepth
theorem n_pushPrec {p : Prec} : N (pushPrec p) (pushPrec p) := N_modify fun _ => rfl
theorem n_popPrec : N popPrec popPrec := by
  intro c c' s _
  obtain ⟨prev, rest, d, ps, ls⟩ := s
  cases ps <;> rfl
theorem n_addLocal {m : Str} : N (addLocal m) (addLocal m) := N_modify fun _ => rfl
theorem n_addNames {o : Option (List Str)} : N (addNames o) (addNames o) := by
  cases o
  · exact N_abort
  · exact N_modify fun _ => rfl
theorem n_withLocals {ls : List Str} {p q : P α} (h : N p q) : N (withLocals ls p) (withLocals ls q) := by
  unfold withLocals
  exact N_bind n_get fun s => N_bind (N_modify fun _ => rfl) fun _ => N_bind h fun a => N_bind (N_modify fun _ => rfl) fun _ =>
    N_pure rfl
theorem n_loop {f g : σ → P (Loop σ α)} {n : Nat} {x y : σ} (e : y = er x) (h : ∀ x, N (f x) (g (er x))) :
    N (loop f n x) (loop g n y) := by
  subst e
  induction n generalizing x with
  | zero => exact N_fuel
  | succ n ih =>
    unfold loop
    refine N_bind (h x) fun r => ?_
    cases r with
    | again z => exact ih
    | done a => exact N_pure rfl
end rules

/-- Computes both sides. -/
macro "ns" : tactic => `(tactic| try simp -zeta only [ner])

/-- Closes the side conditions of the lemma about a function that is called. -/
syntax "nside" : tactic

open Lean Meta in
/-- Finds an instance for `m`. -/
def synthFor (m : Expr) : MetaM Bool := do
  let ty ← m.mvarId!.getType
  if (← isClass? ty).isSome then
    match ← trySynthInstance ty with
    | .some v => m.mvarId!.assign v; return true
    | _ => return false
  return false

open Lean Elab Tactic Meta in
/-- A call of a function `f` already treated: the lemma is `n_f`. -/
elab "ncall" : tactic => do
  let g ← getMainGoal
  let others := (← getGoals).tail
  g.withContext do
    let t ← Core.betaReduce (← instantiateMVars (← g.getType)).consumeMData
    let (``N, #[_, _, p, _]) := t.getAppFnArgs | Lean.throwError "no call"
    let some (.str _ f) := p.consumeMData.getAppFn.constName? | Lean.throwError "no call"
    let thm := `NP.Era ++ Name.mkSimple ("n_" ++ f)
    unless (← getEnv).contains thm do Lean.throwError "no lemma"
    let e ← mkConstWithFreshMVarLevels thm
    let (ms, _, r) ← forallMetaTelescope (← inferType e)
    unless ← withReducible (isDefEq r t) do Lean.throwError "no match"
    g.assign (mkAppN e ms)
    for m in ms do
      unless ← m.mvarId!.isAssigned do
        if ← synthFor m then continue
        setGoals [m.mvarId!]
        evalTactic (← `(tactic| nside))
        unless (← getGoals).isEmpty do Lean.throwError "side condition"
    setGoals others

open Lean Meta in
/-- The value on which a distinction of cases of `d` is stuck. -/
def stuckOn : Nat → Expr → MetaM (Option Expr)
  | 0, _ => return none
  | n + 1, d => do
    if d.isFVar then
      let ty ← whnf (← inferType d)
      match ty.getAppFn.constName? with
      | some k =>
        if k == ``Token then return none
        if n < 7 && k == ``List && (ty.getAppArgs[0]!).isConstOf ``Char then return none
        return some d
      | none => return none
    if let some c ← isConstructorApp? d then
      let as := d.getAppArgs.toList.drop c.numParams
      for a in as.filter (·.isFVar) ++ as.filter (!·.isFVar) do
        if let some r ← stuckOn n a then return some r
      return none
    return some d

open Lean Elab Tactic Meta in
/-- A distinction of cases: of the first value on which the first run depends. -/
elab "nmatch" : tactic => do
  let g ← getMainGoal
  let others := (← getGoals).tail
  g.withContext do
    let t ← Core.betaReduce (← instantiateMVars (← g.getType)).consumeMData
    let (``N, #[_, _, p, _]) := t.getAppFnArgs | Lean.throwError "no match"
    let p := p.consumeMData
    let p ← if (← matchMatcherApp? p).isNone then
        let env ← getEnv
        pure ((p.find? fun e => !e.hasLooseBVars &&
          (match e.getAppFn.constName? with
            | some c => (Match.Extension.getMatcherInfo? env c).any fun i => e.getAppNumArgs == i.arity
            | none => false)).getD p)
      else pure p
    let some m ← matchMatcherApp? p | Lean.throwError "no match"
    for d in m.discrs do
      if let some x ← stuckOn 8 (← instantiateMVars d) then
        if x.isFVar then
          let gs ← g.cases x.fvarId!
          setGoals (gs.toList.map (·.mvarId) ++ others)
        else
          let (ys, g') ← g.generalize #[{ expr := x, xName? := some `x, hName? := some `hx }]
          g'.withContext do
            let gs ← g'.cases ys[0]!
            setGoals (gs.toList.map (·.mvarId) ++ others)
        return
    Lean.throwError "no match"

theorem N_let1 {A α β : Type} [Er A] [Er α] [Er β] {v w : A → P α} {b b' : (A → P α) → P β}
    (h : ∀ a, N (v a) (w (er a)))
    (k : ∀ jp jq, (∀ a m, m = er a → N (jp a) (jq m)) → N (b jp) (b' jq)) : N (b v) (b' w) :=
  k v w fun _ _ e => e ▸ h _

theorem N_let2 {A B α β : Type} [Er A] [Er B] [Er α] [Er β] {v w : A → B → P α} {b b' : (A → B → P α) → P β}
    (h : ∀ a a', N (v a a') (w (er a) (er a')))
    (k : ∀ jp jq, (∀ a m a' m', m = er a → m' = er a' → N (jp a a') (jq m m')) → N (b jp) (b' jq)) : N (b v) (b' w) :=
  k v w fun _ _ _ _ e e' => e ▸ e' ▸ h _ _

open Lean Elab Tactic Meta in
/-- A shared continuation. -/
elab "njp" : tactic => do
  let g ← getMainGoal
  let others := (← getGoals).tail
  g.withContext do
    let t ← Core.betaReduce (← instantiateMVars (← g.getType)).consumeMData
    let (``N, #[_, _, p, q]) := t.getAppFnArgs | Lean.throwError "no let"
    let .letE n ty v b _ := p.consumeMData | Lean.throwError "no let"
    let .letE _ _ w b' _ := q.consumeMData | Lean.throwError "no let"
    let f := Expr.lam n ty b .default
    let f' := Expr.lam n ty b' .default
    let arity := ty.getForallBinderNames.length
    if arity == 0 then
      let (``N, #[a, i, _, _]) := t.getAppFnArgs | Lean.throwError "no let"
      setGoals ((← g.change (← mkAppOptM ``N #[a, i, b.instantiate1 v, b'.instantiate1 w])) :: others)
      return
    let c ← match arity with
      | 1 => mkAppOptM ``N_let1 #[none, none, none, none, none, none, v, w, f, f']
      | 2 => mkAppOptM ``N_let2 #[none, none, none, none, none, none, none, none, v, w, f, f']
      | _ => Lean.throwError "no continuation"
    let gs ← g.apply c
    let gs ← gs.filterMapM fun g => do
      if ← synthFor (mkMVar g) then return none else return some g
    match gs with
    | [g1, g2] =>
      let (_, g1) ← g1.introN arity
      let (_, g2) ← g2.introN 3
      let fix (g : MVarId) : MetaM MVarId := g.withContext do
        g.change (← Core.betaReduce (← g.getType))
      setGoals ((← fix g1) :: (← fix g2) :: others)
    | _ => Lean.throwError "no continuation {gs.length}"

open Lean Elab Tactic Meta in
/-- A jump to a shared continuation. -/
elab "njump" : tactic => do
  let g ← getMainGoal
  let others := (← getGoals).tail
  g.withContext do
    let t ← Core.betaReduce (← instantiateMVars (← g.getType)).consumeMData
    let (``N, #[_, _, p, _]) := t.getAppFnArgs | Lean.throwError "no jump"
    unless p.consumeMData.getAppFn.isFVar do Lean.throwError "no jump"
    for d in ← getLCtx do
      unless d.isImplementationDetail do
        let ty ← instantiateMVars d.type
        if ty.getForallBody.getAppFn.isConstOf ``N then
          let s ← saveState
          try
            let gs ← withReducible (g.apply d.toExpr)
            for m in gs do
              setGoals [m]
              evalTactic (← `(tactic| nside))
              unless (← getGoals).isEmpty do Lean.throwError "side condition"
            setGoals others
            return
          catch _ => s.restore
    Lean.throwError "no jump"

theorem hasBlockPass_iff {n m : Node} (h : m = er n) : m.hasBlockPass = true ↔ n.hasBlockPass = true := by
  subst h
  simp only [ner]

open Lean Elab Tactic Meta in
/-- A condition. -/
elab "nite" : tactic => do
  let g ← getMainGoal
  let others := (← getGoals).tail
  g.withContext do
    let t ← Core.betaReduce (← instantiateMVars (← g.getType)).consumeMData
    let (``N, #[a, i, p, q]) := t.getAppFnArgs | Lean.throwError "no condition"
    let (``ite, #[_, x, dx, p1, p2]) := p.consumeMData.getAppFnArgs | Lean.throwError "no condition"
    let (``ite, #[_, y, dy, q1, q2]) := q.consumeMData.getAppFnArgs | Lean.throwError "no condition"
    let h ← mkFreshExprSyntheticOpaqueMVar (mkIff y x)
    let h1 ← mkFreshExprSyntheticOpaqueMVar (← mkAppOptM ``N #[a, i, p1, q1])
    let h2 ← mkFreshExprSyntheticOpaqueMVar (← mkAppOptM ``N #[a, i, p2, q2])
    g.assign (mkAppN (mkConst ``N_ite) #[a, i, x, y, dx, dy, p1, q1, p2, q2, h, h1, h2])
    setGoals [h.mvarId!]
    evalTactic (← `(tactic| first | exact Iff.rfl | (simp only [ner]; done) |
      (refine hasBlockPass_iff ?_; simp only [ner]; done)))
    unless (← getGoals).isEmpty do Lean.throwError "condition"
    setGoals (h1.mvarId! :: h2.mvarId! :: others)

/-- One step through two copies of a function. -/
macro "nstep" : tactic => `(tactic| first
  | (with_reducible exact N_abort)
  | (with_reducible exact N_throw)
  | ((with_reducible refine N_pure ?_); (first | (with_reducible rfl) | (simp only [ner]; done) | (simp only [ner, *, reduceCtorEq, if_false, if_true]; done) |
      (simp only [ner]; exact rfl)))
  | nite
  | ncall
  | njump
  | (njp <;> ns)
  | ((with_reducible refine N_bind ?_ fun _ => ?_) <;> ns)
  | (nmatch <;> ns))

macro "ngo" : tactic => `(tactic| (repeat' nstep))

macro_rules | `(tactic| nside) => `(tactic| first
  | assumption
  | (with_reducible rfl)
  | (simp only [ner]; done)
  | exact rfl
  | (simp only [ner]; exact rfl)
  | (intros; simp only [ner]; done)
  | (intro _; ns; ngo; done)
  | (ngo; done))

theorem n_validateCurrent : N validateCurrent validateCurrent := by
  unfold validateCurrent
  ngo

/-- What is assumed of the functions called recursively. -/
structure GoodN (R : Rec) : Prop where
  expr : ∀ p ia, N (R.expr p ia) (R.expr p ia)
  pattern : N R.pattern R.pattern
  assignIdent : ∀ b, N (R.assignIdent b) (R.assignIdent b)
  argDefault : ∀ ia, N (R.argDefault ia) (R.argDefault ia)
  defSingleArg : ∀ l x ia, N (R.defSingleArg l x ia) (R.defSingleArg (er l) x ia)
  ifBranch : ∀ b, N (R.ifBranch b) (R.ifBranch b)
  string : N R.string R.string
  istring : N R.istring R.istring

section
variable {R : Rec}
theorem n_expr (g : GoodN R) {p : Prec} {ia : IterAllow} : N (R.expr p ia) (R.expr p ia) := g.expr _ _
theorem n_exp (g : GoodN R) {p : Prec} : N (R.exp p) (R.exp p) := g.expr _ _
theorem n_pattern (g : GoodN R) : N R.pattern R.pattern := g.pattern
theorem n_assignIdent (g : GoodN R) {b : Bool} : N (R.assignIdent b) (R.assignIdent b) := g.assignIdent _
theorem n_argDefault (g : GoodN R) {ia : IterAllow} : N (R.argDefault ia) (R.argDefault ia) := g.argDefault _
theorem n_defSingleArg (g : GoodN R) {l m : List Node} {x : ArgsContext} {ia : IterAllow} (h : m = er l) :
    N (R.defSingleArg l x ia) (R.defSingleArg m x ia) := h ▸ g.defSingleArg _ _ _
theorem n_ifBranch (g : GoodN R) {b : Bool} : N (R.ifBranch b) (R.ifBranch b) := g.ifBranch _
theorem n_string (g : GoodN R) : N R.string R.string := g.string
theorem n_istring (g : GoodN R) : N R.istring R.istring := g.istring

theorem n_commaLoop {α : Type} [Er α] [Er (List α)] {item item' : P α} {acc acc' : List α} (e : acc' = er acc)
    (hl : ∀ (l : List α) (a : α), er (l ++ [a]) = er l ++ [er a]) (h : N item item') :
    N (commaLoop R item acc) (commaLoop R item' acc') := by
  unfold commaLoop
  refine n_loop e fun l => N_bind n_curTy fun ty => N_ite Iff.rfl (N_bind n_advance fun _ => N_bind h fun a => ?_) (N_pure rfl)
  refine N_pure ?_
  rw [er_again, hl]
end

end NP.Era
