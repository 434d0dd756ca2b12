import Verif.Proofs.Cnt.Weight
import Mathlib.Tactic.CasesM

/-!
Partial correctness of the functions of the parser with respect to the numbers passed over and the numbers in the tree:
rules for the primitive operations and the tactics that run through a function.
-/

namespace NP.Cnt

open Spec

/-- If `p` started in `s` returns, `Q` holds. (The weight only helps to find the lemma about a function.) -/
def okc {α : Type} (_w : Option Token → Nat) (p : P α) (c : Cx) (s : PS) (Q : α → PS → Prop) : Prop :=
  match p c s with
  | .ok a s' => Q a s'
  | .err _ => True
  | .abort => True
  | .ub => True
  | .overrun => True
  | .fuel => True

/-- Types of tokens that are not numbers. -/
def nn (t : Ttype) : Bool := !(t == .Fixnum || t == .Bignum || t == .Float)

section rules
variable {w : Option Token → Nat} {α β σ : Type} {c : Cx} {s : PS}

theorem tw_zero {t : Token} (h : nn t.type = true) : tw w t = 0 := by
  unfold tw isNumber
  unfold nn at h
  rw [if_neg]
  simpa using h

theorem okc_mono {p : P α} {Q Q' : α → PS → Prop} (h : okc w p c s Q) (k : ∀ a s', Q a s' → Q' a s') :
    okc w p c s Q' := by
  unfold okc at *
  split <;> rename_i heq <;> rw [heq] at h <;> first | exact k _ _ h | trivial

theorem okc_bind {p : P α} {f : α → P β} {Q : β → PS → Prop} (h : okc w p c s fun a s' => okc w (f a) c s' Q) :
    okc w (p >>= f) c s Q := by
  show okc w (P.bind p f) c s Q
  unfold okc P.bind at *
  revert h
  cases p c s <;> exact id

theorem okc_and {p : P α} {Q Q' : α → PS → Prop} (h : okc w p c s Q) (k : okc w p c s Q') :
    okc w p c s fun a s' => Q a s' ∧ Q' a s' := by
  unfold okc at *
  revert h k
  cases p c s <;> intro h k <;> first | exact ⟨h, k⟩ | trivial

theorem okc_pure {a : α} {Q : α → PS → Prop} (h : Q a s) : okc w (pure a) c s Q := h
theorem okc_cur {Q : Token → PS → Prop} (h : Q s.cur s) : okc w cur c s Q := h
theorem okc_curTy {Q : Ttype → PS → Prop} (h : Q s.cur.type s) : okc w curTy c s Q := h
theorem okc_peek {Q : Token → PS → Prop} (h : Q s.peek s) : okc w peek c s Q := h
theorem okc_prevTok {Q : Token → PS → Prop} (h : Q s.prevTok s) : okc w prevTok c s Q := h
theorem okc_get {Q : PS → PS → Prop} (h : Q s s) : okc w P.get c s Q := h
theorem okc_throw {x : SErr} {Q : α → PS → Prop} : okc w (P.throw x) c s Q := trivial
theorem okc_abort {Q : α → PS → Prop} : okc w (P.abort) c s Q := trivial
theorem okc_fuel {Q : α → PS → Prop} : okc w (P.fuel) c s Q := trivial
theorem okc_throwTok {t : Token} {b : Bool} {m : Str} {Q : α → PS → Prop} : okc w (throwTok t b m) c s Q := by
  unfold okc throwTok
  by_cases hc : t.type = .Invalid ∧ t.lit = none
  · rw [if_pos hc]; trivial
  · rw [if_neg hc]; trivial
theorem okc_throwUnexpected {m : Str} {Q : α → PS → Prop} : okc w (throwUnexpected m) c s Q :=
  okc_throwTok (w := w)
theorem okc_throwError {t : Token} {m : Str} {Q : α → PS → Prop} : okc w (NP.throwError t m) c s Q := okc_throwTok
theorem okc_throwUnterminated {t v : Token} {Q : α → PS → Prop} : okc w (throwUnterminated t v) c s Q := by
  unfold okc throwUnterminated
  dsimp only
  split <;> rename_i h <;> split at h <;> cases h <;> trivial
theorem okc_ite {p : Prop} [Decidable p] {x y : P α} {Q : α → PS → Prop} (h1 : p → okc w x c s Q)
    (h2 : ¬ p → okc w y c s Q) : okc w (if p then x else y) c s Q := by
  split
  · exact h1 ‹_›
  · exact h2 ‹_›
theorem okc_litOf {t : Token} {Q : Str → PS → Prop} (h : ∀ n, t.lit = some n → Q n s) : okc w (litOf t) c s Q := by
  unfold litOf
  split
  · exact okc_pure (h _ ‹_›)
  · exact okc_abort

theorem okc_advance {Q : Unit → PS → Prop} (k : ∀ s' : PS, u w s' = u w s + tw w s.cur → s'.cur = s.peek → Q () s') :
    okc w advance c s Q := by
  unfold okc advance
  cases h : s.rest with
  | nil => trivial
  | cons t ts =>
    refine k _ ?_ ?_
    · simp [u, PS.cur, h, Nat.add_comm]
    · simp [PS.cur, PS.peek, h]

theorem okc_advance0 {Q : Unit → PS → Prop} (h : nn s.cur.type = true)
    (k : ∀ s' : PS, u w s' = u w s → s'.cur = s.peek → Q () s') : okc w advance c s Q :=
  okc_advance fun s' h1 h2 => k s' (by rw [h1, tw_zero h]; rfl) h2

theorem okc_advanceP {Q : Unit → PS → Prop} (h : nn s.cur.type = true)
    (k : ∀ s' : PS, u w s' = u w s → s'.prevTok = s.cur → Q () s') : okc w advance c s Q := by
  have h0 := tw_zero (w := w) h
  unfold okc advance
  cases h : s.rest with
  | nil => trivial
  | cons t ts =>
    refine k _ ?_ ?_
    · simp only [PS.cur, h, List.headD_cons] at h0
      simp [u, h0]
    · simp [PS.cur, PS.prevTok, h]

theorem okc_rewind {Q : Unit → PS → Prop} (k : ∀ s' : PS, u w s' + tw w s.prevTok = u w s → s'.cur = s.prevTok → Q () s') :
    okc w rewind c s Q := by
  unfold okc rewind
  cases h : s.prev with
  | nil => trivial
  | cons t ts =>
    refine k _ ?_ ?_
    · simp [u, PS.prevTok, h, Nat.add_comm]
    · simp [PS.cur, PS.prevTok, h]

theorem okc_insertNewline {t : Token} {Q : Unit → PS → Prop}
    (k : ∀ s' : PS, u w s' = u w s → s'.cur.type = .Newline → s'.peek = s.cur → Q () s') :
    okc w (insertNewline t) c s Q := k _ rfl rfl rfl

theorem okc_modify {f : PS → PS} {Q : Unit → PS → Prop} (h : (f s).prev = s.prev ∧ (f s).rest = s.rest)
    (k : ∀ s' : PS, u w s' = u w s → s'.cur = s.cur → s'.peek = s.peek → Q () s') : okc w (P.modify f) c s Q :=
  k _ (by simp only [u, h.1]) (by simp only [PS.cur, h.2]) (by simp only [PS.peek, h.2])

theorem okc_pushDepth {Q : Unit → PS → Prop}
    (k : ∀ s' : PS, u w s' = u w s → s'.cur = s.cur → s'.peek = s.peek → Q () s') : okc w pushDepth c s Q :=
  okc_modify ⟨rfl, rfl⟩ k
theorem okc_pushPrec {p : Prec} {Q : Unit → PS → Prop}
    (k : ∀ s' : PS, u w s' = u w s → s'.cur = s.cur → s'.peek = s.peek → Q () s') : okc w (pushPrec p) c s Q :=
  okc_modify ⟨rfl, rfl⟩ k
theorem okc_addLocal {n : Str} {Q : Unit → PS → Prop}
    (k : ∀ s' : PS, u w s' = u w s → s'.cur = s.cur → s'.peek = s.peek → Q () s') : okc w (addLocal n) c s Q :=
  okc_modify ⟨rfl, rfl⟩ k
theorem okc_popDepth {Q : Unit → PS → Prop}
    (k : ∀ s' : PS, u w s' = u w s → s'.cur = s.cur → s'.peek = s.peek → Q () s') : okc w popDepth c s Q := by
  unfold okc popDepth
  cases s.depth with
  | nil => trivial
  | cons d ds => exact k _ rfl rfl rfl
theorem okc_bumpDepth {n : Nat} {Q : Unit → PS → Prop}
    (k : ∀ s' : PS, u w s' = u w s → s'.cur = s.cur → s'.peek = s.peek → Q () s') : okc w (bumpDepth n) c s Q := by
  unfold okc bumpDepth
  cases s.depth with
  | nil => trivial
  | cons d ds => exact k _ rfl rfl rfl
theorem okc_incDepth {Q : Unit → PS → Prop}
    (k : ∀ s' : PS, u w s' = u w s → s'.cur = s.cur → s'.peek = s.peek → Q () s') : okc w incDepth c s Q := okc_bumpDepth k
theorem okc_decDepth {Q : Unit → PS → Prop}
    (k : ∀ s' : PS, u w s' = u w s → s'.cur = s.cur → s'.peek = s.peek → Q () s') : okc w decDepth c s Q := okc_bumpDepth k
theorem okc_popPrec {Q : Unit → PS → Prop}
    (k : ∀ s' : PS, u w s' = u w s → s'.cur = s.cur → s'.peek = s.peek → Q () s') : okc w popPrec c s Q := by
  unfold okc popPrec
  cases s.precs with
  | nil => trivial
  | cons d ds => exact k _ rfl rfl rfl
theorem okc_addNames {o : Option (List Str)} {Q : Unit → PS → Prop}
    (k : ∀ s' : PS, u w s' = u w s → s'.cur = s.cur → s'.peek = s.peek → Q () s') : okc w (addNames o) c s Q := by
  cases o with
  | none => exact okc_abort
  | some ns => exact okc_modify ⟨rfl, rfl⟩ k

theorem eol_nn {t : Ttype} (h : t.isEndOfLine = true) : nn t = true := by
  cases t <;> first | rfl | exact absurd h (by decide)

theorem skip_u (ts : List Token) : ∀ pre, ((skipNewlines.go pre ts).1.map (tw w)).sum = (pre.map (tw w)).sum := by
  induction ts with
  | nil => exact fun _ => rfl
  | cons t ts ih =>
    intro pre
    unfold skipNewlines.go
    split
    · rw [ih, List.map_cons, List.sum_cons, tw_zero (eol_nn ‹_›), Nat.zero_add]
    · rfl

theorem okc_skipNewlines {Q : Unit → PS → Prop}
    (k : ∀ s' : PS, u w s' = u w s → (s.cur.type.isEndOfLine = false → s'.cur = s.cur) → Q () s') :
    okc w skipNewlines c s Q := by
  refine k _ (skip_u _ _) ?_
  intro h
  unfold PS.cur at *
  cases hr : s.rest with
  | nil => rfl
  | cons t ts =>
    rw [hr] at h
    simp only [List.headD_cons] at h
    simp [skipNewlines.go, h]

theorem okc_expect {ty : Ttype} {m : Str} {Q : Unit → PS → Prop} (k : s.cur.type = ty → Q () s) :
    okc w (expect ty m) c s Q := by
  unfold expect
  exact okc_bind (okc_curTy (okc_ite (fun h => okc_pure (k h)) fun _ => okc_throwUnexpected))

theorem okc_nextExpression {Q : Unit → PS → Prop} (k : ∀ s' : PS, u w s' = u w s → Q () s') :
    okc w nextExpression c s Q := by
  unfold nextExpression
  exact okc_bind (okc_curTy (okc_ite (fun _ => okc_skipNewlines fun s' h _ => k s' h) fun _ => okc_throwUnexpected))

theorem okc_validateCurrent {Q : Unit → PS → Prop} (k : Q () s) : okc w validateCurrent c s Q := by
  unfold validateCurrent
  refine okc_bind (okc_cur ?_)
  split
  all_goals first
    | exact okc_throw
    | exact okc_throwUnterminated
    | exact okc_ite (fun _ => okc_pure k) fun _ => okc_abort

theorem okc_withLocals {ls : List Str} {p : P α} {Q : α → PS → Prop}
    (h : ∀ s' : PS, u w s' = u w s → s'.cur = s.cur → s'.peek = s.peek → okc w p c s' fun a s'' =>
      ∀ s₃ : PS, u w s₃ = u w s'' → s₃.cur = s''.cur → Q a s₃) : okc w (withLocals ls p) c s Q := by
  unfold withLocals
  refine okc_bind (okc_get (okc_bind (okc_modify ⟨rfl, rfl⟩ fun s' e1 e2 e3 => ?_)))
  refine okc_bind (okc_mono (h _ e1 e2 e3) ?_)
  intro a s'' k
  exact okc_bind (okc_modify ⟨rfl, rfl⟩ fun s₃ e1 e2 _ => okc_pure (k s₃ e1 e2))

/-- A loop with an invariant. -/
theorem okc_loop {body : σ → P (Loop σ α)} {Q : α → PS → Prop} {n : Nat} {x : σ} (I : σ → PS → Prop) (hI : I x s)
    (h : ∀ y s', I y s' → okc w (body y) c s' fun r s'' =>
      match r with
      | .again z => I z s''
      | .done a => Q a s'') : okc w (loop body n x) c s Q := by
  induction n generalizing x s with
  | zero => exact okc_fuel
  | succ n ih =>
    unfold loop
    refine okc_bind (okc_mono (h x s hI) ?_)
    intro r s' hr
    cases r with
    | again y => exact ih hr
    | done a => exact okc_pure hr

/-- A loop that puts all numbers into its variables. -/
theorem okc_loopW [Weigh σ] [Weigh α] {body : σ → P (Loop σ α)} {Q : α → PS → Prop} {n : Nat} {x : σ}
    (h : ∀ y s', okc w (body y) c s' fun r s'' => u w s'' + Weigh.of w y = u w s' + Weigh.of w r)
    (k : ∀ a s', u w s' + Weigh.of w x = u w s + Weigh.of w a → Q a s') : okc w (loop body n x) c s Q := by
  refine okc_loop (fun y s' => u w s' + Weigh.of w x = u w s + Weigh.of w y) rfl ?_
  intro y s' hy
  refine okc_mono (h y s') ?_
  intro r s'' hr
  cases r with
  | again z => simp only [cwt] at hr ⊢; omega
  | done a => simp only [cwt] at hr; exact k a s'' (by omega)

/-- What is shown of a continuation `jp` that several branches share. -/
def JP [Weigh α] (w : Option Token → Nat) (s : PS) (jp : α → P β) (c : Cx) (Q : β → PS → Prop) : Prop :=
  ∀ a s', u w s' = u w s + Weigh.of w a → okc w (jp a) c s' Q

theorem okc_jp [Weigh α] {p : P β} {Q : β → PS → Prop} (jp : α → P β) (h1 : JP w s jp c Q)
    (h2 : JP w s jp c Q → okc w p c s Q) : okc w p c s Q := h2 h1

theorem okc_callJP [Weigh α] {s₀ : PS} {jp : α → P β} {Q : β → PS → Prop} {a : α} (h : JP w s₀ jp c Q)
    (b : u w s = u w s₀ + Weigh.of w a) : okc w (jp a) c s Q := h a s b

end rules

theorem nn_of_eq {x y : Ttype} (h : x = y) (hy : nn y = true) : nn x = true := h ▸ hy
theorem nn_of_cur {t v : Token} (h : t = v) (hu : nn v.type = true) : nn t.type = true := h ▸ hu
theorem nn_of_or {x y z : Ttype} (h : x = y ∨ x = z) (hy : nn y = true) (hz : nn z = true) : nn x = true := by
  rcases h with h | h <;> rw [h] <;> assumption
theorem nn_of_or3 {x y z v : Ttype} (h : x = y ∨ x = z ∨ x = v) (hy : nn y = true) (hz : nn z = true)
    (hu : nn v = true) : nn x = true := by rcases h with h | h | h <;> rw [h] <;> assumption
theorem operator_nn {x : Ttype} (h : x.isOperator = true) : nn x = true := by
  cases x <;> first | rfl | exact absurd h (by decide)
theorem keyword_nn {x : Ttype} (h : x.isKeyword = true) : nn x = true := by
  cases x <;> first | rfl | exact absurd h (by decide)
theorem opkw_nn {x : Ttype} (h : x.isOperator = true ∨ x.isKeyword = true) : nn x = true :=
  h.elim operator_nn keyword_nn

/-- Closes goals `nn … = true`. -/
syntax "nnt" : tactic
macro_rules | `(tactic| nnt) => `(tactic| first
  | assumption
  | ((with_reducible apply nn_of_eq); assumption; decide)
  | ((with_reducible apply nn_of_or); assumption; decide; decide)
  | ((with_reducible apply nn_of_or3); assumption; decide; decide; decide)
  | (refine operator_nn ?_; assumption)
  | (refine keyword_nn ?_; assumption)
  | (refine opkw_nn ?_; assumption)
  | ((with_reducible apply nn_of_cur); assumption; nnt))

/-- Closes goals about weights. -/
macro "cz" : tactic => `(tactic| first
  | omega
  | (simp only [cwt]; first | done | omega)
  | (simp only [cwt] at *; omega))

macro "cd" : tactic => `(tactic| (
  (repeat' (with_reducible refine And.intro ?_ ?_))
  all_goals first
  | assumption
  | (with_reducible exact True.intro)
  | cz
  | nnt))

/-- Introduces a value. -/
macro "cin" : tactic => `(tactic| (
  intro _ _ h
  (try simp only [cwt] at h)
  (try casesm* _ ∧ _)))

/-- Introduces a condition. -/
macro "cif" : tactic => `(tactic| (
  intro h
  (try simp only [Bool.and_eq_true, Bool.or_eq_true, beq_iff_eq] at h)
  (try casesm* _ ∧ _)))

/-- Closes the side conditions of the lemma about a function that is called. -/
syntax "cside" : tactic

open Lean Elab Tactic Meta in
/-- A call of a function `f` already treated: the lemma is `c_f`. -/
elab "ccall" : tactic => do
  let g ← getMainGoal
  g.withContext do
    let t ← Core.betaReduce (← instantiateMVars (← g.getType)).consumeMData
    let (``okc, #[a, w, p, c, s, q]) := t.getAppFnArgs | Lean.throwError "no call"
    let some (.str _ f) := p.consumeMData.getAppFn.constName? | Lean.throwError "no call"
    let thm := `NP.Cnt ++ Name.mkSimple ("c_" ++ f)
    unless (← getEnv).contains thm do Lean.throwError "no lemma"
    let e ← mkConstWithFreshMVarLevels thm
    let (ms, _, r) ← forallMetaTelescope (← inferType e)
    let (``okc, #[_, w', p', c', s', q']) := r.getAppFnArgs | Lean.throwError "no call"
    unless ← withReducible (isDefEq w' w <&&> isDefEq p' p <&&> isDefEq c' c <&&> isDefEq s' s) do
      Lean.throwError "no match"
    let q' ← instantiateMVars q'
    let h ← mkAppOptM ``okc_mono #[w, a, c, s, p, q', q, mkAppN e ms]
    let .forallE _ kt _ _ ← whnfR (← inferType h) | Lean.throwError "no function"
    let k ← mkFreshExprSyntheticOpaqueMVar kt
    g.assign (mkApp h k)
    for m in ms do
      unless ← m.mvarId!.isAssigned do
        setGoals [m.mvarId!]
        evalTactic (← `(tactic| cside))
        unless (← getGoals).isEmpty do Lean.throwError "side condition"
    setGoals [k.mvarId!]

/-- Puts a shared continuation in its places. -/
macro "cinl" : tactic => `(tactic| (extract_lets +onlyGivenNames jp; dsimp -zeta only [jp]; clear jp))

/-- One step of a function. -/
macro "cstep" : tactic => `(tactic| first
  | (with_reducible exact okc_abort)
  | (with_reducible exact okc_throw)
  | (with_reducible exact okc_throwUnterminated)
  | (with_reducible exact okc_throwUnexpected)
  | (with_reducible exact okc_throwTok)
  | (with_reducible exact okc_throwError)
  | (with_reducible refine okc_bind ?_)
  | ((with_reducible refine okc_pure ?_); try dsimp -zeta only)
  | ((with_reducible refine okc_cur ?_); try dsimp -zeta only)
  | ((with_reducible refine okc_curTy ?_); try dsimp -zeta only)
  | ((with_reducible refine okc_peek ?_); try dsimp -zeta only)
  | ((with_reducible refine okc_prevTok ?_); try dsimp -zeta only)
  | ((with_reducible refine okc_get ?_); try dsimp -zeta only)
  | ((with_reducible refine okc_litOf ?_); intro _ _)
  | ((with_reducible refine okc_advance0 ?_ ?_); (focus nnt); intro _ _ _)
  | ((with_reducible refine okc_advance ?_); intro _ _ _)
  | ((with_reducible refine okc_rewind ?_); intro _ _ _)
  | ((with_reducible refine okc_skipNewlines ?_); intro _ _ _)
  | ((with_reducible refine okc_nextExpression ?_); intro _ _)
  | ((with_reducible refine okc_expect ?_); intro _)
  | (with_reducible refine okc_validateCurrent ?_)
  | ((with_reducible refine okc_pushDepth ?_); intro _ _ _ _)
  | ((with_reducible refine okc_popDepth ?_); intro _ _ _ _)
  | ((with_reducible refine okc_incDepth ?_); intro _ _ _ _)
  | ((with_reducible refine okc_decDepth ?_); intro _ _ _ _)
  | ((with_reducible refine okc_pushPrec ?_); intro _ _ _ _)
  | ((with_reducible refine okc_popPrec ?_); intro _ _ _ _)
  | ((with_reducible refine okc_addLocal ?_); intro _ _ _ _)
  | ((with_reducible refine okc_addNames ?_); intro _ _ _ _)
  | ((with_reducible refine okc_insertNewline ?_); intro _ _ _ _)
  | ((with_reducible refine okc_ite ?_ ?_) <;> cif)
  | ((with_reducible refine okc_loopW (fun _ _ => ?_) ?_); rotate_left; cin; rotate_right)
  | ((with_reducible refine okc_withLocals ?_); intro _ _ _ _)
  | (intro (_ : PS) _ _; try dsimp -zeta only)
  | (ccall; cin)
  | ((with_reducible apply okc_callJP); assumption; (focus cz))
  | cinl
  | ((fail_if_success (with_reducible apply okc_mono)); focus cd)
  | split)

/-- Treats a shared continuation once. -/
macro "cjp" : tactic => `(tactic| (
  extract_lets +onlyGivenNames jp
  (with_reducible refine okc_jp jp ?_ ?_)
  (focus (cin; dsimp -zeta only [jp]))
  rotate_left; intro _; clear_value jp; rotate_left))

macro "cgo" : tactic => `(tactic| (repeat' cstep))

macro_rules | `(tactic| cside) => `(tactic| first
  | assumption
  | nnt
  | rfl
  | (simp only [*]; rfl)
  | (intro _; cgo; done))

/-- What is assumed of the functions called recursively. -/
structure GoodC (w : Option Token → Nat) (R : Rec) : Prop where
  expr : ∀ p ia c s, okc w (R.expr p ia) c s fun a s' => u w s' = u w s + wt w a
  pattern : ∀ c s, okc w R.pattern c s fun a s' => u w s' = u w s + wt w a
  assignIdent : ∀ b c s, okc w (R.assignIdent b) c s fun a s' => u w s' = u w s + wt w a
  argDefault : ∀ ia c s, okc w (R.argDefault ia) c s fun a s' => u w s' = u w s + wt w a
  defSingleArg : ∀ l x ia c s, okc w (R.defSingleArg l x ia) c s fun a s' => u w s' + wts w l = u w s + wts w a
  ifBranch : ∀ b c s, nn s.cur.type = true → okc w (R.ifBranch b) c s fun a s' => u w s' = u w s + wt w a
  string : ∀ c s, nn s.cur.type = true → okc w R.string c s fun a s' => u w s' = u w s + wt w a
  istring : ∀ c s, nn s.cur.type = true → okc w R.istring c s fun a s' => u w s' = u w s + wt w a

section
variable {w : Option Token → Nat} {R : Rec} {c : Cx} {s : PS}
theorem c_expr (g : GoodC w R) {p : Prec} {ia : IterAllow} :
    okc w (R.expr p ia) c s fun a s' => u w s' = u w s + wt w a := g.expr _ _ _ _
theorem c_exp (g : GoodC w R) {p : Prec} : okc w (R.exp p) c s fun a s' => u w s' = u w s + wt w a := g.expr _ _ _ _
theorem c_pattern (g : GoodC w R) : okc w R.pattern c s fun a s' => u w s' = u w s + wt w a := g.pattern _ _
theorem c_assignIdent (g : GoodC w R) {b : Bool} :
    okc w (R.assignIdent b) c s fun a s' => u w s' = u w s + wt w a := g.assignIdent _ _ _
theorem c_argDefault (g : GoodC w R) {ia : IterAllow} :
    okc w (R.argDefault ia) c s fun a s' => u w s' = u w s + wt w a := g.argDefault _ _ _
theorem c_ifBranch (g : GoodC w R) {b : Bool} (h : nn s.cur.type = true) :
    okc w (R.ifBranch b) c s fun a s' => u w s' = u w s + wt w a := g.ifBranch _ _ _ h
theorem c_defSingleArg (g : GoodC w R) {l : List Node} {x : ArgsContext} {ia : IterAllow} :
    okc w (R.defSingleArg l x ia) c s fun a s' => u w s' + wts w l = u w s + wts w a := g.defSingleArg _ _ _ _ _
theorem c_string (g : GoodC w R) (h : nn s.cur.type = true) :
    okc w R.string c s fun a s' => u w s' = u w s + wt w a := g.string _ _ h
theorem c_istring (g : GoodC w R) (h : nn s.cur.type = true) :
    okc w R.istring c s fun a s' => u w s' = u w s + wt w a := g.istring _ _ h
end

end NP.Cnt
