import Verif.Props.Parse

/-!
Computing with the parser: rules from which it follows that the parser, given enough nested calls, returns a certain node
in a certain state.
-/

namespace NP

/-- With enough nested calls, `F` returns `a` and leaves the state `s'`. -/
def Evals {α : Type} (F : Rec → P α) (c : Cx) (s : PS) (a : α) (s' : PS) : Prop :=
  ∃ N, ∀ n, N ≤ n → F (knot n) c s = .ok a s'

theorem P.bind_eq {α β : Type} {p : P α} {f : α → P β} {c : Cx} {s s' : PS} {a : α} (h : p c s = .ok a s') :
    (p >>= f) c s = f a c s' := by
  show P.bind p f c s = _
  unfold P.bind
  rw [h]

theorem Evals.of {α : Type} {F : Rec → P α} {c : Cx} {s s' : PS} {a : α} (h : ∀ R, F R c s = .ok a s') :
    Evals F c s a s' := ⟨0, fun n _ => h (knot n)⟩

theorem Evals.bind {α β : Type} {F : Rec → P α} {G : Rec → α → P β} {c : Cx} {s s1 s' : PS} {a : α} {b : β}
    (h : Evals F c s a s1) (h' : Evals (fun R => G R a) c s1 b s') : Evals (fun R => F R >>= G R) c s b s' := by
  obtain ⟨N, h⟩ := h
  obtain ⟨M, h'⟩ := h'
  exact ⟨max N M, fun n hn => (P.bind_eq (h n (by omega))).trans (h' n (by omega))⟩

/-- A function that begins with steps that do not depend on the recursion. -/
theorem Evals.step {α : Type} {F G : Rec → P α} {c : Cx} {s s1 s' : PS} {a : α} (h : ∀ R, F R c s = G R c s1)
    (h' : Evals G c s1 a s') : Evals F c s a s' := by
  obtain ⟨N, h'⟩ := h'
  exact ⟨N, fun n hn => (h _).trans (h' n hn)⟩

theorem Evals.expr {p : Prec} {ia : IterAllow} {c : Cx} {s s' : PS} {a : Node}
    (h : Evals (fun R => parseExpression R p ia) c s a s') : Evals (fun R => R.expr p ia) c s a s' := by
  obtain ⟨N, h⟩ := h
  refine ⟨N + 1, fun n hn => ?_⟩
  obtain ⟨m, rfl⟩ : ∃ m, n = m + 1 := ⟨n - 1, by omega⟩
  exact h m (by omega)

theorem Evals.string {c : Cx} {s s' : PS} {a : Node} (h : Evals parseString c s a s') :
    Evals (fun R => R.string) c s a s' := by
  obtain ⟨N, h⟩ := h
  refine ⟨N + 1, fun n hn => ?_⟩
  obtain ⟨m, rfl⟩ : ∃ m, n = m + 1 := ⟨n - 1, by omega⟩
  exact h m (by omega)

theorem Evals.istring {c : Cx} {s s' : PS} {a : Node} (h : Evals parseInterpolatedString c s a s') :
    Evals (fun R => R.istring) c s a s' := by
  obtain ⟨N, h⟩ := h
  refine ⟨N + 1, fun n hn => ?_⟩
  obtain ⟨m, rfl⟩ : ∃ m, n = m + 1 := ⟨n - 1, by omega⟩
  exact h m (by omega)

theorem knot_fuel : ∀ n, (knot n).fuel = n + 2
  | 0 => rfl
  | _ + 1 => rfl

/-! ### Loops -/

/-- With enough nested calls and iterations, the loop returns `a`. -/
def EvalsLoop {σ α : Type} (B : Rec → σ → P (Loop σ α)) (x : σ) (c : Cx) (s : PS) (a : α) (s' : PS) : Prop :=
  ∃ N, ∀ n, N ≤ n → ∀ k, N ≤ k → loop (B (knot n)) k x c s = .ok a s'

theorem EvalsLoop.done {σ α : Type} {B : Rec → σ → P (Loop σ α)} {x : σ} {c : Cx} {s s' : PS} {a : α}
    (h : Evals (fun R => B R x) c s (.done a) s') : EvalsLoop B x c s a s' := by
  obtain ⟨N, h⟩ := h
  refine ⟨N + 1, fun n hn k hk => ?_⟩
  obtain ⟨m, rfl⟩ : ∃ m, k = m + 1 := ⟨k - 1, by omega⟩
  unfold loop
  rw [P.bind_eq (h n (by omega))]
  rfl

theorem EvalsLoop.again {σ α : Type} {B : Rec → σ → P (Loop σ α)} {x y : σ} {c : Cx} {s s1 s' : PS} {a : α}
    (h : Evals (fun R => B R x) c s (.again y) s1) (h' : EvalsLoop B y c s1 a s') : EvalsLoop B x c s a s' := by
  obtain ⟨N, h⟩ := h
  obtain ⟨M, h'⟩ := h'
  refine ⟨max N M + 1, fun n hn k hk => ?_⟩
  obtain ⟨m, rfl⟩ : ∃ m, k = m + 1 := ⟨k - 1, by omega⟩
  unfold loop
  rw [P.bind_eq (h n (by omega))]
  exact h' n (by omega) m (by omega)

theorem EvalsLoop.evals {σ α : Type} {B : Rec → σ → P (Loop σ α)} {x : σ} {c : Cx} {s s' : PS} {a : α}
    (h : EvalsLoop B x c s a s') : Evals (fun R => loop (B R) R.fuel x) c s a s' := by
  obtain ⟨N, h⟩ := h
  exact ⟨N, fun n hn => h n hn _ (by rw [knot_fuel]; omega)⟩

/-! ### Expressions -/

/-- The body of the loop of `parse_expression`. -/
def exprBody (p : Prec) (ia : IterAllow) (R : Rec) (left : Node) : P (Loop Node Node) := do
  let t ← cur
  if t.type.isValid then
    if ← higherPrecedence t left p ia then
      let pk ← peek
      match leftDenotation R t pk left p with
      | none => throwTok t false (cs! "expression")
      | some f =>
        let left ← f
        popPrec
        pushPrec p
        pure (Loop.again left)
    else pure (Loop.done left)
  else pure (Loop.done left)

theorem exprLoop_eq (R : Rec) (p : Prec) (ia : IterAllow) (left : Node) :
    exprLoop R p ia left = loop (exprBody p ia R) (2 * R.fuel) left := rfl

/-- The loop of `parse_expression`, with the expression so far. -/
abbrev EvalsRest (p : Prec) (ia : IterAllow) (left : Node) (c : Cx) (s : PS) (a : Node) (s' : PS) : Prop :=
  EvalsLoop (exprBody p ia) left c s a s'

theorem EvalsRest.evals {p : Prec} {ia : IterAllow} {left : Node} {c : Cx} {s s' : PS} {a : Node}
    (h : EvalsRest p ia left c s a s') : Evals (fun R => exprLoop R p ia left) c s a s' := by
  obtain ⟨N, h⟩ := h
  exact ⟨N, fun n hn => h n hn _ (by rw [knot_fuel]; omega)⟩

/-- The expression ends here. -/
theorem EvalsRest.stop {p : Prec} {ia : IterAllow} {left : Node} {c : Cx} {s : PS}
    (h : higherPrecedence s.cur left p ia c s = .ok false s) : EvalsRest p ia left c s left s := by
  refine .done (.of fun R => ?_)
  unfold exprBody
  rw [P.bind_eq (show cur c s = .ok s.cur s from rfl)]
  split
  · rw [P.bind_eq h]; rfl
  · rfl

/-- The expression is continued by one infix function. -/
theorem EvalsRest.infix {p : Prec} {ia : IterAllow} {left a b : Node} {c : Cx} {s s1 s' : PS} {q : Prec} {ps : List Prec}
    (F : Rec → P Node) (hv : s.cur.type.isValid = true) (h : higherPrecedence s.cur left p ia c s = .ok true s)
    (hl : ∀ R, leftDenotation R s.cur s.peek left p = some (F R)) (hF : Evals F c s a s1) (hp : s1.precs = q :: ps)
    (h' : EvalsRest p ia a c { s1 with precs := p :: ps } b s') : EvalsRest p ia left c s b s' := by
  refine .again ?_ h'
  obtain ⟨N, hF⟩ := hF
  refine ⟨N, fun n hn => ?_⟩
  show exprBody p ia (knot n) left c s = _
  unfold exprBody
  rw [P.bind_eq (show cur c s = .ok s.cur s from rfl), if_pos hv, P.bind_eq h, if_pos rfl,
    P.bind_eq (show peek c s = .ok s.peek s from rfl), hl]
  simp only []
  rw [P.bind_eq (hF n hn)]
  rw [P.bind_eq (show popPrec c s1 = .ok () { s1 with precs := ps } by unfold popPrec; rw [hp])]
  rfl

/-- The first function of an expression, and the loop. -/
def EvalsFrom (p : Prec) (ia : IterAllow) (c : Cx) (s : PS) (a : Node) (s' : PS) : Prop :=
  ∃ (F : Rec → P Node) (l : Node) (s1 : PS), (∀ R, nullDenotation R s.cur.type = some (F R)) ∧ Evals F c s l s1 ∧
    EvalsRest p ia l c s1 a s'

theorem EvalsFrom.first {p : Prec} {ia : IterAllow} {c : Cx} {s s1 s' : PS} {l a : Node} (F : Rec → P Node)
    (h : ∀ R, nullDenotation R s.cur.type = some (F R)) (hF : Evals F c s l s1) (h' : EvalsRest p ia l c s1 a s') :
    EvalsFrom p ia c s a s' := ⟨F, l, s1, h, hF, h'⟩

theorem skipNewlines_none {c : Cx} {s : PS} {t : Token} {ts : List Token} (hr : s.rest = t :: ts)
    (ht : t.type.isEndOfLine = false) : skipNewlines c s = .ok () s := by
  unfold skipNewlines
  rw [hr]
  unfold skipNewlines.go
  simp only [ht, Bool.false_eq_true, if_false]
  rw [← hr]

theorem EvalsFrom.expression {p : Prec} {ia : IterAllow} {c : Cx} {s s' : PS} {a : Node} {t : Token} {ts : List Token}
    {q : Prec} {ps : List Prec} (hr : s.rest = t :: ts) (ht : t.type.isEndOfLine = false)
    (h : EvalsFrom p ia c { s with precs := p :: s.precs } a s') (hp : s'.precs = q :: ps) :
    Evals (fun R => parseExpression R p ia) c s a { s' with precs := ps } := by
  obtain ⟨F, l, s1, h1, ⟨N, h2⟩, h3⟩ := h
  obtain ⟨M, h3⟩ := h3.evals
  refine ⟨max N M, fun n hn => ?_⟩
  show parseExpression (knot n) p ia c s = _
  unfold parseExpression
  rw [P.bind_eq (skipNewlines_none hr ht), P.bind_eq (show pushPrec p c s = .ok () { s with precs := p :: s.precs } from rfl),
    P.bind_eq (show curTy c { s with precs := p :: s.precs } = .ok s.cur.type { s with precs := p :: s.precs } from rfl)]
  rw [show nullDenotation (knot n) s.cur.type = some (F (knot n)) from h1 _]
  simp only []
  rw [P.bind_eq (h2 n (by omega)), P.bind_eq (h3 n (by omega)),
    P.bind_eq (show popPrec c s' = .ok () { s' with precs := ps } by unfold popPrec; rw [hp])]
  rfl

/-- The body of the loop of `tree`. -/
def treeBody (R : Rec) (ns : List Node) : P (Loop (List Node) (List Node)) := do
  if (← curTy) = .Eof then pure (Loop.done ns)
  else
    let e ← R.exp .LOWEST
    validateCurrent
    nextExpression
    pure (Loop.again (ns ++ [e]))

theorem parseTree_eq (R : Rec) : parseTree R = (do
    skipNewlines
    let t ← cur
    validateCurrent
    skipNewlines
    let ns ← loop (treeBody R) R.fuel []
    pure (Blk.single ⟨t, ns⟩)) := rfl

theorem validate_ok {c : Cx} {s : PS} (h : s.cur.type.isValid = true) : validateCurrent c s = .ok () s := by
  unfold validateCurrent
  rw [P.bind_eq (show cur c s = .ok s.cur s from rfl)]
  generalize s.cur.type = ty at h
  cases ty <;> first | rfl | cases h

/-- A source that is one expression. -/
theorem EvalsFrom.tree {c : Cx} {s s' : PS} {a : Node} {t e : Token} {ts : List Token} {q : Prec} {ps : List Prec}
    (hr : s.rest = t :: ts) (ht : t.type.isEndOfLine = false) (hE : t.type ≠ .Eof) (hval : t.type.isValid = true)
    (h : EvalsFrom .LOWEST .CURLY_AND_BLOCK c { s with precs := .LOWEST :: s.precs } a s') (hp : s'.precs = q :: ps)
    (he : s'.rest = [e]) (heof : e.type = .Eof) :
    Evals parseTree c s a { s' with precs := ps } := by
  have hx := (EvalsFrom.expression hr ht h hp).expr
  refine Evals.step (G := fun R => do
    let ns ← loop (treeBody R) R.fuel []
    pure (Blk.single ⟨t, ns⟩)) (s1 := s) (fun R => ?_) ?_
  · rw [parseTree_eq, P.bind_eq (skipNewlines_none hr ht), P.bind_eq (show cur c s = .ok t s by unfold cur PS.cur; rw [hr]; rfl),
      P.bind_eq (validate_ok (by unfold PS.cur; rw [hr]; exact hval)), P.bind_eq (skipNewlines_none hr ht)]
  · refine Evals.bind (F := fun R => loop (treeBody R) R.fuel []) (a := [a]) (EvalsLoop.evals ?_)
      (.of fun R => rfl : Evals (fun _ => pure (Blk.single ⟨t, [a]⟩)) c _ a _)
    refine .again (y := [a]) (s1 := { s' with precs := ps }) ?_ ?_
    · refine Evals.step (G := fun R => do
        let e ← R.exp .LOWEST
        validateCurrent
        nextExpression
        pure (Loop.again ([] ++ [e]))) (s1 := s) (fun R => ?_) ?_
      · unfold treeBody
        rw [P.bind_eq (show curTy c s = .ok t.type s by unfold curTy PS.cur; rw [hr]; rfl), if_neg hE]
      · refine Evals.bind hx (.of fun R => ?_)
        have hv : validateCurrent c { s' with precs := ps } = .ok () { s' with precs := ps } := by
          refine validate_ok ?_
          unfold PS.cur
          rw [show ({ s' with precs := ps } : PS).rest = [e] from he]
          simp only [List.headD_cons, heof]
          rfl
        rw [P.bind_eq hv]
        have hn : nextExpression c { s' with precs := ps } = .ok () { s' with precs := ps } := by
          unfold nextExpression
          rw [P.bind_eq (show curTy c { s' with precs := ps } = .ok .Eof { s' with precs := ps } by
            unfold curTy PS.cur; rw [show ({ s' with precs := ps } : PS).rest = [e] from he]; simp only [List.headD_cons, heof])]
          exact skipNewlines_none (c := c) he (by rw [heof]; rfl)
        rw [P.bind_eq hn]
        rfl
    · refine .done (.of fun R => ?_)
      unfold treeBody
      rw [P.bind_eq (show curTy c { s' with precs := ps } = .ok .Eof { s' with precs := ps } by
            unfold curTy PS.cur; rw [show ({ s' with precs := ps } : PS).rest = [e] from he]; simp only [List.headD_cons, heof])]
      rfl

/-- What is computed with enough nested calls is what the parser returns. -/
theorem Evals.parseToks {c : Cx} {ts : List Token} {a : Node} {s' : PS} (hv : VectorOk ts)
    (h : Evals parseTree c { rest := ts } a s') : parseToks c ts = .ok a s' := by
  obtain ⟨N, h⟩ := h
  rw [← C30_bound_irrelevant c ts hv (max N (2 * ts.length)) (by omega)]
  exact h _ (by omega)

end NP
