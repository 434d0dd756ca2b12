import Verif.Spec.Expr
import Verif.Proofs.ParseEval

/-! The parser on the tokens of an expression of integers and binary operators. -/

namespace NP
open Spec

/-- The type of the token of an operator. -/
def Spec.Op.tok : Op → Ttype
  | .pow => .StarStar | .mul => .Star | .div => .Slash | .mod => .Percent | .add => .Plus | .sub => .Minus
  | .shl => .LeftShift | .shr => .RightShift | .band => .Ampersand | .bor => .Pipe | .bxor => .Caret
  | .lt => .LessThan | .le => .LessThanOrEqual | .gt => .GreaterThan | .ge => .GreaterThanOrEqual
  | .cmp => .Comparison | .eq => .EqualEqual | .eqq => .EqualEqualEqual | .neq => .NotEqual
  | .and => .AmpersandAmpersand | .or => .PipePipe | .dot2 => .DotDot | .dot3 => .DotDotDot

/-- Its precedence in the parser. -/
def Spec.Op.prec : Op → Prec
  | .pow => .EXPONENT | .mul | .div | .mod => .PRODUCT | .add | .sub => .SUM | .shl | .shr => .BITWISE_SHIFT
  | .band => .BITWISE_AND | .bor | .bxor => .BITWISE_OR | .lt | .le | .gt | .ge | .cmp => .LESS_GREATER
  | .eq | .eqq | .neq => .EQUALITY | .and => .LOGICAL_AND | .or => .LOGICAL_OR | .dot2 | .dot3 => .RANGE

/-- `Toks T b e ts`: the tokens of an expression, with parentheses around it if `b`. -/
inductive Toks (T : Table) : Bool → Exp → List Token → Prop where
  | int (t : Token) (n : Nat) (ht : t.type = .Fixnum) (hn : t.fix = n) : Toks T false (.int n) [t]
  | bin (o : Op) (l r : Exp) (t : Token) (ls rs : List Token) (ht : t.type = o.tok) 
      (hl : Toks T (l.needL T o) l ls)
      (hr : Toks T (r.needR T o) r rs) : Toks T false (.bin o l r) (ls ++ t :: rs)
  | paren (e : Exp) (ts : List Token) (a b : Token) (ha : a.type = .LParen) (hb : b.type = .RParen)
      (h : Toks T false e ts) : Toks T true e (a :: ts ++ [b])

/-- The operators to the right of which no operand is closed by a parenthesis. -/
def spine (T : Table) : Exp → List Op
  | .int _ => []
  | .bin o _ r => o :: if r.needR T o then [] else spine T r

/-- What a table must have in common with the precedences of the parser. -/
def Fits (T : Table) : Exp → Prop
  | .int _ => True
  | .bin o l r => Fits T l ∧ Fits T r ∧
      (l.needL T o = false → ∀ q, l.root = some q → o.prec.higher q.prec = false) ∧
      (r.needR T o = false → ∀ q, r.root = some q → q.prec.higher o.prec = true)

/-- A token that can follow an expression. -/
def Follow (u : Token) : Prop :=
  (∃ o : Op, u.type = o.tok) ∨ u.type = .RParen ∨ u.type = .Eof ∨ u.type = .Newline ∨ u.type = .Semicolon

/-- A token that ends the operand of an operator. -/
def EndsAt (u : Token) (q : Prec) : Prop := Follow u ∧ ∀ o : Op, u.type = o.tok → o.prec.higher q = false

theorem Spec.Op.tok_inj {a b : Op} (h : a.tok = b.tok) : a = b := by
  cases a <;> cases b <;> first | rfl | cases h

theorem Spec.Op.prec_ne (o : Op) : o.prec ≠ .ITER_BLOCK ∧ o.prec ≠ .ITER_CURLY := by cases o <;> decide

theorem Spec.Op.getPrec (o : Op) (u : Token) (h : u.type = o.tok) (l : Node) (k : Token) :
    NP.getPrec u (some l) k = o.prec := by
  unfold NP.getPrec
  rw [h]
  cases o <;> rfl

theorem higher_op (o : Op) (u : Token) (h : u.type = o.tok) (left : Node) (hl : left.isSymbolKey = false) (p : Prec)
    (ia : IterAllow) (c : Cx) (s : PS) : higherPrecedence u left p ia c s = .ok (o.prec.higher p) s := by
  unfold higherPrecedence
  simp only [o.getPrec u h, hl, Bool.false_eq_true, if_false, if_neg o.prec_ne.1, if_neg o.prec_ne.2]

theorem higher_ends (u : Token) (q : Prec) (h : EndsAt u q) (left : Node) (hl : left.isSymbolKey = false)
    (hc : left.isCallable = false) (ia : IterAllow) (c : Cx) (s : PS) (hs : s.cur = u) :
    higherPrecedence s.cur left q ia c s = .ok false s := by
  obtain ⟨h1 | h1, h2⟩ := h
  · obtain ⟨o, ho⟩ := h1
    rw [hs, higher_op o u ho left hl, h2 o ho]
  · have hp : getPrec u (some left) s.cur = .LOWEST := by
      unfold getPrec
      rcases h1 with h1 | h1 | h1 | h1 <;> simp only [h1, isFirstArg, hc] <;> rfl
    unfold higherPrecedence
    rw [hs]
    rw [hs] at hp
    simp only [hp, hl]
    cases q <;> rfl

theorem Spec.Tree.quiet {n : Node} {e : Exp} (h : Tree n e) : n.isSymbolKey = false ∧ n.isCallable = false := by
  cases h <;> exact ⟨rfl, rfl⟩

theorem Toks.head {T : Table} {b : Bool} {e : Exp} {ts : List Token} (h : Toks T b e ts) :
    ∃ t us, ts = t :: us ∧ (t.type = .Fixnum ∨ t.type = .LParen) := by
  induction h with
  | int t n ht hn => exact ⟨t, _, rfl, .inl ht⟩
  | bin o l r t ls rs ht hl hr ih1 ih2 =>
    obtain ⟨t', us, rfl, h⟩ := ih1
    exact ⟨t', _, rfl, h⟩
  | paren e ts a b ha hb h ih => exact ⟨a, _, rfl, .inr ha⟩

/-- The function for an operator, and the node it makes. -/
def Spec.Op.func (o : Op) (left : Node) (R : Rec) : P Node :=
  match o with
  | .and | .or => parseLogical R left
  | .dot2 | .dot3 => parseRange R left
  | _ => parseInfix R left

def Spec.Op.node (o : Op) (t : Token) (a b : Node) : Node :=
  match o with
  | .and => mkAnd t a b
  | .or => mkOr t a b
  | .dot2 => .range t a b false
  | .dot3 => .range t a b true
  | o => .infixOp t a o.text b

theorem Spec.Op.tree (o : Op) (t : Token) {a b : Node} {l r : Exp} (hl : Tree a l) (hr : Tree b r) :
    Tree (o.node t a b) (.join o l r) := by
  have hj : o ≠ .and → o ≠ .or → Exp.join o l r = .bin o l r := by
    intro h1 h2
    unfold Exp.join
    split
    · rw [if_neg (by simp [h1, h2])]
    · rfl
  cases o
  case and =>
    show Tree (mkAnd t a b) _
    cases hl with
    | and t' a' b' l' r' h1 h2 => exact .and _ _ _ _ _ h1 (.and _ _ _ _ _ h2 hr)
    | int t' n => exact .and _ _ _ _ _ (.int t' n) hr
    | call t' o a' b' l' r' ho h1 h2 =>
      rw [show Exp.join .and (.bin o l' r') r = .bin .and (.bin o l' r') r from
        if_neg (by rintro ⟨rfl, -⟩; simp at ho)]
      exact .and _ _ _ _ _ (.call _ _ _ _ _ _ ho h1 h2) hr
    | or t' a' b' l' r' h1 h2 => exact .and _ _ _ _ _ (.or _ _ _ _ _ h1 h2) hr
    | dot2 t' a' b' l' r' h1 h2 => exact .and _ _ _ _ _ (.dot2 _ _ _ _ _ h1 h2) hr
    | dot3 t' a' b' l' r' h1 h2 => exact .and _ _ _ _ _ (.dot3 _ _ _ _ _ h1 h2) hr
  case or =>
    show Tree (mkOr t a b) _
    cases hl with
    | or t' a' b' l' r' h1 h2 => exact .or _ _ _ _ _ h1 (.or _ _ _ _ _ h2 hr)
    | int t' n => exact .or _ _ _ _ _ (.int t' n) hr
    | call t' o a' b' l' r' ho h1 h2 =>
      rw [show Exp.join .or (.bin o l' r') r = .bin .or (.bin o l' r') r from
        if_neg (by rintro ⟨rfl, -⟩; simp at ho)]
      exact .or _ _ _ _ _ (.call _ _ _ _ _ _ ho h1 h2) hr
    | and t' a' b' l' r' h1 h2 => exact .or _ _ _ _ _ (.and _ _ _ _ _ h1 h2) hr
    | dot2 t' a' b' l' r' h1 h2 => exact .or _ _ _ _ _ (.dot2 _ _ _ _ _ h1 h2) hr
    | dot3 t' a' b' l' r' h1 h2 => exact .or _ _ _ _ _ (.dot3 _ _ _ _ _ h1 h2) hr
  case dot2 => rw [hj (by decide) (by decide)]; exact .dot2 _ _ _ _ _ hl hr
  case dot3 => rw [hj (by decide) (by decide)]; exact .dot3 _ _ _ _ _ hl hr
  all_goals rw [hj (by decide) (by decide)]; exact .call _ _ _ _ _ _ (by decide) hl hr

theorem Spec.Op.left (o : Op) (t pk : Token) (h : t.type = o.tok) (left : Node) (hc : left.isCallable = false) (p : Prec)
    (R : Rec) : leftDenotation R t pk left p = some (o.func left R) := by
  unfold leftDenotation
  rw [h, hc]
  cases o <;> first | rfl | simp [Spec.Op.tok, Spec.Op.func]

theorem Spec.Op.valid (o : Op) : o.tok.isValid = true := by cases o <;> rfl

/-- The function for an operator, when the right operand has been parsed. -/
theorem Spec.Op.evals (o : Op) (t : Token) (ht : t.type = o.tok) {a b : Node} (c : Cx) (s s' : PS) (u : Token)
    (us : List Token) (hu : u.type = .Fixnum ∨ u.type = .LParen) (hr : s.rest = t :: u :: us)
    (h : Evals (fun R => R.exp o.prec) c { s with prev := t :: s.prev, rest := u :: us } b s') :
    Evals (o.func a) c s (o.node t a b) s' := by
  have ec : cur c s = .ok t s := by unfold cur PS.cur; rw [hr]; rfl
  have ea : advance c s = .ok () { s with prev := t :: s.prev, rest := u :: us } := by unfold advance; rw [hr]
  have inf : ∀ q : Prec, (∀ k, NP.getPrec t (some a) k = q) →
      Evals (fun R => R.exp q) c { s with prev := t :: s.prev, rest := u :: us } b s' →
      Evals (fun R => parseInfix R a) c s (.infixOp t a (tyValue t.type) b) s' := by
    intro q hq h
    refine .step (G := fun R => do
      let e ← R.exp q
      pure (.infixOp t a (tyValue t.type) e)) (fun R => ?_) (.bind h (.of fun R => rfl))
    unfold parseInfix
    rw [P.bind_eq ec, P.bind_eq ea, hq]
  have rng : ∀ f, (t.type == .DotDotDot) = f →
      Evals (fun R => R.exp .RANGE) c { s with prev := t :: s.prev, rest := u :: us } b s' →
      Evals (fun R => parseRange R a) c s (.range t a b f) s' := by
    intro f hf h
    refine .step (G := fun R => do
      let e ← R.exp .RANGE
      pure (.range t a e f)) (fun R => ?_) (.bind h (.of fun R => rfl))
    unfold parseRange
    rw [P.bind_eq ec, P.bind_eq ea, P.bind_eq (skipNewlines_none (t := u) (ts := us) rfl (by
        rcases hu with hu | hu <;> (rw [hu]; rfl))), P.bind_eq (show cur c _ = .ok u _ from rfl), if_pos (by
        rcases hu with hu | hu <;> (rw [hu]; rfl)), hf]
  have key : ∀ (x : Str), tyValue t.type = x →
      Evals (fun R => R.exp o.prec) c { s with prev := t :: s.prev, rest := u :: us } b s' →
      Evals (fun R => parseInfix R a) c s (.infixOp t a x b) s' := by
    rintro x rfl h
    exact inf o.prec (fun k => o.getPrec t ht a k) h
  cases o
  case and =>
    refine .step (G := fun R => do
      let e ← R.exp .LOGICAL_AND
      pure (mkAnd t a e)) (fun R => ?_) (.bind h (.of fun R => rfl))
    show parseLogical R a c s = _
    unfold parseLogical
    rw [P.bind_eq ec, ht]
    show (advance >>= _) c s = _
    rw [P.bind_eq ea]
  case or =>
    refine .step (G := fun R => do
      let e ← R.exp .LOGICAL_OR
      pure (mkOr t a e)) (fun R => ?_) (.bind h (.of fun R => rfl))
    show parseLogical R a c s = _
    unfold parseLogical
    rw [P.bind_eq ec, ht]
    show (advance >>= _) c s = _
    rw [P.bind_eq ea]
  case dot2 => exact rng false (by rw [ht]; rfl) h
  case dot3 => exact rng true (by rw [ht]; rfl) h
  all_goals exact key _ (by rw [ht]; rfl) h

theorem parseLit_int (t u : Token) (us : List Token) (n : Nat) (ht : t.type = .Fixnum) (hn : t.fix = n) (hu : Follow u)
    (c : Cx) (s : PS) (hr : s.rest = t :: u :: us) :
    parseLit c s = .ok (.fixnum t n) { s with prev := t :: s.prev, rest := u :: us } := by
  obtain ⟨prev, rest, depth, precs, locals⟩ := s
  subst hr
  unfold parseLit
  rw [P.bind_eq (show cur c _ = .ok t _ from rfl), ht]
  show (match u.type with
    | .Complex => _
    | .Rational => _
    | .RationalComplex => _
    | _ => _ : P Node) c _ = _
  rw [hn]
  rcases hu with ⟨o, h⟩ | h | h | h | h <;> rw [h] <;> first | rfl | (cases o <;> rfl)

/-- `parse_group` around one expression. -/
theorem group_evals (a b z : Token) (ts zs : List Token) (n : Node) (hb : b.type = .RParen)
    (hz : z.type ≠ .Equal) (t : Token) (us : List Token) (hts : ts = t :: us)
    (ht : t.type = .Fixnum ∨ t.type = .LParen) (hn : ∀ mt ns d, n ≠ .multipleAssignment mt ns d) (c : Cx) (s : PS)
    (hr : s.rest = a :: ts ++ b :: z :: zs)
    (h : Evals (fun R => R.exp .LOWEST) c
      { s with prev := a :: s.prev, rest := ts ++ b :: z :: zs, depth := 0 :: s.depth } n
      { s with prev := ts.reverse ++ a :: s.prev, rest := b :: z :: zs, depth := 0 :: s.depth }) :
    Evals parseGroup c s n { s with prev := b :: (ts.reverse ++ a :: s.prev), rest := z :: zs } := by
  subst hts
  obtain ⟨prev, rest, depth, precs, locals⟩ := s
  subst hr
  dsimp only at h ⊢
  have htR : t.type ≠ .RParen := by rcases ht with ht | ht <;> (rw [ht]; decide)
  have htE : ¬ (t.type = .Eof ∨ (t.type == .RParen) = true) := by rcases ht with ht | ht <;> (rw [ht]; decide)
  have htv : t.type.isValid = true := by rcases ht with ht | ht <;> (rw [ht]; rfl)
  have htl : t.type.isEndOfLine = false := by rcases ht with ht | ht <;> (rw [ht]; rfl)
  refine .step (G := fun R => (parseBody R .LOWEST fun ty => ty == .RParen) >>= fun b => do
    expect .RParen (cs! "group closing paren")
    advance
    match b.single with
    | .multipleAssignment mt ns d =>
      if 0 < d then pure (.multipleAssignment a [.multipleAssignment mt ns (d + 1)] 1)
      else pure (.multipleAssignment mt ns (d + 1))
    | e =>
      if (← curTy) = .Equal then throwUnexpected (cs! "multiple assignment on left-hand-side")
      else pure e) (s1 := ⟨a :: prev, t :: us ++ b :: z :: zs, depth, precs, locals⟩) (fun R => ?_) ?_
  · unfold parseGroup
    rw [P.bind_eq (show cur c _ = .ok a _ from rfl),
      P.bind_eq (show advance c _ = .ok () ⟨a :: prev, t :: us ++ b :: z :: zs, depth, precs, locals⟩ from rfl),
      P.bind_eq (show curTy c _ = .ok t.type _ from rfl), if_neg htR]
    rfl
  · refine .bind (a := ⟨t, [n]⟩) (s1 := ⟨(t :: us).reverse ++ a :: prev, b :: z :: zs, depth, precs, locals⟩) ?_
      (.of fun R => ?_)
    · refine .step (G := fun R => loop (fun ns => do
          let ty ← curTy
          if ty = .Eof ∨ (ty == .RParen) = true then pure (Loop.done ns)
          else
            let e ← R.exp .LOWEST
            if (← curTy) == .RParen then pure (Loop.done (ns ++ [e]))
            else
              nextExpression
              pure (Loop.again (ns ++ [e]))) R.fuel [] >>= fun ns => do
        popDepth
        pure ⟨t, ns⟩) (s1 := ⟨a :: prev, t :: us ++ b :: z :: zs, 0 :: depth, precs, locals⟩) (fun R => ?_) ?_
      · unfold parseBody
        rw [P.bind_eq (show pushDepth c _ = .ok () ⟨a :: prev, t :: us ++ b :: z :: zs, 0 :: depth, precs, locals⟩ from rfl),
          P.bind_eq (show cur c _ = .ok t _ from rfl), P.bind_eq (validate_ok (s := ⟨a :: prev, t :: us ++ b :: z :: zs, 0 :: depth, precs, locals⟩) htv),
          P.bind_eq (skipNewlines_none rfl htl)]
      · refine .bind (a := [n]) (s1 := ⟨(t :: us).reverse ++ a :: prev, b :: z :: zs, 0 :: depth, precs, locals⟩)
          (EvalsLoop.evals (B := fun R ns => do
            let ty ← curTy
            if ty = .Eof ∨ (ty == .RParen) = true then pure (Loop.done ns)
            else
              let e ← R.exp .LOWEST
              if (← curTy) == .RParen then pure (Loop.done (ns ++ [e]))
              else
                nextExpression
                pure (Loop.again (ns ++ [e]))) (.done ?_)) (.of fun R => rfl)
        refine .step (G := fun R => R.exp .LOWEST >>= fun e => do
            if (← curTy) == .RParen then pure (Loop.done ([] ++ [e]))
            else
              nextExpression
              pure (Loop.again ([] ++ [e]))) (fun R => ?_) (.bind h (.of fun R => ?_))
        · rw [P.bind_eq (show curTy c _ = .ok t.type _ from rfl), if_neg htE]
        · rw [P.bind_eq (show curTy c _ = .ok b.type _ from rfl), hb]
          rfl
    · have hex : expect .RParen (cs! "group closing paren") c
          ⟨(t :: us).reverse ++ a :: prev, b :: z :: zs, depth, precs, locals⟩ =
          .ok () ⟨(t :: us).reverse ++ a :: prev, b :: z :: zs, depth, precs, locals⟩ := by
        unfold expect
        rw [P.bind_eq (show curTy c _ = .ok b.type _ from rfl), if_pos hb]
        rfl
      rw [P.bind_eq hex, P.bind_eq (show advance c _ = .ok () _ from rfl)]
      have : (Blk.mk t [n]).single = n := rfl
      rw [this]
      clear this
      split
      · exact absurd rfl (hn _ _ _)
      · rw [P.bind_eq (show curTy c _ = .ok z.type _ from rfl), if_neg hz]
        rfl

/-! ### Levels and precedences -/

theorem higher_lt {p q : Prec} : p.higher q = true ↔ q.ctorIdx < p.ctorIdx := by
  unfold Prec.higher
  simp

theorem higher_le {p q : Prec} : p.higher q = false ↔ p.ctorIdx ≤ q.ctorIdx := by
  unfold Prec.higher
  simp

theorem spine_prec (T : Table) : ∀ (e : Exp), Fits T e → ∀ o, e.root = some o → ∀ q ∈ spine T e, o.prec.ctorIdx ≤ q.prec.ctorIdx
  | .int _, _, _, h, _, _ => by cases h
  | .bin o l r, hreg, o', h, q, hq => by
    cases h
    unfold spine at hq
    rcases List.mem_cons.mp hq with rfl | hq
    · exact Nat.le_refl _
    · split at hq
      · cases hq
      · rename_i hn
        cases hr : r.root with
        | none =>
          cases r with
          | int n => cases hq
          | bin _ _ _ => cases hr
        | some q' =>
          have h1 := higher_lt.mp (hreg.2.2.2 (by simpa using hn) q' hr)
          have h2 := spine_prec T r hreg.2.1 q' hr q hq
          omega

theorem spine_nil (T : Table) {e : Exp} (h : e.root = none) : spine T e = [] := by
  cases e with
  | int n => rfl
  | bin _ _ _ => cases h

theorem Spec.Op.lowest (o : Op) : o.prec.higher .LOWEST = true := by cases o <;> rfl

theorem Follow.ne {u : Token} (h : Follow u) : u.type ≠ .Equal := by
  rcases h with ⟨o, h⟩ | h | h | h | h <;> rw [h] <;> first | decide | (cases o <;> decide)

/-! ### The round trip -/

/-- The parser, at the tokens of an expression, builds its tree and goes on after it. -/
theorem Toks.parses {T : Table} {b : Bool} {e : Exp} {ts : List Token} (h : Toks T b e ts) : ∀ (p : Prec) (ia : IterAllow) (c : Cx)
    (s : PS) (ps : List Prec) (u : Token) (us : List Token), s.rest = ts ++ u :: us → s.precs = p :: ps → Fits T e →
    Follow u → (b = false → ∀ o, e.root = some o → o.prec.higher p = true) →
    (b = false → ∀ q ∈ spine T e, EndsAt u q.prec) →
    ∃ n, Tree n e.regroup ∧ ∀ a s', EvalsRest p ia n c { s with prev := ts.reverse ++ s.prev, rest := u :: us } a s' →
      EvalsFrom p ia c s a s' := by
  induction h with
  | int t n ht hn =>
    intro p ia c s ps u us hr hp hreg hu hb hsp
    refine ⟨.fixnum t n, .int t n, fun a s' h => ?_⟩
    have hcur : s.cur = t := by unfold PS.cur; rw [hr]; rfl
    refine .first (fun _ => parseLit) (fun R => ?_) (.of fun R => parseLit_int t u us n ht hn hu c s hr) h
    rw [hcur, ht]
    rfl
  | bin o l r t ls rs ht hl hr' ih1 ih2 =>
    intro p ia c s ps u us hr hp hreg hu hb hsp
    obtain ⟨h1, h2, hL, hR⟩ := hreg
    have hop := hb rfl o rfl
    have hend : EndsAt u o.prec := hsp rfl o (by simp [spine])
    obtain ⟨nl, tl, hl'⟩ := ih1 p ia c s ps t (rs ++ u :: us) (by rw [hr]; simp) hp h1 (.inl ⟨o, ht⟩) (by
      intro hn q hq
      have := higher_le.mp (hL hn q hq)
      rw [higher_lt] at hop ⊢
      omega) (by
      intro hn q hq
      refine ⟨.inl ⟨o, ht⟩, fun o' ho' => ?_⟩
      cases Op.tok_inj (ht.symm.trans ho')
      cases hroot : l.root with
      | none => rw [spine_nil T hroot] at hq; cases hq
      | some q' =>
        have h3 := higher_le.mp (hL hn q' hroot)
        have h4 := spine_prec T l h1 q' hroot q hq
        rw [higher_le]
        omega)
    obtain ⟨t', us', hrs, ht'⟩ := hr'.head
    -- the state after the operator
    obtain ⟨nr, tr, hr2⟩ := ih2 o.prec .CURLY_AND_BLOCK c
      { s with prev := t :: (ls.reverse ++ s.prev), rest := rs ++ u :: us, precs := o.prec :: s.precs } s.precs u us rfl rfl
      h2 hu (fun hn q hq => hR hn q hq) (by
      intro hn q hq
      exact hsp rfl q (by simp [spine, hn, hq]))
    have hstop := hr2 _ _ (.stop (higher_ends u o.prec hend nr tr.quiet.1 tr.quiet.2 _ c _ rfl))
    have hE : Evals (fun R => R.exp o.prec) c
        { s with prev := t :: (ls.reverse ++ s.prev), rest := rs ++ u :: us } nr
        { s with prev := rs.reverse ++ t :: (ls.reverse ++ s.prev), rest := u :: us } := by
      have h3 := EvalsFrom.expression (s := { s with prev := t :: (ls.reverse ++ s.prev), rest := rs ++ u :: us })
        (t := t') (ts := us' ++ u :: us) (by rw [hrs]; rfl)
        (by rcases ht' with h | h <;> (rw [h]; rfl)) hstop rfl
      exact h3.expr
    refine ⟨o.node t nl nr, o.tree t tl tr, fun a s' h => hl' a s' ?_⟩
    have hF := o.evals t ht (a := nl) c
      { s with prev := ls.reverse ++ s.prev, rest := t :: (rs ++ u :: us) } _ t' (us' ++ u :: us) ht'
      (by rw [hrs]; rfl) (by rw [hrs] at hE; exact hE)
    refine .infix (o.func nl) (by show t.type.isValid = true; rw [ht]; exact o.valid) ?_
      (fun R => o.left t _ ht nl tl.quiet.2 p R) hF hp ?_
    · show higherPrecedence t nl p ia c _ = _
      rw [higher_op o t ht nl tl.quiet.1, hop]
    · simpa [hrs, hp] using h
  | paren e ts x y hx hy h ih =>
    intro p ia c s ps u us hr hp hreg hu hb hsp
    have hy' : EndsAt y .LOWEST := ⟨.inr (.inl hy), fun o ho => by rw [hy] at ho; cases o <;> cases ho⟩
    obtain ⟨n, tn, hn⟩ := ih .LOWEST .CURLY_AND_BLOCK c
      { s with prev := x :: s.prev, rest := ts ++ y :: u :: us, depth := 0 :: s.depth, precs := .LOWEST :: s.precs } s.precs
      y (u :: us) rfl rfl hreg hy'.1 (fun _ o _ => o.lowest) (fun _ q _ => ⟨hy'.1, fun o ho => by
        rw [hy] at ho; cases o <;> cases ho⟩)
    refine ⟨n, tn, fun a s' h' => ?_⟩
    obtain ⟨t', us', hts, ht'⟩ := h.head
    have hstop := hn _ _ (.stop (higher_ends y .LOWEST hy' n tn.quiet.1 tn.quiet.2 _ c _ rfl))
    have hE := (EvalsFrom.expression (s := { s with
      prev := x :: s.prev, rest := ts ++ y :: u :: us, depth := 0 :: s.depth }) (t := t') (ts := us' ++ y :: u :: us)
        (by rw [hts]; rfl) (by rcases ht' with h | h <;> (rw [h]; rfl)) hstop rfl).expr
    have hG := group_evals x y u ts us n hy hu.ne t' us' hts ht' (by rintro mt ns d rfl; cases tn) c s
      (by rw [hr]; simp) hE
    have hcur : s.cur = x := by unfold PS.cur; rw [hr]; rfl
    refine .first parseGroup (fun R => by rw [hcur, hx]; rfl) hG ?_
    simpa using h'

/-- The tokens of an expression are parsed to its tree. -/
theorem Toks.tree {T : Table} {e : Exp} {ts : List Token} (h : Toks T false e ts) (hreg : Fits T e) (c : Cx) (z : Token)
    (hz : z.type = .Eof) : ∃ n s', Tree n e.regroup ∧ Evals parseTree c { rest := ts ++ [z] } n s' := by
  have hz' : EndsAt z .LOWEST := ⟨.inr (.inr (.inl hz)), fun o ho => by rw [hz] at ho; cases o <;> cases ho⟩
  obtain ⟨n, tn, hn⟩ := h.parses .LOWEST .CURLY_AND_BLOCK c { rest := ts ++ [z], precs := [.LOWEST] } [] z [] rfl rfl hreg
    hz'.1 (fun _ o _ => o.lowest) (fun _ q _ => ⟨hz'.1, fun o ho => by rw [hz] at ho; cases o <;> cases ho⟩)
  obtain ⟨t', us', hts, ht'⟩ := h.head
  refine ⟨n, _, tn, EvalsFrom.tree (t := t') (ts := us' ++ [z]) (e := z) (by rw [hts]; rfl) ?_ ?_ ?_
    (hn _ _ (.stop (higher_ends z .LOWEST hz' n tn.quiet.1 tn.quiet.2 _ c _ rfl))) rfl rfl hz⟩
  all_goals rcases ht' with h | h <;> (rw [h]; decide)

end NP
