import Verif.Proofs.Era.Defs

/-!
Statements and operators are read without positions as they are with them.
-/

namespace NP.Era

open Spec

variable {R : Rec}

theorem n_parseBegin (g : GoodN R) : N (parseBegin R) (parseBegin R) := by
  unfold parseBegin
  ngo

theorem n_parseBeginlessRange (g : GoodN R) : N (parseBeginlessRange R) (parseBeginlessRange R) := by
  unfold parseBeginlessRange
  ngo

theorem n_parseBreakNext (g : GoodN R) {mk mk' : Token → Option Node → Node} (h_mk : ∀ t o, mk' (er t) (er o) = er (mk t o)) :
    N (parseBreakNext R mk) (parseBreakNext R mk') := by
  have h1 := fun t n => h_mk t (some n)
  have h2 := fun t => h_mk t none
  have h3 := fun t => h_mk t (some (.nilSexp t))
  have h4 := fun t l => h_mk t (some (.array t l))
  simp only [ner] at h1 h2 h3 h4
  unfold parseBreakNext
  ngo

theorem n_parseReturn (g : GoodN R) : N (parseReturn R) (parseReturn R) := by
  unfold parseReturn
  ngo

theorem n_parseCaseBody (g : GoodN R) {ty : Ttype} : N (parseCaseBody R ty) (parseCaseBody R ty) := by
  unfold parseCaseBody
  ngo

theorem n_afterCondition : N (afterCondition) (afterCondition) := by
  unfold afterCondition
  ngo

theorem n_parsePatternKey (g : GoodN R) : N (parsePatternKey R) (parsePatternKey R) := by
  unfold parsePatternKey
  ngo

theorem n_patternPair (g : GoodN R) : N (patternPair R) (patternPair R) := by
  unfold patternPair
  ngo

theorem n_parseRange (g : GoodN R) {left left' : Node} (h_left : left' = er left) :
    N (parseRange R left) (parseRange R left') := by
  subst h_left
  unfold parseRange
  ngo

theorem n_parseUnary (g : GoodN R) : N (parseUnary R) (parseUnary R) := by
  unfold parseUnary
  ngo

theorem n_parsePatternBase (g : GoodN R) : N (parsePatternBase R) (parsePatternBase R) := by
  unfold parsePatternBase
  ngo

theorem n_parseCaseInPattern (g : GoodN R) : N (parseCaseInPattern R) (parseCaseInPattern R) := by
  unfold parseCaseInPattern
  ngo

theorem n_parsePatternList (g : GoodN R) : N (parsePatternList R) (parsePatternList R) := by
  unfold parsePatternList
  ngo

theorem n_parseCaseInPatterns (g : GoodN R) : N (parseCaseInPatterns R) (parseCaseInPatterns R) := by
  unfold parseCaseInPatterns
  ngo

theorem n_parseCase (g : GoodN R) : N (parseCase R) (parseCase R) := by
  unfold parseCase
  ngo

theorem n_parseFor (g : GoodN R) : N (parseFor R) (parseFor R) := by
  unfold parseFor
  ngo

theorem n_parseForwardArgs : N (parseForwardArgs) (parseForwardArgs) := by
  unfold parseForwardArgs
  ngo

theorem n_parseTripleDot (g : GoodN R) : N (parseTripleDot R) (parseTripleDot R) := by
  unfold parseTripleDot
  ngo

theorem n_parseGroup (g : GoodN R) : N (parseGroup R) (parseGroup R) := by
  unfold parseGroup
  ngo

theorem n_parseIfBody (g : GoodN R) : N (parseIfBody R) (parseIfBody R) := by
  unfold parseIfBody
  ngo

theorem n_thenOrNewline : N (thenOrNewline) (thenOrNewline) := by
  unfold thenOrNewline
  ngo

theorem n_parseIfBranch (g : GoodN R) {matchCond : Bool} : N (parseIfBranch R matchCond) (parseIfBranch R matchCond) := by
  unfold parseIfBranch
  ngo

theorem n_parseUnless (g : GoodN R) : N (parseUnless R) (parseUnless R) := by
  unfold parseUnless
  ngo

theorem n_parseWhile (g : GoodN R) : N (parseWhile R) (parseWhile R) := by
  unfold parseWhile
  ngo

theorem n_parseNot (g : GoodN R) : N (parseNot R) (parseNot R) := by
  unfold parseNot
  ngo

theorem n_parseSplat (g : GoodN R) : N (parseSplat R) (parseSplat R) := by
  unfold parseSplat
  ngo

theorem n_parseSuper : N (parseSuper) (parseSuper) := by
  unfold parseSuper
  ngo

theorem n_parseWordArray (g : GoodN R) : N (parseWordArray R) (parseWordArray R) := by
  unfold parseWordArray
  ngo

theorem n_parseWordSymbolArray (g : GoodN R) : N (parseWordSymbolArray R) (parseWordSymbolArray R) := by
  unfold parseWordSymbolArray
  ngo

theorem n_parseAssignmentValue (g : GoodN R) {toArray : Bool} {allowMultiple : Bool} :
    N (parseAssignmentValue R toArray allowMultiple) (parseAssignmentValue R toArray allowMultiple) := by
  unfold parseAssignmentValue
  ngo

theorem n_parseAssignment (g : GoodN R) {allowMultiple : Bool} {left left' : Node} (h_left : left' = er left) :
    N (parseAssignment R allowMultiple left) (parseAssignment R allowMultiple left') := by
  subst h_left
  unfold parseAssignment
  ngo

theorem n_parseInfix (g : GoodN R) {left left' : Node} (h_left : left' = er left) :
    N (parseInfix R left) (parseInfix R left') := by
  subst h_left
  unfold parseInfix
  ngo

theorem n_parseLogical (g : GoodN R) {left left' : Node} (h_left : left' = er left) :
    N (parseLogical R left) (parseLogical R left') := by
  subst h_left
  unfold parseLogical
  ngo

theorem n_parseMatch (g : GoodN R) {left left' : Node} (h_left : left' = er left) :
    N (parseMatch R left) (parseMatch R left') := by
  subst h_left
  unfold parseMatch
  refine N_bind n_cur fun t => N_bind n_advance fun _ => N_bind (n_exp g) fun e => ?_
  rcases regexp_or left with ⟨t', p, o, rfl⟩ | hl
  · simp only [ner]
    exact N_pure (by simp only [ner])
  · have hl' := er_not_regexp hl
    rcases regexp_or e with ⟨t', p, o, rfl⟩ | he
    · repeat' split
      all_goals first
        | exact absurd rfl (hl _ _ _)
        | exact absurd ‹er left = _› (hl' _ _ _)
        | exact (‹∀ t' p' o', Node.regexp _ _ _ = Node.regexp t' p' o' → False› _ _ _ rfl).elim
        | exact (‹∀ t' p' o', er (Node.regexp _ _ _) = Node.regexp t' p' o' → False› _ _ _ rfl).elim
        | (refine N_pure ?_; simp only [ner]; done)
        | (simp only [ner]; exact N_pure (by simp only [ner]))
    · have he' := er_not_regexp he
      repeat' split
      all_goals first
        | exact absurd rfl (hl _ _ _)
        | exact absurd ‹er left = _› (hl' _ _ _)
        | exact absurd rfl (he _ _ _)
        | exact absurd ‹er e = _› (he' _ _ _)
        | (refine N_pure ?_; simp only [ner]; done)

theorem n_parseNotMatch (g : GoodN R) {left left' : Node} (h_left : left' = er left) :
    N (parseNotMatch R left) (parseNotMatch R left') := by
  subst h_left
  unfold parseNotMatch
  ngo

theorem n_parseModifier (g : GoodN R) {left left' : Node} (h_left : left' = er left) :
    N (parseModifier R left) (parseModifier R left') := by
  subst h_left
  unfold parseModifier
  ngo

theorem n_parseOpAttrAssign (g : GoodN R) {left left' : Node} {recv recv' : Node} {msg : Str} {args args' : List Node} {safe : Bool} (h_left : left' = er left) (h_recv : recv' = er recv) (h_args : args' = er args) :
    N (parseOpAttrAssign R left recv msg args safe) (parseOpAttrAssign R left' recv' msg args' safe) := by
  subst h_left h_recv h_args
  unfold parseOpAttrAssign
  ngo

theorem n_parseOpAssignRest (g : GoodN R) {left left' : Node} (h_left : left' = er left) :
    N (parseOpAssignRest R left) (parseOpAssignRest R left') := by
  subst h_left
  unfold parseOpAssignRest
  ngo

theorem n_parseOpAssign (g : GoodN R) {left left' : Node} (h_left : left' = er left) :
    N (parseOpAssign R left) (parseOpAssign R left') := by
  subst h_left
  unfold parseOpAssign
  ngo

theorem n_parseProcCall {left left' : Node} (h_left : left' = er left) : N (parseProcCall left) (parseProcCall left') := by
  subst h_left
  unfold parseProcCall
  ngo

theorem n_parseRescueMod (g : GoodN R) {left left' : Node} (h_left : left' = er left) :
    N (parseRescueMod R left) (parseRescueMod R left') := by
  subst h_left
  unfold parseRescueMod
  ngo

theorem n_parseTernary (g : GoodN R) {left left' : Node} (h_left : left' = er left) :
    N (parseTernary R left) (parseTernary R left') := by
  subst h_left
  unfold parseTernary
  ngo

theorem n_higherPrecedence {t t' : Token} {left left' : Node} {p : Prec} {ia : IterAllow} (h_t : t' = er t) (h_left : left' = er left) :
    N (higherPrecedence t left p ia) (higherPrecedence t' left' p ia) := by
  subst h_t h_left
  intro c c' s _
  unfold higherPrecedence
  simp only [ner]
  split
  · rfl
  · split
    · split
      · obtain ⟨prev, rest, d, ps, ls⟩ := s
        cases d <;> rfl
      · rfl
    · split <;> rfl

/-- `q` does without positions what `p` does if the type of the current token is `ty`. -/
def At (ty : Ttype) (p q : P Node) : Prop :=
  ∀ (c c' : Cx) (s : PS), c'.file = c.file → s.cur.type = ty → Sim (p c s) (q c' (er s))

theorem N.at {ty : Ttype} {p q : P Node} (h : N p q) : At ty p q := fun c c' s e _ => h c c' s e

theorem n_nullDenotation (g : GoodN R) {ty : Ttype} {f : P Node} (h : nullDenotation R ty = some f) : At ty f f := by
  unfold nullDenotation at h
  split at h
  all_goals
    cases h
    try (refine N.at ?_; (first | ncall | (refine n_parseOne ?_; intro t; simp only [ner]; done) |
      (refine n_parseBreakNext g ?_; intro t o; simp only [ner]; done)))
  intro c c' s hc h
  refine (?_ : Sim (parseOne _ c s) (parseOne _ c' (er s)))
  have h1 : parseOne (fun t => .fixnum t (t.line + 1)) c s =
      (advance >>= fun _ => pure (.fixnum s.cur (s.cur.line + 1))) c s := rfl
  have h2 : parseOne (fun t => .fixnum t (t.line + 1)) c' (er s) =
      (advance >>= fun _ => pure (.fixnum (er s).cur ((er s).cur.line + 1))) c' (er s) := rfl
  rw [h1, h2]
  refine (N_bind (f := fun _ => pure (Node.fixnum s.cur (s.cur.line + 1)))
    (g := fun _ => pure (Node.fixnum (er s).cur ((er s).cur.line + 1))) n_advance fun _ => N_pure ?_) c c' s hc
  rw [er_cur]
  simp only [ner, h, if_true]
  rfl

/-- The same for a function that is possibly missing. -/
def Both (o o' : Option (P Node)) : Prop := (o = none ∧ o' = none) ∨ ∃ f f', o = some f ∧ o' = some f' ∧ N f f'

theorem Both_ite {x : Prop} {d e : Decidable x} {a b a' b' : Option (P Node)} (h : Both a b) (h' : Both a' b') :
    Both (@ite _ x d a a') (@ite _ x e b b') := by
  by_cases k : x
  · rw [if_pos k, if_pos k]
    exact h
  · rw [if_neg k, if_neg k]
    exact h'

theorem n_leftDenotation (g : GoodN R) {t k : Token} {left : Node} {p : Prec} :
    Both (leftDenotation R t k left p) (leftDenotation R (er t) (er k) (er left) p) := by
  have dflt : Both (if isFirstArg left t = true then some (parseCallWithoutParens R left) else none)
      (if isFirstArg (er left) (er t) = true then some (parseCallWithoutParens R (er left)) else none) := by
    rw [er_isFirstArg]
    exact Both_ite (.inr ⟨_, _, rfl, rfl, by ncall⟩) (.inl ⟨rfl, rfl⟩)
  unfold leftDenotation
  simp only [ner] at dflt ⊢
  generalize t.type = ty
  cases ty <;> dsimp only
  all_goals repeat' first
    | exact dflt
    | (with_reducible refine Both_ite ?_ ?_)
    | refine Both_ite ?_ ?_
    | (refine .inr ⟨_, _, rfl, rfl, ?_⟩; ncall)

theorem n_exprLoop (g : GoodN R) {p : Prec} {ia : IterAllow} {left left' : Node} (h_left : left' = er left) :
    N (exprLoop R p ia left) (exprLoop R p ia left') := by
  unfold exprLoop
  refine n_loop h_left fun left => N_bind n_cur fun t => ?_
  ns
  nite
  · refine N_bind (n_higherPrecedence rfl rfl) fun b => ?_
    ns
    nite
    · refine N_bind n_peek fun k => ?_
      rcases n_leftDenotation g (t := t) (k := k) (left := left) (p := p) with ⟨h1, h2⟩ | ⟨f, f', h1, h2, h⟩
      · rw [h1, h2]
        exact n_throwTok rfl
      · rw [h1, h2]
        refine N_bind h fun _ => ?_
        ngo
    · ngo
  · ngo

theorem N_curTy {f g : Ttype → P Node} (h : ∀ ty, At ty (f ty) (g ty)) : N (curTy >>= f) (curTy >>= g) := by
  intro c c' s hc
  have h := h s.cur.type c c' s hc rfl
  have e : (curTy >>= g) c' (er s) = g (er s).cur.type c' (er s) := rfl
  rw [e, er_cur]
  exact h

theorem At_bind {ty : Ttype} {p q : P Node} {f g : Node → P Node} (h : At ty p q) (k : ∀ a, N (f a) (g (er a))) :
    At ty (p >>= f) (q >>= g) := by
  intro c c' s hc e
  have h := h c c' s hc e
  show Sim (P.bind p f c s) (P.bind q g c' (er s))
  unfold P.bind
  revert h
  cases p c s with
  | ok a s' =>
    intro h
    unfold Sim at h
    rw [h]
    exact k a c c' s' hc
  | err e =>
    rintro ⟨e', h⟩
    rw [h]
    exact ⟨e', rfl⟩
  | _ =>
    intro h
    unfold Sim at h
    rw [h]
    rfl

theorem n_parseExpression (g : GoodN R) {p : Prec} {ia : IterAllow} :
    N (parseExpression R p ia) (parseExpression R p ia) := by
  unfold parseExpression
  refine N_bind n_skipNewlines fun _ => N_bind n_pushPrec fun _ => N_curTy fun ty => ?_
  cases h : nullDenotation R ty with
  | none => exact N.at n_throwUnexpected
  | some f => exact At_bind (n_nullDenotation g h) fun _ => N_bind (n_exprLoop g rfl) fun _ => N_bind n_popPrec fun _ => N_pure rfl

theorem good_knot (n : Nat) : GoodN (knot n) := by
  induction n with
  | zero =>
    exact ⟨fun _ _ => N_fuel, N_fuel, fun _ => N_fuel, fun _ => N_fuel, fun _ _ _ => N_fuel, fun _ => N_fuel, N_fuel, N_fuel⟩
  | succ n ih =>
    exact ⟨fun _ _ => n_parseExpression ih, n_parseCaseInPattern ih, fun _ => n_parseAssignmentIdentifier ih,
      fun _ => n_parseArgDefaultValue ih, fun _ _ _ => n_parseDefSingleArg ih rfl, fun _ => n_parseIfBranch ih,
      n_parseString ih, n_parseInterpolatedString ih⟩

theorem n_parseTree (g : GoodN R) : N (parseTree R) (parseTree R) := by
  unfold parseTree
  ngo

end NP.Era
