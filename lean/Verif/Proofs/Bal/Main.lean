import Verif.Proofs.Bal.Defs

/-! Brackets: patterns, loops, conditionals, operators, and the whole parser. -/

namespace NP.Bal

open Spec

variable {R : Rec} {c : Cx} {s : PS}

theorem b_parsePatternKey (g : Good R) : okp (parsePatternKey R) c s fun _ s' => Bl s s' := by
  unfold parsePatternKey
  bgo

macro_rules | `(tactic| bspec) => `(tactic| first
  | ((with_reducible refine okp_call (b_parsePatternKey ‹_›) ?_); intro _ _ _))

theorem b_patternPair (g : Good R) : okp (patternPair R) c s fun _ s' => Bl s s' := by
  unfold patternPair
  bgo

theorem b_parseRange (g : Good R) {n : Node} (h : isPlain s.cur.type = true) :
    okp (parseRange R n) c s fun _ s' => Bl s s' := by
  unfold parseRange
  bgo

theorem b_parseUnary (g : Good R) (h : isPlain s.cur.type = true) : okp (parseUnary R) c s fun _ s' => Bl s s' := by
  unfold parseUnary
  bgo

macro_rules | `(tactic| bspec) => `(tactic| first
  | ((with_reducible refine okp_call (b_patternPair ‹_›) ?_); intro _ _ _)
  | ((with_reducible refine okp_call (b_parseRange ‹_› (by plain)) ?_); intro _ _ _)
  | ((with_reducible refine okp_call (b_parseUnary ‹_› (by plain)) ?_); intro _ _ _))

theorem b_parsePatternBase (g : Good R) : okp (parsePatternBase R) c s fun _ s' => Bl s s' := by
  unfold parsePatternBase
  bgo

macro_rules | `(tactic| bspec) => `(tactic| first
  | ((with_reducible refine okp_call (b_parsePatternBase ‹_›) ?_); intro _ _ _))

theorem b_parseCaseInPattern (g : Good R) : okp (parseCaseInPattern R) c s fun _ s' => Bl s s' := by
  unfold parseCaseInPattern
  bgo

theorem b_parsePatternList (g : Good R) : okp (parsePatternList R) c s fun _ s' => Bl s s' := by
  unfold parsePatternList
  bgo

macro_rules | `(tactic| bspec) => `(tactic| first
  | ((with_reducible refine okp_call (b_parsePatternList ‹_›) ?_); intro _ _ _))

theorem b_parseCaseInPatterns (g : Good R) : okp (parseCaseInPatterns R) c s fun _ s' => Bl s s' := by
  unfold parseCaseInPatterns
  bgo

macro_rules | `(tactic| bspec) => `(tactic| first
  | ((with_reducible refine okp_call (b_parseCaseInPatterns ‹_›) ?_); intro _ _ _))

theorem b_parseCase (g : Good R) (h : s.cur.type = .CaseKeyword) : okp (parseCase R) c s fun _ s' => Bl s s' := by
  unfold parseCase parseBodyEnd
  dsimp only
  bgo

theorem b_parseFor (g : Good R) (h : s.cur.type = .ForKeyword) : okp (parseFor R) c s fun _ s' => Bl s s' := by
  unfold parseFor parseBodyEnd
  dsimp only
  bgo

theorem b_parseForwardArgs (h : isPlain s.cur.type = true) : okp parseForwardArgs c s fun _ s' => Bl s s' := by
  unfold parseForwardArgs
  bgo

macro_rules | `(tactic| bspec) => `(tactic| first
  | ((with_reducible refine okp_call (b_parseForwardArgs (by plain)) ?_); intro _ _ _))

theorem b_parseTripleDot (g : Good R) (h : isPlain s.cur.type = true) :
    okp (parseTripleDot R) c s fun _ s' => Bl s s' := by
  unfold parseTripleDot
  bgo

theorem b_parseGroup (g : Good R) (h : s.cur.type = .LParen) : okp (parseGroup R) c s fun _ s' => Bl s s' := by
  unfold parseGroup
  bgo

theorem b_parseIfBody (g : Good R) : okp (parseIfBody R) c s fun _ s' => Bl s s' := by
  unfold parseIfBody
  dsimp only
  bgo

theorem b_thenOrNewline : okp thenOrNewline c s fun _ s' => Bl s s' := by
  unfold thenOrNewline
  bgo

macro_rules | `(tactic| bspec) => `(tactic| first
  | ((with_reducible refine okp_call (b_parseIfBody ‹_›) ?_); intro _ _ _)
  | ((with_reducible refine okp_call b_thenOrNewline ?_); intro _ _ _))

/-- From after `if` or `elsif` to the `end`. -/
theorem b_ifBranch (g : Good R) {b : Bool} :
    okp (parseIfBranch R b) c s fun _ s' => ∃ s₁ : PS, s₁.prev = s.cur :: s.prev ∧ Be s₁ s' := by
  unfold parseIfBranch
  refine okp_bind (okp_cur (okp_bind (okp_advance ?_)))
  intro s1 e1 _
  dsimp only
  refine okp_mono (Q := fun _ s' => Be s1 s') ?_ fun _ s' h => ⟨s1, e1, h⟩
  bgo
  all_goals first
    | (refine ⟨_, _, ‹_›, ‹_›, ?_, ?_⟩; (focus sf); intro _ _; bk)
    | (refine okp_mono (g.ifBranch _ _ _ (by tyis)) ?_
       rintro _ s5 ⟨t, l, ht, hl, hs, hb⟩
       refine okp_bind (okp_cur (okp_pure ⟨t, l, ht, hl, List.IsSuffix.trans (by sf) hs, fun st _ => hb _ (by bk)⟩)))

theorem b_elsif (g : Good R) {b : Bool} (h : s.cur.type = .ElsifKeyword) :
    okp (parseIfBranch R b) c s fun _ s' => Be s s' := by
  refine okp_mono (b_ifBranch g) ?_
  rintro _ s' ⟨s1, e1, t, l, ht, hl, hs, hb⟩
  exact ⟨t, l, ht, hl, List.IsSuffix.trans (by sf) hs, fun st _ => hb _ (by bk)⟩

theorem b_parseIf (g : Good R) {b : Bool} (h : s.cur.type = .IfKeyword) :
    okp (parseIfBranch R b) c s fun _ s' => Bl s s' := by
  refine okp_mono (b_ifBranch g) ?_
  rintro _ s' ⟨s1, e1, t, l, ht, hl, hs, hb⟩
  refine .intro ?_ ?_
  · rw [hl]
    exact (List.IsSuffix.trans (by sf) hs).trans (List.suffix_cons _ _)
  · intro st k
    rw [hl]
    refine .closed _ .IfKeyword (by rw [ht]; rfl) (hb _ ?_)
    bk

theorem b_parseUnless (g : Good R) (h : s.cur.type = .UnlessKeyword) : okp (parseUnless R) c s fun _ s' => Bl s s' := by
  unfold parseUnless
  dsimp only
  bgo

theorem b_parseWhile (g : Good R) (h : s.cur.type = .WhileKeyword ∨ s.cur.type = .UntilKeyword) :
    okp (parseWhile R) c s fun _ s' => Bl s s' := by
  unfold parseWhile parseBodyEnd
  dsimp only
  rcases h with h | h <;> bgo

theorem b_parseNot (g : Good R) (h : isPlain s.cur.type = true) : okp (parseNot R) c s fun _ s' => Bl s s' := by
  unfold parseNot
  bgo

theorem b_parseSplat (g : Good R) (h : isPlain s.cur.type = true) : okp (parseSplat R) c s fun _ s' => Bl s s' := by
  unfold parseSplat
  bgo

theorem b_parseSuper (h : isPlain s.cur.type = true) : okp parseSuper c s fun _ s' => Bl s s' := by
  unfold parseSuper
  bgo

theorem b_parseWordArray (g : Good R) (h : s.cur.type = .PercentLowerW ∨ s.cur.type = .PercentUpperW) :
    okp (parseWordArray R) c s fun _ s' => Bl s s' := by
  unfold parseWordArray
  rcases h with h | h <;> bgo

theorem b_parseWordSymbolArray (g : Good R) (h : s.cur.type = .PercentLowerI ∨ s.cur.type = .PercentUpperI) :
    okp (parseWordSymbolArray R) c s fun _ s' => Bl s s' := by
  unfold parseWordSymbolArray
  rcases h with h | h <;> bgo

theorem b_parseAssignmentValue (g : Good R) {a b : Bool} : okp (parseAssignmentValue R a b) c s fun _ s' => Bl s s' := by
  unfold parseAssignmentValue
  bgo

macro_rules | `(tactic| bspec) => `(tactic| first
  | ((with_reducible refine okp_call (b_parseAssignmentValue ‹_›) ?_); intro _ _ _))

theorem b_parseAssignment (g : Good R) {a : Bool} {n : Node} (h : s.cur.type = .Equal) :
    okp (parseAssignment R a n) c s fun _ s' => Bl s s' := by
  have al : okp (addAssignmentLocals n) c s fun _ s' => Bl s s' ∧ s'.cur = s.cur := by
    unfold addAssignmentLocals
    split
    all_goals first
      | exact okp_addNames fun _ b e => ⟨b, e⟩
      | exact okp_pure ⟨Bl.refl, rfl⟩
      | exact okp_throwTok
  unfold parseAssignment
  refine okp_ite (fun _ => ?_) fun _ => ?_
  · bgo
  · refine okp_bind (okp_cur (okp_bind (okp_mono al ?_)))
    rintro _ _ ⟨_, _⟩
    bgo

theorem b_parseInfix (g : Good R) {n : Node} (h : isPlain s.cur.type = true) :
    okp (parseInfix R n) c s fun _ s' => Bl s s' := by
  unfold parseInfix
  bgo

theorem b_parseLogical (g : Good R) {n : Node} : okp (parseLogical R n) c s fun _ s' => Bl s s' := by
  unfold parseLogical
  bgo

theorem b_parseMatch (g : Good R) {n : Node} (h : isPlain s.cur.type = true) :
    okp (parseMatch R n) c s fun _ s' => Bl s s' := by
  unfold parseMatch
  bgo

macro_rules | `(tactic| bspec) => `(tactic| first
  | ((with_reducible refine okp_call (b_parseMatch ‹_› (by plain)) ?_); intro _ _ _))

theorem b_parseNotMatch (g : Good R) {n : Node} (h : isPlain s.cur.type = true) :
    okp (parseNotMatch R n) c s fun _ s' => Bl s s' := by
  unfold parseNotMatch
  bgo

theorem b_parseModifier (g : Good R) {n : Node} : okp (parseModifier R n) c s fun _ s' => Bl s s' := by
  unfold parseModifier
  refine okp_bind (okp_cur ?_)
  split
  bgo

theorem b_parseOpAttrAssign (g : Good R) {l r : Node} {m : Str} {ns : List Node} {b : Bool}
    (h : isPlain s.cur.type = true) : okp (parseOpAttrAssign R l r m ns b) c s fun _ s' => Bl s s' := by
  unfold parseOpAttrAssign
  bgo

theorem b_parseOpAssignRest (g : Good R) {l : Node} (h : isPlain s.cur.type = true) :
    okp (parseOpAssignRest R l) c s fun _ s' => Bl s s' := by
  unfold parseOpAssignRest
  refine okp_bind (okp_cur (okp_bind (okp_advance ?_)))
  intro s1 e1 _
  split
  all_goals first
    | exact okp_abort
    | (refine okp_bind (okp_call (g.expr _ _ _ _) ?_)
       intro _ _ _
       refine okp_pure ?_
       bl)

theorem b_parseOpAssign (g : Good R) {n : Node} (h : isPlain s.cur.type = true) :
    okp (parseOpAssign R n) c s fun _ s' => Bl s s' := by
  unfold parseOpAssign
  split
  · exact b_parseOpAttrAssign g h
  · exact b_parseOpAttrAssign g h
  · refine okp_bind (okp_addNames ?_)
    intro s1 _ e
    refine okp_call (b_parseOpAssignRest g (by plain)) ?_
    intro _ _ _
    bl
  · exact b_parseOpAssignRest g h
  · exact b_parseOpAssignRest g h
  · exact b_parseOpAssignRest g h
  · exact okp_throwTok

theorem b_parseProcCall {n : Node} (h : isPlain s.cur.type = true) : okp (parseProcCall n) c s fun _ s' => Bl s s' := by
  unfold parseProcCall
  bgo

theorem b_parseRescueMod (g : Good R) {n : Node} (h : isPlain s.cur.type = true) :
    okp (parseRescueMod R n) c s fun _ s' => Bl s s' := by
  unfold parseRescueMod
  bgo

theorem b_parseTernary (g : Good R) {n : Node} : okp (parseTernary R n) c s fun _ s' => Bl s s' := by
  unfold parseTernary
  bgo

theorem b_null (g : Good R) {f : P Node} (h : nullDenotation R s.cur.type = some f) :
    okp f c s fun _ s' => Bl s s' := by
  unfold nullDenotation at h
  split at h
  all_goals first
    | cases h; done
    | (cases h
       first
       | with_reducible exact b_parseAlias g ‹_›
       | with_reducible exact b_parseArray g (.inl ‹_›)
       | with_reducible exact b_parseArray g (.inr ‹_›)
       | with_reducible exact b_parseBackRef (by plain)
       | with_reducible exact b_parseBegin g ‹_›
       | with_reducible exact b_parseBeginBlock g (by plain)
       | with_reducible exact b_parseBlockPass g (by plain)
       | with_reducible exact b_parseOne (by plain)
       | with_reducible exact b_parseBreakNext g (by plain)
       | with_reducible exact b_parseCase g ‹_›
       | with_reducible exact b_parseClass g ‹_›
       | with_reducible exact b_parseDef g ‹_›
       | with_reducible exact b_parseDefined g (by plain)
       | with_reducible exact b_parseTripleDot g (by plain)
       | with_reducible exact b_parseEndBlock g (by plain)
       | with_reducible exact b_parseFileConstant (by plain)
       | with_reducible exact b_parseFor g ‹_›
       | with_reducible exact b_parseGroup g ‹_›
       | with_reducible exact b_parseHash g
       | with_reducible exact b_parseIdentifier (by plain)
       | with_reducible exact b_parseIf g ‹_›
       | with_reducible exact b_parseInterpolatedRegexp g ‹_›
       | with_reducible exact b_parseInterpolatedShell g ‹_›
       | with_reducible exact b_parseInterpolatedString g ‹_›
       | with_reducible exact okp_mono (b_parseInterpolatedSymbol g ‹_›) fun _ _ h => h.1
       | with_reducible exact b_parseKeywordSplat g (by plain)
       | with_reducible exact b_parseLit
       | with_reducible exact b_parseModule g ‹_›
       | with_reducible exact b_parseNot g (by plain)
       | with_reducible exact b_parseReturn g (by plain)
       | with_reducible exact b_parseSplat g (by plain)
       | with_reducible exact b_parseStabbyProc g ‹_›
       | with_reducible exact b_parseString g ‹_›
       | with_reducible exact b_parseSuper (by plain)
       | with_reducible exact b_parseSymbol ‹_›
       | with_reducible exact b_parseSymbolKey ‹_›
       | with_reducible exact b_parseTopLevelConstant ‹_›
       | with_reducible exact b_parseUnary g (by plain)
       | with_reducible exact b_parseUndef g ‹_›
       | with_reducible exact b_parseUnless g ‹_›
       | with_reducible exact b_parseWhile g (.inl ‹_›)
       | with_reducible exact b_parseWhile g (.inr ‹_›)
       | with_reducible exact b_parseWordSymbolArray g (.inl ‹_›)
       | with_reducible exact b_parseWordSymbolArray g (.inr ‹_›)
       | with_reducible exact b_parseWordArray g (.inl ‹_›)
       | with_reducible exact b_parseWordArray g (.inr ‹_›))

theorem b_left (g : Good R) {pk : Token} {n : Node} {p : Prec} {f : P Node}
    (h : leftDenotation R s.cur pk n p = some f) : okp f c s fun _ s' => Bl s s' := by
  have df : ∀ {f : P Node}, (if isFirstArg n s.cur then some (parseCallWithoutParens R n) else none) = some f →
      okp f c s fun _ s' => Bl s s' := by
    intro f h
    split at h
    · cases h
      exact b_parseCallWithoutParens g
    · cases h
  unfold leftDenotation at h
  dsimp only at h
  split at h
  all_goals (try (split at h))
  all_goals first
    | exact df h
    | (cases h; done)
    | (cases h
       first
       | with_reducible exact b_parseAssignment g ‹_›
       | with_reducible exact b_parseCallWithParens g ‹_›
       | with_reducible exact b_parseCallWithoutParens g
       | with_reducible exact b_parseConstantResolution g ‹_›
       | with_reducible exact b_parseInfix g (by plain)
       | with_reducible exact b_parseIter g (.inl ‹_›)
       | with_reducible exact b_parseIter g (.inr ‹_›)
       | with_reducible exact b_parseLogical g
       | with_reducible exact b_parseMatch g (by plain)
       | with_reducible exact b_parseModifier g
       | with_reducible exact b_parseMultipleAssignment g
       | with_reducible exact b_parseNotMatch g (by plain)
       | with_reducible exact b_parseOpAssign g (by plain)
       | with_reducible exact b_parseRange g (by plain)
       | with_reducible exact b_parseRef g (.inl ‹_›)
       | with_reducible exact b_parseRef g (.inr ‹_›)
       | with_reducible exact b_parseRescueMod g (by plain)
       | with_reducible exact b_parseSafeSend ‹_›
       | with_reducible exact b_parseProcCall (by plain)
       | with_reducible exact b_parseSend ‹_›
       | with_reducible exact b_parseTernary g)

theorem b_higher {t : Token} {n : Node} {p : Prec} {ia : IterAllow} :
    okp (higherPrecedence t n p ia) c s fun _ s' => s' = s := by
  unfold okp
  cases hr : higherPrecedence t n p ia c s with
  | ok r s' =>
    unfold higherPrecedence at hr
    dsimp only at hr ⊢
    repeat' split at hr
    all_goals (cases hr <;> rfl)
  | _ => trivial

theorem b_exprLoop (g : Good R) {p : Prec} {ia : IterAllow} {n : Node} :
    okp (exprLoop R p ia n) c s fun _ s' => Bl s s' := by
  unfold exprLoop
  refine okp_loopB ?_ fun _ _ h => h
  intro n s1 b1
  refine okp_bind (okp_cur (okp_ite (fun _ => ?_) fun _ => okp_pure b1))
  refine okp_bind (okp_mono b_higher ?_)
  intro r _ hs
  subst hs
  refine okp_ite (fun _ => ?_) fun _ => okp_pure b1
  refine okp_bind (okp_peek ?_)
  split
  · exact okp_throwTok
  · refine okp_bind (okp_call (b_left g ‹_›) ?_)
    intro _ _ _
    bgo

theorem b_parseExpression (g : Good R) {p : Prec} {ia : IterAllow} :
    okp (parseExpression R p ia) c s fun _ s' => Bl s s' := by
  unfold parseExpression
  refine okp_bind (okp_skipNewlines ?_)
  intro s1 _ _
  refine okp_bind (okp_pushPrec ?_)
  intro s2 _ _
  refine okp_bind (okp_curTy ?_)
  split
  · exact okp_throwUnexpected
  · refine okp_bind (okp_call (b_null g ‹_›) ?_)
    intro _ _ _
    refine okp_bind (okp_call (b_exprLoop g) ?_)
    intro _ _ _
    bgo

theorem knot_good : ∀ n, Good (knot n)
  | 0 => ⟨fun _ _ _ _ => trivial, fun _ _ => trivial, fun _ _ _ => trivial, fun _ _ _ => trivial,
      fun _ _ _ _ _ => trivial, fun _ _ _ _ => trivial, fun _ _ _ => trivial, fun _ _ _ => trivial⟩
  | n + 1 =>
    have g := knot_good n
    ⟨fun _ _ _ _ => b_parseExpression g, fun _ _ => b_parseCaseInPattern g, fun _ _ _ => b_parseAssignmentIdentifier g,
      fun _ _ _ => b_parseArgDefaultValue g, fun _ _ _ _ _ => b_parseDefSingleArg g, fun _ _ _ h => b_elsif g h,
      fun _ _ h => b_parseString g h, fun _ _ h => b_parseInterpolatedString g h⟩

theorem b_parseTree (g : Good R) : okp (parseTree R) c s fun _ s' => Bl s s' := by
  unfold parseTree
  bgo

end NP.Bal
