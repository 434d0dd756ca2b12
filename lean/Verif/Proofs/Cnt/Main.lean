import Verif.Proofs.Cnt.Defs

/-! Numbers: control flow, patterns, operators, and the whole parser. -/

namespace NP.Cnt

open Spec

variable {w : Option Token → Nat} {R : Rec} {c : Cx} {s : PS}

@[cwt] theorem wt_node {b : Blk} : wt w b.node = wts w b.nodes := by
  unfold Blk.node
  cz

@[cwt] theorem wt_single {b : Blk} : wt w b.single = wts w b.nodes := by
  unfold Blk.single
  split
  · rename_i e
    rw [e]
    cz
  · cz

theorem c_parseBegin (g : GoodC w R) (h : nn s.cur.type = true) :
    okc w (parseBegin R) c s fun a s' => u w s' = u w s + wt w a := by
  unfold parseBegin
  cgo
  all_goals
    obtain ⟨_, _, _, e⟩ := ‹∃ rs e en, Node.begin_ _ _ [] none none = _›
    cases e
    cd

theorem c_parseBeginlessRange (g : GoodC w R) (h : nn s.cur.type = true) :
    okc w (parseBeginlessRange R) c s fun a s' => u w s' = u w s + wt w a := by
  unfold parseBeginlessRange
  cgo

theorem c_parseBreakNext (g : GoodC w R) {mk : Token → Option Node → Node} (k : ∀ t o, wt w (mk t o) = wto w o) (h : nn s.cur.type = true) :
    okc w (parseBreakNext R mk) c s fun a s' => u w s' = u w s + wt w a := by
  unfold parseBreakNext
  cgo
  all_goals (simp only [k, cwt]; cd)

theorem c_parseReturn (g : GoodC w R) (h : nn s.cur.type = true) :
    okc w (parseReturn R) c s fun a s' => u w s' = u w s + wt w a := by
  unfold parseReturn
  cgo

theorem c_parseCaseBody (g : GoodC w R) {ty : Ttype} :
    okc w (parseCaseBody R ty) c s fun a s' => u w s' = u w s + wts w a := by
  unfold parseCaseBody
  cgo

theorem c_afterCondition  :
    okc w (afterCondition) c s fun _ s' => u w s' = u w s := by
  unfold afterCondition
  cgo

theorem c_parsePatternKey (g : GoodC w R) :
    okc w (parsePatternKey R) c s fun a s' => u w s' = u w s + wt w a := by
  unfold parsePatternKey
  cgo

theorem c_patternPair (g : GoodC w R) :
    okc w (patternPair R) c s fun a s' => u w s' = u w s + wts w a := by
  unfold patternPair
  cgo

theorem c_parseRange (g : GoodC w R) {n : Node} (h : nn s.cur.type = true) :
    okc w (parseRange R n) c s fun a s' => u w s' + wt w n = u w s + wt w a := by
  unfold parseRange
  cgo

theorem c_parseUnary (g : GoodC w R) (h : nn s.cur.type = true) :
    okc w (parseUnary R) c s fun a s' => u w s' = u w s + wt w a := by
  unfold parseUnary
  cgo
  have := wt_signed (w := w) ‹_›
  cd

theorem c_commaPairs (g : GoodC w R) {acc : List (List Node)} :
    okc w (commaLoop R (patternPair R) acc) c s fun l s' => u w s' + wts w acc.flatten = u w s + wts w l.flatten := by
  unfold commaLoop
  refine okc_loop (fun l s' => u w s' + wts w acc.flatten = u w s + wts w l.flatten) rfl ?_
  intro y s' hy
  cgo
  simp only [List.flatten_append, List.flatten_cons, List.flatten_nil, List.append_nil, cwt]
  cd

theorem c_parsePatternBase (g : GoodC w R) :
    okc w (parsePatternBase R) c s fun a s' => u w s' = u w s + wt w a := by
  unfold parsePatternBase
  cgo
  refine okc_mono (c_commaPairs g) ?_
  cin
  have e : ∀ l : List Node, [l].flatten = l := fun l => by simp
  rw [e] at *
  cgo

theorem c_parseCaseInPattern (g : GoodC w R) :
    okc w (parseCaseInPattern R) c s fun a s' => u w s' = u w s + wt w a := by
  unfold parseCaseInPattern
  cgo

theorem c_parsePatternList (g : GoodC w R) :
    okc w (parsePatternList R) c s fun a s' => u w s' = u w s + wt w a := by
  unfold parsePatternList
  cgo

@[cwt] theorem wt_wrapSplat {n : Node} : wt w (wrapSplat n) = wt w n := by
  unfold wrapSplat
  split <;> cz

theorem c_parseCaseInPatterns (g : GoodC w R) :
    okc w (parseCaseInPatterns R) c s fun a s' => u w s' = u w s + wt w a := by
  unfold parseCaseInPatterns
  refine okc_bind (okc_mono (c_parsePatternList g) ?_)
  cin
  refine okc_loop (fun x s' => u w s' = u w s + wt w x.1) (by cd) ?_
  intro y s' hy
  cgo

theorem c_parseCase (g : GoodC w R) (h : nn s.cur.type = true) :
    okc w (parseCase R) c s fun a s' => u w s' = u w s + wt w a := by
  unfold parseCase
  have hl : ∀ m s', u w s' = u w s + wt w m → okc w (do
      let (ns, els) ← loop (fun (x : List Node × Option (List Node)) => do
        let c ← cur
        match c.type with
        | .EndKeyword => pure (Loop.done x)
        | .WhenKeyword =>
          advance
          let conds ← parseCommaSeparated R
          afterCondition
          let b ← parseCaseBody R .WhenKeyword
          pure (Loop.again (x.1 ++ [.caseWhen c (.array c conds) b], x.2))
        | .InKeyword =>
          advance
          let pat ← parseCaseInPatterns R
          afterCondition
          let b ← parseCaseBody R .InKeyword
          pure (Loop.again (x.1 ++ [.caseIn c pat b], x.2))
        | .ElseKeyword =>
          if x.1.isEmpty then throwUnexpected (cs! "case 'when' or 'in'")
          else
            advance
            skipNewlines
            let b ← parseBodyEnd R
            expect .EndKeyword (cs! "case end")
            pure (Loop.again (x.1, some b.nodes))
        | _ => throwUnexpected (cs! "case when keyword")) R.fuel ([], none)
      expect .EndKeyword (cs! "case end")
      advance
      pure (.case_ s.cur m ns els)) c s' fun a s' => u w s' = u w s + wt w a := by
    intro m s' hs
    refine okc_bind (okc_mono (Q := fun x s' => u w s' = u w s + wt w m + wts w x.1 + wtb w x.2) ?_ ?_)
    · refine okc_loop (fun x s' => u w s' = u w s + wt w m + wts w x.1 + wtb w x.2 ∧
        (x.2 = none ∨ s'.cur.type = .EndKeyword)) ⟨by cd, .inl rfl⟩ ?_
      rintro ⟨ns, els⟩ s2 ⟨h2, h3⟩
      refine okc_bind (okc_cur ?_)
      split
      · cgo
      rotate_right
      · exact okc_throwUnexpected
      all_goals
        have : els = none := h3.resolve_right (by simp only [*]; decide)
        subst this
        cgo
        all_goals exact ⟨by cd, by simp [*]⟩
    · rintro ⟨ns, els⟩ s2 h2
      cgo
  refine okc_bind (okc_cur (okc_bind (okc_advance0 h fun s1 _ _ => okc_bind (okc_curTy ?_))))
  cinl
  split
  · exact hl _ _ (by cd)
  · exact okc_bind (okc_advance0 (by nnt) fun _ _ _ => hl _ _ (by cd))
  · exact okc_bind (okc_advance0 (by nnt) fun _ _ _ => hl _ _ (by cd))
  · refine okc_bind (okc_mono (c_exp g) ?_)
    cin
    exact okc_bind (okc_nextExpression fun _ _ => hl _ _ (by cd))

theorem c_parseFor (g : GoodC w R) (h : nn s.cur.type = true) :
    okc w (parseFor R) c s fun a s' => u w s' = u w s + wt w a := by
  unfold parseFor
  cgo

theorem c_parseForwardArgs (h : nn s.cur.type = true) :
    okc w (parseForwardArgs) c s fun a s' => u w s' = u w s + wt w a := by
  unfold parseForwardArgs
  cgo

theorem c_parseTripleDot (g : GoodC w R) (h : nn s.cur.type = true) :
    okc w (parseTripleDot R) c s fun a s' => u w s' = u w s + wt w a := by
  unfold parseTripleDot
  cgo

theorem c_parseGroup (g : GoodC w R) (h : nn s.cur.type = true) :
    okc w (parseGroup R) c s fun a s' => u w s' = u w s + wt w a := by
  unfold parseGroup
  refine okc_bind (okc_cur (okc_bind (okc_advance0 h fun _ _ _ => okc_bind (okc_curTy (okc_ite (fun _ => ?_) fun _ => ?_)))))
  · cgo
  · refine okc_bind (okc_mono (c_parseBody g) ?_)
    intro b s' hb
    refine okc_bind (okc_expect fun _ => okc_bind (okc_advance0 (by nnt) fun _ _ _ => ?_))
    have hw := wt_single (w := w) (b := b)
    split
    · rename_i e
      rw [e] at hw
      cgo
    · cgo

@[cwt] theorem wt_matchCondition {n : Node} : wt w (matchCondition n) = wt w n := by
  unfold matchCondition
  split <;> cz

theorem c_parseIfBody (g : GoodC w R) :
    okc w (parseIfBody R) c s fun a s' => u w s' = u w s + wt w a := by
  unfold parseIfBody
  cgo

theorem c_thenOrNewline  :
    okc w (thenOrNewline) c s fun _ s' => u w s' = u w s := by
  unfold thenOrNewline
  cgo

theorem c_parseIfBranch (g : GoodC w R) {b : Bool} (h : nn s.cur.type = true) :
    okc w (parseIfBranch R b) c s fun a s' => u w s' = u w s + wt w a := by
  unfold parseIfBranch
  cgo

theorem c_parseUnless (g : GoodC w R) (h : nn s.cur.type = true) :
    okc w (parseUnless R) c s fun a s' => u w s' = u w s + wt w a := by
  unfold parseUnless
  cgo

theorem c_parseWhile (g : GoodC w R) (h : nn s.cur.type = true) :
    okc w (parseWhile R) c s fun a s' => u w s' = u w s + wt w a := by
  unfold parseWhile
  cgo

theorem c_parseNot (g : GoodC w R) (h : nn s.cur.type = true) :
    okc w (parseNot R) c s fun a s' => u w s' = u w s + wt w a := by
  unfold parseNot
  cgo

theorem c_parseSplat (g : GoodC w R) (h : nn s.cur.type = true) :
    okc w (parseSplat R) c s fun a s' => u w s' = u w s + wt w a := by
  unfold parseSplat
  cgo

theorem c_parseSuper (h : nn s.cur.type = true) :
    okc w (parseSuper) c s fun a s' => u w s' = u w s + wt w a := by
  unfold parseSuper
  cgo

theorem c_parseWordArray (g : GoodC w R) (h : nn s.cur.type = true) :
    okc w (parseWordArray R) c s fun a s' => u w s' = u w s + wt w a := by
  unfold parseWordArray
  cgo

theorem c_parseWordSymbolArray (g : GoodC w R) (h : nn s.cur.type = true) :
    okc w (parseWordSymbolArray R) c s fun a s' => u w s' = u w s + wt w a := by
  unfold parseWordSymbolArray
  cgo

theorem c_parseAssignmentValue (g : GoodC w R) {x y : Bool} :
    okc w (parseAssignmentValue R x y) c s fun a s' => u w s' = u w s + wt w a := by
  unfold parseAssignmentValue
  cgo

theorem c_parseAssignment (g : GoodC w R) {n : Node} {b : Bool} (h : nn s.cur.type = true) :
    okc w (parseAssignment R b n) c s fun a s' => u w s' + wt w n = u w s + wt w a := by
  unfold parseAssignment
  cgo

theorem c_parseInfix (g : GoodC w R) {n : Node} (h : nn s.cur.type = true) :
    okc w (parseInfix R n) c s fun a s' => u w s' + wt w n = u w s + wt w a := by
  unfold parseInfix
  cgo

@[cwt] theorem wt_mkAnd {t : Token} {l r : Node} : wt w (mkAnd t l r) = wt w l + wt w r := by
  unfold mkAnd
  split <;> cz

@[cwt] theorem wt_mkOr {t : Token} {l r : Node} : wt w (mkOr t l r) = wt w l + wt w r := by
  unfold mkOr
  split <;> cz

theorem c_parseLogical (g : GoodC w R) {n : Node} (h : nn s.cur.type = true) :
    okc w (parseLogical R n) c s fun a s' => u w s' + wt w n = u w s + wt w a := by
  unfold parseLogical
  cgo

theorem c_parseMatch (g : GoodC w R) {n : Node} (h : nn s.cur.type = true) :
    okc w (parseMatch R n) c s fun a s' => u w s' + wt w n = u w s + wt w a := by
  unfold parseMatch
  cgo

theorem c_parseNotMatch (g : GoodC w R) {n : Node} (h : nn s.cur.type = true) :
    okc w (parseNotMatch R n) c s fun a s' => u w s' + wt w n = u w s + wt w a := by
  unfold parseNotMatch
  cgo

theorem c_parseModifier (g : GoodC w R) {n : Node} (h : nn s.cur.type = true) :
    okc w (parseModifier R n) c s fun a s' => u w s' + wt w n = u w s + wt w a := by
  unfold parseModifier
  cgo

theorem c_parseOpAttrAssign (g : GoodC w R) {n : Node} {r : Node} {m : Str} {l : List Node} {b : Bool} (k : wt w n = wt w r + wts w l) (h : nn s.cur.type = true) :
    okc w (parseOpAttrAssign R n r m l b) c s fun a s' => u w s' + wt w n = u w s + wt w a := by
  unfold parseOpAttrAssign
  cgo

theorem c_parseOpAssignRest (g : GoodC w R) {n : Node} (h : nn s.cur.type = true) :
    okc w (parseOpAssignRest R n) c s fun a s' => u w s' + wt w n = u w s + wt w a := by
  unfold parseOpAssignRest
  cgo

theorem c_parseOpAssign (g : GoodC w R) {n : Node} (h : nn s.cur.type = true) :
    okc w (parseOpAssign R n) c s fun a s' => u w s' + wt w n = u w s + wt w a := by
  unfold parseOpAssign
  split
  · exact c_parseOpAttrAssign g (by cz) h
  · exact c_parseOpAttrAssign g (by cz) h
  · cgo
  · cgo
  · cgo
  · cgo
  · cgo

theorem c_parseProcCall {n : Node} (h : nn s.cur.type = true) :
    okc w (parseProcCall n) c s fun a s' => u w s' + wt w n = u w s + wt w a := by
  unfold parseProcCall
  cgo

theorem c_parseRescueMod (g : GoodC w R) {n : Node} (h : nn s.cur.type = true) :
    okc w (parseRescueMod R n) c s fun a s' => u w s' + wt w n = u w s + wt w a := by
  unfold parseRescueMod
  cgo

theorem c_parseTernary (g : GoodC w R) {n : Node} (h : nn s.cur.type = true) :
    okc w (parseTernary R n) c s fun a s' => u w s' + wt w n = u w s + wt w a := by
  unfold parseTernary
  cgo

theorem c_nullDenotation (g : GoodC w R) {f : P Node} (h : nullDenotation R s.cur.type = some f) :
    okc w f c s fun a s' => u w s' = u w s + wt w a := by
  unfold nullDenotation at h
  split at h <;> cases h
  all_goals first
    | (with_reducible exact c_parseLit)
    | ((with_reducible refine c_parseOne (by nnt) ?_); first | cz | exact wt_line ‹_›)
    | ((with_reducible refine c_parseBreakNext g (fun t o => ?_) (by nnt)); cz)
    | cgo

theorem c_leftDenotation (g : GoodC w R) {pk : Token} {n : Node} {p : Prec} {f : P Node}
    (h : leftDenotation R s.cur pk n p = some f) : okc w f c s fun a s' => u w s' + wt w n = u w s + wt w a := by
  unfold leftDenotation at h
  dsimp only at h
  have hd : (if isFirstArg n s.cur then some (parseCallWithoutParens R n) else none) = some f →
      okc w f c s fun a s' => u w s' + wt w n = u w s + wt w a := by
    intro h
    split at h <;> cases h
    cgo
  generalize (if isFirstArg n s.cur then some (parseCallWithoutParens R n) else none) = dflt at h hd
  split at h
  all_goals first
    | exact hd h
    | (clear hd; cases h; cgo)
    | (split at h <;> first | exact hd h | (clear hd; cases h; cgo))

theorem c_higherPrecedence {t : Token} {n : Node} {p : Prec} {ia : IterAllow} :
    okc w (higherPrecedence t n p ia) c s fun _ s' => s' = s := by
  unfold higherPrecedence
  unfold okc
  repeat' split
  all_goals
    rename_i e
    dsimp only at e
    repeat' split at e
    all_goals cases e
    all_goals first | exact True.intro | rfl

theorem c_exprLoop (g : GoodC w R) {p : Prec} {ia : IterAllow} {n : Node} :
    okc w (exprLoop R p ia n) c s fun a s' => u w s' + wt w n = u w s + wt w a := by
  unfold exprLoop
  refine okc_loop (fun m s' => u w s' + wt w n = u w s + wt w m) rfl ?_
  intro m s' hm
  refine okc_bind (okc_cur (okc_ite (fun _ => okc_bind (okc_mono c_higherPrecedence ?_)) fun _ => okc_pure hm))
  rintro b _ rfl
  refine okc_ite (fun _ => okc_bind (okc_peek ?_)) fun _ => okc_pure hm
  split
  · exact okc_throwTok
  · refine okc_bind (okc_mono (c_leftDenotation g ‹_›) ?_)
    cin
    cgo

theorem c_parseExpression (g : GoodC w R) {p : Prec} {ia : IterAllow} :
    okc w (parseExpression R p ia) c s fun a s' => u w s' = u w s + wt w a := by
  unfold parseExpression
  refine okc_bind (okc_skipNewlines fun _ _ _ => okc_bind (okc_pushPrec fun _ _ _ _ => okc_bind (okc_curTy ?_)))
  split
  · exact okc_throwUnexpected
  · refine okc_bind (okc_mono (c_nullDenotation g ‹_›) ?_)
    cin
    cgo

theorem knot_goodC (w : Option Token → Nat) : ∀ k, GoodC w (knot k)
  | 0 => by constructor <;> intros <;> exact okc_fuel
  | n + 1 => by
    have g := knot_goodC w n
    constructor
    · intros; exact c_parseExpression g
    · intros; exact c_parseCaseInPattern g
    · intros; exact c_parseAssignmentIdentifier g
    · intros; exact c_parseArgDefaultValue g
    · intros; exact c_parseDefSingleArg g
    · intros; exact c_parseIfBranch g ‹_›
    · intros; exact c_parseString g ‹_›
    · intros; exact c_parseInterpolatedString g ‹_›

theorem c_parseTree (g : GoodC w R) : okc w (parseTree R) c s fun a s' => u w s' = u w s + wt w a := by
  unfold parseTree
  cgo

end NP.Cnt
