import Verif.Proofs.Val.Defs

/-! Trees: control flow, patterns, operators, and the whole parser. -/

namespace NP.Val

open Spec

variable {W : Nat → Nat → Prop} {R : Rec} {c : Cx} {s : PS}

theorem ve_node {b : Blk} (h : Tk W b.tok) (k : Ves W b.nodes) : Ve W b.node := by
  unfold Blk.node
  vd

theorem ve_single {b : Blk} (h : Tk W b.tok) (k : Ves W b.nodes) : Ve W b.single := by
  unfold Blk.single
  split
  · rename_i e
    exact k _ (by rw [e]; exact .head _)
  · exact ve_node h k

macro_rules | `(tactic| vt) => `(tactic| first
  | ((with_reducible refine ve_node ?_ ?_) <;> vt)
  | ((with_reducible refine ve_single ?_ ?_) <;> vt))

theorem v_parseBegin (g : GoodV W R) : okv W (parseBegin R) c s fun a _ => Ve W a := by
  unfold parseBegin
  refine okv_bind (okv_cur fun _ => okv_bind (okv_advance fun _ => okv_bind (okv_nextExpression fun _ => ?_)))
  extract_lets +onlyGivenNames isEnd
  clear_value isEnd
  vgo

theorem v_parseBeginlessRange (g : GoodV W R) : okv W (parseBeginlessRange R) c s fun a _ => Ve W a := by
  unfold parseBeginlessRange
  vgo

theorem v_parseBreakNext (g : GoodV W R) {mk : Token → Option Node → Node}
    (h : ∀ t o, Tk W t → (∀ n ∈ o, Ve W n) → Ve W (mk t o)) : okv W (parseBreakNext R mk) c s fun a _ => Ve W a := by
  unfold parseBreakNext
  vgo
  all_goals exact h _ _ (by vd) (by vd)

theorem v_parseReturn (g : GoodV W R) : okv W (parseReturn R) c s fun a _ => Ve W a := by
  unfold parseReturn
  vgo

theorem v_parseCaseBody (g : GoodV W R) (ty : Ttype) : okv W (parseCaseBody R ty) c s fun a _ => Ves W a := by
  unfold parseCaseBody
  vgo

theorem v_afterCondition : okv W afterCondition c s fun _ _ => True := by
  unfold afterCondition
  vgo

/-- The keys of a hash pattern. -/
theorem v_parsePatternKey (g : GoodV W R) : okv W (parsePatternKey R) c s fun a _ => Ve W a := by
  unfold parsePatternKey
  vgo

theorem v_patternPair (g : GoodV W R) : okv W (patternPair R) c s fun a _ => wfs W a := by
  unfold patternPair
  vgo
  all_goals
    have hw := Ve.wf ‹_›
    simp only [vwf] at hw ⊢
    vd

theorem v_parseRange (g : GoodV W R) {n : Node} (h : wf W n) : okv W (parseRange R n) c s fun a _ => Ve W a := by
  unfold parseRange
  vgo

theorem ve_signed {ty : Ttype} {n m : Node} (h : Ve W n) (e : signed ty n = some m) : Ve W m := by
  unfold signed at e
  have hw := h.wf
  split at e
  · split at e
    · simp only [vwf] at hw
      split at e <;> cases e
      vd
    · simp only [vwf] at hw
      split at e <;> cases e
      vd
    · simp only [vwf] at hw
      split at e <;> cases e
      vd
    · cases e
  · split at e <;> cases e
    exact h

theorem v_parseUnary (g : GoodV W R) : okv W (parseUnary R) c s fun a _ => Ve W a := by
  unfold parseUnary
  refine okv_bind (okv_cur fun _ => okv_bind (okv_advance fun _ => okv_bind (okv_cur fun _ => okv_bind ?_)))
  refine okv_mono (g.expr _ _ _ _) ?_
  vin
  split
  · exact okv_pure (ve_signed ‹_› ‹_›)
  · vgo

theorem elem_of {n : Node} (h : ∀ t o, n ≠ .splat t o) : isElem n = true := by
  cases n <;> first | rfl | exact absurd rfl (h _ _)

theorem elem_str {n : Node} (h : isStr n = true) : isElem n = true := by
  cases n <;> first | rfl | cases h

theorem okv_and {α : Type} {p : P α} {Q Q' : α → PS → Prop} (h : okv W p c s Q) (k : okv W p c s Q') :
    okv W p c s fun a s' => Q a s' ∧ Q' a s' := by
  intro hs
  have h := h hs
  have k := k hs
  revert h k
  cases p c s <;> intro h k <;> first | exact ⟨h.1, h.2, k.2⟩ | trivial

theorem Ve.vp {n : Node} (h : Ve W n) (k : isElem n = true) : Vp W n := Vp.intro k h.wf

theorem e_parseLit : okv W parseLit c s fun a _ => isElem a = true := by
  unfold parseLit
  refine okv_bind (okv_cur fun _ => ?_)
  vjp fun a => isElem a = true
  · vgo
  · vgo

theorem e_parseBeginlessRange (g : GoodV W R) : okv W (parseBeginlessRange R) c s fun a _ => isElem a = true := by
  unfold parseBeginlessRange
  vgo

theorem e_parseSymbol : okv W parseSymbol c s fun a _ => isElem a = true := by
  unfold parseSymbol
  vgo

theorem e_signed {n m : Node} (e : signed .Minus n = some m) : isElem m = true := by
  unfold signed at e
  rw [if_pos rfl] at e
  split at e
  · split at e <;> cases e
    rfl
  · split at e <;> cases e
    rfl
  · split at e <;> cases e
    rfl
  · cases e

theorem e_parseUnary (g : GoodV W R) (h : s.cur.type = .Minus) :
    okv W (parseUnary R) c s fun a _ => isElem a = true := by
  unfold parseUnary
  refine okv_bind (okv_cur fun _ => okv_bind (okv_advance fun _ => okv_bind (okv_cur fun _ => okv_bind ?_)))
  refine okv_mono (g.expr _ _ _ _) ?_
  vin
  rw [h]
  split
  · exact okv_pure (e_signed ‹_›)
  · vgo

theorem wfs_flatten {l : List (List Node)} (h : ∀ x ∈ l, wfs W x) : wfs W l.flatten := by
  rw [wfs_iff]
  intro n hn
  obtain ⟨x, hx, hn⟩ := List.mem_flatten.1 hn
  exact wfs_iff.1 (h x hx) n hn

theorem v_parsePatternBase (g : GoodV W R) : okv W (parsePatternBase R) c s fun a _ => Vp W a := by
  unfold parsePatternBase
  refine okv_bind (okv_cur fun ht => ?_)
  have lit : ∀ {s'}, okv W parseLit c s' fun a _ => Vp W a :=
    okv_mono (okv_and v_parseLit e_parseLit) fun _ _ h => h.1.vp h.2
  have rng : ∀ {s'}, okv W (parseBeginlessRange R) c s' fun a _ => Vp W a :=
    okv_mono (okv_and (v_parseBeginlessRange g) (e_parseBeginlessRange g)) fun _ _ h => h.1.vp h.2
  split
  · refine okv_bind (okv_advance fun _ => okv_bind (okv_addNames fun _ => okv_pure ?_))
    have := ht.2 (.inl ‹_›)
    have : identTy s.cur.type = true := by simp only [*]; rfl
    vd
  · exact lit
  · exact lit
  · exact lit
  · refine okv_bind (okv_advance fun _ => okv_bind (okv_expect fun h => okv_bind (okv_cur fun ht => okv_bind
      (okv_advance fun _ => okv_pure ?_))))
    have := ht.2 (.inl h)
    have : identTy (Token.type _) = true := congrArg identTy h
    vd
  · exact v_parseConstant ‹_›
  · exact rng
  · exact rng
  · vgo
  · exact okv_mono (v_parseInterpolatedString g) fun _ _ h => h.1.vp (elem_str h.2)
  · refine okv_bind (okv_advance fun _ => okv_bind (okv_curTy (okv_ite (fun _ => ?_) fun _ => ?_)))
    · vgo
    · refine okv_bind (okv_mono (g.pattern _ _) ?_)
      vin
      refine okv_bind (okv_mono (v_commaPats ?_ ?_) ?_)
      · intro _
        vgo
      · vd
      · vin
        vgo
  · refine okv_bind (okv_advance fun _ => okv_bind (okv_curTy (okv_ite (fun _ => ?_) fun _ => ?_)))
    · vgo
    · refine okv_bind (okv_mono (v_patternPair g) ?_)
      intro a _ ha
      refine okv_bind (okv_mono (v_comma (fun x => wfs W x) (fun _ => v_patternPair g) ?_) ?_)
      · intro x hx
        rw [List.mem_singleton.1 hx]
        exact ha
      · intro _ _ h
        have := wfs_flatten h
        vgo
  · vgo
  · exact okv_mono (okv_and (v_parseUnary g) (e_parseUnary g ‹_›)) fun _ _ h => h.1.vp h.2
  · unfold parseOne
    vgo
  · vgo
  · vgo
  · exact okv_mono (v_parseString g) fun _ _ h => h.1.vp (elem_str h.2)
  · exact okv_mono (okv_and v_parseSymbol e_parseSymbol) fun _ _ h => h.1.vp h.2
  · vgo

theorem v_parseCaseInPattern (g : GoodV W R) : okv W (parseCaseInPattern R) c s fun a _ => Vp W a := by
  unfold parseCaseInPattern
  refine okv_bind (okv_mono (v_parsePatternBase g) ?_)
  intro n s' hn
  refine okv_bind (okv_curTy ?_)
  vjp fun a => Vp W a
  · refine okv_ite (fun _ => ?_) fun _ => ?_
    · unfold parseRange
      vgo
    · vgo
  · refine okv_bind (okv_curTy (okv_ite (fun _ => ?_) fun _ => okv_pure ‹_›))
    refine okv_bind (okv_advance fun _ => okv_bind (okv_expect fun h => okv_bind (okv_cur fun ht => okv_bind
      (okv_advance fun _ => okv_pure ?_))))
    have := ht.2 (.inl h)
    have : identTy (Token.type _) = true := congrArg identTy h
    vd

theorem v_parsePatternList (g : GoodV W R) : okv W (parsePatternList R) c s fun a _ => Vp W a := by
  unfold parsePatternList
  refine okv_bind (okv_cur fun _ => okv_bind (okv_mono (g.pattern _ _) ?_))
  vin
  refine okv_bind (okv_mono (v_commaPats (fun _ => g.pattern _ _) ?_) ?_)
  · vd
  · vin
    vgo
    vopen
    vd

theorem wf_wrapSplat {n : Node} (h : Vp W n) : wf W (wrapSplat n) := by
  unfold wrapSplat
  split
  · have hw := h.wf
    have he := h.elem
    simp only [vwf] at hw ⊢
    refine ⟨hw.1, hw, ?_⟩
    intro n hn
    rw [List.mem_singleton.1 hn]
    exact he
  · exact h.wf

theorem v_parseCaseInPatterns (g : GoodV W R) : okv W (parseCaseInPatterns R) c s fun a _ => wf W a := by
  unfold parseCaseInPatterns
  refine okv_bind (okv_mono (v_parsePatternList g) ?_)
  vin
  refine okv_loop (fun x => wf W x.1) (wf_wrapSplat ‹_›) ?_
  intro y _ hy
  refine okv_bind (okv_curTy (okv_ite (fun _ => ?_) fun _ => okv_pure hy))
  refine okv_bind (okv_advance fun _ => okv_bind (okv_mono (v_parsePatternList g) ?_))
  vin
  have hq := wf_wrapSplat ‹Vp W _›
  dsimp only
  refine okv_pure ?_
  simp only [vwf]
  refine ⟨?_, hy, hq⟩
  split
  · exact hq.tok
  · exact hy.tok

theorem v_parseCase (g : GoodV W R) : okv W (parseCase R) c s fun a _ => Ve W a := by
  unfold parseCase
  vgo

theorem v_parseFor (g : GoodV W R) : okv W (parseFor R) c s fun a _ => Ve W a := by
  unfold parseFor
  vgo

theorem v_parseForwardArgs : okv W parseForwardArgs c s fun a _ => Ve W a := by
  unfold parseForwardArgs
  vgo

theorem v_parseTripleDot (g : GoodV W R) : okv W (parseTripleDot R) c s fun a _ => Ve W a := by
  unfold parseTripleDot
  vgo

theorem v_parseGroup (g : GoodV W R) : okv W (parseGroup R) c s fun a _ => Ve W a := by
  unfold parseGroup
  refine okv_bind (okv_cur fun _ => okv_bind (okv_advance fun _ => okv_bind (okv_curTy (okv_ite (fun _ => ?_) fun _ => ?_))))
  · vgo
  · refine okv_bind (okv_mono (v_parseBody g _ _) ?_)
    rintro b s' ⟨h1, h2⟩
    refine okv_bind (okv_expect fun _ => okv_bind (okv_advance fun _ => ?_))
    have hb := ve_single h1 h2
    split
    · rename_i e
      rw [e] at hb
      have hw := hb.wf
      simp only [vwf] at hw
      vopen
      vgo
    · vgo

theorem ve_matchCondition {n : Node} (h : Ve W n) : Ve W (matchCondition n) := by
  unfold matchCondition
  split
  · have hw := h.wf
    simp only [vwf] at hw
    vd
  · exact h

theorem v_parseIfBody (g : GoodV W R) : okv W (parseIfBody R) c s fun a _ => Ve W a := by
  unfold parseIfBody
  extract_lets +onlyGivenNames divider
  clear_value divider
  vgo

theorem v_thenOrNewline : okv W thenOrNewline c s fun _ _ => True := by
  unfold thenOrNewline
  vgo

theorem wf_matchCondition {n : Node} (h : Ve W n) : wf W (matchCondition n) := (ve_matchCondition h).wf

macro_rules | `(tactic| vt) => `(tactic| ((with_reducible refine wf_matchCondition ?_) <;> vt))

theorem v_parseIfBranch (g : GoodV W R) {b : Bool} : okv W (parseIfBranch R b) c s fun a _ => Ve W a := by
  unfold parseIfBranch
  refine okv_bind (okv_cur fun _ => okv_bind (okv_advance fun _ => okv_bind (okv_mono (g.expr _ _ _ _) ?_)))
  intro n _ hn
  extract_lets +onlyGivenNames cd
  have : Ve W cd := by
    dsimp only [cd]
    split
    · exact ve_matchCondition hn
    · exact hn
  clear_value cd
  vgo

theorem v_parseUnless (g : GoodV W R) : okv W (parseUnless R) c s fun a _ => Ve W a := by
  unfold parseUnless
  vgo

theorem v_parseWhile (g : GoodV W R) : okv W (parseWhile R) c s fun a _ => Ve W a := by
  unfold parseWhile
  vgo

theorem v_parseNot (g : GoodV W R) : okv W (parseNot R) c s fun a _ => Ve W a := by
  unfold parseNot
  vgo

theorem v_parseSplat (g : GoodV W R) : okv W (parseSplat R) c s fun a _ => Ve W a := by
  unfold parseSplat
  vgo

theorem v_parseSuper : okv W parseSuper c s fun a _ => Ve W a := by
  unfold parseSuper
  vgo

theorem v_parseWordArray (g : GoodV W R) : okv W (parseWordArray R) c s fun a _ => Ve W a := by
  unfold parseWordArray
  vgo

theorem v_parseWordSymbolArray (g : GoodV W R) : okv W (parseWordSymbolArray R) c s fun a _ => Ve W a := by
  unfold parseWordSymbolArray
  vgo
  all_goals
    have hw := Ve.wf ‹_›
    simp only [vwf] at hw
    vopen
    vd

theorem v_parseAssignmentValue (g : GoodV W R) {x y : Bool} :
    okv W (parseAssignmentValue R x y) c s fun a _ => wf W a := by
  unfold parseAssignmentValue
  refine okv_bind (okv_cur fun _ => okv_bind (okv_mono (g.expr _ _ _ _) ?_))
  vin
  vjp fun a : Node × Bool => Ve W a.1
  · vgo
  · rename_i a _ ha
    extract_lets +onlyGivenNames v
    have : wf W v := by
      dsimp only [v]
      split
      · rename_i e
        rw [e] at ha
        have hw := Ve.wf ha
        simp only [vwf] at hw
        exact hw.2
      · exact Ve.wf ha
    clear_value v
    vgo

theorem v_parseAssignment (g : GoodV W R) {b : Bool} {n : Node} (h : Ve W n) :
    okv W (parseAssignment R b n) c s fun a _ => Ve W a := by
  unfold parseAssignment
  vgo

theorem v_parseInfix (g : GoodV W R) {n : Node} (h : Ve W n) : okv W (parseInfix R n) c s fun a _ => Ve W a := by
  unfold parseInfix
  vgo

theorem ve_mkAnd {t : Token} {l r : Node} (ht : Tk W t) (hl : Ve W l) (hr : Ve W r) : Ve W (mkAnd t l r) := by
  unfold mkAnd
  split
  · have hw := hl.wf
    simp only [vwf] at hw
    vopen
    vd
  · vd

theorem ve_mkOr {t : Token} {l r : Node} (ht : Tk W t) (hl : Ve W l) (hr : Ve W r) : Ve W (mkOr t l r) := by
  unfold mkOr
  split
  · have hw := hl.wf
    simp only [vwf] at hw
    vopen
    vd
  · vd

macro_rules | `(tactic| vt) => `(tactic| first
  | ((with_reducible refine ve_mkAnd ?_ ?_ ?_) <;> vt)
  | ((with_reducible refine ve_mkOr ?_ ?_ ?_) <;> vt))

theorem v_parseLogical (g : GoodV W R) {n : Node} (h : Ve W n) : okv W (parseLogical R n) c s fun a _ => Ve W a := by
  unfold parseLogical
  vgo

theorem v_parseMatch (g : GoodV W R) {n : Node} (h : Ve W n) : okv W (parseMatch R n) c s fun a _ => Ve W a := by
  unfold parseMatch
  vgo
  all_goals
    have hw := Ve.wf ‹Ve W (Node.regexp _ _ _)›
    simp only [vwf] at hw
    vd

theorem v_parseNotMatch (g : GoodV W R) {n : Node} (h : Ve W n) : okv W (parseNotMatch R n) c s fun a _ => Ve W a := by
  unfold parseNotMatch
  vgo

theorem v_parseModifier (g : GoodV W R) {n : Node} (h : Ve W n) : okv W (parseModifier R n) c s fun a _ => Ve W a := by
  unfold parseModifier
  refine okv_bind (okv_cur fun _ => ?_)
  split
  rename_i body pre e
  have hb : wfs W body := by
    have hw := h.wf
    split at e <;> cases e
    · simp only [vwf] at hw
      exact hw.2
    · exact wfs_iff.2 fun n hn => by rw [List.mem_singleton.1 hn]; exact hw
    · exact wfs_iff.2 fun n hn => by rw [List.mem_singleton.1 hn]; exact hw
  vgo

theorem v_parseOpAttrAssign (g : GoodV W R) {n r : Node} {m : Str} {args : List Node} {b : Bool} (h : Ve W n)
    (ht : n.isTarget = true) (hr : wf W r) (ha : wfs W args) :
    okv W (parseOpAttrAssign R n r m args b) c s fun a _ => Ve W a := by
  unfold parseOpAttrAssign
  vgo

theorem v_parseOpAssignRest (g : GoodV W R) {n : Node} (h : Ve W n) (ht : n.isTarget = true) (hv : isVar n = true) :
    okv W (parseOpAssignRest R n) c s fun a _ => Ve W a := by
  unfold parseOpAssignRest
  vgo

theorem v_parseOpAssign (g : GoodV W R) {n : Node} (h : Ve W n) : okv W (parseOpAssign R n) c s fun a _ => Ve W a := by
  unfold parseOpAssign
  have hw := h.wf
  split
  · simp only [vwf] at hw
    exact v_parseOpAttrAssign g h rfl hw.2.1 hw.2.2
  · simp only [vwf] at hw
    exact v_parseOpAttrAssign g h rfl hw.2.1 hw.2.2
  · simp only [vwf] at hw
    refine okv_bind (okv_addNames fun _ => v_parseOpAssignRest g ?_ rfl rfl)
    vopen
    vd
  · exact absurd h.not (by simp [isConst])
  · exact v_parseOpAssignRest g h rfl rfl
  · exact v_parseOpAssignRest g h rfl rfl
  · vgo

theorem v_parseProcCall {n : Node} (h : Ve W n) : okv W (parseProcCall n) c s fun a _ => Ve W a := by
  unfold parseProcCall
  vgo

theorem v_parseRescueMod (g : GoodV W R) {n : Node} (h : Ve W n) : okv W (parseRescueMod R n) c s fun a _ => Ve W a := by
  unfold parseRescueMod
  vgo

theorem v_parseTernary (g : GoodV W R) {n : Node} (h : Ve W n) : okv W (parseTernary R n) c s fun a _ => Ve W a := by
  unfold parseTernary
  vgo

/-- The functions for what can start an expression. -/
theorem v_nullDenotation (g : GoodV W R) {f : P Node} (h : nullDenotation R s.cur.type = some f) :
    okv W f c s fun a _ => Ve W a := by
  unfold nullDenotation at h
  split at h <;> cases h
  all_goals vgo
  all_goals first
    | (refine v_parseOne fun t ht => ?_; vd)
    | (refine v_parseBreakNext g fun t o ht ho => ?_; vd)

theorem v_leftDenotation (g : GoodV W R) {t pk : Token} {n : Node} {p : Prec} {f : P Node} (hn : Ve W n)
    (h : leftDenotation R t pk n p = some f) : okv W f c s fun a _ => Ve W a := by
  unfold leftDenotation at h
  dsimp only at h
  have hd : (if isFirstArg n t then some (parseCallWithoutParens R n) else none) = some f →
      okv W f c s fun a _ => Ve W a := by
    intro h
    split at h <;> cases h
    vgo
  generalize (if isFirstArg n t then some (parseCallWithoutParens R n) else none) = dflt at h hd
  split at h
  all_goals first
    | exact hd h
    | (clear hd; cases h; vgo)
    | (split at h <;> first | exact hd h | (clear hd; cases h; vgo))

theorem v_higherPrecedence {t : Token} {n : Node} {p : Prec} {ia : IterAllow} :
    okv W (higherPrecedence t n p ia) c s fun _ _ => True := by
  intro hs
  unfold higherPrecedence
  repeat' split
  all_goals
    rename_i e
    dsimp only at e
    repeat' split at e
    all_goals cases e
    all_goals first | exact True.intro | exact ⟨hs, True.intro⟩

theorem v_exprLoop (g : GoodV W R) {p : Prec} {ia : IterAllow} {n : Node} (h : Ve W n) :
    okv W (exprLoop R p ia n) c s fun a _ => Ve W a := by
  unfold exprLoop
  vgo
  refine okv_mono (v_leftDenotation g (by assumption) ‹_›) ?_
  vin
  vgo

theorem v_parseExpression (g : GoodV W R) {p : Prec} {ia : IterAllow} :
    okv W (parseExpression R p ia) c s fun a _ => Ve W a := by
  unfold parseExpression
  refine okv_bind (okv_skipNewlines fun _ => okv_bind (okv_pushPrec fun _ _ => okv_bind (okv_curTy ?_)))
  split
  · vgo
  · refine okv_bind (okv_mono (v_nullDenotation g ‹_›) ?_)
    vin
    vgo

theorem knot_goodV (W : Nat → Nat → Prop) : ∀ k, GoodV W (knot k)
  | 0 => by constructor <;> intros <;> exact okv_fuel
  | n + 1 => by
    have g := knot_goodV W n
    constructor
    · intros; exact v_parseExpression g
    · intros; exact v_parseCaseInPattern g
    · intros; exact v_parseAssignmentIdentifier g _
    · intros; exact v_parseArgDefaultValue g _
    · intro l x ia c s h; exact v_parseDefSingleArg g x ia h
    · intros; exact v_parseIfBranch g
    · intros; exact v_parseString g
    · intros; exact v_parseInterpolatedString g

theorem v_parseTree (g : GoodV W R) : okv W (parseTree R) c s fun a _ => Ve W a := by
  unfold parseTree
  vgo

/-- What the parser makes of tokens that are in order is a tree that is in order. -/
theorem wf_parseToks {ts : List Token} {n : Node} {s' : PS} (h : parseToks c ts = .ok n s') (h0 : W 0 0)
    (ht : ∀ t ∈ ts, Tk W t) : wf W n := by
  unfold parseToks at h
  have := v_parseTree (W := W) (c := c) (s := { rest := ts }) (knot_goodV W (2 * ts.length + 2))
    ⟨h0, by simp, ht⟩
  rw [h] at this
  exact this.2.wf

/-- An error of the parser is at a place of a token. -/
theorem err_parseToks {ts : List Token} {e : SErr} (h : parseToks c ts = .err e) (h0 : W 0 0)
    (ht : ∀ t ∈ ts, Tk W t) : errPlace W e := by
  unfold parseToks at h
  have := v_parseTree (W := W) (c := c) (s := { rest := ts }) (knot_goodV W (2 * ts.length + 2))
    ⟨h0, by simp, ht⟩
  rw [h] at this
  exact this

end NP.Val
