import Verif.Proofs.Bal.Lit

/-! Brackets: hashes, arrays, arguments, left-hand sides, parameters. -/

namespace NP.Bal

open Spec

variable {R : Rec} {c : Cx} {s : PS}

theorem b_parseHashInner (g : Good R) {p : Prec} {ty : Ttype} {b : Bool} {k : Option Node} :
    okp (parseHashInner R p ty b k) c s fun _ s' => Bl s s' := by
  unfold parseHashInner
  bgo

macro_rules | `(tactic| bspec) => `(tactic| first
  | ((with_reducible refine okp_call (b_parseHashInner ‹_›) ?_); intro _ _ _))

theorem b_parseHash (g : Good R) : okp (parseHash R) c s fun _ s' => Bl s s' := by
  unfold parseHash
  bgo

/-- The item of an array, or the closing bracket as well. -/
theorem b_arrayAddNode (g : Good R) {ns : List Node} : okp (arrayAddNode R ns) c s fun r s' =>
    (r.2 = false → Bl s s') ∧ (r.2 = true → s.prev <:+ s'.prev ∧ ∀ st, Opened (.LBracket :: st) s.prev → Opened st s'.prev) := by
  unfold arrayAddNode
  bgo
  all_goals first
    | exact ⟨fun _ => by bl, fun h => (by cases h)⟩
    | exact ⟨fun h => (by cases h), fun _ => ⟨by sf, fun _ _ => by bk⟩⟩

theorem b_parseArray (g : Good R) (h : s.cur.type = .LBracket ∨ s.cur.type = .LBracketRBracket) :
    okp (parseArray R) c s fun _ s' => Bl s s' := by
  unfold parseArray
  refine okp_bind (okp_cur (okp_ite (fun _ => ?_) fun hn => ?_))
  · bgo
  · have h : s.cur.type = .LBracket := h.resolve_right hn
    refine okp_bind (okp_advance ?_)
    intro s1 _ _
    refine okp_bind (okp_pushDepth ?_)
    intro s2 _ _
    refine okp_bind (okp_mono (b_arrayAddNode g) ?_)
    rintro ⟨ns, ended⟩ s3 ⟨h1, h2⟩
    dsimp only at h1 h2 ⊢
    cases ended with
    | true =>
      obtain ⟨h3, h4⟩ := h2 rfl
      simp only [if_true]
      have b : Bl s s3 := .intro (List.IsSuffix.trans (by sf) h3) fun st _ => h4 _ (by bk)
      bgo
    | false =>
      have b := h1 rfl
      simp only [Bool.false_eq_true, if_false]
      refine okp_bind (okp_mono (Q := fun r s' =>
        (r.2 = false → Bl s2 s') ∧
          (r.2 = true → s2.prev <:+ s'.prev ∧ ∀ st, Opened (.LBracket :: st) s2.prev → Opened st s'.prev)) ?_ ?_)
      · refine okp_loop (fun _ s' => Bl s2 s') b ?_
        intro ns s4 b4
        refine okp_bind (okp_curTy (okp_ite (fun _ => ?_) fun _ => okp_pure ⟨fun _ => b4, fun h => (by cases h)⟩))
        refine okp_bind (okp_advance ?_)
        intro s5 _ _
        refine okp_bind (okp_mono (b_arrayAddNode g) ?_)
        rintro ⟨ns, ended⟩ s6 ⟨h1, h2⟩
        dsimp only at h1 h2 ⊢
        cases ended with
        | true =>
          obtain ⟨h3, h4⟩ := h2 rfl
          exact okp_pure ⟨fun h => (by cases h), fun _ => ⟨List.IsSuffix.trans (by sf) h3, fun st _ => h4 _ (by bk)⟩⟩
        | false =>
          have b6 := h1 rfl
          exact okp_pure (show Bl s2 s6 by bl)
      · rintro ⟨ns, ended⟩ s6 ⟨h1, h2⟩
        dsimp only at h1 h2 ⊢
        cases ended with
        | true =>
          obtain ⟨h3, h4⟩ := h2 rfl
          simp only [if_true]
          have b : Bl s s6 := .intro (List.IsSuffix.trans (by sf) h3) fun st _ => h4 _ (by bk)
          bgo
        | false =>
          have b6 := h1 rfl
          clear b
          simp only [Bool.false_eq_true, if_false]
          bgo

theorem b_parseCommaSeparated (g : Good R) : okp (parseCommaSeparated R) c s fun _ s' => Bl s s' := by
  unfold parseCommaSeparated
  bgo

theorem b_parseKeywordSplat (g : Good R) (h : isPlain s.cur.type = true) :
    okp (parseKeywordSplat R) c s fun _ s' => Bl s s' := by
  unfold parseKeywordSplat
  bgo

theorem b_parseBlockPass (g : Good R) (h : isPlain s.cur.type = true) :
    okp (parseBlockPass R) c s fun _ s' => Bl s s' := by
  unfold parseBlockPass
  bgo

macro_rules | `(tactic| bspec) => `(tactic| first
  | ((with_reducible refine okp_call (b_parseHash ‹_›) ?_); intro _ _ _)
  | ((with_reducible refine okp_call (b_parseArray ‹_› ‹_›) ?_); intro _ _ _)
  | ((with_reducible refine okp_call (b_parseCommaSeparated ‹_›) ?_); intro _ _ _)
  | ((with_reducible refine okp_call (b_parseKeywordSplat ‹_› (by plain)) ?_); intro _ _ _)
  | ((with_reducible refine okp_call (b_parseBlockPass ‹_› (by plain)) ?_); intro _ _ _))

theorem b_parseCallHashArgs (g : Good R) {b : Bool} {ty : Ttype} {n : Node} :
    okp (parseCallHashArgs R b ty n) c s fun _ s' => Bl s s' := by
  unfold parseCallHashArgs
  bgo

macro_rules | `(tactic| bspec) => `(tactic| first
  | ((with_reducible refine okp_call (b_parseCallHashArgs ‹_›) ?_); intro _ _ _))

theorem b_parseCallArgs (g : Good R) {n : Node} {b : Bool} {ty : Ttype} :
    okp (parseCallArgs R n b ty) c s fun _ s' => Bl s s' := by
  unfold parseCallArgs
  bgo

theorem b_toNodeWithArgs {n : Node} : okp (toNodeWithArgs n) c s fun _ s' => s' = s := by
  unfold toNodeWithArgs
  split
  all_goals first
    | exact okp_bind (okp_litOf fun _ => okp_pure rfl)
    | exact okp_pure rfl
    | exact okp_bind (okp_cur okp_throwError)

macro_rules | `(tactic| bspec) => `(tactic| first
  | ((with_reducible refine okp_call (b_parseCallArgs ‹_›) ?_); intro _ _ _)
  | ((with_reducible refine okp_mono b_toNodeWithArgs ?_); intro _ _ he; cases he))

theorem b_parseCallWithParens (g : Good R) {n : Node} (h : s.cur.type = .LParen) :
    okp (parseCallWithParens R n) c s fun _ s' => Bl s s' := by
  unfold parseCallWithParens
  bgo

theorem b_parseCallWithoutParens (g : Good R) {n : Node} :
    okp (parseCallWithoutParens R n) c s fun _ s' => Bl s s' := by
  unfold parseCallWithoutParens
  bgo

theorem b_parseMultipleAssignment (g : Good R) {n : Node} :
    okp (parseMultipleAssignment R n) c s fun _ s' => Bl s s' := by
  unfold parseMultipleAssignment
  bgo

/-- A token in the place of a method name, after the first token. -/
theorem bl_method {s₀ s s' : PS} (e₀ : s.prev = s₀.cur :: s₀.prev) (e : s'.prev = s.cur :: s.prev)
    (h₀ : s₀.cur.type ∈ [.Dot, .SafeNavigation, .ConstantResolution, .DefKeyword, .AliasKeyword, .UndefKeyword, .StarStar])
    (h : s.cur.type.isOperator = true ∨ s.cur.type.isKeyword = true) : Bl s₀ s' := by
  have hp : isPlain s₀.cur.type = true := by
    simp only [List.mem_cons, List.not_mem_nil, or_false] at h₀
    rcases h₀ with h | h | h | h | h | h | h <;> rw [h] <;> rfl
  refine .intro (by sf) fun st k => ?_
  have k1 : Opened st s.prev := step_plain e₀ hp k
  rcases h with h | h
  · exact step_plain e (operator_plain h) k1
  · exact step_name e h (by rw [e₀]; exact .after _ _ h₀) k1

theorem b_parseConstantResolution (g : Good R) {n : Node} (h : s.cur.type = .ConstantResolution) :
    okp (parseConstantResolution R n) c s fun _ s' => Bl s s' := by
  unfold parseConstantResolution
  dsimp only
  bgo
  exact bl_method ‹_› ‹_› (by rw [h]; decide) ‹_›

theorem b_parseSend {n : Node} (h : s.cur.type = .Dot) : okp (parseSend n) c s fun _ s' => Bl s s' := by
  unfold parseSend
  bgo
  exact bl_method ‹_› ‹_› (by rw [h]; decide) ‹_›

theorem b_parseSafeSend {n : Node} (h : s.cur.type = .SafeNavigation) :
    okp (parseSafeSend n) c s fun _ s' => Bl s s' := by
  unfold parseSafeSend
  bgo
  exact bl_method ‹_› ‹_› (by rw [h]; decide) ‹_›

theorem b_parseRef (g : Good R) {n : Node} (h : s.cur.type = .LBracket ∨ s.cur.type = .LBracketRBracket) :
    okp (parseRef R n) c s fun _ s' => Bl s s' := by
  unfold parseRef
  refine okp_bind (okp_cur (okp_bind (okp_advance ?_)))
  intro s1 e1 _
  refine okp_ite (fun _ => ?_) fun hn => ?_
  · bgo
  · have h := h.resolve_right hn
    bgo

macro_rules | `(tactic| bspec) => `(tactic| first
  | ((with_reducible refine okp_call (b_parseCallWithParens ‹_› (by tyis)) ?_); intro _ _ _)
  | ((with_reducible refine okp_call (b_parseCallWithoutParens ‹_›) ?_); intro _ _ _)
  | ((with_reducible refine okp_call (b_parseMultipleAssignment ‹_›) ?_); intro _ _ _)
  | ((with_reducible refine okp_call (b_parseConstantResolution ‹_› (by tyis)) ?_); intro _ _ _)
  | ((with_reducible refine okp_call (b_parseSend (by tyis)) ?_); intro _ _ _)
  | ((with_reducible refine okp_call (b_parseSafeSend (by tyis)) ?_); intro _ _ _)
  | ((with_reducible refine okp_call (b_parseRef ‹_› (by first | assumption | exact .inl (by tyis))) ?_); intro _ _ _))

theorem b_parseAssignmentIdentifier (g : Good R) {b : Bool} :
    okp (parseAssignmentIdentifier R b) c s fun _ s' => Bl s s' := by
  unfold parseAssignmentIdentifier
  bgo

theorem b_parseArgDefaultValue (g : Good R) {ia : IterAllow} :
    okp (parseArgDefaultValue R ia) c s fun _ s' => Bl s s' := by
  unfold parseArgDefaultValue
  bgo

theorem b_parseDefArgs (g : Good R) : okp (parseDefArgs R) c s fun _ s' => Bl s s' := by
  unfold parseDefArgs
  bgo

macro_rules | `(tactic| bspec) => `(tactic| first
  | ((with_reducible refine okp_call (b_parseDefArgs ‹_›) ?_); intro _ _ _))

theorem b_parseDefSingleArg (g : Good R) {l : List Node} {x : ArgsContext} {ia : IterAllow} :
    okp (parseDefSingleArg R l x ia) c s fun _ s' => Bl s s' := by
  unfold parseDefSingleArg
  bgo
  exact bl_method ‹_› ‹_› (by rw [‹s.cur.type = _›]; decide) (.inr ‹_›)

theorem b_parseShadowVars (g : Good R) {l : List Node} (h : s.cur.type = .Semicolon) :
    okp (parseShadowVars R l) c s fun _ s' => Bl s s' := by
  unfold parseShadowVars parseShadowVar
  bgo

macro_rules | `(tactic| bspec) => `(tactic| first
  | ((with_reducible refine okp_call (b_parseShadowVars ‹_› (by tyis)) ?_); intro _ _ _))

theorem b_parseProcArgs (g : Good R) {ia : IterAllow} : okp (parseProcArgs R ia) c s fun _ s' => Bl s s' := by
  unfold parseProcArgs
  bgo

theorem b_parseIterArgs (g : Good R) : okp (parseIterArgs R) c s fun _ s' => Bl s s' := by
  unfold parseIterArgs
  bgo

macro_rules | `(tactic| bspec) => `(tactic| first
  | ((with_reducible refine okp_call (b_parseProcArgs ‹_›) ?_); intro _ _ _)
  | ((with_reducible refine okp_call (b_parseIterArgs ‹_›) ?_); intro _ _ _))

end NP.Bal
