import Verif.Proofs.Bal.Args

/-! Brackets: blocks, definitions, control flow. -/

namespace NP.Bal

open Spec

variable {R : Rec} {c : Cx} {s : PS}

theorem b_parseIter (g : Good R) {n : Node} (h : s.cur.type = .LCurlyBrace ∨ s.cur.type = .DoKeyword) :
    okp (parseIter R n) c s fun _ s' => Bl s s' := by
  have d : (Ttype.DoKeyword == Ttype.LCurlyBrace) = false := rfl
  rcases h with h | h
  all_goals
    unfold parseIter
    refine okp_bind (okp_cur (okp_bind (okp_get ?_)))
    simp only [h, d, beq_self_eq_true, if_true, Bool.false_eq_true, if_false]
    refine okp_ite (fun _ => okp_throwUnexpected) fun _ => ?_
    refine okp_bind (okp_withLocals ?_)
    intro s0 b0 e0 _
    bgo
    all_goals
      intro _ _ _
      bgo

macro_rules | `(tactic| bspec) => `(tactic| first
  | ((with_reducible refine okp_call (b_parseIter ‹_› (by first | assumption | exact .inl (by tyis) | exact .inr (by tyis) | (apply Or.symm; assumption))) ?_); intro _ _ _))

theorem b_parseBeginBlock (g : Good R) (h : isPlain s.cur.type = true) :
    okp (parseBeginBlock R) c s fun _ s' => Bl s s' := by
  unfold parseBeginBlock
  bgo

theorem b_parseEndBlock (g : Good R) (h : isPlain s.cur.type = true) :
    okp (parseEndBlock R) c s fun _ s' => Bl s s' := by
  unfold parseEndBlock
  bgo

theorem b_parseStabbyProc (g : Good R) (h : s.cur.type = .Arrow) :
    okp (parseStabbyProc R) c s fun _ s' => Bl s s' := by
  unfold parseStabbyProc
  dsimp only
  bgo

theorem plain_self : isPlain .SelfKeyword = true := rfl

theorem b_parseDefName (g : Good R) {s₀ : PS} (h₀ : s₀.cur.type = .DefKeyword) (e : s.prev = s₀.cur :: s₀.prev) :
    okp (parseDefName R) c s fun _ s' => Bl s s' := by
  have hn : NamePos s.prev := by
    rw [e]
    exact .after _ _ (by rw [h₀]; decide)
  have nm : ∀ {α : Type} {s₁ s₂ : PS} {f : Str → P α} , Bl s s₁ → s₂.prev = s₁.cur :: s₁.prev →
      (s₁.cur.type = .Dot ∨ s₁.cur.type = .ConstantResolution) → (∀ n s', okp (f n) c s' fun _ s'' => s'' = s') →
      okp (parseMethodName >>= f) c s₂ fun _ s' => Bl s s' := by
    intro α s₁ s₂ f b e h hf
    refine okp_bind (okp_call (b_parseMethodName ?_) ?_)
    · rw [e]
      refine .after _ _ ?_
      rcases h with h | h <;> rw [h] <;> decide
    · intro n s' _
      refine okp_mono (hf n s') ?_
      intro _ _ hs
      subst hs
      rcases h with h | h <;> bl
  have nm0 : ∀ {α : Type} {f : Str → P α}, (∀ n s', okp (f n) c s' fun _ s'' => s'' = s') →
      okp (parseMethodName >>= f) c s fun _ s' => Bl s s' := by
    intro α f hf
    refine okp_bind (okp_call (b_parseMethodName hn) ?_)
    intro n s' _
    refine okp_mono (hf n s') ?_
    intro _ _ hs
    subst hs
    bl
  have dot : ∀ {t : Token}, (t.type == .Dot || t.type == .ConstantResolution) = true →
      t.type = .Dot ∨ t.type = .ConstantResolution := by
    intro t h
    simpa using h
  unfold parseDefName
  refine okp_bind (okp_cur (okp_bind (okp_peek ?_)))
  dsimp only
  split
  · refine okp_ite (fun hd => ?_) fun _ => ?_
    · unfold parseIdentifier
      refine okp_bind (okp_bind (okp_cur (okp_bind (okp_litOf fun _ => okp_bind (okp_get (okp_bind (okp_advance ?_)))))))
      intro s1 e1 e2
      refine okp_pure (okp_bind (okp_advance ?_))
      intro s2 e3 _
      exact nm (by bl) e3 (by rw [e2]; exact dot hd) fun _ _ => okp_pure rfl
    · exact nm0 fun _ _ => okp_pure rfl
  · refine okp_ite (fun hd => ?_) fun _ => ?_
    · unfold parseConstant
      refine okp_bind (okp_bind (okp_cur (okp_bind (okp_advance ?_))))
      intro s1 e1 e2
      refine okp_pure (okp_bind (okp_advance ?_))
      intro s2 e3 _
      exact nm (by bl) e3 (by rw [e2]; exact dot hd) fun _ _ => okp_pure rfl
    · exact nm0 fun _ _ => okp_pure rfl
  · exact nm0 fun _ _ => okp_pure rfl
  · refine okp_ite (fun hd => ?_) fun _ => ?_
    · refine okp_bind (okp_advance ?_)
      intro s1 e1 e2
      refine okp_bind (okp_advance ?_)
      intro s2 e3 _
      exact nm (by bl) e3 (by rw [e2]; exact dot hd) fun _ _ => okp_pure rfl
    · exact nm0 fun _ _ => okp_pure rfl
  · refine okp_ite (fun _ => nm0 fun _ _ => okp_pure rfl) fun _ => ?_
    refine okp_bind (okp_call (g.expr _ _ _ _) ?_)
    intro _ s1 _
    refine okp_bind (okp_expect ?_)
    intro hd
    refine okp_bind (okp_advance ?_)
    intro s2 e3 _
    exact nm (by bl) e3 (.inl hd) fun _ _ => okp_pure rfl

theorem b_parseDef (g : Good R) (h : s.cur.type = .DefKeyword) : okp (parseDef R) c s fun _ s' => Bl s s' := by
  unfold parseDef
  refine okp_bind (okp_cur (okp_bind (okp_advance ?_)))
  intro s1 e1 _
  refine okp_bind (okp_call (b_parseDefName g h e1) ?_)
  rintro ⟨self, name⟩ s2 b2
  dsimp only
  refine okp_bind (okp_withLocals ?_)
  intro s3 b3 _ _
  refine okp_mono (Q := fun _ s' => Bl s s') ?_ ?_
  · unfold parseDefBody
    bgo
  · intro _ s4 b4 s5 b5 _
    bgo

theorem b_parseDefined (g : Good R) (h : isPlain s.cur.type = true) : okp (parseDefined R) c s fun _ s' => Bl s s' := by
  unfold parseDefined
  bgo

theorem b_parseClassOrModuleName (g : Good R) : okp (parseClassOrModuleName R) c s fun _ s' => Bl s s' := by
  unfold parseClassOrModuleName
  bgo

macro_rules | `(tactic| bspec) => `(tactic| first
  | ((with_reducible refine okp_call (b_parseClassOrModuleName ‹_›) ?_); intro _ _ _))

theorem b_parseSclass (g : Good R) (h : s.cur.type = .ClassKeyword) (h2 : s.peek.type = .LeftShift) :
    okp (parseSclass R) c s fun _ s' => Bl s s' := by
  unfold parseSclass parseBodyEnd
  bgo

theorem b_parseClass (g : Good R) (h : s.cur.type = .ClassKeyword) : okp (parseClass R) c s fun _ s' => Bl s s' := by
  unfold parseClass
  refine okp_bind (okp_cur (okp_bind (okp_peek (okp_ite (fun hp => b_parseSclass g h hp) fun _ => ?_))))
  refine okp_bind (okp_advance ?_)
  intro s1 e1 _
  refine okp_bind (okp_withLocals ?_)
  intro s2 b2 _ _
  refine okp_mono (Q := fun _ s' => Bl s2 s') ?_ ?_
  · dsimp only
    bgo
  · rintro ⟨_, _, _⟩ s4 b4 s5 b5 _
    bgo

theorem b_parseModule (g : Good R) (h : s.cur.type = .ModuleKeyword) :
    okp (parseModule R) c s fun _ s' => Bl s s' := by
  unfold parseModule
  refine okp_bind (okp_cur ?_)
  refine okp_bind (okp_advance ?_)
  intro s1 e1 _
  refine okp_bind (okp_withLocals ?_)
  intro s2 b2 _ _
  refine okp_mono (Q := fun _ s' => Bl s2 s') ?_ ?_
  · bgo
  · rintro ⟨_, _⟩ s4 b4 s5 b5 _
    bgo

theorem b_parseBegin (g : Good R) (h : s.cur.type = .BeginKeyword) : okp (parseBegin R) c s fun _ s' => Bl s s' := by
  unfold parseBegin
  dsimp only
  refine okp_bind (okp_cur (okp_bind (okp_advance ?_)))
  intro s1 e1 _
  refine okp_bind (okp_nextExpression ?_)
  intro s2 b2
  refine okp_bind (okp_call (b_parseBodyRescue g _ _) ?_)
  intro b s3 b3
  refine okp_bind (okp_curTy (okp_ite (fun _ => ?_) fun _ => okp_throwUnexpected))
  refine okp_bind (okp_mono (b_parseRestOfBegin g _ _) ?_)
  rintro n s4 ⟨t, l, ht, hl, hs, hb⟩
  have b : Bl s s4 := by
    refine .intro ?_ ?_
    · rw [hl]
      exact (List.IsSuffix.trans (by sf) hs).trans (List.suffix_cons _ _)
    · intro st k
      rw [hl]
      refine .closed _ .BeginKeyword (by rw [ht]; rfl) (hb _ ?_)
      bk
  bgo

theorem b_parseBeginlessRange (g : Good R) (h : isPlain s.cur.type = true) :
    okp (parseBeginlessRange R) c s fun _ s' => Bl s s' := by
  unfold parseBeginlessRange
  bgo

theorem b_parseBreakNext (g : Good R) (h : isPlain s.cur.type = true) {mk : Token → Option Node → Node} :
    okp (parseBreakNext R mk) c s fun _ s' => Bl s s' := by
  unfold parseBreakNext
  bgo

theorem b_parseReturn (g : Good R) (h : isPlain s.cur.type = true) : okp (parseReturn R) c s fun _ s' => Bl s s' := by
  unfold parseReturn
  bgo

theorem b_parseCaseBody (g : Good R) {ty : Ttype} : okp (parseCaseBody R ty) c s fun _ s' => Bl s s' := by
  unfold parseCaseBody
  bgo

theorem b_afterCondition : okp afterCondition c s fun _ s' => Bl s s' := by
  unfold afterCondition
  bgo

macro_rules | `(tactic| bspec) => `(tactic| first
  | ((with_reducible refine okp_call (b_parseBeginlessRange ‹_› (by plain)) ?_); intro _ _ _)
  | ((with_reducible refine okp_call (b_parseCaseBody ‹_›) ?_); intro _ _ _)
  | ((with_reducible refine okp_call b_afterCondition ?_); intro _ _ _))

end NP.Bal
