import Verif.Proofs.Bal.Base

/-! Brackets: bodies, names, literals, interpolation, alias and undef. -/

namespace NP.Bal

open Spec

variable {R : Rec} {c : Cx} {s : PS}

theorem b_commaLoop {α : Type} {item : P α} {acc : List α} (h : ∀ s, okp item c s fun _ s' => Bl s s') :
    okp (commaLoop R item acc) c s fun _ s' => Bl s s' := by
  unfold commaLoop
  bgo
  refine okp_call (h _) ?_
  intro _ _ _
  bgo

theorem b_reinsert : okp reinsertCollapsedNewline c s fun _ s' => Bl s s' := by
  unfold reinsertCollapsedNewline
  bgo

theorem b_addAssignmentLocals {n : Node} : okp (addAssignmentLocals n) c s fun _ s' => Bl s s' := by
  unfold addAssignmentLocals
  bgo

macro_rules | `(tactic| bspec) => `(tactic| first
  | ((with_reducible refine okp_call (b_commaLoop ?_) ?_); (intro _); (rotate_left; intro _ _ _; rotate_left))
  | ((with_reducible refine okp_call b_reinsert ?_); intro _ _ _)
  | ((with_reducible refine okp_call b_addAssignmentLocals ?_); intro _ _ _))

theorem b_parseBody (g : Good R) (p : Prec) (isEnd : Ttype → Bool) :
    okp (parseBody R p isEnd) c s fun _ s' => Bl s s' := by
  unfold parseBody
  bgo


macro_rules | `(tactic| bspec) => `(tactic| first
  | ((with_reducible refine okp_call (b_parseBody ‹_› _ _) ?_); intro _ _ _))

theorem b_parseRestOfBegin (g : Good R) (t : Token) (b : List Node) :
    okp (parseRestOfBegin R (parseBody R .LOWEST) t b) c s fun _ s' => Be s s' := by
  unfold parseRestOfBegin
  bgo
  all_goals (refine ⟨_, _, ‹_›, ‹_›, ?_, ?_⟩; (focus sf); intro _ _; bk)

theorem b_parseBodyRescue (g : Good R) (p : Prec) (isEnd : Ttype → Bool) :
    okp (parseBodyRescue R p isEnd) c s fun _ s' => Bl s s' := by
  unfold parseBodyRescue
  bgo
  refine okp_mono (b_parseRestOfBegin g _ _) ?_
  rintro a s' ⟨t, l, ht, hl, hs, hb⟩
  refine okp_bind ?_
  unfold okp rewind
  rw [hl]
  refine Bl.intro (by exact List.IsSuffix.trans (by sf) hs) fun st h => ?_
  refine hb _ ?_
  bk

macro_rules | `(tactic| bspec) => `(tactic| first
  | ((with_reducible refine okp_call (b_parseBodyRescue ‹_› _ _) ?_); intro _ _ _))

theorem b_parseMethodName (hn : NamePos s.prev) : okp parseMethodName c s fun _ s' => Bl s s' := by
  unfold parseMethodName
  bgo
  rename_i hc _ _ _
  rcases hc with h | h
  · bl
  · refine Bl.intro (by sf) fun st k => step_name ‹_› ‹_› hn k

theorem b_parseSymbol (h : s.cur.type = .Symbol) : okp parseSymbol c s fun _ s' => Bl s s' := by
  unfold parseSymbol
  bgo

theorem b_parseSymbolKey (h : s.cur.type = .SymbolKey) : okp parseSymbolKey c s fun _ s' => Bl s s' := by
  unfold parseSymbolKey
  bgo

theorem b_parseInterpolatedBody (g : Good R) (t : Token) (ty : Ttype) :
    okp (parseInterpolatedBody R t ty) c s fun _ s' => Bl s s' ∧ s'.cur.type = ty := by
  unfold parseInterpolatedBody
  refine okp_bind (okp_call ?_ ?_)
  · refine okp_loopB ?_ fun _ _ h => h
    intro _ _ _
    refine okp_bind (okp_cur (okp_ite (fun _ => ?_) fun _ => ?_))
    · bgo
    · split
      · refine okp_bind (okp_advance ?_)
        intro _ _ _
        refine okp_bind (okp_skipNewlines ?_)
        intro s1 _ _
        refine okp_bind (okp_cur ?_)
        refine okp_bind (okp_mono (Q := fun _ s' => Bl s1 s' ∧ s'.cur.type = .EvaluateToStringEnd) ?_ ?_)
        · refine okp_loop (fun _ s' => Bl s1 s') Bl.refl ?_
          intro _ _ _
          refine okp_bind (okp_curTy (okp_ite (fun _ => okp_pure ?_) fun _ => ?_))
          · exact ⟨‹_›, ‹_›⟩
          · bgo
        · rintro _ _ ⟨_, _⟩
          bgo
      · bgo
      · bgo
  · intro _ _ _
    bgo
    exact ⟨‹_›, rfl⟩

theorem b_parseInterpolatedRegexp (g : Good R) (h : s.cur.type = .InterpolatedRegexpBegin) :
    okp (parseInterpolatedRegexp R) c s fun _ s' => Bl s s' := by
  unfold parseInterpolatedRegexp
  bgo
  refine okp_mono (b_parseInterpolatedBody g _ _) ?_
  rintro _ _ ⟨_, _⟩
  bgo

theorem b_parseInterpolatedShell (g : Good R) (h : s.cur.type = .InterpolatedShellBegin) :
    okp (parseInterpolatedShell R) c s fun _ s' => Bl s s' := by
  unfold parseInterpolatedShell
  bgo
  refine okp_mono (b_parseInterpolatedBody g _ _) ?_
  rintro _ _ ⟨_, _⟩
  bgo

theorem last_is {s : PS} {t : Token} {l m : List Token} {x : Ttype} (e : s.prev = t :: l) (h : t.type = x) (k : m <:+ l) :
    s.prevTok.type = x ∧ m <:+ s.prev.tail := by
  simp [PS.prevTok, e, h, k]

theorem b_parseInterpolatedSymbol (g : Good R) (h : s.cur.type = .InterpolatedSymbolBegin) :
    okp (parseInterpolatedSymbol R) c s fun _ s' =>
      Bl s s' ∧ s'.prevTok.type = .InterpolatedSymbolEnd ∧ s.prev <:+ s'.prev.tail := by
  unfold parseInterpolatedSymbol
  bgo
  · exact ⟨by bl, last_is ‹_› ‹_› (by sf)⟩
  · exact ⟨by bl, last_is ‹_› (by tyis) (by sf)⟩
  · refine okp_mono (b_parseInterpolatedBody g _ _) ?_
    rintro _ _ ⟨_, _⟩
    bgo
    exact ⟨by bl, last_is ‹_› ‹_› (by sf)⟩

theorem b_appendStringNodes {a b : Node} : okp (appendStringNodes a b) c s fun _ s' => Bl s s' := by
  unfold appendStringNodes stringAppend istringAppend
  bgo

macro_rules | `(tactic| bspec) => `(tactic| first
  | ((with_reducible refine okp_call b_appendStringNodes ?_); intro _ _ _))

theorem b_finishString (g : Good R) {n : Node} : okp (finishString R n) c s fun _ s' => Bl s s' := by
  unfold finishString concatAdjacentStrings toSymbolKey
  bgo

macro_rules | `(tactic| bspec) => `(tactic| first
  | ((with_reducible refine okp_call (b_finishString ‹_›) ?_); intro _ _ _))

theorem b_parseString (g : Good R) (h : s.cur.type = .String) : okp (parseString R) c s fun _ s' => Bl s s' := by
  unfold parseString
  bgo

theorem b_parseInterpolatedString (g : Good R) (h : s.cur.type = .InterpolatedStringBegin) :
    okp (parseInterpolatedString R) c s fun _ s' => Bl s s' := by
  unfold parseInterpolatedString
  bgo
  refine okp_mono (b_parseInterpolatedBody g _ _) ?_
  rintro _ _ ⟨_, _⟩
  bgo

theorem b_parseLit : okp parseLit c s fun _ s' => Bl s s' := by
  unfold parseLit
  bgo

theorem b_parseIdentifier (h : isPlain s.cur.type = true) : okp parseIdentifier c s fun _ s' => Bl s s' := by
  unfold parseIdentifier
  bgo

theorem b_parseConstant (h : isPlain s.cur.type = true) : okp parseConstant c s fun _ s' => Bl s s' := by
  unfold parseConstant
  bgo

theorem b_parseTopLevelConstant (h : s.cur.type = .ConstantResolution) :
    okp parseTopLevelConstant c s fun _ s' => Bl s s' := by
  unfold parseTopLevelConstant
  bgo

theorem b_parseOne (h : isPlain s.cur.type = true) {f : Token → Node} : okp (parseOne f) c s fun _ s' => Bl s s' := by
  unfold parseOne
  bgo

theorem b_parseBackRef (h : isPlain s.cur.type = true) : okp parseBackRef c s fun _ s' => Bl s s' := by
  unfold parseBackRef
  bgo

theorem b_parseFileConstant (h : isPlain s.cur.type = true) : okp parseFileConstant c s fun _ s' => Bl s s' := by
  unfold parseFileConstant
  refine okp_bind (okp_cur (okp_bind (okp_advance ?_)))
  intro s' _ _
  show Bl s s'
  bl

macro_rules | `(tactic| bspec) => `(tactic| first
  | ((with_reducible refine okp_call (b_parseSymbol (by tyis)) ?_); intro _ _ _)
  | ((with_reducible refine okp_call (b_parseSymbolKey (by tyis)) ?_); intro _ _ _)
  | ((with_reducible refine okp_call (b_parseInterpolatedRegexp ‹_› (by tyis)) ?_); intro _ _ _)
  | ((with_reducible refine okp_call (b_parseInterpolatedShell ‹_› (by tyis)) ?_); intro _ _ _)
  | ((with_reducible refine okp_mono (b_parseInterpolatedSymbol ‹_› (by tyis)) ?_); rintro _ _ ⟨_, _, _⟩)
  | ((with_reducible refine okp_call (b_parseInterpolatedString ‹_› (by tyis)) ?_); intro _ _ _)
  | ((with_reducible refine okp_call (b_parseString ‹_› (by tyis)) ?_); intro _ _ _)
  | ((with_reducible refine okp_call b_parseLit ?_); intro _ _ _)
  | ((with_reducible refine okp_call (b_parseIdentifier (by plain)) ?_); intro _ _ _)
  | ((with_reducible refine okp_call (b_parseConstant (by plain)) ?_); intro _ _ _)
  | ((with_reducible refine okp_call (b_parseTopLevelConstant (by tyis)) ?_); intro _ _ _)
  | ((with_reducible refine okp_call (b_parseOne (by plain)) ?_); intro _ _ _)
  | ((with_reducible refine okp_call (b_parseBackRef (by plain)) ?_); intro _ _ _)
  | ((with_reducible refine okp_call (b_parseFileConstant (by plain)) ?_); intro _ _ _))

/-- What a name of `alias` or `undef` is: one token, or a dynamic symbol. -/
def OneName (s s' : PS) : Prop :=
  (∃ t, s'.prev = t :: s.prev ∧ t.type ≠ .Newline) ∨
    (s'.prevTok.type = .InterpolatedSymbolEnd ∧ s.prev <:+ s'.prev.tail)

theorem not_newline {x : Ttype} (h : (x.isOperator || x.isKeyword) = true) : x ≠ .Newline := by
  rintro rfl
  exact absurd h (by decide)

theorem b_parseMethodName' (hn : NamePos s.prev) : okp parseMethodName c s fun _ s' => Bl s s' ∧ OneName s s' := by
  have h1 := b_parseMethodName (c := c) hn
  have h2 : okp parseMethodName c s fun _ s' => OneName s s' := by
    unfold parseMethodName
    refine okp_bind (okp_cur ?_)
    split
    · refine okp_bind (okp_litOf fun _ => okp_bind (okp_advance fun _ e _ => okp_pure (.inl ⟨_, e, ?_⟩)))
      rw [‹s.cur.type = _›]; decide
    · refine okp_bind (okp_litOf fun _ => okp_bind (okp_advance fun _ e _ => okp_pure (.inl ⟨_, e, ?_⟩)))
      rw [‹s.cur.type = _›]; decide
    · refine okp_bind (okp_litOf fun _ => okp_bind (okp_advance fun _ e _ => okp_pure (.inl ⟨_, e, ?_⟩)))
      rw [‹s.cur.type = _›]; decide
    · refine okp_ite (fun h => ?_) fun _ => okp_throwUnexpected
      exact okp_bind (okp_advance fun _ e _ => okp_pure (.inl ⟨_, e, not_newline h⟩))
  unfold okp at *
  revert h1 h2
  cases parseMethodName c s <;> intro h1 h2 <;> first | trivial | exact ⟨h1, h2⟩

theorem b_parseAliasArg (g : Good R) (hn : NamePos s.prev) {m : Str} :
    okp (parseAliasArg R m) c s fun _ s' => Bl s s' ∧ OneName s s' := by
  have pm : ∀ {α : Type} {f : Str → P α}, (∀ n s', okp (f n) c s' fun _ s'' => s'' = s') →
      okp (parseMethodName >>= f) c s fun _ s' => Bl s s' ∧ OneName s s' := by
    intro α f hf
    refine okp_bind (okp_mono (b_parseMethodName' hn) ?_)
    intro n s' h
    refine okp_mono (hf n s') ?_
    rintro _ _ rfl
    exact h
  unfold parseAliasArg
  refine okp_bind (okp_cur ?_)
  split
  · exact pm fun _ _ => okp_pure rfl
  · exact pm fun _ _ => okp_pure rfl
  · exact pm fun _ _ => okp_pure rfl
  · unfold parseSymbol
    refine okp_bind (okp_cur (okp_bind (okp_litOf fun _ => okp_bind (okp_advance fun _ _ _ => okp_pure ?_))))
    refine ⟨by bl, .inl ⟨_, ‹_›, ?_⟩⟩
    rw [‹s.cur.type = _›]; decide
  · bgo
    exact ⟨‹_›, .inr ⟨‹_›, ‹_›⟩⟩
  · exact okp_ite (fun _ => pm fun _ _ => okp_pure rfl) fun _ => okp_throwUnexpected

theorem b_parseValiasArg {b : Bool} {m : Str} :
    okp (parseValiasArg b m) c s fun _ s' => s' = s ∧ isPlain s.cur.type = true := by
  unfold parseValiasArg litOf
  bgo
  all_goals exact ⟨rfl, by plain⟩

theorem namePos_alias {s₀ s s' : PS} (e : s.prev = s₀.cur :: s₀.prev) (h : s₀.cur.type = .AliasKeyword)
    (k : OneName s s') : NamePos s'.prev := by
  rcases k with ⟨t, ht, hn⟩ | ⟨ht, m, hm⟩
  · rw [ht, e]
    exact .second _ _ _ hn h
  · cases hp : s'.prev with
    | nil => simp [hp, e] at hm
    | cons x l =>
      rw [hp] at hm
      simp only [List.tail_cons] at hm
      simp only [PS.prevTok, hp, List.headD_cons] at ht
      rw [← hm, e]
      exact .dynamic _ _ _ _ ht h

theorem b_parseAlias (g : Good R) (h : s.cur.type = .AliasKeyword) : okp (parseAlias R) c s fun _ s' => Bl s s' := by
  unfold parseAlias
  refine okp_bind (okp_cur (okp_bind (okp_advance ?_)))
  intro s1 e1 _
  refine okp_bind (okp_curTy (okp_ite (fun _ => ?_) fun _ => ?_))
  · refine okp_bind (okp_mono b_parseValiasArg ?_)
    rintro _ _ ⟨rfl, _⟩
    refine okp_bind (okp_advance ?_)
    intro _ _ _
    refine okp_bind (okp_mono b_parseValiasArg ?_)
    rintro _ _ ⟨rfl, _⟩
    bgo
  · refine okp_bind (okp_mono (b_parseAliasArg g ?_) ?_)
    · rw [e1]
      exact .after _ _ (by rw [h]; decide)
    · rintro _ s2 ⟨_, k⟩
      refine okp_bind (okp_mono (b_parseAliasArg g (namePos_alias e1 h k)) ?_)
      rintro _ _ ⟨_, _⟩
      bgo

theorem b_parseUndef (g : Good R) (h : s.cur.type = .UndefKeyword) : okp (parseUndef R) c s fun _ s' => Bl s s' := by
  unfold parseUndef
  refine okp_bind (okp_cur (okp_bind (okp_advance ?_)))
  intro s1 e1 _
  refine okp_bind (okp_mono (b_parseAliasArg g ?_) ?_)
  · rw [e1]
    exact .after _ _ (by rw [h]; decide)
  · rintro _ s2 ⟨b2, _⟩
    have hs : s.cur :: s.prev <:+ s2.prev := e1 ▸ b2.1
    refine okp_bind (okp_curTy (okp_ite (fun _ => ?_) fun _ => ?_))
    · refine okp_bind (okp_call ?_ ?_)
      · unfold commaLoop
        refine okp_loopB ?_ fun _ _ h => h
        intro y s3 b3
        refine okp_bind (okp_curTy (okp_ite (fun _ => ?_) fun _ => okp_pure b3))
        refine okp_bind (okp_advance ?_)
        intro s4 e4 _
        refine okp_bind (okp_bind (okp_mono (b_parseAliasArg g ?_) ?_))
        · obtain ⟨m, hm⟩ := hs.trans b3.1
          rw [e4, ← hm]
          exact .further _ _ _ _ ‹_› h
        · rintro _ _ ⟨_, _⟩
          bgo
      · intro _ _ _
        bgo
    · bgo

macro_rules | `(tactic| bspec) => `(tactic| first
  | ((with_reducible refine okp_call (b_parseAlias ‹_› (by tyis)) ?_); intro _ _ _)
  | ((with_reducible refine okp_call (b_parseUndef ‹_› (by tyis)) ?_); intro _ _ _))

end NP.Bal
