import Verif.Proofs.Cnt.Base

/-! Numbers: bodies, names, literals, interpolation, alias and undef. -/

namespace NP.Cnt

open Spec

variable {w : Option Token → Nat} {R : Rec} {c : Cx} {s : PS}

theorem c_commaLoop {item : P Node} {acc : List Node}
    (h : ∀ s, okc w item c s fun a s' => u w s' = u w s + wt w a) :
    okc w (commaLoop R item acc) c s fun l s' => u w s' + wts w acc = u w s + wts w l := by
  unfold commaLoop
  refine okc_loopW ?_ ?_
  · intro y s'
    refine okc_bind (okc_curTy (okc_ite (fun _ => ?_) fun _ => okc_pure rfl))
    refine okc_bind (okc_advance0 (by nnt) fun _ _ _ => okc_bind (okc_mono (h _) ?_))
    intro a s'' ha
    refine okc_pure ?_
    cd
  · cin
    cd

theorem c_commaStrs {item : P Str} {acc : List Str}
    (h : ∀ s, okc w item c s fun _ s' => u w s' = u w s) :
    okc w (commaLoop R item acc) c s fun _ s' => u w s' = u w s := by
  unfold commaLoop
  refine okc_loopW ?_ ?_
  · intro y s'
    refine okc_bind (okc_curTy (okc_ite (fun _ => ?_) fun _ => okc_pure rfl))
    refine okc_bind (okc_advance0 (by nnt) fun _ _ _ => okc_bind (okc_mono (h _) ?_))
    intro a s'' ha
    refine okc_pure ?_
    cd
  · cin
    cd

theorem c_reinsertCollapsedNewline : okc w reinsertCollapsedNewline c s fun _ s' => u w s' = u w s := by
  unfold reinsertCollapsedNewline
  cgo

theorem c_addAssignmentLocals {n : Node} :
    okc w (addAssignmentLocals n) c s fun _ s' => u w s' = u w s ∧ s'.cur = s.cur := by
  unfold addAssignmentLocals
  split
  all_goals first
    | exact okc_throwTok
    | exact okc_pure ⟨rfl, rfl⟩
    | exact okc_addNames fun _ h k _ => ⟨h, k⟩

theorem c_parseBody (g : GoodC w R) {p : Prec} {isEnd : Ttype → Bool} :
    okc w (parseBody R p isEnd) c s fun b s' => u w s' = u w s + wts w b.nodes ∧
      (s'.cur.type = .Eof ∨ isEnd s'.cur.type = true) := by
  unfold parseBody
  refine okc_bind (okc_pushDepth fun s1 _ _ _ => okc_bind (okc_cur (okc_bind (okc_validateCurrent (okc_bind
    (okc_skipNewlines fun s2 _ _ => okc_bind ?_))))))
  refine okc_mono (Q := fun ns s' => u w s' = u w s + wts w ns ∧
      (s'.cur.type = .Eof ∨ isEnd s'.cur.type = true)) ?_ ?_
  · refine okc_loop (fun ns s' => u w s' = u w s + wts w ns) (by cd) ?_
    intro y s' hy
    refine okc_bind (okc_curTy (okc_ite (fun h => okc_pure ⟨hy, h⟩) fun _ => okc_bind (okc_mono (c_exp g) ?_)))
    intro e s'' he
    refine okc_bind (okc_curTy (okc_ite (fun h => okc_pure ⟨?_, .inr h⟩) fun _ => okc_bind
      (okc_nextExpression fun _ _ => okc_pure ?_)))
    · cd
    · cd
  · rintro ns s' ⟨h1, h2⟩
    refine okc_bind (okc_popDepth fun s4 h3 h4 _ => okc_pure ⟨?_, ?_⟩)
    · cd
    · rw [h4]; exact h2

/-- Where an `else` or an `ensure` part is, no other can follow. -/
def Once (x : List Node × Option (List Node) × Option (List Node)) (s : PS) : Prop :=
  (x.2.1 = none ∨ s.cur.type = .EnsureKeyword ∨ s.cur.type = .EndKeyword ∨ s.cur.type = .Eof) ∧
  (x.2.2 = none ∨ s.cur.type = .EndKeyword ∨ s.cur.type = .Eof)

theorem c_parseRestOfBegin (g : GoodC w R) {t : Token} {b : List Node} :
    okc w (parseRestOfBegin R (parseBody R .LOWEST) t b) c s fun a s' =>
      u w s' + wts w b = u w s + wt w a ∧ s'.prevTok.type = .EndKeyword ∧
      ∃ rs e en, a = .begin_ t b rs e en := by
  unfold parseRestOfBegin
  extract_lets +onlyGivenNames er ee
  refine okc_bind (okc_mono (Q := fun x s' => u w s' = u w s + Weigh.of w x) ?_ ?_)
  · refine okc_loop (fun x s' => u w s' = u w s + Weigh.of w x ∧ Once x s') ⟨by cd, .inl rfl, .inl rfl⟩ ?_
    rintro ⟨x1, x2, x3⟩ s' ⟨hy, ho⟩
    simp only [cwt] at hy
    refine okc_bind (okc_cur ?_)
    split
    · exact okc_pure (by cd)
    · exact okc_pure (by cd)
    · have h2 : x2 = none := by rcases ho.1 with h | h | h | h <;> first | exact h | simp_all
      have h3 : x3 = none := by rcases ho.2 with h | h | h <;> first | exact h | simp_all
      subst h2 h3
      cgo
      all_goals exact ⟨by cd, .inl rfl, .inl rfl⟩
    · have h2 : x2 = none := by rcases ho.1 with h | h | h | h <;> first | exact h | simp_all
      have h3 : x3 = none := by rcases ho.2 with h | h | h <;> first | exact h | simp_all
      subst h2 h3
      refine okc_bind (okc_advance0 (by nnt) fun _ _ _ => okc_bind (okc_nextExpression fun _ _ => okc_bind
        (okc_mono (c_parseBody g) ?_)))
      rintro b s5 ⟨h1, -⟩
      refine okc_bind (okc_curTy (okc_ite (fun h => okc_pure ⟨by cd, ?_, .inl rfl⟩) fun _ => okc_throwUnexpected))
      refine .inr ?_
      simp only [ee, Bool.or_eq_true, beq_iff_eq] at h
      exact h.elim .inl fun h => .inr (.inl h)
    · have h3 : x3 = none := by rcases ho.2 with h | h | h <;> first | exact h | simp_all
      subst h3
      refine okc_bind (okc_advance0 (by nnt) fun _ _ _ => okc_bind (okc_nextExpression fun _ _ => okc_bind
        (okc_mono (c_parseBody g) ?_)))
      rintro b s5 ⟨h1, h⟩
      simp only [beq_iff_eq] at h
      refine okc_pure ⟨by cd, .inr ?_, .inr ?_⟩
      · exact h.elim (fun h => .inr (.inr h)) fun h => .inr (.inl h)
      · exact h.elim .inr .inl
    · exact okc_throwUnexpected
  · rintro ⟨x1, x2, x3⟩ s' hx
    simp only [cwt] at hx
    refine okc_bind (okc_expect fun h => okc_bind (okc_advanceP (by nnt) fun s4 h4 h5 => okc_pure ⟨by cd, ?_, _, _, _, rfl⟩))
    rw [h5]; exact h

theorem c_parseBodyRescue (g : GoodC w R) {p : Prec} {isEnd : Ttype → Bool} :
    okc w (parseBodyRescue R p isEnd) c s fun b s' => u w s' = u w s + wts w b.nodes := by
  unfold parseBodyRescue
  cgo
  all_goals
    have := tw_zero (w := w) (nn_of_eq ‹(PS.prevTok _).type = _› rfl)
    cd

theorem c_parseBodyEnd (g : GoodC w R) : okc w (parseBodyEnd R) c s fun b s' => u w s' = u w s + wts w b.nodes := by
  exact okc_mono (c_parseBody g) fun _ _ h => h.1

theorem c_parseDefBody (g : GoodC w R) : okc w (parseDefBody R) c s fun b s' => u w s' = u w s + wts w b.nodes := by
  exact c_parseBodyRescue g

theorem c_parseMethodName : okc w parseMethodName c s fun _ s' => u w s' = u w s := by
  unfold parseMethodName
  cgo

theorem c_parseSymbol (h : nn s.cur.type = true) : okc w parseSymbol c s fun a s' => u w s' = u w s + wt w a := by
  unfold parseSymbol
  cgo

theorem c_parseSymbolKey (h : nn s.cur.type = true) :
    okc w parseSymbolKey c s fun a s' => u w s' = u w s + wt w a := by
  unfold parseSymbolKey
  cgo

theorem c_parseInterpolatedBody (g : GoodC w R) {t : Token} {ty : Ttype} :
    okc w (parseInterpolatedBody R t ty) c s fun a s' => u w s' = u w s + wts w a ∧ s'.cur.type = ty := by
  unfold parseInterpolatedBody
  refine okc_bind (okc_loopW (fun ns s' => ?_) ?_)
  · refine okc_bind (okc_cur (okc_ite (fun _ => okc_pure rfl) fun _ => ?_))
    split
    · refine okc_bind (okc_advance0 (by nnt) fun s1 _ _ => okc_bind (okc_skipNewlines fun s2 _ _ => okc_bind (okc_cur
        (okc_bind (okc_mono (Q := fun bs s' => u w s' = u w s2 + wts w bs ∧ s'.cur.type = .EvaluateToStringEnd) ?_ ?_)))))
      · refine okc_loop (fun bs s' => u w s' = u w s2 + wts w bs) (by cd) ?_
        intro bs s3 hb
        refine okc_bind (okc_curTy (okc_ite (fun h => okc_pure ⟨hb, h⟩) fun _ => ?_))
        cgo
      · rintro bs s3 ⟨hb, ht⟩
        refine okc_bind (okc_advance0 (by nnt) fun s4 _ _ => okc_bind (okc_cur (okc_pure ?_)))
        simp only [cwt]
        split <;> cz
    · cgo
    · cgo
  · cin
    cgo

theorem c_parseInterpolatedRegexp (g : GoodC w R) (h : nn s.cur.type = true) :
    okc w (parseInterpolatedRegexp R) c s fun a s' => u w s' = u w s + wt w a := by
  unfold parseInterpolatedRegexp
  cgo

theorem c_parseInterpolatedShell (g : GoodC w R) (h : nn s.cur.type = true) :
    okc w (parseInterpolatedShell R) c s fun a s' => u w s' = u w s + wt w a := by
  unfold parseInterpolatedShell
  cgo

theorem c_parseInterpolatedSymbol (g : GoodC w R) (h : nn s.cur.type = true) :
    okc w (parseInterpolatedSymbol R) c s fun a s' => u w s' = u w s + wt w a := by
  unfold parseInterpolatedSymbol
  cgo

theorem c_stringAppend {t : Token} {str : Str} {b : Node} :
    okc w (stringAppend t str b) c s fun a s' => u w s' = u w s ∧ wt w a = wt w b := by
  unfold stringAppend
  cgo

theorem c_istringAppend {t : Token} {ns : List Node} {b : Node} :
    okc w (istringAppend t ns b) c s fun a s' => u w s' = u w s ∧ wt w a = wts w ns + wt w b := by
  unfold istringAppend
  cgo
  rename_i h k
  obtain ⟨ns', rfl⟩ := List.getLast?_eq_some_iff.1 h
  cases ns' with
  | nil => cd
  | cons x y => simp at k

theorem c_appendStringNodes {a b : Node} :
    okc w (appendStringNodes a b) c s fun r s' => u w s' = u w s ∧ wt w r = wt w a + wt w b := by
  unfold appendStringNodes
  cgo

theorem c_concatAdjacentStrings (g : GoodC w R) {n : Node} :
    okc w (concatAdjacentStrings R n) c s fun a s' => u w s' + wt w n = u w s + wt w a.1 := by
  unfold concatAdjacentStrings
  cgo

theorem c_toSymbolKey {n : Node} : okc w (toSymbolKey n) c s fun a s' => u w s' = u w s ∧ wt w a = wt w n := by
  unfold toSymbolKey
  cgo

theorem c_finishString (g : GoodC w R) {n : Node} :
    okc w (finishString R n) c s fun a s' => u w s' + wt w n = u w s + wt w a := by
  unfold finishString
  cgo

theorem c_parseString (g : GoodC w R) (h : nn s.cur.type = true) :
    okc w (parseString R) c s fun a s' => u w s' = u w s + wt w a := by
  unfold parseString
  cgo

theorem c_parseInterpolatedString (g : GoodC w R) (h : nn s.cur.type = true) :
    okc w (parseInterpolatedString R) c s fun a s' => u w s' = u w s + wt w a := by
  unfold parseInterpolatedString
  cgo

theorem c_parseLit : okc w parseLit c s fun a s' => u w s' = u w s + wt w a := by
  unfold parseLit
  cgo
  all_goals
    have hi : isNumber s.cur = true := by simp [isNumber, *]
    have hb : ∀ n, s.cur.lit = some n → s.cur.type = .Bignum → wt w (.bignum s.cur n) = w (some s.cur) :=
      fun n h k => wt_bignum h k
    simp_all [cwt, tw, wt_fixnum, wt_float]

theorem c_parseIdentifier (h : nn s.cur.type = true) :
    okc w parseIdentifier c s fun a s' => u w s' = u w s + wt w a ∧ s'.cur = s.peek := by
  unfold parseIdentifier
  cgo

theorem c_parseConstant (h : nn s.cur.type = true) :
    okc w parseConstant c s fun a s' => u w s' = u w s + wt w a ∧ s'.cur = s.peek := by
  unfold parseConstant
  cgo

theorem c_parseTopLevelConstant (h : nn s.cur.type = true) :
    okc w parseTopLevelConstant c s fun a s' => u w s' = u w s + wt w a := by
  unfold parseTopLevelConstant
  cgo

theorem c_parseOne {f : Token → Node} (h : nn s.cur.type = true) (k : wt w (f s.cur) = 0) :
    okc w (parseOne f) c s fun a s' => u w s' = u w s + wt w a := by
  unfold parseOne
  cgo

theorem c_parseBackRef (h : nn s.cur.type = true) : okc w parseBackRef c s fun a s' => u w s' = u w s + wt w a := by
  unfold parseBackRef
  cgo

theorem c_parseFileConstant (h : nn s.cur.type = true) :
    okc w parseFileConstant c s fun a s' => u w s' = u w s + wt w a := by
  unfold parseFileConstant
  refine okc_bind (okc_cur (okc_bind (okc_advance0 h fun _ k _ => ?_)))
  show _ = _ + _
  cd

theorem c_parseAliasArg (g : GoodC w R) {m : Str} :
    okc w (parseAliasArg R m) c s fun a s' => u w s' = u w s + wt w a := by
  unfold parseAliasArg
  cgo

theorem c_parseValiasArg {b : Bool} {m : Str} : okc w (parseValiasArg b m) c s fun _ s' => u w s' = u w s ∧ nn s'.cur.type = true := by
  unfold parseValiasArg
  cgo

theorem c_parseAlias (g : GoodC w R) (h : nn s.cur.type = true) :
    okc w (parseAlias R) c s fun a s' => u w s' = u w s + wt w a := by
  unfold parseAlias
  cgo

theorem c_parseUndef (g : GoodC w R) (h : nn s.cur.type = true) :
    okc w (parseUndef R) c s fun a s' => u w s' = u w s + wt w a := by
  unfold parseUndef
  cgo

end NP.Cnt
