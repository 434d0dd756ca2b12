import Verif.Proofs.Val.Base

/-! Trees: bodies, names, literals, interpolation, alias and undef. -/

namespace NP.Val

open Spec

variable {W : Nat → Nat → Prop} {R : Rec} {c : Cx} {s : PS}

theorem v_comma {α : Type} {item : P α} {acc : List α} (J : α → Prop)
    (h : ∀ s, okv W item c s fun a _ => J a) (ha : ∀ x ∈ acc, J x) :
    okv W (commaLoop R item acc) c s fun l _ => ∀ x ∈ l, J x := by
  unfold commaLoop
  refine okv_loop (fun l => ∀ x ∈ l, J x) ha ?_
  intro y s' hy
  refine okv_bind (okv_curTy (okv_ite (fun _ => ?_) fun _ => okv_pure hy))
  refine okv_bind (okv_advance fun _ => okv_bind (okv_mono (h _) ?_))
  intro a s'' ha
  refine okv_pure fun x hx => ?_
  rcases List.mem_append.1 hx with hx | hx
  · exact hy x hx
  · rw [List.mem_singleton.1 hx]; exact ha

theorem v_commaLoop {item : P Node} {acc : List Node} (h : ∀ s, okv W item c s fun a _ => Ve W a)
    (ha : Ves W acc) : okv W (commaLoop R item acc) c s fun l _ => Ves W l := v_comma _ h ha

theorem v_commaPats {item : P Node} {acc : List Node} (h : ∀ s, okv W item c s fun a _ => Vp W a)
    (ha : Vps W acc) : okv W (commaLoop R item acc) c s fun l _ => Vps W l := v_comma _ h ha

theorem v_reinsertCollapsedNewline : okv W reinsertCollapsedNewline c s fun _ _ => True := by
  unfold reinsertCollapsedNewline
  vgo

theorem v_addAssignmentLocals {n : Node} (h : Tk W n.tok) : okv W (addAssignmentLocals n) c s fun _ _ => n.isTarget = true := by
  unfold addAssignmentLocals
  split
  all_goals first
    | exact okv_throwTok h
    | exact okv_pure rfl
    | exact okv_addNames fun _ => rfl

theorem v_parseBody (g : GoodV W R) (p : Prec) (isEnd : Ttype → Bool) :
    okv W (parseBody R p isEnd) c s fun b _ => Tk W b.tok ∧ Ves W b.nodes := by
  unfold parseBody
  vgo

theorem v_parseRestOfBegin (g : GoodV W R) {t : Token} {b : List Node} (ht : Tk W t) (hb : Ves W b) :
    okv W (parseRestOfBegin R (parseBody R .LOWEST) t b) c s fun a _ => Ve W a := by
  unfold parseRestOfBegin
  vgo

theorem v_parseBodyRescue (g : GoodV W R) (p : Prec) (isEnd : Ttype → Bool) :
    okv W (parseBodyRescue R p isEnd) c s fun b _ => Tk W b.tok ∧ Ves W b.nodes := by
  unfold parseBodyRescue
  vgo

theorem v_parseBodyEnd (g : GoodV W R) : okv W (parseBodyEnd R) c s fun b _ => Tk W b.tok ∧ Ves W b.nodes := by
  exact v_parseBody g _ _

theorem v_parseDefBody (g : GoodV W R) : okv W (parseDefBody R) c s fun b _ => Tk W b.tok ∧ Ves W b.nodes := by
  exact v_parseBodyRescue g _ _

theorem v_parseMethodName : okv W parseMethodName c s fun _ _ => True := by
  unfold parseMethodName
  vgo

theorem v_parseSymbol : okv W parseSymbol c s fun a _ => Ve W a := by
  unfold parseSymbol
  vgo

theorem v_parseSymbolKey : okv W parseSymbolKey c s fun a _ => Ve W a := by
  unfold parseSymbolKey
  vgo

theorem v_parseInterpolatedBody (g : GoodV W R) (t : Token) (ty : Ttype) (ht : Tk W t) :
    okv W (parseInterpolatedBody R t ty) c s fun a _ => Ves W a := by
  unfold parseInterpolatedBody
  vgo
  all_goals vopen
  · vd
  · vd

theorem v_parseInterpolatedRegexp (g : GoodV W R) : okv W (parseInterpolatedRegexp R) c s fun a _ => Ve W a := by
  unfold parseInterpolatedRegexp
  vgo

theorem v_parseInterpolatedShell (g : GoodV W R) : okv W (parseInterpolatedShell R) c s fun a _ => Ve W a := by
  unfold parseInterpolatedShell
  vgo

theorem v_parseInterpolatedSymbol (g : GoodV W R) : okv W (parseInterpolatedSymbol R) c s fun a _ => Ve W a := by
  unfold parseInterpolatedSymbol
  vgo

theorem tk_at {t u : Token} (h : Tk W t) (k : Tk W u) : Tk W { u with line := t.line, col := t.col } := ⟨h.1, k.2⟩

theorem getLast_mem {l : List Node} {n : Node} (h : l.getLast? = some n) : n ∈ l := List.mem_of_getLast? h

theorem ves_of {l : List Node} (h : wfs W l) (k : ∀ n ∈ l, isConst n = false) : Ves W l :=
  fun n hn => Ve.intro (k n hn) (wfs_iff.1 h n hn)

theorem v_stringAppend {t : Token} {str : Str} {b : Node} (ht : Tk W t) (hb : Ve W b) :
    okv W (stringAppend t str b) c s fun a _ => Ve W a ∧ isStr a = true := by
  unfold stringAppend
  have hw := hb.wf
  split
  · vgo
  · split
    · vgo
    · simp only [vwf] at hw
      refine okv_pure ⟨Ve.intro rfl ?_, rfl⟩
      simp only [vwf]
      exact ⟨tk_at ht hw.1, hw.2.1, hw.2.2⟩
    · simp only [vwf] at hw
      refine okv_pure ⟨Ve.intro rfl ?_, rfl⟩
      simp only [vwf]
      exact ⟨tk_at ht hw.1, ht, hw.2⟩
  · vgo

theorem v_istringAppend {t : Token} {ns : List Node} {b : Node} (ht : Tk W t) (hn : wfs W ns) (hb : Ve W b) :
    okv W (istringAppend t ns b) c s fun a _ => Ve W a ∧ isStr a = true := by
  unfold istringAppend
  have hw := hb.wf
  split
  · simp only [vwf] at hw
    split
    · vgo
    · rename_i e
      have hl := wfs_iff.1 hn _ (getLast_mem e)
      simp only [vwf] at hl
      refine okv_ite (fun _ => ?_) fun _ => ?_
      · vgo
      · vgo
    · vgo
    · vgo
  · simp only [vwf] at hw
    refine okv_ite (fun _ => ?_) fun _ => ?_
    · vgo
    · obtain ⟨_, _⟩ := hw
      vgo
  · vgo

theorem v_appendStringNodes {a b : Node} (ha : Ve W a) (hb : Ve W b) :
    okv W (appendStringNodes a b) c s fun a _ => Ve W a ∧ isStr a = true := by
  unfold appendStringNodes
  have hw := ha.wf
  refine okv_ite (fun _ => ?_) fun _ => okv_throwUnexpected
  split
  · simp only [vwf] at hw
    exact v_stringAppend hw hb
  · simp only [vwf] at hw
    exact v_istringAppend hw.1 hw.2 hb
  · vgo

theorem v_concatAdjacentStrings (g : GoodV W R) {n : Node} (h : Ve W n) (k : isStr n = true) :
    okv W (concatAdjacentStrings R n) c s fun a _ => Ve W a.1 ∧ isStr a.1 = true := by
  unfold concatAdjacentStrings
  refine okv_loop (fun x => Ve W x.1 ∧ isStr x.1 = true) ⟨h, k⟩ ?_
  intro y s' hy
  refine okv_bind (okv_curTy (okv_ite (fun _ => ?_) fun _ => okv_ite (fun _ => ?_) fun _ => ?_))
  · refine okv_bind (okv_mono (g.string _ _) ?_)
    intro b _ hb
    refine okv_bind (okv_mono (v_appendStringNodes hy.1 hb.1) ?_)
    intro _ _ h
    exact okv_pure h
  · refine okv_bind (okv_mono (g.istring _ _) ?_)
    intro b _ hb
    refine okv_bind (okv_mono (v_appendStringNodes hy.1 hb.1) ?_)
    intro _ _ h
    exact okv_pure h
  · exact okv_pure hy

theorem v_finishString (g : GoodV W R) {n : Node} (h : Ve W n) (k : isStr n = true) :
    okv W (finishString R n) c s fun a _ => Ve W a ∧ isStr a = true := by
  unfold finishString toSymbolKey
  refine okv_bind (okv_get ?_)
  vjp fun a : Node × Bool => Ve W a.1 ∧ isStr a.1 = true
  · refine okv_ite (fun _ => ?_) fun _ => ?_
    · vgo
    · refine okv_bind (okv_mono (v_concatAdjacentStrings g h k) ?_)
      intro _ _ _
      vgo
  · rename_i m _ hm km
    obtain ⟨m, b⟩ := m
    dsimp only at hm km ⊢
    have hw := Ve.wf hm
    refine okv_bind (okv_curTy (okv_ite (fun _ => okv_bind (okv_advance fun _ => ?_)) fun _ => ?_))
    · split
      · simp only [vwf] at hw
        vgo
      · simp only [vwf] at hw
        vgo
      · vgo
    · exact okv_pure ⟨hm, km⟩

theorem v_parseString (g : GoodV W R) : okv W (parseString R) c s fun a _ => Ve W a ∧ isStr a = true := by
  unfold parseString
  refine okv_bind (okv_cur fun _ => okv_bind (okv_litOf fun _ _ => okv_bind (okv_advance fun _ => ?_)))
  exact v_finishString g (by vd) rfl

theorem v_parseInterpolatedString (g : GoodV W R) :
    okv W (parseInterpolatedString R) c s fun a _ => Ve W a ∧ isStr a = true := by
  unfold parseInterpolatedString
  refine okv_bind (okv_cur fun _ => okv_bind (okv_advance fun _ => okv_bind (okv_cur fun _ => okv_bind
    (okv_peek fun _ => ?_))))
  vjp fun a => Ve W a ∧ isStr a = true
  · vgo
  · exact v_finishString g ‹_› ‹_›

theorem wf_ratcx {t : Token} {n : Node} (ht : Tk W t) (h : wf W n) (k : n.isNumeric = true) (m : ∀ u v, n ≠ .rational u v) :
    wf W (.complex t n) ∧ wf W (.complex t (.rational t n)) := by
  refine ⟨?_, ?_⟩
  · cases n <;> simp only [wf] <;> first
      | exact ⟨ht, by simpa only [wf] using h, k⟩
      | exact absurd rfl (m _ _)
  · simp only [wf]
    exact ⟨ht, ht, h, k⟩

theorem v_parseLit : okv W parseLit c s fun a _ => Ve W a := by
  unfold parseLit
  refine okv_bind (okv_cur fun _ => ?_)
  vjp fun a => Ve W a ∧ a.isNumeric = true ∧ ∀ t v, a ≠ .rational t v
  · vgo
    all_goals (refine okv_callJPI (by assumption) ?_; exact ⟨by vd, rfl, fun _ _ => Node.noConfusion⟩)
  · rename_i a _ ha ka h
    obtain ⟨_, _⟩ := wf_ratcx ‹_› (Ve.wf ha) ka h
    vgo

theorem v_parseIdentifier (h : identTy s.cur.type = true) : okv W parseIdentifier c s fun a _ => Ve W a := by
  unfold parseIdentifier
  vgo

theorem v_parseConstant (h : s.cur.type = .Constant) : okv W parseConstant c s fun a _ => Vp W a := by
  unfold parseConstant
  refine okv_bind (okv_cur fun k => okv_bind (okv_advance fun _ => okv_pure ?_))
  have := k.2 (.inr h)
  vd

theorem v_parseTopLevelConstant : okv W parseTopLevelConstant c s fun a _ => Ve W a := by
  unfold parseTopLevelConstant
  vgo

theorem v_parseOne {f : Token → Node} (h : ∀ t, Tk W t → Ve W (f t)) : okv W (parseOne f) c s fun a _ => Ve W a := by
  unfold parseOne
  exact okv_bind (okv_cur fun k => okv_bind (okv_advance fun _ => okv_pure (h _ k)))

theorem v_parseBackRef : okv W parseBackRef c s fun a _ => Ve W a := by
  unfold parseBackRef
  vgo

theorem v_parseFileConstant : okv W parseFileConstant c s fun a _ => Ve W a := by
  unfold parseFileConstant
  refine okv_bind (okv_cur fun k => okv_bind (okv_advance fun _ => ?_))
  intro hs
  exact ⟨hs, by vd⟩

theorem v_parseAliasArg (g : GoodV W R) {m : Str} : okv W (parseAliasArg R m) c s fun a _ => Ve W a := by
  unfold parseAliasArg
  vgo

theorem v_parseValiasArg {b : Bool} {m : Str} : okv W (parseValiasArg b m) c s fun _ _ => True := by
  unfold parseValiasArg
  vgo

theorem v_parseAlias (g : GoodV W R) : okv W (parseAlias R) c s fun a _ => Ve W a := by
  unfold parseAlias
  vgo

theorem v_parseUndef (g : GoodV W R) : okv W (parseUndef R) c s fun a _ => Ve W a := by
  unfold parseUndef
  vgo

end NP.Val
