import Verif.Proofs.Val.Args

/-! Trees: parameters, blocks, definitions. -/

namespace NP.Val

open Spec

variable {W : Nat → Nat → Prop} {R : Rec} {c : Cx} {s : PS}

theorem pars_of {l : List Node} (h : wfs W l) (k : ∀ n ∈ l, isParam n = true) : Pars W l :=
  fun n hn => ⟨wfs_iff.1 h n hn, k n hn⟩

theorem v_parseArgDefaultValue (g : GoodV W R) (ia : IterAllow) :
    okv W (parseArgDefaultValue R ia) c s fun a _ => Ve W a := by
  unfold parseArgDefaultValue
  vgo

theorem v_parseDefArgs (g : GoodV W R) : okv W (parseDefArgs R) c s fun a _ => Pars W a := by
  unfold parseDefArgs
  refine okv_bind (okv_mono (g.defSingleArg _ _ _ _ _ (by vd)) ?_)
  intro a s' h
  refine okv_loop (fun l => Pars W l) h ?_
  intro y s' hy
  vgo

theorem v_parseDefSingleArg (g : GoodV W R) {l : List Node} (x : ArgsContext) (ia : IterAllow) (hl : Pars W l) :
    okv W (parseDefSingleArg R l x ia) c s fun a _ => Pars W a := by
  unfold parseDefSingleArg
  refine okv_bind (okv_cur fun _ => okv_ite (fun _ => okv_throwError ‹_›) fun _ => ?_)
  split
  case h_6 =>
    refine okv_bind (okv_litOf fun _ _ => okv_bind (okv_advance fun _ => ?_))
    extract_lets +onlyGivenNames nv
    clear_value nv
    vgo
  all_goals vgo

theorem v_parseShadowVar : okv W parseShadowVar c s fun _ _ => True := by
  unfold parseShadowVar
  vgo

theorem v_parseShadowVars {l : List Node} (hl : Pars W l) :
    okv W (parseShadowVars R l) c s fun a _ => Pars W a := by
  unfold parseShadowVars
  refine okv_bind (okv_cur fun _ => okv_bind (okv_advance fun _ => okv_bind (okv_mono v_parseShadowVar ?_)))
  intro _ _ _
  refine okv_bind (okv_mono (v_comma (fun _ => True) (fun _ => v_parseShadowVar) fun _ _ => trivial) ?_)
  intro _ _ _
  vgo

theorem v_parseProcArgs (g : GoodV W R) (ia : IterAllow) : okv W (parseProcArgs R ia) c s fun a _ => Pars W a := by
  unfold parseProcArgs
  refine okv_bind (okv_curTy (okv_ite (fun _ => v_parseShadowVars (by vd)) fun _ => ?_))
  refine okv_bind (okv_mono (g.defSingleArg _ _ _ _ _ (by vd)) ?_)
  intro _ _ h
  refine okv_bind (okv_loop (fun l => Pars W l) h ?_)
  intro _ _ _
  vgo

theorem v_parseIterArgs (g : GoodV W R) : okv W (parseIterArgs R) c s fun a _ => Pars W a := by
  unfold parseIterArgs
  refine okv_bind (okv_curTy (okv_ite (fun _ => v_parseShadowVars (by vd)) fun _ => ?_))
  refine okv_bind (okv_mono (g.defSingleArg _ _ _ _ _ (by vd)) ?_)
  intro _ _ h
  refine okv_bind (okv_loop (fun l => Pars W l) h ?_)
  intro _ _ _
  vgo

theorem v_parseIter (g : GoodV W R) {n : Node} (h : Ve W n) : okv W (parseIter R n) c s fun a _ => Ve W a := by
  unfold parseIter
  refine okv_bind (okv_cur fun _ => okv_bind (okv_get ?_))
  extract_lets +onlyGivenNames curly
  refine okv_ite (fun _ => okv_throwUnexpected) fun _ => ?_
  extract_lets +onlyGivenNames endTy
  clear_value endTy curly
  refine okv_bind (okv_withLocals fun s' => okv_mono (Q := fun a _ => Pars W a.2.1 ∧ Ves W a.2.2.nodes) ?_ ?_)
  · vjp fun a : Bool × List Node => Pars W a.2
    · have hw := h.wf
      split
      · simp only [vwf] at hw
        have := pars_of hw.2.1 hw.2.2
        vgo
      · vgo
    · vgo
  · rintro ⟨_, _, _⟩ _ ⟨_, _⟩ _
    vgo

theorem v_parseBeginBlock (g : GoodV W R) : okv W (parseBeginBlock R) c s fun a _ => Ve W a := by
  unfold parseBeginBlock
  vgo

theorem v_parseEndBlock (g : GoodV W R) : okv W (parseEndBlock R) c s fun a _ => Ve W a := by
  unfold parseEndBlock
  vgo

theorem v_parseStabbyProc (g : GoodV W R) : okv W (parseStabbyProc R) c s fun a _ => Ve W a := by
  unfold parseStabbyProc
  refine okv_bind (okv_cur fun _ => okv_bind (okv_advance fun _ => okv_bind (okv_curTy ?_)))
  vjp fun a : Bool × List Node => Pars W a.2
  · vgo
  · vgo

theorem v_parseDefName (g : GoodV W R) : okv W (parseDefName R) c s fun a _ => ∀ n ∈ a.1, wf W n := by
  unfold parseDefName
  refine okv_bind (okv_cur fun _ => okv_bind (okv_peek fun _ => ?_))
  extract_lets +onlyGivenNames dotted
  clear_value dotted
  split
  · vjp fun o : Option Node => ∀ n ∈ o, wf W n
    · vgo
    · vgo
  · vjp fun o : Option Node => ∀ n ∈ o, wf W n
    · refine okv_ite (fun _ => okv_bind (okv_mono (v_parseConstant ‹_›) ?_)) fun _ => ?_
      · vin
        vgo
      · vgo
    · vgo
  · vgo
  · vjp fun o : Option Node => ∀ n ∈ o, wf W n
    · vgo
    · vgo
  · vgo

theorem wfo_of' {o : Option Node} (h : ∀ n ∈ o, wf W n) : wfo W o := wfo_iff.2 h

theorem v_parseDef (g : GoodV W R) : okv W (parseDef R) c s fun a _ => Ve W a := by
  unfold parseDef
  refine okv_bind (okv_cur fun _ => okv_bind (okv_advance fun _ => okv_bind (okv_mono (v_parseDefName g) ?_)))
  rintro ⟨o, n⟩ _ ho
  have ho := wfo_of' ho
  refine okv_bind (okv_withLocals fun s' => okv_mono (Q := fun a _ => Pars W a.1 ∧ Ves W a.2) ?_ ?_)
  · refine okv_bind (okv_curTy ?_)
    generalize hm : SErr.plain _ = e
    have he : errPlace W e := by rw [← hm]; exact True.intro
    clear hm
    vjp fun a : List Node => Pars W a
    · vgo
    · vgo
  · rintro ⟨_, _⟩ _ ⟨_, _⟩ _
    vgo

theorem v_parseDefined (g : GoodV W R) : okv W (parseDefined R) c s fun a _ => Ve W a := by
  unfold parseDefined
  vgo

theorem v_parseClassOrModuleName (g : GoodV W R) : okv W (parseClassOrModuleName R) c s fun a _ => Ve W a := by
  unfold parseClassOrModuleName
  vgo

theorem v_parseSclass (g : GoodV W R) : okv W (parseSclass R) c s fun a _ => Ve W a := by
  unfold parseSclass
  vgo

theorem v_parseClass (g : GoodV W R) : okv W (parseClass R) c s fun a _ => Ve W a := by
  unfold parseClass
  vgo

theorem v_parseModule (g : GoodV W R) : okv W (parseModule R) c s fun a _ => Ve W a := by
  unfold parseModule
  vgo

end NP.Val
