import Verif.Proofs.Cnt.Args

/-! Numbers: parameters, blocks and definitions. -/

namespace NP.Cnt

open Spec

variable {w : Option Token → Nat} {R : Rec} {c : Cx} {s : PS}

theorem c_parseArgDefaultValue (g : GoodC w R) {ia : IterAllow} :
    okc w (parseArgDefaultValue R ia) c s fun a s' => u w s' = u w s + wt w a := by
  unfold parseArgDefaultValue
  cgo

theorem c_parseDefArgs (g : GoodC w R) :
    okc w (parseDefArgs R) c s fun a s' => u w s' = u w s + wts w a := by
  unfold parseDefArgs
  cgo

theorem c_parseDefSingleArg (g : GoodC w R) {l : List Node} {x : ArgsContext} {ia : IterAllow} :
    okc w (parseDefSingleArg R l x ia) c s fun a s' => u w s' + wts w l = u w s + wts w a := by
  unfold parseDefSingleArg
  cgo

theorem c_parseShadowVar :
    okc w (parseShadowVar) c s fun _ s' => u w s' = u w s := by
  unfold parseShadowVar
  cgo

theorem c_parseShadowVars {l : List Node} (h : nn s.cur.type = true) :
    okc w (parseShadowVars R l) c s fun a s' => u w s' + wts w l = u w s + wts w a := by
  unfold parseShadowVars
  have hc : ∀ l s', okc w (commaLoop R parseShadowVar l) c s' fun _ s'' => u w s'' = u w s' := fun l s' =>
    c_commaStrs fun _ => c_parseShadowVar
  refine okc_bind (okc_cur (okc_bind (okc_advance0 h fun _ _ _ => okc_bind (okc_mono c_parseShadowVar ?_))))
  intro _ _ _
  refine okc_bind (okc_mono (hc _ _) ?_)
  intro _ _ _
  cgo

theorem c_parseProcArgs (g : GoodC w R) {ia : IterAllow} :
    okc w (parseProcArgs R ia) c s fun a s' => u w s' = u w s + wts w a := by
  unfold parseProcArgs
  cgo

theorem c_parseIterArgs (g : GoodC w R) :
    okc w (parseIterArgs R) c s fun a s' => u w s' = u w s + wts w a := by
  unfold parseIterArgs
  cgo

theorem nn_of_ite {x y z : Ttype} {b : Bool} (h : x = if b = true then y else z) (hy : nn y = true)
    (hz : nn z = true) : nn x = true := by
  subst h
  split <;> assumption

theorem c_parseIter (g : GoodC w R) {n : Node} (h : nn s.cur.type = true) :
    okc w (parseIter R n) c s fun a s' => u w s' + wt w n = u w s + wt w a := by
  unfold parseIter
  cgo
  all_goals
    have := nn_of_ite ‹_ = if _ then _ else _› (by decide) (by decide)
    have := tw_zero (w := w) this
    first
    | cd
    | (have := wti_of (w := w) (n := n) ‹_›; cd)

theorem c_parseBeginBlock (g : GoodC w R) (h : nn s.cur.type = true) :
    okc w (parseBeginBlock R) c s fun a s' => u w s' = u w s + wt w a := by
  unfold parseBeginBlock
  cgo

theorem c_parseEndBlock (g : GoodC w R) (h : nn s.cur.type = true) :
    okc w (parseEndBlock R) c s fun a s' => u w s' = u w s + wt w a := by
  unfold parseEndBlock
  cgo

theorem c_parseStabbyProc (g : GoodC w R) (h : nn s.cur.type = true) :
    okc w (parseStabbyProc R) c s fun a s' => u w s' = u w s + wt w a := by
  unfold parseStabbyProc
  cgo

theorem c_parseDefName (g : GoodC w R) :
    okc w (parseDefName R) c s fun a s' => u w s' = u w s + wto w a.1 := by
  unfold parseDefName
  cgo

theorem c_parseDef (g : GoodC w R) (h : nn s.cur.type = true) :
    okc w (parseDef R) c s fun a s' => u w s' = u w s + wt w a := by
  unfold parseDef
  cgo

theorem c_parseDefined (g : GoodC w R) (h : nn s.cur.type = true) :
    okc w (parseDefined R) c s fun a s' => u w s' = u w s + wt w a := by
  unfold parseDefined
  cgo

theorem c_parseClassOrModuleName (g : GoodC w R) :
    okc w (parseClassOrModuleName R) c s fun a s' => u w s' = u w s + wt w a := by
  unfold parseClassOrModuleName
  cgo

theorem c_parseSclass (g : GoodC w R) (k : s.peek.type = .LeftShift) (h : nn s.cur.type = true) :
    okc w (parseSclass R) c s fun a s' => u w s' = u w s + wt w a := by
  unfold parseSclass
  cgo

theorem c_parseClass (g : GoodC w R) (h : nn s.cur.type = true) :
    okc w (parseClass R) c s fun a s' => u w s' = u w s + wt w a := by
  unfold parseClass
  cgo

theorem c_parseModule (g : GoodC w R) (h : nn s.cur.type = true) :
    okc w (parseModule R) c s fun a s' => u w s' = u w s + wt w a := by
  unfold parseModule
  cgo

end NP.Cnt
