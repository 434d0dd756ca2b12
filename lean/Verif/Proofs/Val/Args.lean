import Verif.Proofs.Val.Lit

/-! Trees: hashes, arrays, arguments, targets of assignment. -/

namespace NP.Val

open Spec

variable {W : Nat → Nat → Prop} {R : Rec} {c : Cx} {s : PS}

theorem v_parseHashInner (g : GoodV W R) (p : Prec) (ty : Ttype) (b : Bool) {k : Option Node}
    (hk : ∀ n ∈ k, Ve W n) : okv W (parseHashInner R p ty b k) c s fun a _ => Ve W a := by
  unfold parseHashInner
  refine okv_bind (okv_cur fun _ => ?_)
  extract_lets +onlyGivenNames pair
  have hp : ∀ key s', Ve W key → okv W (pair key) c s' fun a _ => Ves W a := by
    intro key s' hkey
    dsimp only [pair]
    vgo
  clear_value pair
  vjp fun k => Ve W k
  · vgo
    exact okv_callJPI (by assumption) (hk _ rfl)
  · refine okv_bind (okv_mono (hp _ _ ‹_›) ?_)
    vin
    refine okv_bind (okv_loopV ‹_› ?_ ?_)
    · vin
      refine okv_bind (okv_curTy (okv_ite (fun _ => okv_bind (okv_advance fun _ => okv_bind (okv_curTy (okv_ite
        (fun _ => okv_pure ?_) fun _ => okv_bind ?_)))) fun _ => okv_pure ?_))
      · vd
      · refine okv_mono (g.expr _ _ _ _) ?_
        vin
        refine okv_bind (okv_mono (hp _ _ ‹_›) ?_)
        vin
        vgo
      · vd
    · vin
      vgo

theorem v_parseHash (g : GoodV W R) : okv W (parseHash R) c s fun a _ => Ve W a := by
  unfold parseHash
  vgo

theorem v_arrayAddNode (g : GoodV W R) {ns : List Node} (h : Ves W ns) :
    okv W (arrayAddNode R ns) c s fun a _ => Ves W a.1 := by
  unfold arrayAddNode
  vgo

theorem v_parseArray (g : GoodV W R) : okv W (parseArray R) c s fun a _ => Ve W a := by
  unfold parseArray
  vgo

theorem v_parseCommaSeparated (g : GoodV W R) : okv W (parseCommaSeparated R) c s fun a _ => Ves W a := by
  unfold parseCommaSeparated
  vgo

theorem v_parseKeywordSplat (g : GoodV W R) : okv W (parseKeywordSplat R) c s fun a _ => Ve W a := by
  unfold parseKeywordSplat
  vgo

theorem v_parseBlockPass (g : GoodV W R) : okv W (parseBlockPass R) c s fun a _ => Ve W a := by
  unfold parseBlockPass
  vgo

theorem v_parseCallHashArgs (g : GoodV W R) (b : Bool) (ty : Ttype) {n : Node} (h : Ve W n) :
    okv W (parseCallHashArgs R b ty n) c s fun a _ => Ve W a := by
  unfold parseCallHashArgs
  vgo
  rename_i hk
  have hw := Ve.wf ‹_›
  simp only [vwf] at hw
  vopen
  vd

theorem ve_addArg {n a : Node} (h : Ve W n) (k : Ve W a) : Ve W (n.addArg a) := by
  have hw := h.wf
  cases n
  case complex => exact h
  all_goals first
    | exact h
    | (simp only [Node.addArg, vwf] at hw ⊢
       vopen
       vd)

macro_rules | `(tactic| vt) => `(tactic| ((with_reducible apply ve_addArg) <;> vt))

theorem v_parseCallArgs (g : GoodV W R) (b : Bool) (ty : Ttype) {n : Node} (h : Ve W n) :
    okv W (parseCallArgs R n b ty) c s fun a _ => Ve W a := by
  unfold parseCallArgs
  vgo

theorem v_toNodeWithArgs {n : Node} (h : Ve W n) : okv W (toNodeWithArgs n) c s fun a _ => Ve W a := by
  unfold toNodeWithArgs
  have hw := h.wf
  split
  · simp only [vwf] at hw
    vopen
    vgo
  · simp only [vwf] at hw
    vopen
    vgo
  all_goals vgo

theorem v_parseCallWithParens (g : GoodV W R) {n : Node} (h : Ve W n) :
    okv W (parseCallWithParens R n) c s fun a _ => Ve W a := by
  unfold parseCallWithParens
  vgo

theorem v_parseCallWithoutParens (g : GoodV W R) {n : Node} (h : Ve W n) :
    okv W (parseCallWithoutParens R n) c s fun a _ => Ve W a := by
  unfold parseCallWithoutParens
  vgo

theorem v_parseMultipleAssignment (g : GoodV W R) {n : Node} (h : Ve W n) :
    okv W (parseMultipleAssignment R n) c s fun a _ => Ve W a := by
  unfold parseMultipleAssignment
  vgo

theorem v_parseConstantResolution (g : GoodV W R) {n : Node} (h : Ve W n) :
    okv W (parseConstantResolution R n) c s fun a _ => Ve W a := by
  unfold parseConstantResolution
  vgo

theorem v_parseSend {n : Node} (h : Ve W n) : okv W (parseSend n) c s fun a _ => Ve W a := by
  unfold parseSend
  vgo

theorem v_parseSafeSend {n : Node} (h : Ve W n) : okv W (parseSafeSend n) c s fun a _ => Ve W a := by
  unfold parseSafeSend
  vgo

theorem v_parseRef (g : GoodV W R) {n : Node} (h : Ve W n) : okv W (parseRef R n) c s fun a _ => Ve W a := by
  unfold parseRef
  vgo

theorem v_parseAssignmentIdentifier (g : GoodV W R) (b : Bool) :
    okv W (parseAssignmentIdentifier R b) c s fun a _ => Ve W a := by
  unfold parseAssignmentIdentifier
  vgo

end NP.Val
