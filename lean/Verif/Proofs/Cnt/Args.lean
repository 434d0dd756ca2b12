import Verif.Proofs.Cnt.Lit

/-! Numbers: hashes, arrays, arguments, targets of assignment. -/

namespace NP.Cnt

open Spec

variable {w : Option Token → Nat} {R : Rec} {c : Cx} {s : PS}

theorem c_parseHashInner (g : GoodC w R) {p : Prec} {ty : Ttype} {b : Bool} {k : Option Node} :
    okc w (parseHashInner R p ty b k) c s fun a s' => u w s' + wto w k = u w s + wt w a ∧ ∃ t ns, a = .hash t b ns := by
  unfold parseHashInner
  refine okc_bind (okc_cur ?_)
  extract_lets +onlyGivenNames pair
  have hp : ∀ key s', okc w (pair key) c s' fun a s'' => u w s'' + wt w key = u w s' + wts w a := by
    intro key s'
    dsimp only [pair]
    cgo
  clear_value pair
  have hj : ∀ key s', u w s' + wto w k = u w s + wt w key → okc w (do
      let first ← pair key
      let ns ← loop (fun ns => do
        if (← curTy) = .Comma then
          advance
          let ty' ← curTy
          if ty' = ty ∨ ty' = .Ampersand then pure (Loop.done ns)
          else
            let key ← R.exp p
            let kv ← pair key
            pure (Loop.again (ns ++ kv))
        else pure (Loop.done ns)) R.fuel first
      pure (Node.hash s.cur b ns)) c s' fun a s' => u w s' + wto w k = u w s + wt w a ∧ ∃ t ns, a = .hash t b ns := by
    intro key s' hk
    refine okc_bind (okc_mono (hp _ _) ?_)
    intro first s1 h1
    refine okc_bind (okc_loopW (fun y s2 => ?_) ?_)
    · refine okc_bind (okc_curTy (okc_ite (fun _ => okc_bind (okc_advance0 (by nnt) fun _ _ _ => okc_bind (okc_curTy
        (okc_ite (fun _ => okc_pure ?_) fun _ => okc_bind (okc_mono (c_exp g) ?_))))) fun _ => okc_pure rfl))
      · cd
      · intro a s3 ha
        refine okc_bind (okc_mono (hp _ _) ?_)
        intro kv s4 h4
        refine okc_pure ?_
        cd
    · cin
      exact okc_pure ⟨by cd, _, _, rfl⟩
  cases k with
  | none =>
    refine okc_bind (okc_mono (c_exp g) ?_)
    intro a s' ha
    exact hj a s' (by cd)
  | some k => exact hj k s (by cd)

theorem c_parseHash (g : GoodC w R) : okc w (parseHash R) c s fun a s' => u w s' = u w s + wt w a := by
  unfold parseHash
  cgo

theorem c_arrayAddNode (g : GoodC w R) {ns : List Node} :
    okc w (arrayAddNode R ns) c s fun a s' => u w s' + wts w ns = u w s + wts w a.1 := by
  unfold arrayAddNode
  cgo

theorem c_parseArray (g : GoodC w R) (h : nn s.cur.type = true) :
    okc w (parseArray R) c s fun a s' => u w s' = u w s + wt w a := by
  unfold parseArray
  cgo

theorem c_parseCommaSeparated (g : GoodC w R) :
    okc w (parseCommaSeparated R) c s fun a s' => u w s' = u w s + wts w a := by
  unfold parseCommaSeparated
  cgo

theorem c_parseKeywordSplat (g : GoodC w R) (h : nn s.cur.type = true) :
    okc w (parseKeywordSplat R) c s fun a s' => u w s' = u w s + wt w a := by
  unfold parseKeywordSplat
  cgo

theorem c_parseBlockPass (g : GoodC w R) (h : nn s.cur.type = true) :
    okc w (parseBlockPass R) c s fun a s' => u w s' = u w s + wt w a := by
  unfold parseBlockPass
  cgo

theorem c_parseCallHashArgs (g : GoodC w R) {b : Bool} {ty : Ttype} {n : Node} :
    okc w (parseCallHashArgs R b ty n) c s fun a s' => u w s' + wt w n = u w s + wt w a := by
  unfold parseCallHashArgs
  refine okc_bind (okc_mono (c_parseHashInner g) ?_)
  rintro a s' ⟨h, t, ns, rfl⟩
  cgo

/-- The nodes that arguments can be added to. -/
def argy : Node → Bool
  | .call .. | .safeCall .. | .super .. | .undef .. | .yield .. => true
  | _ => false

theorem wt_addArg {n a : Node} (h : argy n = true) : wt w (n.addArg a) = wt w n + wt w a := by
  cases n <;> first
    | (simp only [Node.addArg, cwt]; omega)
    | cases h
theorem argy_addArg {n a : Node} (h : argy n = true) : argy (n.addArg a) = true := by
  cases n <;> first
    | rfl
    | cases h

theorem c_parseCallArgs (g : GoodC w R) {b : Bool} {ty : Ttype} {n : Node} (hn : argy n = true) :
    okc w (parseCallArgs R n b ty) c s fun a s' => u w s' + wt w n = u w s + wt w a := by
  unfold parseCallArgs
  have hz : ∀ m s', argy m = true → u w s' + wt w n = u w s + wt w m → okc w (do
      let node' ←
        if (← curTy) = .Ampersand then do
          let b ← parseBlockPass R
          pure (m.addArg b)
        else pure m
      if b && node'.canAcceptABlock then decDepth else pure ()
      pure node') c s' fun a s' => u w s' + wt w n = u w s + wt w a := by
    intro m s' hm h
    have := fun a => wt_addArg (w := w) (a := a) hm
    cgo
    all_goals (rw [this]; cd)
  have hl : ∀ s', u w s' = u w s → okc w (do
      let arg ← R.exp (if b then .BARE_CALL_ARG else .CALL_ARG)
      let node' ←
        if startsHash arg (← curTy) then do
          let h ← parseCallHashArgs R b ty arg
          pure (n.addArg h)
        else
          loop (fun (n : Node) => do
            if (← curTy) = .Comma then
              advance
              if (← curTy) = ty then pure (Loop.done n)
              else
                let arg ← R.exp (if b then .BARE_CALL_ARG else .CALL_ARG)
                if startsHash arg (← curTy) then
                  let h ← parseCallHashArgs R b ty arg
                  pure (Loop.done (n.addArg h))
                else pure (Loop.again (n.addArg arg))
            else pure (Loop.done n)) R.fuel (n.addArg arg)
      let node' ←
        if (← curTy) = .Ampersand then do
          let b ← parseBlockPass R
          pure (node'.addArg b)
        else pure node'
      if b && node'.canAcceptABlock then decDepth else pure ()
      pure node') c s' fun a s' => u w s' + wt w n = u w s + wt w a := by
    intro s' hs
    refine okc_bind (okc_mono (c_exp g) ?_)
    intro a s1 h1
    refine okc_bind (okc_curTy ?_)
    cinl
    refine okc_ite (fun _ => okc_bind (okc_mono (c_parseCallHashArgs g) ?_)) fun _ => okc_bind ?_
    · intro h s2 h2
      exact hz _ _ (argy_addArg hn) (by rw [wt_addArg hn]; cd)
    · refine okc_mono (Q := fun m s' => argy m = true ∧ u w s' + wt w n = u w s + wt w m) ?_ ?_
      · refine okc_loop (fun m s' => argy m = true ∧ u w s' + wt w n = u w s + wt w m)
          ⟨argy_addArg hn, by rw [wt_addArg hn]; cd⟩ ?_
        rintro m s2 ⟨hm, h2⟩
        have hw := fun a => wt_addArg (w := w) (a := a) hm
        have ha := fun a => argy_addArg (a := a) hm
        cgo
        all_goals exact ⟨ha _, by rw [hw]; cd⟩
      · rintro m s2 ⟨hm, h2⟩
        exact hz m s2 hm h2
  refine okc_ite (fun _ => okc_bind (okc_incDepth fun s' h _ _ => hl s' h)) fun _ => hl s rfl

theorem c_toNodeWithArgs {n : Node} :
    okc w (toNodeWithArgs n) c s fun a s' =>
      u w s' = u w s ∧ s'.cur = s.cur ∧ wt w a = wt w n ∧ argy a = true := by
  unfold toNodeWithArgs
  cgo
  all_goals exact ⟨rfl, rfl, by cz, rfl⟩

theorem c_parseCallWithParens (g : GoodC w R) {n : Node} (h : nn s.cur.type = true) :
    okc w (parseCallWithParens R n) c s fun a s' => u w s' + wt w n = u w s + wt w a := by
  unfold parseCallWithParens
  refine okc_bind (okc_cur (okc_bind (okc_mono c_toNodeWithArgs ?_)))
  rintro m s' ⟨h1, h2, h3, hm⟩
  have hw := fun a => wt_addArg (w := w) (a := a) hm
  cgo
  rw [hw]; cd

theorem c_parseCallWithoutParens (g : GoodC w R) {n : Node} :
    okc w (parseCallWithoutParens R n) c s fun a s' => u w s' + wt w n = u w s + wt w a := by
  unfold parseCallWithoutParens
  cgo

theorem c_parseMultipleAssignment (g : GoodC w R) {n : Node} :
    okc w (parseMultipleAssignment R n) c s fun a s' => u w s' + wt w n = u w s + wt w a := by
  unfold parseMultipleAssignment
  cgo

theorem c_parseConstantResolution (g : GoodC w R) {n : Node} (h : nn s.cur.type = true) :
    okc w (parseConstantResolution R n) c s fun a s' => u w s' + wt w n = u w s + wt w a := by
  unfold parseConstantResolution
  cgo

theorem c_parseSend {n : Node} (h : nn s.cur.type = true) :
    okc w (parseSend n) c s fun a s' => u w s' + wt w n = u w s + wt w a := by
  unfold parseSend
  cgo

theorem c_parseSafeSend {n : Node} (h : nn s.cur.type = true) :
    okc w (parseSafeSend n) c s fun a s' => u w s' + wt w n = u w s + wt w a := by
  unfold parseSafeSend
  cgo

theorem c_parseRef (g : GoodC w R) {n : Node} (h : nn s.cur.type = true) :
    okc w (parseRef R n) c s fun a s' => u w s' + wt w n = u w s + wt w a := by
  unfold parseRef
  cgo

theorem c_parseAssignmentIdentifier (g : GoodC w R) {b : Bool} :
    okc w (parseAssignmentIdentifier R b) c s fun a s' => u w s' = u w s + wt w a := by
  unfold parseAssignmentIdentifier
  cgo

end NP.Cnt
