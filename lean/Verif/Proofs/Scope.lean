import Verif.Proofs.Expr
import Verif.Spec.Scope

/-! How the parser marks the local variables of a program of statements and scopes, from its tokens. -/

namespace NP
open Spec

/-! ### Tokens -/

/-- The tokens of parameters. -/
inductive NToks : List Str → List Token → Prop where
  | nil : NToks [] []
  | one (p : Str) (t : Token) (ht : t.type = .BareName) (hl : t.lit = some p) : NToks [p] [t]
  | cons (p q : Str) (ps : List Str) (t c : Token) (ts : List Token) (ht : t.type = .BareName) (hl : t.lit = some p)
      (hc : c.type = .Comma) (h : NToks (q :: ps) ts) : NToks (p :: q :: ps) (t :: c :: ts)

/-- The tokens of the parameters of a block. -/
inductive BToks : List Str → List Token → Prop where
  | nil : BToks [] []
  | some (p : Str) (ps : List Str) (a b : Token) (ts : List Token) (ha : a.type = .Pipe) (hb : b.type = .Pipe)
      (h : NToks (p :: ps) ts) : BToks (p :: ps) (a :: (ts ++ [b]))

/-- The token of a value. -/
inductive VTok : Val → Token → Prop where
  | one (t : Token) (ht : t.type = .Fixnum) (hf : t.fix = 1) : VTok .one t
  | name (y : Str) (t : Token) (ht : t.type = .BareName) (hl : t.lit = some y) : VTok (.name y) t

/-- A token of the given type. -/
def Ty (t : Token) (ty : Ttype) : Prop := t.type = ty

/-- The token of a name. -/
def Nm (t : Token) (x : Str) : Prop := t.type = .BareName ∧ t.lit = some x

/-- The token of a constant. -/
def Cn (t : Token) (x : Str) : Prop := t.type = .Constant ∧ t.lit = some x

/-- The tokens of a program. -/
inductive PToks : Prog → List Token → Prop where
  | nil : PToks .nil []
  | use (x : Str) (k : Prog) (t e : Token) (ts : List Token) (ht : Nm t x) (he : Ty e .Semicolon) (hk : PToks k ts) :
      PToks (.use x k) (t :: e :: ts)
  | set (x : Str) (v : Val) (k : Prog) (t q w e : Token) (ts : List Token) (ht : Nm t x) (hq : Ty q .Equal) (hw : VTok v w)
      (he : Ty e .Semicolon) (hk : PToks k ts) : PToks (.set x v k) (t :: q :: w :: e :: ts)
  | while_ (x : Str) (b k : Prog) (w t e n f : Token) (bs ts : List Token) (hw : Ty w .WhileKeyword) (ht : Nm t x)
      (he : Ty e .Semicolon) (hb : PToks b bs) (hn : Ty n .EndKeyword) (hf : Ty f .Semicolon) (hk : PToks k ts) :
      PToks (.while_ x b k) (w :: t :: e :: (bs ++ n :: f :: ts))
  | def_ (x : Str) (ps : List Str) (b k : Prog) (d t l r e n f : Token) (qs bs ts : List Token) (hd : Ty d .DefKeyword)
      (ht : Nm t x) (hl : Ty l .LParen) (ha : NToks ps qs) (hr : Ty r .RParen) (he : Ty e .Semicolon) (hb : PToks b bs)
      (hn : Ty n .EndKeyword) (hf : Ty f .Semicolon) (hk : PToks k ts) :
      PToks (.def_ x ps b k) (d :: t :: l :: (qs ++ r :: e :: (bs ++ n :: f :: ts)))
  | class_ (x : Str) (b k : Prog) (w t e n f : Token) (bs ts : List Token) (hw : Ty w .ClassKeyword) (ht : Cn t x)
      (he : Ty e .Semicolon) (hb : PToks b bs) (hn : Ty n .EndKeyword) (hf : Ty f .Semicolon) (hk : PToks k ts) :
      PToks (.class_ x b k) (w :: t :: e :: (bs ++ n :: f :: ts))
  | sub (x y : Str) (b k : Prog) (w t l u e n f : Token) (bs ts : List Token) (hw : Ty w .ClassKeyword) (ht : Cn t x)
      (hl : Ty l .LessThan) (hu : Nm u y) (he : Ty e .Semicolon) (hb : PToks b bs) (hn : Ty n .EndKeyword)
      (hf : Ty f .Semicolon) (hk : PToks k ts) : PToks (.sub x y b k) (w :: t :: l :: u :: e :: (bs ++ n :: f :: ts))
  | meta_ (b k : Prog) (w l s e n f : Token) (bs ts : List Token) (hw : Ty w .ClassKeyword) (hl : Ty l .LeftShift)
      (hs : Ty s .SelfKeyword) (he : Ty e .Semicolon) (hb : PToks b bs) (hn : Ty n .EndKeyword) (hf : Ty f .Semicolon)
      (hk : PToks k ts) : PToks (.meta_ b k) (w :: l :: s :: e :: (bs ++ n :: f :: ts))
  | module_ (x : Str) (b k : Prog) (w t e n f : Token) (bs ts : List Token) (hw : Ty w .ModuleKeyword) (ht : Cn t x)
      (he : Ty e .Semicolon) (hb : PToks b bs) (hn : Ty n .EndKeyword) (hf : Ty f .Semicolon) (hk : PToks k ts) :
      PToks (.module_ x b k) (w :: t :: e :: (bs ++ n :: f :: ts))
  | block (x : Str) (ps : List Str) (b k : Prog) (t d e n f : Token) (qs bs ts : List Token) (ht : Nm t x)
      (hd : Ty d .DoKeyword) (ha : BToks ps qs) (he : Ty e .Semicolon) (hb : PToks b bs)
      (hn : Ty n .EndKeyword) (hf : Ty f .Semicolon) (hk : PToks k ts) :
      PToks (.block x ps b k) (t :: d :: (qs ++ e :: (bs ++ n :: f :: ts)))
  | lam (ps : List Str) (b k : Prog) (a l r d e n f : Token) (qs bs ts : List Token) (haa : Ty a .Arrow)
      (hl : Ty l .LParen) (ha : NToks ps qs) (hr : Ty r .RParen) (hd : Ty d .DoKeyword) (he : Ty e .Semicolon)
      (hb : PToks b bs) (hn : Ty n .EndKeyword) (hf : Ty f .Semicolon) (hk : PToks k ts) :
      PToks (.lam ps b k) (a :: l :: (qs ++ r :: d :: e :: (bs ++ n :: f :: ts)))

/-! ### Single steps -/

theorem P.assoc {α β γ : Type} (p : P α) (f : α → P β) (g : β → P γ) : (p >>= f) >>= g = p >>= fun a => f a >>= g := by
  funext c s
  show P.bind (P.bind p f) g c s = P.bind p (fun a => P.bind (f a) g) c s
  unfold P.bind
  cases p c s <;> rfl

theorem cur_eq {c : Cx} {s : PS} {t : Token} {ts : List Token} (h : s.rest = t :: ts) : cur c s = .ok t s := by
  unfold cur PS.cur; rw [h]; rfl

theorem curTy_eq {c : Cx} {s : PS} {t : Token} {ts : List Token} (h : s.rest = t :: ts) : curTy c s = .ok t.type s := by
  unfold curTy PS.cur; rw [h]; rfl

theorem peek_eq {c : Cx} {s : PS} {t u : Token} {ts : List Token} (h : s.rest = t :: u :: ts) : peek c s = .ok u s := by
  unfold peek PS.peek; rw [h]; rfl

theorem advance_eq {c : Cx} {s : PS} {t : Token} {ts : List Token} (h : s.rest = t :: ts) :
    advance c s = .ok () { s with prev := t :: s.prev, rest := ts } := by
  unfold advance; rw [h]

theorem litOf_eq {c : Cx} {s : PS} {t : Token} {x : Str} (h : t.lit = some x) : litOf t c s = .ok x s := by
  unfold litOf; rw [h]; rfl

theorem expect_eq {c : Cx} {s : PS} {t : Token} {ts : List Token} {ty : Ttype} {m : Str} (h : s.rest = t :: ts)
    (ht : t.type = ty) : expect ty m c s = .ok () s := by
  unfold expect
  rw [P.bind_eq (curTy_eq h), if_pos ht]
  rfl

theorem skip_semi {c : Cx} {s : PS} {e t : Token} {ts : List Token} (h : s.rest = e :: t :: ts) (he : e.type = .Semicolon)
    (ht : t.type.isEndOfLine = false) :
    skipNewlines c s = .ok () { s with prev := e :: s.prev, rest := t :: ts } := by
  unfold skipNewlines
  rw [h]
  simp [skipNewlines.go, he, ht, show Ttype.isEndOfLine .Semicolon = true from rfl]

theorem next_semi {c : Cx} {s : PS} {e t : Token} {ts : List Token} (h : s.rest = e :: t :: ts) (he : e.type = .Semicolon)
    (ht : t.type.isEndOfLine = false) :
    nextExpression c s = .ok () { s with prev := e :: s.prev, rest := t :: ts } := by
  unfold nextExpression
  rw [P.bind_eq (curTy_eq h), he, if_pos (show (Ttype.Semicolon.isEndOfExpression = true) from rfl)]
  exact skip_semi h he ht

theorem identifier_eq {c : Cx} {s : PS} {t : Token} {ts : List Token} {x : Str} (h : s.rest = t :: ts)
    (hl : t.lit = some x) :
    parseIdentifier c s = .ok (.identifier t (s.locals.contains x)) { s with prev := t :: s.prev, rest := ts } := by
  unfold parseIdentifier
  rw [P.bind_eq (cur_eq h), P.bind_eq (litOf_eq hl), P.bind_eq (show P.get c s = .ok s s from rfl), P.bind_eq (advance_eq h)]
  rfl

theorem uses_ident (L : List Str) (t : Token) (x : Str) (h : t.lit = some x) :
    Uses L x (.identifier t (L.contains x)) := .mk t _ h (by simp)

/-! ### Expressions that end here -/

theorem semi_stops (e : Token) (he : e.type = .Semicolon) (left : Node) (p : Prec) (ia : IterAllow) (c : Cx) (s : PS)
    (hs : s.cur = e) : higherPrecedence e left p ia c s = .ok false s := by
  have h1 : getPrec e (some left) e = .LOWEST := by
    unfold getPrec isFirstArg
    rw [he]
    simp [show Ttype.canBeFirstArgOfImplicitCall .Semicolon = false from rfl]
  have h2 : ∀ p : Prec, Prec.LOWEST.higher p = false := by intro p; cases p <;> rfl
  unfold higherPrecedence
  rw [hs, h1]
  cases left.isSymbolKey <;> simp [h2]

/-- An expression of one function that ends at a semicolon. -/
theorem one_evals {p : Prec} {ia : IterAllow} {c : Cx} {s s1 : PS} {t e : Token} {ts us : List Token} {l : Node}
    (F : Rec → P Node) (hr : s.rest = t :: ts) (ht : t.type.isEndOfLine = false)
    (hn : ∀ R, nullDenotation R t.type = some (F R)) (hF : Evals F c { s with precs := p :: s.precs } l s1)
    (hp : s1.precs = p :: s.precs) (hr1 : s1.rest = e :: us)
    (he : higherPrecedence e l p ia c s1 = .ok false s1) :
    Evals (fun R => R.expr p ia) c s l { s1 with precs := s.precs } := by
  have hc : s.cur = t := by unfold PS.cur; rw [hr]; rfl
  have hc1 : s1.cur = e := by unfold PS.cur; rw [hr1]; rfl
  refine (EvalsFrom.expression hr ht (.first F (fun R => ?_) hF (.stop (by rw [hc1]; exact he))) hp).expr
  show nullDenotation R s.cur.type = _
  rw [hc, hn]

theorem cur_of {s : PS} {e : Token} {us : List Token} (h : s.rest = e :: us) : s.cur = e := by
  unfold PS.cur; rw [h]; rfl

/-- A name in front of a semicolon. -/
theorem name_evals {p : Prec} {ia : IterAllow} {c : Cx} {s : PS} {t e : Token} {us : List Token} {x : Str}
    (hr : s.rest = t :: e :: us) (ht : Nm t x) (he : e.type = .Semicolon) :
    Evals (fun R => R.expr p ia) c s (.identifier t (s.locals.contains x))
      { s with prev := t :: s.prev, rest := e :: us } :=
  one_evals (s := s) (s1 := { s with prev := t :: s.prev, rest := e :: us, precs := p :: s.precs }) (e := e)
    (fun _ => parseIdentifier) hr (by rw [ht.1]; rfl) (fun R => by rw [ht.1]; rfl)
    (.of fun R => identifier_eq (s := { s with precs := p :: s.precs }) hr ht.2) rfl rfl
    (semi_stops e he _ _ _ _ _ (cur_of rfl))

/-! ### Lists of statements -/

/-- The first token of a statement. -/
def starts : Ttype → Bool
  | .BareName | .WhileKeyword | .DefKeyword | .ClassKeyword | .ModuleKeyword | .Arrow => true
  | _ => false

theorem starts_facts {t : Ttype} (h : starts t = true) : t.isValid = true ∧ t.isEndOfLine = false ∧ t ≠ .Eof ∧
    (t == .EndKeyword) = false ∧ t ≠ .RescueKeyword ∧ t ≠ .EnsureKeyword := by
  cases t <;> first | (cases h; done) | decide

/-- Statements, each followed by a semicolon. -/
inductive Chain (c : Cx) : PS → List Node → PS → Prop where
  | nil (s : PS) : Chain c s [] s
  | cons (s s1 s' : PS) (t e u : Token) (ts us : List Token) (n : Node) (ns : List Node) (hr : s.rest = t :: ts)
      (ht : starts t.type = true) (hE : Evals (fun R => R.exp .LOWEST) c s n s1) (hr1 : s1.rest = e :: u :: us)
      (he : e.type = .Semicolon) (hu : u.type.isEndOfLine = false)
      (h : Chain c { s1 with prev := e :: s1.prev, rest := u :: us } ns s') : Chain c s (n :: ns) s'

/-- The body of the loop of `parse_body` with `allow_rescue`. -/
def rescueBody (t : Token) (R : Rec) (ns : List Node) : P (Loop (List Node) (List Node × Bool)) := do
  let ty ← curTy
  if ty = .Eof ∨ (ty == .EndKeyword) = true then pure (Loop.done (ns, false))
  else if ty = .RescueKeyword ∨ ty = .EnsureKeyword then
    let b ← parseRestOfBegin R (parseBody R .LOWEST) t ns
    rewind
    pure (Loop.done ([b], true))
  else
    let e ← R.exp .LOWEST
    if (← curTy) == .EndKeyword then pure (Loop.done (ns ++ [e], false))
    else
      nextExpression
      pure (Loop.again (ns ++ [e]))

/-- The body of the loop of `parse_body` without `allow_rescue`. -/
def plainBody (R : Rec) (ns : List Node) : P (Loop (List Node) (List Node)) := do
  let ty ← curTy
  if ty = .Eof ∨ (ty == .EndKeyword) = true then pure (Loop.done ns)
  else
    let e ← R.exp .LOWEST
    if (← curTy) == .EndKeyword then pure (Loop.done (ns ++ [e]))
    else
      nextExpression
      pure (Loop.again (ns ++ [e]))

theorem Chain.rescue {c : Cx} {s s' : PS} {ns : List Node} (h : Chain c s ns s') (t0 z : Token) (zs : List Token)
    (hz : s'.rest = z :: zs) (hzt : z.type = .EndKeyword) : ∀ ms, EvalsLoop (rescueBody t0) ms c s (ms ++ ns, false) s' := by
  induction h with
  | nil s =>
    intro ms
    refine .done (.of fun R => ?_)
    unfold rescueBody
    rw [P.bind_eq (curTy_eq hz), if_pos (.inr (by rw [hzt]; rfl)), List.append_nil]
    rfl
  | cons s s1 s' t e u ts us n ns hr ht hE hr1 he hu h ih =>
    intro ms
    obtain ⟨h1, h2, h3, h4, h5, h6⟩ := starts_facts ht
    refine .again (y := ms ++ [n]) (s1 := { s1 with prev := e :: s1.prev, rest := u :: us }) ?_
      (by simpa using ih hz (ms ++ [n]))
    refine .step (G := fun R => R.exp .LOWEST >>= fun e => do
      if (← curTy) == .EndKeyword then pure (Loop.done (ms ++ [e], false))
      else
        nextExpression
        pure (Loop.again (ms ++ [e]))) (fun R => ?_) (.bind hE (.of fun R => ?_))
    · unfold rescueBody
      rw [P.bind_eq (curTy_eq hr), if_neg (by simp [h3, h4]), if_neg (by simp [h5, h6])]
    · rw [P.bind_eq (curTy_eq hr1), he]
      show (nextExpression >>= _) c s1 = _
      rw [P.bind_eq (next_semi hr1 he hu)]
      rfl

theorem Chain.plain {c : Cx} {s s' : PS} {ns : List Node} (h : Chain c s ns s') (z : Token) (zs : List Token)
    (hz : s'.rest = z :: zs) (hzt : z.type = .EndKeyword) : ∀ ms, EvalsLoop plainBody ms c s (ms ++ ns) s' := by
  induction h with
  | nil s =>
    intro ms
    refine .done (.of fun R => ?_)
    unfold plainBody
    rw [P.bind_eq (curTy_eq hz), if_pos (.inr (by rw [hzt]; rfl)), List.append_nil]
    rfl
  | cons s s1 s' t e u ts us n ns hr ht hE hr1 he hu h ih =>
    intro ms
    obtain ⟨h1, h2, h3, h4, h5, h6⟩ := starts_facts ht
    refine .again (y := ms ++ [n]) (s1 := { s1 with prev := e :: s1.prev, rest := u :: us }) ?_
      (by simpa using ih hz (ms ++ [n]))
    refine .step (G := fun R => R.exp .LOWEST >>= fun e => do
      if (← curTy) == .EndKeyword then pure (Loop.done (ms ++ [e]))
      else
        nextExpression
        pure (Loop.again (ms ++ [e]))) (fun R => ?_) (.bind hE (.of fun R => ?_))
    · unfold plainBody
      rw [P.bind_eq (curTy_eq hr), if_neg (by simp [h3, h4])]
    · rw [P.bind_eq (curTy_eq hr1), he]
      show (nextExpression >>= _) c s1 = _
      rw [P.bind_eq (next_semi hr1 he hu)]
      rfl

theorem Chain.tree {c : Cx} {s s' : PS} {ns : List Node} (h : Chain c s ns s') (z : Token) (zs : List Token)
    (hz : s'.rest = z :: zs) (hzt : z.type = .Eof) : ∀ ms, EvalsLoop treeBody ms c s (ms ++ ns) s' := by
  induction h with
  | nil s =>
    intro ms
    refine .done (.of fun R => ?_)
    unfold treeBody
    rw [P.bind_eq (curTy_eq hz), if_pos hzt, List.append_nil]
    rfl
  | cons s s1 s' t e u ts us n ns hr ht hE hr1 he hu h ih =>
    intro ms
    obtain ⟨h1, h2, h3, h4, h5, h6⟩ := starts_facts ht
    refine .again (y := ms ++ [n]) (s1 := { s1 with prev := e :: s1.prev, rest := u :: us }) ?_
      (by simpa using ih hz (ms ++ [n]))
    refine .step (G := fun R => R.exp .LOWEST >>= fun e => do
      validateCurrent
      nextExpression
      pure (Loop.again (ms ++ [e]))) (fun R => ?_) (.bind hE (.of fun R => ?_))
    · unfold treeBody
      rw [P.bind_eq (curTy_eq hr), if_neg h3]
    · rw [P.bind_eq (validate_ok (by rw [cur_of hr1, he]; rfl)), P.bind_eq (next_semi hr1 he hu)]
      rfl

/-- `parse_body` with `allow_rescue` around statements. -/
theorem rescue_evals {c : Cx} {s s1 s2 : PS} {t z : Token} {ts zs : List Token} {ns : List Node} (hr : s.rest = t :: ts)
    (hv : t.type.isValid = true) (hs : skipNewlines c { s with depth := 0 :: s.depth } = .ok () s1) (h : Chain c s1 ns s2)
    (hz : s2.rest = z :: zs) (hzt : z.type = .EndKeyword) (hd : s2.depth = 0 :: s.depth) :
    Evals (fun R => parseBodyRescue R .LOWEST fun ty => ty == .EndKeyword) c s ⟨t, ns⟩ { s2 with depth := s.depth } := by
  refine .step (G := fun R => loop (rescueBody t R) R.fuel [] >>= fun x =>
    if x.2 then pure ⟨t, x.1⟩ else do
      popDepth
      pure ⟨t, x.1⟩) (s1 := s1) (fun R => ?_)
    (.bind (a := ([] ++ ns, false)) (s1 := s2) (EvalsLoop.evals (h.rescue t z zs hz hzt [])) (.of fun R => ?_))
  · unfold parseBodyRescue
    rw [P.bind_eq (show pushDepth c s = .ok () { s with depth := 0 :: s.depth } from rfl),
      P.bind_eq (cur_eq (s := { s with depth := 0 :: s.depth }) hr),
      P.bind_eq (validate_ok (s := { s with depth := 0 :: s.depth }) (by rw [cur_of (s := { s with depth := 0 :: s.depth }) hr]; exact hv)),
      P.bind_eq hs]
    rfl
  · simp only [Bool.false_eq_true, if_false, List.nil_append]
    rw [P.bind_eq (show popDepth c s2 = .ok () { s2 with depth := s.depth } by unfold popDepth; rw [hd])]
    rfl

/-- `parse_body` around statements. -/
theorem body_evals {c : Cx} {s s1 s2 : PS} {t z : Token} {ts zs : List Token} {ns : List Node} (hr : s.rest = t :: ts)
    (hv : t.type.isValid = true) (hs : skipNewlines c { s with depth := 0 :: s.depth } = .ok () s1) (h : Chain c s1 ns s2)
    (hz : s2.rest = z :: zs) (hzt : z.type = .EndKeyword) (hd : s2.depth = 0 :: s.depth) :
    Evals parseBodyEnd c s ⟨t, ns⟩ { s2 with depth := s.depth } := by
  refine .step (G := fun R => loop (plainBody R) R.fuel [] >>= fun x => do
      popDepth
      pure ⟨t, x⟩) (s1 := s1) (fun R => ?_)
    (.bind (a := [] ++ ns) (s1 := s2) (EvalsLoop.evals (h.plain z zs hz hzt [])) (.of fun R => ?_))
  · unfold parseBodyEnd parseBody
    rw [P.bind_eq (show pushDepth c s = .ok () { s with depth := 0 :: s.depth } from rfl),
      P.bind_eq (cur_eq (s := { s with depth := 0 :: s.depth }) hr),
      P.bind_eq (validate_ok (s := { s with depth := 0 :: s.depth }) (by rw [cur_of (s := { s with depth := 0 :: s.depth }) hr]; exact hv)),
      P.bind_eq hs]
    rfl
  · rw [P.bind_eq (show popDepth c s2 = .ok () { s2 with depth := s.depth } by unfold popDepth; rw [hd])]
    rfl

/-! ### Parameters -/

theorem Evals.defSingle {args : List Node} {ctx : ArgsContext} {ia : IterAllow} {c : Cx} {s s' : PS} {a : List Node}
    (h : Evals (fun R => parseDefSingleArg R args ctx ia) c s a s') :
    Evals (fun R => R.defSingleArg args ctx ia) c s a s' := by
  obtain ⟨N, h⟩ := h
  refine ⟨N + 1, fun n hn => ?_⟩
  obtain ⟨m, rfl⟩ : ∃ m, n = m + 1 := ⟨n - 1, by omega⟩
  exact h m (by omega)

theorem Spec.Params.last {ps : List Str} {qs : List Node} (h : Params ps qs) :
    lastIsForward qs = false ∧ lastIsKeyword qs = false := by
  have hm : ∀ a ∈ qs, ∃ t p, a = .arg t (some p) false false false none := by
    induction h with
    | nil => intro a ha; cases ha
    | cons p t ps qs h ih =>
      intro a ha
      rcases List.mem_cons.mp ha with rfl | ha
      · exact ⟨t, p, rfl⟩
      · exact ih a ha
  unfold lastIsForward lastIsKeyword
  cases hl : qs.getLast? with
  | none => exact ⟨rfl, rfl⟩
  | some a =>
    obtain ⟨t, p, rfl⟩ := hm a (List.mem_of_getLast? hl)
    exact ⟨rfl, rfl⟩

theorem Spec.Params.snoc {ps : List Str} {qs : List Node} (h : Params ps qs) (p : Str) (t : Token) :
    Params (ps ++ [p]) (qs ++ [.arg t (some p) false false false none]) := by
  induction h with
  | nil => exact .cons p t _ _ .nil
  | cons p' t' ps qs h ih => exact .cons p' t' _ _ ih

/-- One parameter. -/
theorem single_evals {ps : List Str} {args : List Node} (ha : Params ps args) (ctx : ArgsContext) (ia : IterAllow) (c : Cx)
    (s : PS) (t u : Token) (us : List Token) (p : Str) (hr : s.rest = t :: u :: us) (ht : t.type = .BareName)
    (hl : t.lit = some p) (hu : u.type ≠ .Equal) :
    Evals (fun R => R.defSingleArg args ctx ia) c s (args ++ [.arg t (some p) false false false none])
      { s with prev := t :: s.prev, rest := u :: us, locals := p :: s.locals } := by
  refine .defSingle (.of fun R => ?_)
  obtain ⟨h1, h2⟩ := ha.last
  unfold parseDefSingleArg
  rw [P.bind_eq (cur_eq hr), if_neg (by simp [h1]), ht]
  simp only [h2, Bool.false_eq_true, if_false]
  rw [P.bind_eq (litOf_eq hl), P.bind_eq (advance_eq hr),
    P.bind_eq (show addLocal p c _ = .ok () { s with prev := t :: s.prev, rest := u :: us, locals := p :: s.locals } from rfl),
    P.bind_eq (curTy_eq (t := u) (ts := us) rfl), if_neg hu]
  rfl

theorem args_loop (B : Rec → List Node → P (Loop (List Node) (List Node)))
    (hagain : ∀ c s ps args cm t u us p, s.rest = cm :: t :: u :: us → cm.type = .Comma → t.type = .BareName →
      t.lit = some p → u.type ≠ .Equal → Params ps args →
      Evals (fun R => B R args) c s (.again (args ++ [.arg t (some p) false false false none]))
        { s with prev := t :: cm :: s.prev, rest := u :: us, locals := p :: s.locals })
    (hdone : ∀ c s args z zs, s.rest = z :: zs → z.type ≠ .Comma → Evals (fun R => B R args) c s (.done args) s)
    {ps : List Str} {ts : List Token} (h : NToks ps ts) : ∀ (ps0 : List Str) (args : List Node) (c : Cx) (s : PS) (cm z : Token)
      (zs : List Token), ps ≠ [] → Params ps0 args → s.rest = cm :: (ts ++ z :: zs) → cm.type = .Comma → z.type ≠ .Comma →
      z.type ≠ .Equal →
      ∃ args', Params (ps0 ++ ps) args' ∧ EvalsLoop B args c s args'
        { s with prev := ts.reverse ++ cm :: s.prev, rest := z :: zs, locals := ps.reverse ++ s.locals } := by
  induction h with
  | nil => intro ps0 args c s cm z zs h; exact absurd rfl h
  | one p t ht hl =>
    intro ps0 args c s cm z zs _ ha hr hcm hz1 hz2
    exact ⟨_, ha.snoc p t, .again (hagain c s ps0 args cm t z zs p hr hcm ht hl hz2 ha) (.done (hdone _ _ _ z zs rfl hz1))⟩
  | cons p q ps t cm' ts ht hl hc h ih =>
    intro ps0 args c s cm z zs _ ha hr hcm hz1 hz2
    have h1 := hagain c s ps0 args cm t cm' (ts ++ z :: zs) p hr hcm ht hl (by rw [hc]; decide) ha
    obtain ⟨args', h2, h3⟩ := ih (ps0 ++ [p]) _ c
      { s with prev := t :: cm :: s.prev, rest := cm' :: (ts ++ z :: zs), locals := p :: s.locals } cm' z zs (by simp)
      (ha.snoc p t) rfl hc hz1 hz2
    refine ⟨args', by simpa using h2, .again h1 ?_⟩
    simpa using h3

/-- The first parameter and the loop. -/
theorem args_evals (B : Rec → List Node → P (Loop (List Node) (List Node)))
    (hagain : ∀ c s ps args cm t u us p, s.rest = cm :: t :: u :: us → cm.type = .Comma → t.type = .BareName →
      t.lit = some p → u.type ≠ .Equal → Params ps args →
      Evals (fun R => B R args) c s (.again (args ++ [.arg t (some p) false false false none]))
        { s with prev := t :: cm :: s.prev, rest := u :: us, locals := p :: s.locals })
    (hdone : ∀ c s args z zs, s.rest = z :: zs → z.type ≠ .Comma → Evals (fun R => B R args) c s (.done args) s)
    (ctx : ArgsContext) (ia : IterAllow) {ps : List Str} {ts : List Token} (h : NToks ps ts) (c : Cx) (s : PS) (z : Token)
    (zs : List Token) (hps : ps ≠ []) (hr : s.rest = ts ++ z :: zs) (hz1 : z.type ≠ .Comma) (hz2 : z.type ≠ .Equal) :
    ∃ args, Params ps args ∧ Evals (fun R => R.defSingleArg [] ctx ia >>= fun args => loop (B R) R.fuel args) c s args
        { s with prev := ts.reverse ++ s.prev, rest := z :: zs, locals := ps.reverse ++ s.locals } := by
  cases h with
  | nil => exact absurd rfl hps
  | one p t ht hl =>
    exact ⟨_, Params.nil.snoc p t, .bind (single_evals .nil ctx ia c s t z zs p hr ht hl hz2)
      (EvalsLoop.evals (B := B) (.done (hdone _ _ _ z zs rfl hz1)))⟩
  | cons p q ps t cm ts ht hl hc h =>
    have h1 := single_evals .nil ctx ia c s t cm (ts ++ z :: zs) p hr ht hl (by rw [hc]; decide)
    obtain ⟨args', h2, h3⟩ := args_loop B hagain hdone h [p] _ c
      { s with prev := t :: s.prev, rest := cm :: (ts ++ z :: zs), locals := p :: s.locals } cm z zs (by simp)
      (Params.nil.snoc p t) rfl hc hz1 hz2
    refine ⟨args', by simpa using h2, .bind h1 ?_⟩
    have h4 := EvalsLoop.evals h3
    simpa using h4

/-- The loop of `parse_def_args` and `parse_proc_args`. -/
def argsBody (ctx : ArgsContext) (ia : IterAllow) (R : Rec) (args : List Node) : P (Loop (List Node) (List Node)) := do
  if (← curTy) = .Comma then
    advance
    let args ← R.defSingleArg args ctx ia
    pure (Loop.again args)
  else pure (Loop.done args)

theorem argsBody_again (ctx : ArgsContext) (ia : IterAllow) : ∀ c s ps args cm t u us p, s.rest = cm :: t :: u :: us →
    cm.type = .Comma → t.type = .BareName → t.lit = some p → u.type ≠ .Equal → Params ps args →
      Evals (fun R => argsBody ctx ia R args) c s (.again (args ++ [.arg t (some p) false false false none]))
        { s with prev := t :: cm :: s.prev, rest := u :: us, locals := p :: s.locals } := by
  intro c s ps args cm t u us p hr hcm ht hl hu ha
  refine .step (G := fun R => R.defSingleArg args ctx ia >>= fun args => pure (Loop.again args))
    (s1 := { s with prev := cm :: s.prev, rest := t :: u :: us }) (fun R => ?_)
    (.bind (single_evals ha ctx ia c _ t u us p rfl ht hl hu) (.of fun R => rfl))
  unfold argsBody
  rw [P.bind_eq (curTy_eq hr), if_pos hcm, P.bind_eq (advance_eq hr)]

theorem argsBody_done (ctx : ArgsContext) (ia : IterAllow) : ∀ c s args z zs, s.rest = z :: zs → z.type ≠ .Comma →
    Evals (fun R => argsBody ctx ia R args) c s (.done args) s := by
  intro c s args z zs hr hz
  refine .of fun R => ?_
  unfold argsBody
  rw [P.bind_eq (curTy_eq hr), if_neg hz]
  rfl

/-- The parameters of a method. -/
theorem defArgs_evals {ps : List Str} {ts : List Token} (h : NToks ps ts) (c : Cx) (s : PS) (z : Token) (zs : List Token)
    (hps : ps ≠ []) (hr : s.rest = ts ++ z :: zs) (hz : z.type = .RParen) :
    ∃ args, Params ps args ∧ Evals parseDefArgs c s args
        { s with prev := ts.reverse ++ s.prev, rest := z :: zs, locals := ps.reverse ++ s.locals } :=
  args_evals (argsBody .Method .CURLY_AND_BLOCK) (argsBody_again _ _) (argsBody_done _ _) .Method .CURLY_AND_BLOCK h c s z zs
    hps hr (by rw [hz]; decide) (by rw [hz]; decide)

theorem NToks.head {ps : List Str} {ts : List Token} (h : NToks ps ts) (hps : ps ≠ []) :
    ∃ t us, ts = t :: us ∧ t.type = .BareName := by
  cases h with
  | nil => exact absurd rfl hps
  | one p t ht hl => exact ⟨t, _, rfl, ht⟩
  | cons p q ps t c ts ht hl hc h => exact ⟨t, _, rfl, ht⟩

/-- The parameters of a lambda. -/
theorem procArgs_evals {ps : List Str} {ts : List Token} (h : NToks ps ts) (ia : IterAllow) (c : Cx) (s : PS) (z : Token)
    (zs : List Token) (hps : ps ≠ []) (hr : s.rest = ts ++ z :: zs) (hz : z.type = .RParen) :
    ∃ args, Params ps args ∧ Evals (fun R => parseProcArgs R ia) c s args
        { s with prev := ts.reverse ++ s.prev, rest := z :: zs, locals := ps.reverse ++ s.locals } := by
  obtain ⟨args, h1, h2⟩ := args_evals (argsBody .Proc ia) (argsBody_again _ _) (argsBody_done _ _) .Proc ia h c s z zs
    hps hr (by rw [hz]; decide) (by rw [hz]; decide)
  obtain ⟨t, us, rfl, ht⟩ := h.head hps
  refine ⟨args, h1, .step (G := fun R => (R.defSingleArg [] .Proc ia >>= fun args => loop (argsBody .Proc ia R) R.fuel args) >>=
    fun args => do if (← curTy) = .Semicolon then parseShadowVars R args else pure args) (s1 := s) (fun R => ?_)
    (.bind h2 (.of fun R => ?_))⟩
  · unfold parseProcArgs
    rw [P.bind_eq (curTy_eq (t := t) hr), if_neg (by rw [ht]; decide), P.assoc]
    rfl
  · rw [P.bind_eq (curTy_eq (t := z) (ts := zs) rfl), if_neg (by rw [hz]; decide)]
    rfl

/-- The loop of `parse_iter_args`. -/
def iterArgsBody (R : Rec) (args : List Node) : P (Loop (List Node) (List Node)) := do
  if (← curTy) = .Comma then
    advance
    let t ← cur
    if t.type = .Pipe then pure (Loop.done (args ++ [.nil t]))
    else
      let args ← R.defSingleArg args .Block .CURLY_AND_BLOCK
      pure (Loop.again args)
  else pure (Loop.done args)

/-- The parameters of a block. -/
theorem iterArgs_evals {ps : List Str} {ts : List Token} (h : NToks ps ts) (c : Cx) (s : PS) (z : Token)
    (zs : List Token) (hps : ps ≠ []) (hr : s.rest = ts ++ z :: zs) (hz : z.type = .Pipe) :
    ∃ args, Params ps args ∧ Evals parseIterArgs c s args
        { s with prev := ts.reverse ++ s.prev, rest := z :: zs, locals := ps.reverse ++ s.locals } := by
  obtain ⟨args, h1, h2⟩ := args_evals iterArgsBody (by
      intro c s ps args cm t u us p hr hcm ht hl hu ha
      refine .step (G := fun R => R.defSingleArg args .Block .CURLY_AND_BLOCK >>= fun args => pure (Loop.again args))
        (s1 := { s with prev := cm :: s.prev, rest := t :: u :: us }) (fun R => ?_)
        (.bind (single_evals ha .Block .CURLY_AND_BLOCK c _ t u us p rfl ht hl hu) (.of fun R => rfl))
      unfold iterArgsBody
      rw [P.bind_eq (curTy_eq hr), if_pos hcm, P.bind_eq (advance_eq hr), P.bind_eq (cur_eq (t := t) (ts := u :: us) rfl),
        if_neg (by rw [ht]; decide)]) (by
      intro c s args z zs hr hz
      refine .of fun R => ?_
      unfold iterArgsBody
      rw [P.bind_eq (curTy_eq hr), if_neg hz]
      rfl) .Block .CURLY_AND_BLOCK h c s z zs hps hr (by rw [hz]; decide) (by rw [hz]; decide)
  obtain ⟨t, us, rfl, ht⟩ := h.head hps
  refine ⟨args, h1, .step (G := fun R => (R.defSingleArg [] .Block .CURLY_AND_BLOCK >>= fun args => loop (iterArgsBody R) R.fuel args) >>=
    fun args => do if (← curTy) = .Semicolon then parseShadowVars R args else pure args) (s1 := s) (fun R => ?_)
    (.bind h2 (.of fun R => ?_))⟩
  · unfold parseIterArgs
    rw [P.bind_eq (curTy_eq (t := t) hr), if_neg (by rw [ht]; decide), P.assoc]
    rfl
  · rw [P.bind_eq (curTy_eq (t := z) (ts := zs) rfl), if_neg (by rw [hz]; decide)]
    rfl

/-! ### The constructs -/

/-- What is to be shown of the tokens of a list of statements. -/
def RunsBody (b : Prog) (bs : List Token) : Prop :=
  ∀ (c : Cx) (s : PS) (ds : List Nat) (z : Token) (zs : List Token), s.rest = bs ++ z :: zs →
    z.type = .EndKeyword ∨ z.type = .Eof → s.depth = 0 :: ds →
    ∃ ns, Means .actual s.locals b ns ∧
      Chain c s ns { s with prev := bs.reverse ++ s.prev, rest := z :: zs, locals := b.out .actual s.locals }

theorem PToks.head {p : Prog} {ts : List Token} (h : PToks p ts) (z : Token) (zs : List Token)
    (hz : z.type = .EndKeyword ∨ z.type = .Eof) :
    ∃ u us, ts ++ z :: zs = u :: us ∧ u.type.isEndOfLine = false ∧ u.type.isValid = true := by
  cases h with
  | nil => exact ⟨z, zs, rfl, by rcases hz with h | h <;> (rw [h]; rfl), by rcases hz with h | h <;> (rw [h]; rfl)⟩
  | use x k t e ts ht => exact ⟨t, _, rfl, by rw [ht.1]; rfl, by rw [ht.1]; rfl⟩
  | set x v k t q w e ts ht => exact ⟨t, _, rfl, by rw [ht.1]; rfl, by rw [ht.1]; rfl⟩
  | block x ps b k t d e n f qs bs ts ht => exact ⟨t, _, rfl, by rw [ht.1]; rfl, by rw [ht.1]; rfl⟩
  | while_ x b k w t e n f bs ts hw => exact ⟨w, _, rfl, by rw [show w.type = _ from hw]; rfl, by rw [show w.type = _ from hw]; rfl⟩
  | def_ x ps b k w t l r e n f qs bs ts hw => exact ⟨w, _, rfl, by rw [show w.type = _ from hw]; rfl, by rw [show w.type = _ from hw]; rfl⟩
  | class_ x b k w t e n f bs ts hw => exact ⟨w, _, rfl, by rw [show w.type = _ from hw]; rfl, by rw [show w.type = _ from hw]; rfl⟩
  | sub x y b k w t l u e n f bs ts hw => exact ⟨w, _, rfl, by rw [show w.type = _ from hw]; rfl, by rw [show w.type = _ from hw]; rfl⟩
  | meta_ b k w l s e n f bs ts hw => exact ⟨w, _, rfl, by rw [show w.type = _ from hw]; rfl, by rw [show w.type = _ from hw]; rfl⟩
  | module_ x b k w t e n f bs ts hw => exact ⟨w, _, rfl, by rw [show w.type = _ from hw]; rfl, by rw [show w.type = _ from hw]; rfl⟩
  | lam ps b k w l r d e n f qs bs ts hw => exact ⟨w, _, rfl, by rw [show w.type = _ from hw]; rfl, by rw [show w.type = _ from hw]; rfl⟩

/-- A body behind a semicolon, with `allow_rescue`. -/
theorem RunsBody.rescue {b : Prog} {bs : List Token} (hp : PToks b bs) (hb : RunsBody b bs) (c : Cx) (s : PS) (e n : Token)
    (zs : List Token) (hr : s.rest = e :: (bs ++ n :: zs)) (he : e.type = .Semicolon) (hn : n.type = .EndKeyword) :
    ∃ ns, Means .actual s.locals b ns ∧ Evals (fun R => parseBodyRescue R .LOWEST fun ty => ty == .EndKeyword) c s ⟨e, ns⟩
      { s with prev := bs.reverse ++ e :: s.prev, rest := n :: zs, locals := b.out .actual s.locals } := by
  obtain ⟨u, us, hu, hu1, hu2⟩ := hp.head n zs (.inl hn)
  obtain ⟨ns, h1, h2⟩ := hb c { s with prev := e :: s.prev, rest := bs ++ n :: zs, depth := 0 :: s.depth } s.depth n zs rfl
    (.inl hn) rfl
  refine ⟨ns, h1, ?_⟩
  refine rescue_evals (t := e) (z := n) hr (by rw [he]; rfl) ?_ h2 rfl hn rfl
  rw [skip_semi (t := u) (ts := us) (e := e) (by rw [← hu]; exact hr) he hu1, hu]

/-- A body behind a semicolon, without `allow_rescue`. -/
theorem RunsBody.body {b : Prog} {bs : List Token} (hp : PToks b bs) (hb : RunsBody b bs) (c : Cx) (s : PS) (e n : Token)
    (zs : List Token) (hr : s.rest = e :: (bs ++ n :: zs)) (he : e.type = .Semicolon) (hn : n.type = .EndKeyword) :
    ∃ ns, Means .actual s.locals b ns ∧ Evals parseBodyEnd c s ⟨e, ns⟩
      { s with prev := bs.reverse ++ e :: s.prev, rest := n :: zs, locals := b.out .actual s.locals } := by
  obtain ⟨u, us, hu, hu1, hu2⟩ := hp.head n zs (.inl hn)
  obtain ⟨ns, h1, h2⟩ := hb c { s with prev := e :: s.prev, rest := bs ++ n :: zs, depth := 0 :: s.depth } s.depth n zs rfl
    (.inl hn) rfl
  refine ⟨ns, h1, ?_⟩
  refine body_evals (t := e) (z := n) hr (by rw [he]; rfl) ?_ h2 rfl hn rfl
  rw [skip_semi (t := u) (ts := us) (e := e) (by rw [← hu]; exact hr) he hu1, hu]

/-- A body, without `allow_rescue`. -/
theorem RunsBody.body' {b : Prog} {bs : List Token} (hp : PToks b bs) (hb : RunsBody b bs) (c : Cx) (s : PS) (n : Token)
    (zs : List Token) (hr : s.rest = bs ++ n :: zs) (hn : n.type = .EndKeyword) :
    ∃ t ns, Means .actual s.locals b ns ∧ Evals parseBodyEnd c s ⟨t, ns⟩
      { s with prev := bs.reverse ++ s.prev, rest := n :: zs, locals := b.out .actual s.locals } := by
  obtain ⟨u, us, hu, hu1, hu2⟩ := hp.head n zs (.inl hn)
  obtain ⟨ns, h1, h2⟩ := hb c { s with depth := 0 :: s.depth } s.depth n zs hr (.inl hn) rfl
  refine ⟨u, ns, h1, ?_⟩
  refine body_evals (t := u) (z := n) (hr.trans hu) hu2 ?_ h2 rfl hn rfl
  exact skipNewlines_none (t := u) (ts := us) (hr.trans hu) hu1

/-- Another map of local variables. -/
theorem withLocals_evals {α : Type} {F : Rec → P α} {c : Cx} {s s' : PS} {a : α} (ls : List Str)
    (h : Evals F c { s with locals := ls } a s') :
    Evals (fun R => withLocals ls (F R)) c s a { s' with locals := s.locals } := by
  obtain ⟨N, h⟩ := h
  refine ⟨N, fun n hn => ?_⟩
  show withLocals ls (F (knot n)) c s = _
  unfold withLocals
  rw [P.bind_eq (show P.get c s = .ok s s from rfl), P.bind_eq (show P.modify _ c s = .ok () { s with locals := ls } from rfl),
    P.bind_eq (h n hn), P.bind_eq (show P.modify _ c s' = .ok () { s' with locals := s.locals } from rfl)]
  rfl

theorem while_evals {b : Prog} {bs : List Token} (hp : PToks b bs) (hb : RunsBody b bs) (c : Cx) (s : PS) (w t e n : Token)
    (x : Str) (zs : List Token) (hr : s.rest = w :: t :: e :: (bs ++ n :: zs)) (hw : w.type = .WhileKeyword) (ht : Nm t x)
    (he : e.type = .Semicolon) (hn : n.type = .EndKeyword) :
    ∃ ns, Means .actual s.locals b ns ∧ Evals parseWhile c s (.while_ w (.identifier t (s.locals.contains x)) ns true)
      { s with prev := n :: (bs.reverse ++ e :: t :: w :: s.prev), rest := zs, locals := b.out .actual s.locals } := by
  obtain ⟨u, us, hu, hu1, hu2⟩ := hp.head n zs (.inl hn)
  obtain ⟨t', ns, h1, h2⟩ := hb.body' hp c { s with prev := e :: t :: w :: s.prev, rest := bs ++ n :: zs } n zs rfl hn
  refine ⟨ns, h1, .step (G := fun R => R.expr .LOWEST .CURLY_ONLY >>= fun c => do
    if (← curTy) = .DoKeyword then advance else nextExpression
    let b ← parseBodyEnd R
    expect .EndKeyword (cs! "while end")
    advance
    match w.type with
    | .UntilKeyword => pure (.until_ w (matchCondition c) b.nodes true)
    | .WhileKeyword => pure (.while_ w (matchCondition c) b.nodes true)
    | _ => P.abort) (s1 := { s with prev := w :: s.prev, rest := t :: e :: (bs ++ n :: zs) }) (fun R => ?_)
    (.bind (name_evals rfl ht he) ?_)⟩
  · unfold parseWhile
    rw [P.bind_eq (cur_eq hr), P.bind_eq (advance_eq hr)]
    rfl
  · refine .step (G := fun R => parseBodyEnd R >>= fun b => do
      expect .EndKeyword (cs! "while end")
      advance
      match w.type with
      | .UntilKeyword => pure (.until_ w (matchCondition (.identifier t (s.locals.contains x))) b.nodes true)
      | .WhileKeyword => pure (.while_ w (matchCondition (.identifier t (s.locals.contains x))) b.nodes true)
      | _ => P.abort) (s1 := { s with prev := e :: t :: w :: s.prev, rest := bs ++ n :: zs }) (fun R => ?_)
      (.bind h2 (.of fun R => ?_))
    · rw [P.bind_eq (curTy_eq (t := e) rfl), if_neg (by rw [he]; decide),
        P.bind_eq (next_semi (t := u) (ts := us) (e := e) (by rw [← hu]) he hu1), hu]
    · rw [P.bind_eq (expect_eq (t := n) (ts := zs) rfl hn), P.bind_eq (advance_eq (t := n) (ts := zs) rfl), hw]
      rfl

theorem const_evals {p : Prec} {c : Cx} {s : PS} {t e : Token} {us : List Token} {x : Str}
    (hr : s.rest = t :: e :: us) (ht : Cn t x) (he : ∀ l s', s'.cur = e → higherPrecedence e l p .CURLY_AND_BLOCK c s' = .ok false s') :
    Evals (fun R => R.exp p) c s (.identifier t (s.locals.contains x)) { s with prev := t :: s.prev, rest := e :: us } :=
  one_evals (s := s) (s1 := { s with prev := t :: s.prev, rest := e :: us, precs := p :: s.precs }) (e := e)
    (fun _ => parseIdentifier) hr (by rw [ht.1]; rfl) (fun R => by rw [ht.1]; rfl)
    (.of fun R => identifier_eq (s := { s with precs := p :: s.precs }) hr ht.2) rfl rfl
    (he _ _ (cur_of rfl))

theorem less_stops (e : Token) (he : e.type = .LessThan) (left : Node) (ia : IterAllow) (c : Cx) (s : PS) :
    higherPrecedence e left .LESS_GREATER ia c s = .ok false s := by
  have h1 : ∀ k, getPrec e (some left) k = .LESS_GREATER := by intro k; unfold getPrec; rw [he]
  unfold higherPrecedence
  rw [h1]
  cases left.isSymbolKey <;> simp [Prec.higher]

theorem className_evals {c : Cx} {s : PS} {t e : Token} {us : List Token} {x : Str} (hr : s.rest = t :: e :: us) (ht : Cn t x)
    (he : e.type = .Semicolon ∨ e.type = .LessThan) :
    Evals parseClassOrModuleName c s (.identifier t (s.locals.contains x)) { s with prev := t :: s.prev, rest := e :: us } := by
  refine .step (G := fun R => R.exp .LESS_GREATER >>= fun n => match n with
    | .colon2 .. | .colon3 .. => pure n
    | .identifier .. =>
      if t.type = .Constant then pure n else P.throw (.plain (cs! "class/module name must be CONSTANT"))
    | _ => P.throw (.plain (cs! "class/module name must be CONSTANT"))) (s1 := s) (fun R => ?_)
    (.bind (const_evals hr ht ?_) (.of fun R => ?_))
  · unfold parseClassOrModuleName
    rw [P.bind_eq (cur_eq hr)]
    rfl
  · intro l s' hs
    rcases he with he | he
    · exact semi_stops e he _ _ _ _ _ hs
    · exact less_stops e he _ _ _ _
  · show (if t.type = .Constant then _ else _ : P Node) c _ = _
    rw [if_pos ht.1]
    rfl

theorem class_evals {b : Prog} {bs : List Token} (hp : PToks b bs) (hb : RunsBody b bs) (c : Cx) (s : PS) (w t e n : Token)
    (x : Str) (zs : List Token) (hr : s.rest = w :: t :: e :: (bs ++ n :: zs)) (ht : Cn t x)
    (he : e.type = .Semicolon) (hn : n.type = .EndKeyword) :
    ∃ ns, Means .actual [] b ns ∧ Evals parseClass c s (.class_ w (.identifier t false) (.nil w) ns)
      { s with prev := n :: (bs.reverse ++ e :: t :: w :: s.prev), rest := zs } := by
  obtain ⟨ns, h1, h2⟩ := hb.rescue hp c { s with prev := t :: w :: s.prev, rest := e :: (bs ++ n :: zs), locals := [] } e n zs rfl
    he hn
  refine ⟨ns, h1, .step (G := fun R => (withLocals [] do
      let name ← parseClassOrModuleName R
      let sup ←
        if (← curTy) = .LessThan then do
          advance
          R.exp .LOWEST
        else pure (Node.nil w)
      let b ← parseBodyRescue R .LOWEST fun ty => ty == .EndKeyword
      pure (name, sup, b.nodes)) >>= fun y => do
    expect .EndKeyword (cs! "class end")
    advance
    pure (.class_ w y.1 y.2.1 y.2.2)) (s1 := { s with prev := w :: s.prev, rest := t :: e :: (bs ++ n :: zs) }) (fun R => ?_)
    (.bind (a := (.identifier t false, .nil w, ns)) (withLocals_evals
      (s' := { s with prev := bs.reverse ++ e :: t :: w :: s.prev, rest := n :: zs, locals := b.out .actual [] }) [] (.bind (className_evals (t := t) (e := e) rfl ht (.inl he)) ?_))
      (.of fun R => ?_))⟩
  · unfold parseClass
    rw [P.bind_eq (cur_eq hr), P.bind_eq (peek_eq hr), if_neg (by rw [ht.1]; decide), P.bind_eq (advance_eq hr)]
  · refine .step (G := fun R => (parseBodyRescue R .LOWEST fun ty => ty == .EndKeyword) >>= fun b => pure (.identifier t false, Node.nil w, b.nodes))
      (fun R => ?_) (.bind h2 (.of fun R => rfl))
    rw [P.bind_eq (curTy_eq (t := e) rfl), if_neg (by rw [he]; decide)]
    rfl
  · rw [P.bind_eq (expect_eq (t := n) (ts := zs) rfl hn), P.bind_eq (advance_eq (t := n) (ts := zs) rfl)]
    rfl

theorem sub_evals {b : Prog} {bs : List Token} (hp : PToks b bs) (hb : RunsBody b bs) (c : Cx) (s : PS) (w t l u e n : Token)
    (x y : Str) (zs : List Token) (hr : s.rest = w :: t :: l :: u :: e :: (bs ++ n :: zs)) (ht : Cn t x)
    (hl : l.type = .LessThan) (hu : Nm u y) (he : e.type = .Semicolon) (hn : n.type = .EndKeyword) :
    ∃ ns, Means .actual [] b ns ∧ Evals parseClass c s (.class_ w (.identifier t false) (.identifier u false) ns)
      { s with prev := n :: (bs.reverse ++ e :: u :: l :: t :: w :: s.prev), rest := zs } := by
  obtain ⟨ns, h1, h2⟩ := hb.rescue hp c { s with prev := u :: l :: t :: w :: s.prev, rest := e :: (bs ++ n :: zs), locals := [] } e n zs rfl
    he hn
  refine ⟨ns, h1, .step (G := fun R => (withLocals [] do
      let name ← parseClassOrModuleName R
      let sup ←
        if (← curTy) = .LessThan then do
          advance
          R.exp .LOWEST
        else pure (Node.nil w)
      let b ← parseBodyRescue R .LOWEST fun ty => ty == .EndKeyword
      pure (name, sup, b.nodes)) >>= fun y => do
    expect .EndKeyword (cs! "class end")
    advance
    pure (.class_ w y.1 y.2.1 y.2.2)) (s1 := { s with prev := w :: s.prev, rest := t :: l :: u :: e :: (bs ++ n :: zs) }) (fun R => ?_)
    (.bind (a := (.identifier t false, .identifier u false, ns)) (withLocals_evals
      (s' := { s with prev := bs.reverse ++ e :: u :: l :: t :: w :: s.prev, rest := n :: zs, locals := b.out .actual [] }) [] (.bind (className_evals (t := t) (e := l) rfl ht (.inr hl)) ?_))
      (.of fun R => ?_))⟩
  · unfold parseClass
    rw [P.bind_eq (cur_eq hr), P.bind_eq (peek_eq hr), if_neg (by rw [ht.1]; decide), P.bind_eq (advance_eq hr)]
  · refine .step (G := fun R => R.exp .LOWEST >>= fun m => (parseBodyRescue R .LOWEST fun ty => ty == .EndKeyword) >>= fun b =>
      pure (.identifier t false, m, b.nodes)) (s1 := { s with prev := l :: t :: w :: s.prev, rest := u :: e :: (bs ++ n :: zs), locals := [] })
      (fun R => ?_) (.bind (name_evals rfl hu he) (.bind h2 (.of fun R => rfl)))
    rw [P.bind_eq (curTy_eq (t := l) rfl), if_pos hl, P.bind_eq (advance_eq (t := l) rfl)]
    rfl
  · rw [P.bind_eq (expect_eq (t := n) (ts := zs) rfl hn), P.bind_eq (advance_eq (t := n) (ts := zs) rfl)]
    rfl

theorem module_evals {b : Prog} {bs : List Token} (hp : PToks b bs) (hb : RunsBody b bs) (c : Cx) (s : PS) (w t e n : Token)
    (x : Str) (zs : List Token) (hr : s.rest = w :: t :: e :: (bs ++ n :: zs)) (ht : Cn t x)
    (he : e.type = .Semicolon) (hn : n.type = .EndKeyword) :
    ∃ ns, Means .actual [] b ns ∧ Evals parseModule c s (.module_ w (.identifier t false) ns)
      { s with prev := n :: (bs.reverse ++ e :: t :: w :: s.prev), rest := zs } := by
  obtain ⟨ns, h1, h2⟩ := hb.rescue hp c { s with prev := t :: w :: s.prev, rest := e :: (bs ++ n :: zs), locals := [] } e n zs rfl
    he hn
  refine ⟨ns, h1, .step (G := fun R => (withLocals [] do
      let name ← parseClassOrModuleName R
      let b ← parseBodyRescue R .LOWEST fun ty => ty == .EndKeyword
      pure (name, b.nodes)) >>= fun y => do
    expect .EndKeyword (cs! "module end")
    advance
    pure (.module_ w y.1 y.2)) (s1 := { s with prev := w :: s.prev, rest := t :: e :: (bs ++ n :: zs) }) (fun R => ?_)
    (.bind (a := (.identifier t false, ns)) (withLocals_evals [] (.bind (className_evals (t := t) (e := e) rfl ht (.inl he))
      (.bind h2 (.of fun R => rfl)))) (.of fun R => ?_))⟩
  · unfold parseModule
    rw [P.bind_eq (cur_eq hr), P.bind_eq (advance_eq hr)]
  · rw [P.bind_eq (expect_eq (t := n) (ts := zs) rfl hn), P.bind_eq (advance_eq (t := n) (ts := zs) rfl)]
    rfl

theorem meta_evals {b : Prog} {bs : List Token} (hp : PToks b bs) (hb : RunsBody b bs) (c : Cx) (s : PS) (w l t e n : Token)
    (zs : List Token) (hr : s.rest = w :: l :: t :: e :: (bs ++ n :: zs)) (hl : l.type = .LeftShift)
    (ht : t.type = .SelfKeyword) (he : e.type = .Semicolon) (hn : n.type = .EndKeyword) :
    ∃ ns, Means .actual s.locals b ns ∧ Evals parseClass c s (.sclass w (.self t) ns)
      { s with prev := n :: (bs.reverse ++ e :: t :: l :: w :: s.prev), rest := zs, locals := b.out .actual s.locals } := by
  obtain ⟨ns, h1, h2⟩ := hb.body hp c { s with prev := t :: l :: w :: s.prev, rest := e :: (bs ++ n :: zs) } e n zs rfl
    he hn
  have hself : Evals (fun R => R.exp .BARE_CALL_ARG) c { s with prev := l :: w :: s.prev, rest := t :: e :: (bs ++ n :: zs) }
      (.self t) { s with prev := t :: l :: w :: s.prev, rest := e :: (bs ++ n :: zs) } :=
    one_evals (s := { s with prev := l :: w :: s.prev, rest := t :: e :: (bs ++ n :: zs) })
      (s1 := { s with prev := t :: l :: w :: s.prev, rest := e :: (bs ++ n :: zs), precs := .BARE_CALL_ARG :: s.precs }) (e := e)
      (fun _ => parseOne .self) rfl (by rw [ht]; rfl) (fun R => by rw [ht]; rfl)
      (.of fun R => by
        unfold parseOne
        rw [P.bind_eq (cur_eq (t := t) rfl), P.bind_eq (advance_eq (t := t) rfl)]
        rfl) rfl rfl
      (semi_stops e he _ _ _ _ _ (cur_of rfl))
  refine ⟨ns, h1, .step (G := fun R => R.exp .BARE_CALL_ARG >>= fun k => parseBodyEnd R >>= fun b => do
    expect .EndKeyword (cs! "sclass end")
    advance
    pure (.sclass w k b.nodes)) (fun R => ?_) (.bind hself (.bind h2 (.of fun R => ?_)))⟩
  · unfold parseClass
    rw [P.bind_eq (cur_eq hr), P.bind_eq (peek_eq hr), if_pos hl]
    unfold parseSclass
    rw [P.bind_eq (cur_eq hr), P.bind_eq (advance_eq hr), P.bind_eq (advance_eq (t := l) rfl)]
  · rw [P.bind_eq (expect_eq (t := n) (ts := zs) rfl hn), P.bind_eq (advance_eq (t := n) (ts := zs) rfl)]
    rfl

/-- Parameters in parentheses. -/
theorem parens_evals {α : Type} {F : Rec → P (List Node)} {G : Rec → List Node → P α} {m : Str} {ps : List Str} {qs : List Token}
    (h : NToks ps qs) (c : Cx) (s : PS) (l r : Token) (zs : List Token) (hr : s.rest = l :: (qs ++ r :: zs))
    (hrr : r.type = .RParen)
    (hF : ∀ c s zs, ps ≠ [] → s.rest = qs ++ r :: zs → ∃ args, Params ps args ∧ Evals F c s args
        { s with prev := qs.reverse ++ s.prev, rest := r :: zs, locals := ps.reverse ++ s.locals }) :
    ∃ args, Params ps args ∧ ∀ a s', Evals (fun R => G R args) c
        { s with prev := r :: (qs.reverse ++ l :: s.prev), rest := zs, locals := ps.reverse ++ s.locals } a s' →
      Evals (fun R => do
        advance
        if (← curTy) = .RParen then
          advance
          G R []
        else
          let args ← F R
          expect .RParen m
          advance
          G R args) c s a s' := by
  by_cases hps : ps = []
  · subst hps
    cases h
    refine ⟨[], .nil, fun a s' h => .step (fun R => ?_) h⟩
    rw [P.bind_eq (advance_eq hr), P.bind_eq (curTy_eq (t := r) rfl), if_pos hrr, P.bind_eq (advance_eq (t := r) rfl)]
    rfl
  · obtain ⟨args, h1, h2⟩ := hF c { s with prev := l :: s.prev, rest := qs ++ r :: zs } zs hps rfl
    obtain ⟨t, us, rfl, ht⟩ := h.head hps
    refine ⟨args, h1, fun a s' h => .step (fun R => ?_) (.bind (G := fun R args => do
      expect .RParen m
      advance
      G R args) h2 (.step (fun R => ?_) h))⟩
    · rw [P.bind_eq (advance_eq hr), P.bind_eq (curTy_eq (t := t) rfl), if_neg (by rw [ht]; decide)]
    · rw [P.bind_eq (expect_eq (t := r) (ts := zs) rfl hrr), P.bind_eq (advance_eq (t := r) rfl)]

theorem def_evals {b : Prog} {bs : List Token} (hp : PToks b bs) (hb : RunsBody b bs) (c : Cx) (s : PS)
    (d t l r e n : Token) (x : Str) (ps : List Str) (qs zs : List Token)
    (hr : s.rest = d :: t :: l :: (qs ++ r :: e :: (bs ++ n :: zs))) (ht : Nm t x) (hl : l.type = .LParen)
    (hq : NToks ps qs) (hrr : r.type = .RParen) (he : e.type = .Semicolon) (hn : n.type = .EndKeyword) :
    ∃ args ns, Params ps args ∧ Means .actual ps.reverse b ns ∧ Evals parseDef c s (.def_ d none x args ns)
      { s with prev := n :: (bs.reverse ++ e :: r :: (qs.reverse ++ l :: t :: d :: s.prev)), rest := zs } := by
  obtain ⟨args, h1, h2⟩ := parens_evals (F := parseDefArgs) (m := cs! "args closing paren") (G := fun R args => do
      if (← curTy) = .Equal then
        advance
        if isSetterName x then
          P.throw (.plain (cs! "setter method cannot be defined in an endless method definition"))
        else
          let e ← R.exp .LOWEST
          pure (args, [e])
      else
        let b ← parseDefBody R
        expect .EndKeyword (cs! "def end")
        advance
        pure (args, b.nodes)) hq c
    { s with prev := t :: d :: s.prev, rest := l :: (qs ++ r :: e :: (bs ++ n :: zs)), locals := [] } l r _ rfl hrr
    (fun c s zs hps hr => defArgs_evals hq c s r zs hps hr hrr)
  obtain ⟨ns, h3, h4⟩ := hb.rescue hp c { s with
      prev := r :: (qs.reverse ++ l :: t :: d :: s.prev), rest := e :: (bs ++ n :: zs), locals := ps.reverse ++ [] } e n zs rfl
    he hn
  refine ⟨args, ns, h1, by simpa using h3, ?_⟩
  have h5 := h2 (args, ns) { s with
      prev := n :: (bs.reverse ++ e :: r :: (qs.reverse ++ l :: t :: d :: s.prev)), rest := zs, locals := b.out .actual (ps.reverse ++ []) } (by
    refine .step (fun R => ?_) (.bind (G := fun R b => do
      expect .EndKeyword (cs! "def end")
      advance
      pure (args, b.nodes)) h4 (.of fun R => ?_))
    · rw [P.bind_eq (curTy_eq (t := e) rfl), if_neg (by rw [he]; decide)]
      rfl
    · rw [P.bind_eq (expect_eq (t := n) (ts := zs) rfl hn), P.bind_eq (advance_eq (t := n) (ts := zs) rfl)]
      rfl)
  refine .step (s1 := { s with prev := t :: d :: s.prev, rest := l :: (qs ++ r :: e :: (bs ++ n :: zs)) }) (fun R => ?_)
    (.bind (G := fun R y => pure (.def_ d none x y.1 y.2)) (withLocals_evals [] h5) (.of fun R => rfl))
  unfold parseDef
  rw [P.bind_eq (cur_eq hr), P.bind_eq (advance_eq hr)]
  have hname : parseDefName R c { s with prev := d :: s.prev, rest := t :: l :: (qs ++ r :: e :: (bs ++ n :: zs)) } =
      .ok (none, x) { s with prev := t :: d :: s.prev, rest := l :: (qs ++ r :: e :: (bs ++ n :: zs)) } := by
    unfold parseDefName
    rw [P.bind_eq (cur_eq (t := t) rfl), P.bind_eq (peek_eq (t := t) (u := l) rfl), ht.1, hl]
    show ((parseMethodName >>= fun name => pure (none, name)) : P (Option Node × Str)) c _ = _
    have hm : parseMethodName c { s with prev := d :: s.prev, rest := t :: l :: (qs ++ r :: e :: (bs ++ n :: zs)) } =
        .ok x { s with prev := t :: d :: s.prev, rest := l :: (qs ++ r :: e :: (bs ++ n :: zs)) } := by
      unfold parseMethodName
      rw [P.bind_eq (cur_eq (t := t) rfl), ht.1]
      show (litOf t >>= _) c _ = _
      rw [P.bind_eq (litOf_eq ht.2), P.bind_eq (advance_eq (t := t) rfl)]
      rfl
    rw [P.bind_eq hm]
    rfl
  rw [P.bind_eq hname]
  have e1 : ∀ (F F' : P (List Node × List Node)) (k : List Node × List Node → P Node) (s : PS),
      F c { s with locals := [] } = F' c { s with locals := [] } →
      (withLocals [] F >>= k) c s = (withLocals [] F' >>= k) c s := by
    intro F F' k s h
    have : withLocals [] F c s = withLocals [] F' c s := by
      unfold withLocals
      rw [P.bind_eq (show P.get c s = .ok s s from rfl), P.bind_eq (show P.get c s = .ok s s from rfl),
        P.bind_eq (show P.modify _ c s = .ok () { s with locals := [] } from rfl),
        P.bind_eq (show P.modify _ c s = .ok () { s with locals := [] } from rfl)]
      show P.bind _ _ c _ = P.bind _ _ c _
      unfold P.bind
      rw [h]
    show P.bind _ _ c _ = P.bind _ _ c _
    unfold P.bind
    rw [this]
  refine e1 _ _ _ _ ?_
  rw [P.bind_eq (curTy_eq (t := l) rfl), if_pos hl]
  rfl

theorem withLocals_congr {α β : Type} {F F' : P α} {k : α → P β} {c : Cx} {s : PS} {ls : List Str}
    (h : F c { s with locals := ls } = F' c { s with locals := ls }) :
    (withLocals ls F >>= k) c s = (withLocals ls F' >>= k) c s := by
  have : withLocals ls F c s = withLocals ls F' c s := by
    unfold withLocals
    rw [P.bind_eq (show P.get c s = .ok s s from rfl), P.bind_eq (show P.get c s = .ok s s from rfl),
      P.bind_eq (show P.modify _ c s = .ok () { s with locals := ls } from rfl),
      P.bind_eq (show P.modify _ c s = .ok () { s with locals := ls } from rfl)]
    show P.bind _ _ c _ = P.bind _ _ c _
    unfold P.bind
    rw [h]
  show P.bind _ _ c _ = P.bind _ _ c _
  unfold P.bind
  rw [this]

/-- The end of `parse_iter_expression`, behind the parameters of a `do` block. -/
def iterEnd (R : Rec) (d : Token) (left : Node) (ls : List Str) (F : P (Bool × List Node)) : P Node := do
  let y ← withLocals ls do
    let y ← F
    let body ← parseBodyRescue R .LOWEST fun ty => ty == .EndKeyword
    pure (y.1, y.2, body)
  expect .EndKeyword (cs! "end")
  advance
  pure (.iter d left y.1 y.2.1 y.2.2.nodes)

theorem iterEnd_evals {b : Prog} {bs : List Token} (hp : PToks b bs) (hb : RunsBody b bs) (c : Cx) (s : PS)
    (d e n : Token) (left : Node) (h : Bool) (args : List Node) (ls : List Str) (pre zs : List Token)
    (he : e.type = .Semicolon) (hn : n.type = .EndKeyword) (F : Rec → P (Bool × List Node))
    (hF : Evals F c s (h, args)
      { s with prev := pre.reverse ++ d :: s.prev, rest := e :: (bs ++ n :: zs), locals := ls }) :
    ∃ ns, Means .actual ls b ns ∧ Evals (fun R => iterEnd R d left s.locals (F R)) c s (.iter d left h args ns)
      { s with prev := n :: (bs.reverse ++ e :: (pre.reverse ++ d :: s.prev)), rest := zs } := by
  obtain ⟨ns, h3, h4⟩ := hb.rescue hp c { s with
      prev := pre.reverse ++ d :: s.prev, rest := e :: (bs ++ n :: zs), locals := ls } e n zs rfl he hn
  refine ⟨ns, h3, ?_⟩
  refine .bind (G := fun R y => do
      expect .EndKeyword (cs! "end")
      advance
      pure (Node.iter d left y.1 y.2.1 y.2.2.nodes)) (withLocals_evals (F := fun R => F R >>= fun y => do
        let body ← parseBodyRescue R .LOWEST fun ty => ty == .EndKeyword
        pure (y.1, y.2, body)) s.locals (.bind hF (.bind h4 (.of fun R => rfl)))) (.of fun R => ?_)
  rw [P.bind_eq (expect_eq (t := n) (ts := zs) rfl hn), P.bind_eq (advance_eq (t := n) (ts := zs) rfl)]
  rfl

theorem block_evals {b : Prog} {bs : List Token} (hp : PToks b bs) (hb : RunsBody b bs) (c : Cx) (s : PS)
    (t d e n : Token) (lv : Bool) (ps : List Str) (qs zs : List Token)
    (hr : s.rest = d :: (qs ++ e :: (bs ++ n :: zs))) (hd : d.type = .DoKeyword) (hq : BToks ps qs)
    (he : e.type = .Semicolon) (hn : n.type = .EndKeyword) :
    ∃ h args ns, Params ps args ∧ Means .actual (ps.reverse ++ s.locals) b ns ∧
      Evals (fun R => parseIter R (.identifier t lv)) c s (.iter d (.identifier t lv) h args ns)
      { s with prev := n :: (bs.reverse ++ e :: (qs.reverse ++ d :: s.prev)), rest := zs } := by
  cases hq with
  | nil =>
    obtain ⟨ns, h1, h2⟩ := iterEnd_evals hp hb c s d e n (.identifier t lv) false [] s.locals [] zs he hn
      (fun _ => do
        advance
        pure (false, [])) (.of fun R => by rw [P.bind_eq (advance_eq hr)]; rfl)
    refine ⟨false, [], ns, .nil, h1, .step (fun R => ?_) h2⟩
    unfold parseIter
    rw [P.bind_eq (cur_eq hr), P.bind_eq (show P.get c s = .ok s s from rfl), hd]
    refine withLocals_congr ?_
    show (advance >>= _) c s = ((advance >>= fun _ => pure (false, [])) >>= _) c s
    rw [P.bind_eq (advance_eq hr), P.assoc, P.bind_eq (advance_eq hr), P.bind_eq (curTy_eq (t := e) rfl), he]
    rfl
  | some p ps a b' ts ha hb' h =>
    obtain ⟨args, h3, h4⟩ := iterArgs_evals h c { s with prev := a :: d :: s.prev, rest := ts ++ b' :: e :: (bs ++ n :: zs) } b'
      (e :: (bs ++ n :: zs)) (by simp) rfl hb'
    have hr' : s.rest = d :: a :: (ts ++ b' :: e :: (bs ++ n :: zs)) := by rw [hr]; simp
    obtain ⟨t1, us, hts, ht1⟩ := h.head (by simp)
    obtain ⟨ns, h1, h2⟩ := iterEnd_evals hp hb c s d e n (.identifier t lv) true args ((p :: ps).reverse ++ s.locals)
      (a :: (ts ++ [b'])) zs he hn
      (fun R => do
        advance
        advance
        let args ← parseIterArgs R
        expect .Pipe (cs! "end of block args")
        advance
        pure (true, args)) (by
          refine .step (fun R => ?_) (.bind (G := fun R args => do
            expect .Pipe (cs! "end of block args")
            advance
            pure (true, args)) h4 (.of fun R => ?_))
          · rw [P.bind_eq (advance_eq hr'), P.bind_eq (advance_eq (t := a) rfl)]
          · rw [P.bind_eq (expect_eq (t := b') rfl hb'), P.bind_eq (advance_eq (t := b') rfl)]
            simp
            rfl)
    refine ⟨true, args, ns, h3, h1, .step (fun R => ?_) h2⟩
    unfold parseIter
    rw [P.bind_eq (cur_eq hr), P.bind_eq (show P.get c s = .ok s s from rfl), hd]
    refine withLocals_congr ?_
    show (advance >>= _) c s = ((advance >>= fun _ => advance >>= fun _ => _) >>= _) c s
    rw [P.assoc, P.bind_eq (advance_eq hr'), P.bind_eq (advance_eq hr'), P.bind_eq (curTy_eq (t := a) rfl), ha,
      if_neg (by decide), if_pos rfl, P.assoc, P.bind_eq (advance_eq (t := a) rfl), P.bind_eq (advance_eq (t := a) rfl),
      P.bind_eq (curTy_eq (t := t1) (ts := us ++ b' :: e :: (bs ++ n :: zs)) (by rw [hts]; rfl)), ht1, if_neg (by decide), P.assoc]
    show P.bind _ _ c _ = P.bind _ _ c _
    unfold P.bind
    cases parseIterArgs R c _ <;> first | rfl | (simp only [P.assoc]; rfl)

theorem lam_evals {b : Prog} {bs : List Token} (hp : PToks b bs) (hb : RunsBody b bs) (c : Cx) (s : PS)
    (a l r d e n : Token) (ps : List Str) (qs zs : List Token)
    (hr : s.rest = a :: l :: (qs ++ r :: d :: e :: (bs ++ n :: zs))) (hl : l.type = .LParen) (hq : NToks ps qs)
    (hrr : r.type = .RParen) (hd : d.type = .DoKeyword) (he : e.type = .Semicolon) (hn : n.type = .EndKeyword) :
    ∃ args ns, Params ps args ∧ Means .actual (ps.reverse ++ s.locals) b ns ∧
      Evals parseStabbyProc c s (.iter d (.stabbyProc a true args) true args ns)
      { s with prev := n :: (bs.reverse ++ e :: d :: r :: (qs.reverse ++ l :: a :: s.prev)), rest := zs,
               locals := ps.reverse ++ s.locals } := by
  obtain ⟨args, h1, h2⟩ := parens_evals (F := fun R => parseProcArgs R .CURLY_AND_BLOCK) (m := cs! "proc args closing paren")
    (G := fun R args => do
      let ty ← curTy
      if ty = .DoKeyword ∨ ty = .LCurlyBrace then parseIter R (.stabbyProc a true args)
      else throwUnexpected (cs! "block")) hq c
    { s with prev := a :: s.prev, rest := l :: (qs ++ r :: d :: e :: (bs ++ n :: zs)) } l r _ rfl hrr
    (fun c s zs hps hr => procArgs_evals hq .CURLY_AND_BLOCK c s r zs hps hr hrr)
  obtain ⟨ns, h3, h4⟩ := iterEnd_evals hp hb c { s with
      prev := r :: (qs.reverse ++ l :: a :: s.prev), rest := d :: e :: (bs ++ n :: zs), locals := ps.reverse ++ s.locals } d e n
    (.stabbyProc a true args) true args (ps.reverse ++ s.locals) [] zs he hn (fun _ => do
        advance
        pure (true, args)) (.of fun R => by rw [P.bind_eq (advance_eq (t := d) rfl)]; rfl)
  refine ⟨args, ns, h1, h3, .step (fun R => ?_) (h2 _ _ (.step (fun R => ?_) h4))⟩
  · unfold parseStabbyProc
    rw [P.bind_eq (cur_eq hr), P.bind_eq (advance_eq hr), P.bind_eq (curTy_eq (t := l) rfl), if_pos hl]
    rfl
  · rw [P.bind_eq (curTy_eq (t := d) rfl), if_pos (.inl hd)]
    unfold parseIter
    rw [P.bind_eq (cur_eq (t := d) rfl), P.bind_eq (show P.get c _ = .ok _ _ from rfl), hd]
    rfl

/-! ### Programs -/

/-- A statement, and the rest of the program. -/
theorem chain_cons {k : Prog} {ts : List Token} (hp : PToks k ts) (hk : RunsBody k ts) {c : Cx} {s : PS} {ds : List Nat}
    {t e z : Token} {us zs pv : List Token} {l : Node} {ls : List Str} (hr : s.rest = t :: us) (ht : starts t.type = true)
    (he : e.type = .Semicolon) (hz : z.type = .EndKeyword ∨ z.type = .Eof) (hd : s.depth = 0 :: ds)
    (hE : Evals (fun R => R.exp .LOWEST) c s l { s with prev := pv, rest := e :: (ts ++ z :: zs), locals := ls }) :
    ∃ ns, Means .actual ls k ns ∧
      Chain c s (l :: ns) { s with prev := ts.reverse ++ e :: pv, rest := z :: zs, locals := k.out .actual ls } := by
  obtain ⟨u, vs, hu, hu1, -⟩ := hp.head z zs hz
  obtain ⟨ns, h1, h2⟩ := hk c { s with prev := e :: pv, rest := ts ++ z :: zs, locals := ls } ds z zs rfl hz hd
  rw [hu] at hE h2
  exact ⟨ns, h1, .cons s _ _ t e u us vs l ns hr ht hE rfl he hu1 h2⟩

/-- A statement of one function. -/
theorem chain_one {k : Prog} {ts : List Token} (hp : PToks k ts) (hk : RunsBody k ts) {c : Cx} {s : PS} {ds : List Nat}
    {t e z : Token} {us zs pv : List Token} {l : Node} {ls : List Str} (F : Rec → P Node) (hr : s.rest = t :: us)
    (ht : starts t.type = true) (hn : ∀ R, nullDenotation R t.type = some (F R))
    (he : e.type = .Semicolon) (hz : z.type = .EndKeyword ∨ z.type = .Eof) (hd : s.depth = 0 :: ds)
    (hF : Evals F c { s with precs := .LOWEST :: s.precs } l
      { s with prev := pv, rest := e :: (ts ++ z :: zs), locals := ls, precs := .LOWEST :: s.precs }) :
    ∃ ns, Means .actual ls k ns ∧
      Chain c s (l :: ns) { s with prev := ts.reverse ++ e :: pv, rest := z :: zs, locals := k.out .actual ls } :=
  chain_cons hp hk hr ht he hz hd (one_evals (s := s) F hr (starts_facts ht).2.1 hn hF rfl rfl
    (semi_stops e he _ _ _ _ _ (cur_of rfl)))

theorem value_evals {v : Val} {w : Token} (hw : VTok v w) (c : Cx) (s : PS) (e : Token) (us : List Token)
    (hr : s.rest = w :: e :: us) (he : e.type = .Semicolon) (p : Prec) :
    ∃ m, Values s.locals v m ∧
      Evals (fun R => R.exp p) c s m { s with prev := w :: s.prev, rest := e :: us } := by
  cases hw with
  | one w ht hf =>
    refine ⟨.fixnum w 1, .one w, ?_⟩
    refine one_evals (s := s) (s1 := { s with prev := w :: s.prev, rest := e :: us, precs := p :: s.precs }) (e := e)
      (fun _ => parseLit) hr (by rw [ht]; rfl) (fun R => by rw [ht]; rfl) (.of fun R => ?_) rfl rfl
      (semi_stops e he _ _ _ _ _ (cur_of rfl))
    exact parseLit_int w e us 1 ht hf (by simp [Follow, he]) c { s with precs := p :: s.precs } hr
  | name y w ht hl => exact ⟨_, .name y _ (uses_ident _ _ _ hl), name_evals hr ⟨ht, hl⟩ he⟩

theorem set_evals {v : Val} {w : Token} (hw : VTok v w) (c : Cx) (s : PS) (t q e : Token) (us : List Token) (x : Str)
    (hr : s.rest = t :: q :: w :: e :: us) (ht : Nm t x) (hq : q.type = .Equal) (he : e.type = .Semicolon) :
    ∃ m, Values (x :: s.locals) v m ∧ Evals (fun R => R.exp .LOWEST) c s
      (.assignment q (.identifier t (s.locals.contains x)) m)
      { s with prev := w :: q :: t :: s.prev, rest := e :: us, locals := x :: s.locals } := by
  obtain ⟨m, h1, h3⟩ := value_evals hw c
    { s with prev := q :: t :: s.prev, rest := w :: e :: us, locals := x :: s.locals, precs := .LOWEST :: s.precs } e us rfl he .ASSIGNMENT_RHS
  refine ⟨m, h1, ?_⟩
  refine (EvalsFrom.expression (q := .LOWEST) (ps := s.precs) (s' := { s with
    prev := w :: q :: t :: s.prev, rest := e :: us, locals := x :: s.locals, precs := .LOWEST :: s.precs }) hr
      (by rw [ht.1]; rfl) (.first (fun _ => parseIdentifier)
      (fun R => by rw [cur_of (s := { s with precs := .LOWEST :: s.precs }) hr, ht.1]; rfl)
      (.of fun R => identifier_eq (s := { s with precs := .LOWEST :: s.precs }) hr ht.2) ?_) rfl).expr
  refine .infix (q := .LOWEST) (ps := s.precs) (s1 := { s with
    prev := w :: q :: t :: s.prev, rest := e :: us, locals := x :: s.locals, precs := .LOWEST :: s.precs })
    (fun R => parseAssignment R true (.identifier t (s.locals.contains x))) (by rw [cur_of (e := q) rfl, hq]; rfl) ?_
    (fun R => by rw [cur_of (e := q) rfl]; unfold leftDenotation; rw [hq]; rfl) ?_ rfl
    (.stop (by rw [cur_of (e := e) rfl]; exact semi_stops e he _ _ _ _ _ (cur_of rfl)))
  · rw [cur_of (e := q) rfl]
    unfold higherPrecedence
    rw [show getPrec q (some _) _ = .ASSIGNMENT_LHS by unfold getPrec; rw [hq]]
    rfl
  · have hval : Evals (fun R => parseAssignmentValue R false true) c { s with
        prev := q :: t :: s.prev, rest := w :: e :: us, locals := x :: s.locals, precs := .LOWEST :: s.precs } m { s with
        prev := w :: q :: t :: s.prev, rest := e :: us, locals := x :: s.locals, precs := .LOWEST :: s.precs } := by
      obtain ⟨N, h3⟩ := h3
      refine ⟨N, fun n hn => ?_⟩
      show parseAssignmentValue (knot n) false true c _ = _
      unfold parseAssignmentValue
      rw [P.bind_eq (cur_eq (t := w) rfl), P.bind_eq (h3 n hn), P.bind_eq (curTy_eq (t := e) rfl), he]
      cases h1 with
      | one => rfl
      | name y _ h => cases h; rfl
    refine .step (fun R => ?_) (.bind (G := fun R v => pure (.assignment q (.identifier t (s.locals.contains x)) v)) hval
      (.of fun R => rfl))
    unfold parseAssignment
    rw [if_neg (by simp [Node.isSplat]), P.bind_eq (cur_eq (t := q) rfl)]
    rw [P.bind_eq (show addAssignmentLocals (.identifier t (s.locals.contains x)) c _ = .ok () { s with
          prev := t :: s.prev, rest := q :: w :: e :: us, locals := x :: s.locals, precs := .LOWEST :: s.precs } by
        unfold addAssignmentLocals addNames identNames
        show (match (if t.type = .BareName then t.lit.map ([·]) else some []) with
          | some ns => _
          | none => _ : P Unit) c _ = _
        rw [if_pos ht.1, ht.2]
        rfl), P.bind_eq (advance_eq (t := q) rfl)]

theorem blockStm_evals {b : Prog} {bs : List Token} (hp : PToks b bs) (hb : RunsBody b bs) (c : Cx) (s : PS) (ds : List Nat)
    (t d e n f : Token) (x : Str) (ps : List Str) (qs zs : List Token)
    (hr : s.rest = t :: d :: (qs ++ e :: (bs ++ n :: f :: zs))) (hds : s.depth = 0 :: ds) (ht : Nm t x)
    (hd : d.type = .DoKeyword) (hq : BToks ps qs) (he : e.type = .Semicolon) (hn : n.type = .EndKeyword)
    (hf : f.type = .Semicolon) :
    ∃ h args ns, Params ps args ∧ Means .actual (ps.reverse ++ s.locals) b ns ∧
      Evals (fun R => R.exp .LOWEST) c s (.iter d (.identifier t (s.locals.contains x)) h args ns)
      { s with prev := n :: (bs.reverse ++ e :: (qs.reverse ++ d :: t :: s.prev)), rest := f :: zs } := by
  obtain ⟨h, args, ns, h1, h2, h3⟩ := block_evals hp hb c
    { s with prev := t :: s.prev, rest := d :: (qs ++ e :: (bs ++ n :: f :: zs)), precs := .LOWEST :: s.precs } t d e n
    (s.locals.contains x) ps qs (f :: zs) rfl hd hq he hn
  refine ⟨h, args, ns, h1, h2, ?_⟩
  refine (EvalsFrom.expression (q := .LOWEST) (ps := s.precs) (s' := { s with
    prev := n :: (bs.reverse ++ e :: (qs.reverse ++ d :: t :: s.prev)), rest := f :: zs, precs := .LOWEST :: s.precs }) hr
      (by rw [ht.1]; rfl) (.first (fun _ => parseIdentifier)
      (fun R => by rw [cur_of (s := { s with precs := .LOWEST :: s.precs }) hr, ht.1]; rfl)
      (.of fun R => identifier_eq (s := { s with precs := .LOWEST :: s.precs }) hr ht.2) ?_) rfl).expr
  refine .infix (q := .LOWEST) (ps := s.precs) (fun R => parseIter R (.identifier t (s.locals.contains x)))
    (by rw [cur_of (e := d) rfl, hd]; rfl) ?_
    (fun R => by rw [cur_of (e := d) rfl]; unfold leftDenotation; rw [hd]) h3 rfl
    (.stop (by rw [cur_of (e := f) rfl]; exact semi_stops f hf _ _ _ _ _ (cur_of rfl)))
  rw [cur_of (e := d) rfl]
  unfold higherPrecedence
  rw [show getPrec d (some _) _ = .ITER_BLOCK by unfold getPrec; rw [hd]]
  show (match s.depth with
    | [] => .ub
    | d :: _ => .ok (d == 0) _ : PRes Bool) = _
  rw [hds]
  rfl

/-- The parser at the tokens of a program. -/
theorem PToks.runs {p : Prog} {ts : List Token} (h : PToks p ts) : RunsBody p ts := by
  induction h with
  | nil =>
    intro c s ds z zs hr hz hd
    refine ⟨[], .nil _, ?_⟩
    have : ({ s with prev := [].reverse ++ s.prev, rest := z :: zs, locals := Prog.nil.out .actual s.locals } : PS) = s := by
      obtain ⟨a, b, c, d, e⟩ := s
      cases hr
      rfl
    rw [this]
    exact .nil s
  | use x k t e ts ht he hk ih =>
    intro c s ds z zs hr hz hd
    obtain ⟨ns, h1, h2⟩ := chain_cons hk ih hr (by rw [ht.1]; rfl) he hz hd (name_evals hr ht he)
    exact ⟨_, .use _ _ _ _ _ (uses_ident _ _ _ ht.2) h1, by simpa [Prog.out] using h2⟩
  | set x v k t q w e ts ht hq hw he hk ih =>
    intro c s ds z zs hr hz hd
    obtain ⟨m, h3, h4⟩ := set_evals hw c s t q e (ts ++ z :: zs) x hr ht hq he
    obtain ⟨ns, h1, h2⟩ := chain_cons hk ih hr (by rw [ht.1]; rfl) he hz hd h4
    exact ⟨_, .set _ _ _ _ _ _ _ _ (.mk _ _ ht.2) h3 h1, by simpa [Prog.out] using h2⟩
  | while_ x b k w t e n f bs ts hw ht he hb hn hf hk ihb ih =>
    intro c s ds z zs hr hz hd
    obtain ⟨bn, h3, h4⟩ := while_evals hb ihb c { s with precs := .LOWEST :: s.precs } w t e n x (f :: (ts ++ z :: zs))
      (by simpa using hr) hw ht he hn
    obtain ⟨ns, h1, h2⟩ := chain_one hk ih parseWhile hr (by rw [show w.type = _ from hw]; rfl)
      (fun R => by rw [show w.type = _ from hw]; rfl) hf hz hd h4
    exact ⟨_, .while_ _ _ _ _ _ _ _ _ (uses_ident _ _ _ ht.2) h3 h1, by simpa [Prog.out] using h2⟩
  | def_ x ps b k d t l r e n f qs bs ts hd ht hl ha hr' he hb hn hf hk ihb ih =>
    intro c s ds z zs hr hz hds
    obtain ⟨args, bn, h3, h4, h5⟩ := def_evals hb ihb c { s with precs := .LOWEST :: s.precs } d t l r e n x ps qs
      (f :: (ts ++ z :: zs)) (by simpa using hr) ht hl ha hr' he hn
    obtain ⟨ns, h1, h2⟩ := chain_one hk ih parseDef hr (by rw [show d.type = _ from hd]; rfl)
      (fun R => by rw [show d.type = _ from hd]; rfl) hf hz hds h5
    exact ⟨_, .def_ _ _ _ _ _ _ _ _ _ h3 h4 h1, by simpa [Prog.out] using h2⟩
  | class_ x b k w t e n f bs ts hw ht he hb hn hf hk ihb ih =>
    intro c s ds z zs hr hz hd
    obtain ⟨bn, h3, h4⟩ := class_evals hb ihb c { s with precs := .LOWEST :: s.precs } w t e n x (f :: (ts ++ z :: zs))
      (by simpa using hr) ht he hn
    obtain ⟨ns, h1, h2⟩ := chain_one hk ih parseClass hr (by rw [show w.type = _ from hw]; rfl)
      (fun R => by rw [show w.type = _ from hw]; rfl) hf hz hd h4
    exact ⟨_, .class_ _ _ _ _ _ _ _ _ _ (.mk _ _ ht.2) h3 h1, by simpa [Prog.out] using h2⟩
  | sub x y b k w t l u e n f bs ts hw ht hl hu he hb hn hf hk ihb ih =>
    intro c s ds z zs hr hz hd
    obtain ⟨bn, h3, h4⟩ := sub_evals hb ihb c { s with precs := .LOWEST :: s.precs } w t l u e n x y (f :: (ts ++ z :: zs))
      (by simpa using hr) ht hl hu he hn
    obtain ⟨ns, h1, h2⟩ := chain_one hk ih parseClass hr (by rw [show w.type = _ from hw]; rfl)
      (fun R => by rw [show w.type = _ from hw]; rfl) hf hz hd h4
    exact ⟨_, .sub _ _ _ _ _ _ _ _ _ _ (.mk _ _ ht.2) (.mk u false hu.2 (by simp [Rules.actual])) h3 h1,
      by simpa [Prog.out] using h2⟩
  | meta_ b k w l t e n f bs ts hw hl ht he hb hn hf hk ihb ih =>
    intro c s ds z zs hr hz hd
    obtain ⟨bn, h3, h4⟩ := meta_evals hb ihb c { s with precs := .LOWEST :: s.precs } w l t e n (f :: (ts ++ z :: zs))
      (by simpa using hr) hl ht he hn
    obtain ⟨ns, h1, h2⟩ := chain_one hk ih parseClass hr (by rw [show w.type = _ from hw]; rfl)
      (fun R => by rw [show w.type = _ from hw]; rfl) hf hz hd h4
    exact ⟨_, .meta_ _ _ _ _ _ _ _ h3 h1, by simpa [Prog.out, Rules.actual] using h2⟩
  | module_ x b k w t e n f bs ts hw ht he hb hn hf hk ihb ih =>
    intro c s ds z zs hr hz hd
    obtain ⟨bn, h3, h4⟩ := module_evals hb ihb c { s with precs := .LOWEST :: s.precs } w t e n x (f :: (ts ++ z :: zs))
      (by simpa using hr) ht he hn
    obtain ⟨ns, h1, h2⟩ := chain_one hk ih parseModule hr (by rw [show w.type = _ from hw]; rfl)
      (fun R => by rw [show w.type = _ from hw]; rfl) hf hz hd h4
    exact ⟨_, .module_ _ _ _ _ _ _ _ _ (.mk _ _ ht.2) h3 h1, by simpa [Prog.out] using h2⟩
  | block x ps b k t d e n f qs bs ts ht hd ha he hb hn hf hk ihb ih =>
    intro c s ds z zs hr hz hds
    obtain ⟨h, args, bn, h3, h4, h5⟩ := blockStm_evals hb ihb c s ds t d e n f x ps qs (ts ++ z :: zs)
      (by simpa using hr) hds ht hd ha he hn hf
    obtain ⟨ns, h1, h2⟩ := chain_cons hk ih hr (by rw [ht.1]; rfl) hf hz hds h5
    exact ⟨_, .block _ _ _ _ _ _ _ _ _ _ _ (.mk _ _ ht.2) h3 h4 h1, by simpa [Prog.out] using h2⟩
  | lam ps b k a l r d e n f qs bs ts haa hl ha hr' hd he hb hn hf hk ihb ih =>
    intro c s ds z zs hr hz hds
    obtain ⟨args, bn, h3, h4, h5⟩ := lam_evals hb ihb c { s with precs := .LOWEST :: s.precs } a l r d e n ps qs
      (f :: (ts ++ z :: zs)) (by simpa using hr) hl ha hr' hd he hn
    obtain ⟨ns, h1, h2⟩ := chain_one hk ih parseStabbyProc hr (by rw [show a.type = _ from haa]; rfl)
      (fun R => by rw [show a.type = _ from haa]; rfl) hf hz hds h5
    exact ⟨_, .lam _ _ _ _ _ _ _ _ _ h3 h4 h1, by simpa [Prog.out, Rules.actual] using h2⟩

/-- The tokens of a program are parsed to its statements. -/
theorem PToks.tree {p : Prog} {ts : List Token} (h : PToks p ts) (c : Cx) (z : Token) (hz : z.type = .Eof) :
    ∃ t ns s', Means .actual [] p ns ∧ Evals parseTree c { rest := ts ++ [z] } (Blk.single ⟨t, ns⟩) s' := by
  obtain ⟨u, us, hu, hu1, hu2⟩ := h.head z [] (.inr hz)
  obtain ⟨ns, h1, h2⟩ := h.runs c { rest := ts ++ [z] } [] z [] rfl (.inr hz) rfl
  refine ⟨u, ns, _, h1, .step (G := fun R => loop (treeBody R) R.fuel [] >>= fun ns => pure (Blk.single ⟨u, ns⟩))
    (s1 := { rest := ts ++ [z] }) (fun R => ?_) (.bind (a := [] ++ ns) (EvalsLoop.evals (h2.tree z [] rfl hz [])) (.of fun R => rfl))⟩
  rw [parseTree_eq, P.bind_eq (skipNewlines_none hu hu1), P.bind_eq (cur_eq hu),
    P.bind_eq (validate_ok (s := { rest := ts ++ [z] }) (by rw [cur_of hu]; exact hu2)), P.bind_eq (skipNewlines_none hu hu1)]

end NP
