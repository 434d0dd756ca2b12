import Verif.Model.Parser

/-!
Relations between runs of the parser that are preserved by all of its functions. Every function is built from a few
primitives by `bind`, `loop` and `withLocals`; whatever holds of the primitives and is preserved by these three holds of
the whole parser.
-/

namespace NP

/-- The texts of the errors that name a token which need not be the current one. -/
def offSite : List Str :=
  [cs! "assignment identifier", cs! ":: identifier name", cs! "left-hand-side is not callable",
   cs! "anything after arg forwarding (...) shorthand", cs! "normal arg after keyword arg",
   cs! "default value after splat", cs! "splat after keyword splat",
   cs! "arg forwarding (...) shorthand not allowed in block", cs! "call to accept block",
   cs! "hash pattern symbol key", cs! "forwarding args without ... shorthand in method definition",
   cs! "variable or constant", cs! "expression"]

/-- The primitives the parser is built from. -/
inductive Prim : {α : Type} → P α → Prop where
  | pure {α : Type} (a : α) : Prim (Pure.pure a : P α)
  | abort {α : Type} : Prim (P.abort : P α)
  | plain {α : Type} (m : Str) : Prim (P.throw (.plain m) : P α)
  | unexpected {α : Type} (m : Str) : Prim (throwUnexpected m : P α)
  | off {α : Type} (t : Token) (b : Bool) (m : Str) (h : m ∈ offSite) : Prim (throwTok t b m : P α)
  | unterminated {α : Type} (t u : Token) : Prim (throwUnterminated t u : P α)
  | validate : Prim validateCurrent
  | cur : Prim cur
  | curTy : Prim curTy
  | peek : Prim peek
  | prevTok : Prim prevTok
  | get : Prim P.get
  | advance : Prim advance
  | rewind : Prim rewind
  | newline (t : Token) : Prim (insertNewline t)
  | skip : Prim skipNewlines
  | pushDepth : Prim pushDepth
  | popDepth : Prim popDepth
  | incDepth : Prim incDepth
  | decDepth : Prim decDepth
  | pushPrec (p : Prec) : Prim (pushPrec p)
  | popPrec : Prim popPrec
  | addLocal (n : Str) : Prim (addLocal n)
  | addNames (ns : Option (List Str)) : Prim (addNames ns)
  | higher (t : Token) (l : Node) (p : Prec) (ia : IterAllow) : Prim (higherPrecedence t l p ia)
  | file (t : Token) : Prim (fun c s => .ok (.string t c.file) s : P Node)

/-- A relation preserved by the constructions of the parser. -/
structure Rl where
  r : {α : Type} → P α → P α → Prop
  f : Nat → Nat → Prop
  twice : ∀ {n m : Nat}, f n m → f (2 * n) (2 * m)
  prim : ∀ {α : Type} {p : P α}, Prim p → r p p
  bind : ∀ {α β : Type} {p q : P α} {p' q' : α → P β}, r p q → (∀ a, r (p' a) (q' a)) → r (p >>= p') (q >>= q')
  loop : ∀ {σ α : Type} {b b' : σ → P (Loop σ α)} {n m : Nat} {x : σ}, f n m → (∀ x, r (b x) (b' x)) →
    r (loop b n x) (loop b' m x)
  locals : ∀ {α : Type} {p q : P α} (ls : List Str), r p q → r (withLocals ls p) (withLocals ls q)

/-- Two records are related. -/
structure Rl.Rec (T : Rl) (R R' : Rec) : Prop where
  fuel : T.f R.fuel R'.fuel
  expr : ∀ p ia, T.r (R.expr p ia) (R'.expr p ia)
  pattern : T.r R.pattern R'.pattern
  assignIdent : ∀ b, T.r (R.assignIdent b) (R'.assignIdent b)
  argDefault : ∀ ia, T.r (R.argDefault ia) (R'.argDefault ia)
  defSingleArg : ∀ as x ia, T.r (R.defSingleArg as x ia) (R'.defSingleArg as x ia)
  ifBranch : ∀ b, T.r (R.ifBranch b) (R'.ifBranch b)
  string : T.r R.string R'.string
  istring : T.r R.istring R'.istring

/-- Functions already treated. -/
syntax "relspec" : tactic
macro_rules | `(tactic| relspec) => `(tactic| fail)

/-- One step. -/
macro "rel1" : tactic => `(tactic| with_reducible first
  | exact Rl.prim _ (.off _ _ _ (by decide))
  | exact Rl.prim _ (by constructor)
  | apply Rl.Rec.expr; assumption
  | apply Rl.Rec.pattern; assumption
  | apply Rl.Rec.assignIdent; assumption
  | apply Rl.Rec.argDefault; assumption
  | apply Rl.Rec.defSingleArg; assumption
  | apply Rl.Rec.ifBranch; assumption
  | apply Rl.Rec.string; assumption
  | apply Rl.Rec.istring; assumption
  | apply Rl.Rec.fuel; assumption
  | assumption
  | relspec
  | apply Rl.bind
  | apply Rl.loop
  | apply Rl.locals
  | intro _)

/-- Splits the same condition on both sides. -/
macro "relsplit" : tactic => `(tactic| (split <;> try dsimp only))

macro "rel" : tactic => `(tactic| repeat' first | rel1 | contradiction | relsplit)

theorem litOf_rel (T : Rl) (t : Token) : T.r (litOf t) (litOf t) := by
  unfold litOf
  rel

macro_rules | `(tactic| relspec) => `(tactic| exact litOf_rel _ _)

theorem expect_rel (T : Rl) (t : Ttype) (h : Str) : T.r (expect t h) (expect t h) := by
  unfold expect
  rel

macro_rules | `(tactic| relspec) => `(tactic| exact expect_rel _ _ _)

theorem nextExpression_rel (T : Rl) : T.r nextExpression nextExpression := by
  unfold nextExpression
  rel

macro_rules | `(tactic| relspec) => `(tactic| exact nextExpression_rel _)

theorem throwError_rel {α : Type} (T : Rl) (t : Token) (m : Str) (h : m ∈ offSite) :
    T.r (throwError t m : P α) (throwError t m) := T.prim (.off _ _ _ h)

macro_rules | `(tactic| relspec) => `(tactic| exact throwError_rel _ _ _ (by decide))

end NP
