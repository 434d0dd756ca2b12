import Verif.Model.Parser
import Verif.Spec.Brackets

/-!
Partial correctness of the functions of the parser with respect to the brackets consumed: rules for the primitive
operations and the tactics that run through a function.
-/

namespace NP.Bal

open Spec

/-- If `p` started in `s` returns, `Q` holds. -/
def okp {α : Type} (p : P α) (c : Cx) (s : PS) (Q : α → PS → Prop) : Prop :=
  match p c s with
  | .ok a s' => Q a s'
  | .err _ => True
  | .abort => True
  | .ub => True
  | .overrun => True
  | .fuel => True

/-- What is consumed between `s` and `s'` is balanced. -/
def Bl (s s' : PS) : Prop := s.prev <:+ s'.prev ∧ ∀ st, Opened st s.prev → Opened st s'.prev

/-- What is consumed between `s` and `s'` is balanced but for an `end` at the end. -/
def Be (s s' : PS) : Prop := ∃ t l, t.type = .EndKeyword ∧ s'.prev = t :: l ∧ s.prev <:+ l ∧
  ∀ st, Opened st s.prev → Opened st l

section rules
variable {α β σ : Type} {c : Cx} {s : PS}

theorem Bl.intro {s s' : PS} (k : s.prev <:+ s'.prev) (h : ∀ st, Opened st s.prev → Opened st s'.prev) : Bl s s' :=
  ⟨k, h⟩
theorem Bl.refl : Bl s s := ⟨List.suffix_rfl, fun _ h => h⟩
theorem Bl.refl' {p r r' : List Token} {d d' : List Nat} {q q' : List Prec} {l l' : List Str} :
    Bl ⟨p, r, d, q, l⟩ ⟨p, r', d', q', l'⟩ := ⟨List.suffix_rfl, fun _ h => h⟩
theorem Bl.trans {a b d : PS} (h : Bl a b) (k : Bl b d) : Bl a d := ⟨h.1.trans k.1, fun st x => k.2 st (h.2 st x)⟩
theorem Bl.app {s s' : PS} {st : List Ttype} (h : Bl s s') (x : Opened st s.prev) : Opened st s'.prev := h.2 st x
theorem Bl.sfx {s s' : PS} {l : List Token} (h : Bl s s') (x : l <:+ s.prev) : l <:+ s'.prev := x.trans h.1
theorem sfx_cons {s : PS} {t : Token} {l m : List Token} (e : s.prev = t :: m) (x : l <:+ m) : l <:+ s.prev :=
  e ▸ x.trans (List.suffix_cons _ _)

theorem okp_mono {p : P α} {Q Q' : α → PS → Prop} (h : okp p c s Q) (k : ∀ a s', Q a s' → Q' a s') : okp p c s Q' := by
  unfold okp at *
  split <;> rename_i heq <;> rw [heq] at h <;> first | exact k _ _ h | trivial

theorem okp_bind {p : P α} {f : α → P β} {Q : β → PS → Prop} (h : okp p c s fun a s' => okp (f a) c s' Q) :
    okp (p >>= f) c s Q := by
  show okp (P.bind p f) c s Q
  unfold okp P.bind at *
  revert h
  cases p c s <;> exact id

theorem okp_pure {a : α} {Q : α → PS → Prop} (h : Q a s) : okp (pure a) c s Q := h
theorem okp_cur {Q : Token → PS → Prop} (h : Q s.cur s) : okp cur c s Q := h
theorem okp_curTy {Q : Ttype → PS → Prop} (h : Q s.cur.type s) : okp curTy c s Q := h
theorem okp_peek {Q : Token → PS → Prop} (h : Q s.peek s) : okp peek c s Q := h
theorem okp_prevTok {Q : Token → PS → Prop} (h : Q s.prevTok s) : okp prevTok c s Q := h
theorem okp_get {Q : PS → PS → Prop} (h : Q s s) : okp P.get c s Q := h
theorem okp_throw {x : SErr} {Q : α → PS → Prop} : okp (P.throw x) c s Q := trivial
theorem okp_abort {Q : α → PS → Prop} : okp (P.abort) c s Q := trivial
theorem okp_fuel {Q : α → PS → Prop} : okp (P.fuel) c s Q := trivial
theorem okp_throwTok {t : Token} {b : Bool} {m : Str} {Q : α → PS → Prop} : okp (throwTok t b m) c s Q := by
  unfold okp throwTok
  by_cases hc : t.type = .Invalid ∧ t.lit = none
  · rw [if_pos hc]; trivial
  · rw [if_neg hc]; trivial
theorem okp_throwUnexpected {m : Str} {Q : α → PS → Prop} : okp (throwUnexpected m) c s Q := okp_throwTok
theorem okp_throwError {t : Token} {m : Str} {Q : α → PS → Prop} : okp (throwError t m) c s Q := okp_throwTok
theorem okp_throwUnterminated {t u : Token} {Q : α → PS → Prop} : okp (throwUnterminated t u) c s Q := by
  unfold okp throwUnterminated
  dsimp only
  split <;> rename_i h <;> split at h <;> cases h <;> trivial
theorem okp_ite {p : Prop} [Decidable p] {x y : P α} {Q : α → PS → Prop} (h1 : p → okp x c s Q)
    (h2 : ¬ p → okp y c s Q) : okp (if p then x else y) c s Q := by
  split
  · exact h1 ‹_›
  · exact h2 ‹_›
theorem okp_litOf {t : Token} {Q : Str → PS → Prop} (h : ∀ n, Q n s) : okp (litOf t) c s Q := by
  unfold litOf
  split
  · exact h _
  · exact okp_abort

theorem okp_advance {Q : Unit → PS → Prop} (k : ∀ s' : PS, s'.prev = s.cur :: s.prev → s'.cur = s.peek → Q () s') :
    okp advance c s Q := by
  unfold okp advance
  cases h : s.rest with
  | nil => trivial
  | cons t ts =>
    refine k _ ?_ ?_
    · simp [PS.cur, h]
    · simp [PS.cur, PS.peek, h]

theorem okp_insertNewline {t : Token} {Q : Unit → PS → Prop} (k : ∀ s' : PS, Bl s s' → Q () s') :
    okp (insertNewline t) c s Q := k _ Bl.refl'

theorem okp_pushDepth {Q : Unit → PS → Prop} (k : ∀ s' : PS, Bl s s' → s'.cur = s.cur → Q () s') :
    okp pushDepth c s Q := k _ Bl.refl' rfl
theorem okp_pushPrec {p : Prec} {Q : Unit → PS → Prop} (k : ∀ s' : PS, Bl s s' → s'.cur = s.cur → Q () s') :
    okp (pushPrec p) c s Q := k _ Bl.refl' rfl
theorem okp_addLocal {n : Str} {Q : Unit → PS → Prop} (k : ∀ s' : PS, Bl s s' → s'.cur = s.cur → Q () s') :
    okp (addLocal n) c s Q := k _ Bl.refl' rfl
theorem okp_popDepth {Q : Unit → PS → Prop} (k : ∀ s' : PS, Bl s s' → s'.cur = s.cur → Q () s') :
    okp popDepth c s Q := by
  unfold okp popDepth
  cases s.depth with
  | nil => trivial
  | cons d ds => exact k _ Bl.refl' rfl
theorem okp_bumpDepth {n : Nat} {Q : Unit → PS → Prop} (k : ∀ s' : PS, Bl s s' → s'.cur = s.cur → Q () s') :
    okp (bumpDepth n) c s Q := by
  unfold okp bumpDepth
  cases s.depth with
  | nil => trivial
  | cons d ds => exact k _ Bl.refl' rfl
theorem okp_incDepth {Q : Unit → PS → Prop} (k : ∀ s' : PS, Bl s s' → s'.cur = s.cur → Q () s') :
    okp incDepth c s Q := okp_bumpDepth k
theorem okp_decDepth {Q : Unit → PS → Prop} (k : ∀ s' : PS, Bl s s' → s'.cur = s.cur → Q () s') :
    okp decDepth c s Q := okp_bumpDepth k
theorem okp_popPrec {Q : Unit → PS → Prop} (k : ∀ s' : PS, Bl s s' → s'.cur = s.cur → Q () s') :
    okp popPrec c s Q := by
  unfold okp popPrec
  cases s.precs with
  | nil => trivial
  | cons d ds => exact k _ Bl.refl' rfl
theorem okp_addNames {o : Option (List Str)} {Q : Unit → PS → Prop}
    (k : ∀ s' : PS, Bl s s' → s'.cur = s.cur → Q () s') : okp (addNames o) c s Q := by
  cases o with
  | none => trivial
  | some ns => exact k _ Bl.refl' rfl

theorem eol_plain {t : Ttype} (h : t.isEndOfLine = true) : isPlain t = true := by
  cases t <;> first | rfl | exact absurd h (by decide)

theorem skip_go (ts : List Token) : ∀ pre st, Opened st pre → Opened st (skipNewlines.go pre ts).1 := by
  induction ts with
  | nil => exact fun _ _ h => h
  | cons t ts ih =>
    intro pre st h
    unfold skipNewlines.go
    split
    · exact ih _ _ (.plain _ (eol_plain ‹_›) h)
    · exact h

theorem skip_sfx (ts : List Token) : ∀ pre, pre <:+ (skipNewlines.go pre ts).1 := by
  induction ts with
  | nil => exact fun _ => List.suffix_rfl
  | cons t ts ih =>
    intro pre
    unfold skipNewlines.go
    split
    · exact (List.suffix_cons _ _).trans (ih _)
    · exact List.suffix_rfl

theorem okp_skipNewlines {Q : Unit → PS → Prop}
    (k : ∀ s' : PS, Bl s s' → (s.cur.type.isEndOfLine = false → s'.cur = s.cur) → Q () s') : okp skipNewlines c s Q := by
  refine k _ ⟨skip_sfx _ _, fun st h => skip_go _ _ _ h⟩ ?_
  intro h
  unfold PS.cur at *
  cases hr : s.rest with
  | nil => rfl
  | cons t ts =>
    rw [hr] at h
    simp only [List.headD_cons] at h
    simp [skipNewlines.go, h]

theorem okp_expect {ty : Ttype} {m : Str} {Q : Unit → PS → Prop} (k : s.cur.type = ty → Q () s) :
    okp (expect ty m) c s Q := by
  unfold expect
  exact okp_bind (okp_curTy (okp_ite (fun h => okp_pure (k h)) fun _ => okp_throwUnexpected))

theorem okp_nextExpression {Q : Unit → PS → Prop} (k : ∀ s' : PS, Bl s s' → Q () s') : okp nextExpression c s Q := by
  unfold nextExpression
  exact okp_bind (okp_curTy (okp_ite (fun _ => okp_skipNewlines fun s' h _ => k s' h) fun _ => okp_throwUnexpected))

theorem okp_validateCurrent {Q : Unit → PS → Prop} (k : Q () s) : okp validateCurrent c s Q := by
  unfold validateCurrent
  refine okp_bind (okp_cur ?_)
  split
  all_goals first
    | exact okp_throw
    | exact okp_throwUnterminated
    | exact okp_ite (fun _ => k) fun _ => okp_abort

theorem okp_modify {f : PS → PS} {Q : Unit → PS → Prop} (k : Q () (f s)) : okp (P.modify f) c s Q := k

theorem okp_withLocals {ls : List Str} {p : P α} {Q : α → PS → Prop}
    (h : ∀ s' : PS, Bl s s' → s'.cur = s.cur → s'.peek = s.peek → okp p c s' fun a s'' =>
      ∀ s₃ : PS, Bl s'' s₃ → s₃.cur = s''.cur → Q a s₃) :
    okp (withLocals ls p) c s Q := by
  unfold withLocals
  refine okp_bind (okp_get (okp_bind (okp_modify ?_)))
  refine okp_bind (okp_mono (h _ Bl.refl' rfl rfl) ?_)
  intro a s'' k
  exact okp_bind (okp_modify (okp_pure (k _ Bl.refl' rfl)))

/-- A call of a function that consumes balanced tokens. -/
theorem okp_call {p : P α} {Q : α → PS → Prop} (h : okp p c s fun _ s' => Bl s s') (k : ∀ a s', Bl s s' → Q a s') :
    okp p c s Q := okp_mono h k

/-- A loop with an invariant. -/
theorem okp_loop {body : σ → P (Loop σ α)} {Q : α → PS → Prop} {n : Nat} {x : σ} (I : σ → PS → Prop) (hI : I x s)
    (h : ∀ y s', I y s' → okp (body y) c s' fun r s'' =>
      match r with
      | .again z => I z s''
      | .done a => Q a s'') : okp (loop body n x) c s Q := by
  induction n generalizing x s with
  | zero => trivial
  | succ n ih =>
    unfold loop
    refine okp_bind (okp_mono (h x s hI) ?_)
    intro r s' hr
    cases r with
    | again y => exact ih hr
    | done a => exact hr

/-- A loop whose body consumes balanced tokens. -/
theorem okp_loopB {body : σ → P (Loop σ α)} {Q : α → PS → Prop} {n : Nat} {x : σ}
    (h : ∀ y s', Bl s s' → okp (body y) c s' fun _ s'' => Bl s s'') (k : ∀ a s', Bl s s' → Q a s') :
    okp (loop body n x) c s Q := by
  refine okp_loop (fun _ s' => Bl s s') Bl.refl ?_
  intro y s' hs
  refine okp_mono (h y s' hs) ?_
  intro r s'' hr
  cases r with
  | again z => exact hr
  | done a => exact k a s'' hr

/-- What is shown of a continuation `jp` that several branches share. -/
def JP (s : PS) (jp : α → P β) (c : Cx) (Q : β → PS → Prop) : Prop := ∀ a s', Bl s s' → okp (jp a) c s' Q

theorem okp_jp {p : P β} {Q : β → PS → Prop} (jp : α → P β) (h1 : JP s jp c Q) (h2 : JP s jp c Q → okp p c s Q) :
    okp p c s Q := h2 h1

theorem okp_callJP {s₀ : PS} {jp : α → P β} {Q : β → PS → Prop} {a : α} (h : JP s₀ jp c Q) (b : Bl s₀ s) :
    okp (jp a) c s Q := h a s b

end rules

/-! ## The brackets themselves -/

section brackets
variable {st : List Ttype} {s : PS} {t : Token} {l : List Token}

theorem step_plain (e : s.prev = t :: l) (h : isPlain t.type = true) (k : Opened st l) : Opened st s.prev :=
  e ▸ .plain t h k
/-- Tokens that can open something. -/
def opener : Ttype → Bool
  | .DefKeyword | .DoKeyword | .IfKeyword | .UnlessKeyword | .WhileKeyword | .UntilKeyword => true
  | t => isOpen t || needsEnd t

theorem opener_closes {o : Ttype} (h : opener o = true) : ∃ c, closes o c = true := by
  cases o <;> first
    | exact absurd h (by decide)
    | exact ⟨.EndKeyword, rfl⟩
    | exact ⟨.RParen, rfl⟩
    | exact ⟨.RBracket, rfl⟩
    | exact ⟨.RCurlyBrace, rfl⟩
    | exact ⟨.EvaluateToStringEnd, rfl⟩
    | exact ⟨.InterpolatedStringEnd, rfl⟩
    | exact ⟨.InterpolatedSymbolEnd, rfl⟩
    | exact ⟨.InterpolatedRegexpEnd, rfl⟩
    | exact ⟨.InterpolatedShellEnd, rfl⟩

theorem step_open {o : Ttype} (e : s.prev = t :: l) (ho : t.type = o) (h : opener o = true) (k : Opened st l) :
    Opened (o :: st) s.prev := by
  subst ho
  obtain ⟨c, hc⟩ := opener_closes h
  exact e ▸ .opens t c hc k
theorem step_close {o x : Ttype} (e : s.prev = t :: l) (hx : t.type = x) (k : Opened (o :: st) l)
    (h : closes o x = true) : Opened st s.prev := by
  subst hx
  exact e ▸ .closed t o h k
theorem step_name (e : s.prev = t :: l) (h : t.type.isKeyword = true) (hp : NamePos l) (k : Opened st l) :
    Opened st s.prev := e ▸ .name t h hp k

theorem plain_of_eq {x y : Ttype} (h : x = y) (hy : isPlain y = true) : isPlain x = true := h ▸ hy
theorem plain_of_cur {t u : Token} (h : t = u) (hu : isPlain u.type = true) : isPlain t.type = true := h ▸ hu
theorem plain_of_or {x y z : Ttype} (h : x = y ∨ x = z) (hy : isPlain y = true) (hz : isPlain z = true) :
    isPlain x = true := by rcases h with h | h <;> rw [h] <;> assumption
theorem plain_of_or3 {x y z u : Ttype} (h : x = y ∨ x = z ∨ x = u) (hy : isPlain y = true) (hz : isPlain z = true)
    (hu : isPlain u = true) : isPlain x = true := by rcases h with h | h | h <;> rw [h] <;> assumption
theorem operator_plain {x : Ttype} (h : x.isOperator = true) : isPlain x = true := by
  cases x <;> first | rfl | exact absurd h (by decide)
theorem ty_of_cur {t u : Token} {x : Ttype} (h : t = u) (hu : u.type = x) : t.type = x := h ▸ hu

end brackets

/-- Closes goals `isPlain … = true`. -/
syntax "plain" : tactic
macro_rules | `(tactic| plain) => `(tactic| first
  | assumption
  | ((with_reducible apply plain_of_eq); assumption; decide)
  | ((with_reducible apply plain_of_or); assumption; decide; decide)
  | ((with_reducible apply plain_of_or3); assumption; decide; decide; decide)
  | (refine operator_plain ?_; assumption)
  | ((with_reducible apply plain_of_cur); assumption; plain))

/-- Closes goals `t.type = _`, which may determine the right side. -/
syntax "tyis" : tactic
macro_rules | `(tactic| tyis) => `(tactic| first
  | assumption
  | ((with_reducible apply ty_of_cur); assumption; tyis))

/-- Closes goals `Opened st s.prev`. -/
syntax "bk" : tactic
macro_rules | `(tactic| bk) => `(tactic| first
  | assumption
  | ((with_reducible apply Bl.app); assumption; bk)
  | ((with_reducible apply step_open); assumption; tyis; rfl; bk)
  | ((with_reducible apply step_close); assumption; tyis; bk; rfl)
  | ((with_reducible apply step_plain); assumption; plain; bk))

/-- Closes goals `s.prev <:+ s'.prev`. -/
syntax "sf" : tactic
macro_rules | `(tactic| sf) => `(tactic| first
  | with_reducible exact List.suffix_rfl
  | ((with_reducible apply Bl.sfx); assumption; sf)
  | ((with_reducible apply sfx_cons); assumption; sf))

/-- Closes goals `Bl s s'`. -/
macro "bl" : tactic => `(tactic| first
  | assumption
  | with_reducible exact Bl.refl
  | ((with_reducible refine Bl.intro ?_ ?_); (focus sf); intro _ _; bk))

/-- Calls of functions already treated. -/
syntax "bspec" : tactic
macro_rules | `(tactic| bspec) => `(tactic| fail "no rule")

/-- One step of a function. -/
macro "bstep" : tactic => `(tactic| first
  | (with_reducible exact okp_abort)
  | (with_reducible exact okp_throw)
  | (with_reducible exact okp_throwUnterminated)
  | (with_reducible exact okp_throwUnexpected)
  | (with_reducible exact okp_throwTok)
  | (with_reducible exact okp_throwError)
  | (with_reducible refine okp_bind ?_)
  | ((with_reducible refine okp_pure ?_); try dsimp -zeta only)
  | ((with_reducible refine okp_cur ?_); try dsimp -zeta only)
  | ((with_reducible refine okp_curTy ?_); try dsimp -zeta only)
  | ((with_reducible refine okp_peek ?_); try dsimp -zeta only)
  | ((with_reducible refine okp_prevTok ?_); try dsimp -zeta only)
  | ((with_reducible refine okp_get ?_); try dsimp -zeta only)
  | ((with_reducible refine okp_litOf ?_); intro _)
  | ((with_reducible refine okp_advance ?_); intro _ _ _)
  | ((with_reducible refine okp_skipNewlines ?_); intro _ _ _)
  | ((with_reducible refine okp_nextExpression ?_); intro _ _)
  | ((with_reducible refine okp_expect ?_); intro _)
  | (with_reducible refine okp_validateCurrent ?_)
  | ((with_reducible refine okp_pushDepth ?_); intro _ _ _)
  | ((with_reducible refine okp_popDepth ?_); intro _ _ _)
  | ((with_reducible refine okp_incDepth ?_); intro _ _ _)
  | ((with_reducible refine okp_decDepth ?_); intro _ _ _)
  | ((with_reducible refine okp_pushPrec ?_); intro _ _ _)
  | ((with_reducible refine okp_popPrec ?_); intro _ _ _)
  | ((with_reducible refine okp_addLocal ?_); intro _ _ _)
  | ((with_reducible refine okp_addNames ?_); intro _ _ _)
  | ((with_reducible refine okp_insertNewline ?_); intro _ _)
  | ((with_reducible refine okp_ite ?_ ?_) <;> intro hc <;>
      (try simp only [Bool.and_eq_true, Bool.or_eq_true, beq_iff_eq] at hc) <;> try (with_reducible obtain ⟨_, _⟩ := hc))
  | ((with_reducible refine okp_loopB ?_ ?_) <;> intro _ _ _)
  | bspec
  | ((with_reducible apply okp_callJP); assumption; bl)
  | (extract_lets +onlyGivenNames jp
     (with_reducible refine okp_jp jp ?_ ?_)
     (focus (intro _ _ _; dsimp -zeta only [jp]))
     rotate_left; intro _; clear_value jp; rotate_left)
  | ((with_reducible refine Bl.intro ?_ ?_); (focus sf); intro _ _; bk)
  | assumption
  | (with_reducible exact Bl.refl)
  | (dsimp only; done)
  | split)

macro "bgo" : tactic => `(tactic| (repeat' bstep))

/-- What is assumed of the functions called recursively. -/
structure Good (R : Rec) : Prop where
  expr : ∀ p ia c s, okp (R.expr p ia) c s fun _ s' => Bl s s'
  pattern : ∀ c s, okp R.pattern c s fun _ s' => Bl s s'
  assignIdent : ∀ b c s, okp (R.assignIdent b) c s fun _ s' => Bl s s'
  argDefault : ∀ ia c s, okp (R.argDefault ia) c s fun _ s' => Bl s s'
  defSingleArg : ∀ l x ia c s, okp (R.defSingleArg l x ia) c s fun _ s' => Bl s s'
  ifBranch : ∀ b c s, s.cur.type = .ElsifKeyword → okp (R.ifBranch b) c s fun _ s' => Be s s'
  string : ∀ c s, s.cur.type = .String → okp R.string c s fun _ s' => Bl s s'
  istring : ∀ c s, s.cur.type = .InterpolatedStringBegin → okp R.istring c s fun _ s' => Bl s s'

macro_rules | `(tactic| bspec) => `(tactic| first
  | ((with_reducible refine okp_call (Good.expr ‹_› _ _ _ _) ?_); intro _ _ _)
  | ((with_reducible refine okp_call (Good.pattern ‹_› _ _) ?_); intro _ _ _)
  | ((with_reducible refine okp_call (Good.assignIdent ‹_› _ _ _) ?_); intro _ _ _)
  | ((with_reducible refine okp_call (Good.argDefault ‹_› _ _ _) ?_); intro _ _ _)
  | ((with_reducible refine okp_call (Good.defSingleArg ‹_› _ _ _ _ _) ?_); intro _ _ _)
  | ((with_reducible refine okp_call (Good.string ‹_› _ _ (by tyis)) ?_); intro _ _ _)
  | ((with_reducible refine okp_call (Good.istring ‹_› _ _ (by tyis)) ?_); intro _ _ _))

end NP.Bal
