import Verif.Proofs.Scope
import Verif.Proofs.Gram.Attr

/-! Running the functions of the parser on states with known tokens, by rewriting. -/

namespace NP

/-- Go on with the result of a function. -/
def PRes.andThen {α β : Type} (r : PRes α) (f : α → P β) (c : Cx) : PRes β :=
  match r with
  | .ok a s => f a c s
  | .err e => .err e
  | .abort => .abort
  | .ub => .ub
  | .overrun => .overrun
  | .fuel => .fuel

theorem PRes.andThen_ok {α β : Type} (a : α) (s : PS) (f : α → P β) (c : Cx) : (PRes.ok a s).andThen f c = f a c s := rfl

/-- A semicolon or the end of a line. -/
def Gram.Eol (t : Token) : Prop := t.type = .Semicolon ∨ t.type = .Newline

/-- Semicolons and ends of lines. -/
def Gram.Eols (es : List Token) : Prop := ∀ e ∈ es, e.type.isEndOfLine = true

open Gram (Eols)

section
variable {α β : Type} (c : Cx) (pv : List Token) (t u : Token) (ts : List Token) (ds : List Nat) (ps : List Prec) (L : List Str)

theorem run_bind (p : P α) (f : α → P β) (s : PS) : (p >>= f) c s = (p c s).andThen f c := by
  show P.bind p f c s = _
  unfold P.bind PRes.andThen
  rfl

theorem run_pure (a : α) (s : PS) : (pure a : P α) c s = .ok a s := rfl
theorem run_cur : cur c ⟨pv, t :: ts, ds, ps, L⟩ = .ok t ⟨pv, t :: ts, ds, ps, L⟩ := rfl
theorem run_curTy : curTy c ⟨pv, t :: ts, ds, ps, L⟩ = .ok t.type ⟨pv, t :: ts, ds, ps, L⟩ := rfl
theorem run_peek : peek c ⟨pv, t :: u :: ts, ds, ps, L⟩ = .ok u ⟨pv, t :: u :: ts, ds, ps, L⟩ := rfl
theorem run_advance : advance c ⟨pv, t :: ts, ds, ps, L⟩ = .ok () ⟨t :: pv, ts, ds, ps, L⟩ := rfl
theorem run_pushDepth : pushDepth c ⟨pv, ts, ds, ps, L⟩ = .ok () ⟨pv, ts, 0 :: ds, ps, L⟩ := rfl
theorem run_popDepth (d : Nat) : popDepth c ⟨pv, ts, d :: ds, ps, L⟩ = .ok () ⟨pv, ts, ds, ps, L⟩ := rfl
theorem run_addLocal (x : Str) : addLocal x c ⟨pv, ts, ds, ps, L⟩ = .ok () ⟨pv, ts, ds, ps, x :: L⟩ := rfl
theorem run_addNames (xs : List Str) : addNames (some xs) c ⟨pv, ts, ds, ps, L⟩ = .ok () ⟨pv, ts, ds, ps, xs ++ L⟩ := rfl
theorem run_get (s : PS) : P.get c s = .ok s s := rfl
theorem run_modify (f : PS → PS) (s : PS) : P.modify f c s = .ok () (f s) := rfl

theorem run_expect (ty : Ttype) (m : Str) (h : t.type = ty) :
    expect ty m c ⟨pv, t :: ts, ds, ps, L⟩ = .ok () ⟨pv, t :: ts, ds, ps, L⟩ := expect_eq rfl h

theorem run_ite (p : Prop) [Decidable p] (a b : P α) (s : PS) : (if p then a else b) c s = if p then a c s else b c s := by
  split <;> rfl

theorem run_lit (x : Str) (s : PS) (h : t.lit = some x) : litOf t c s = .ok x s := litOf_eq h

theorem run_skip (h : t.type.isEndOfLine = false) :
    skipNewlines c ⟨pv, t :: ts, ds, ps, L⟩ = .ok () ⟨pv, t :: ts, ds, ps, L⟩ := skipNewlines_none rfl h

theorem skip_lines (es : List Token) (h : ∀ e ∈ es, e.type.isEndOfLine = true) (h' : u.type.isEndOfLine = false) :
    skipNewlines c ⟨pv, es ++ u :: ts, ds, ps, L⟩ = .ok () ⟨es.reverse ++ pv, u :: ts, ds, ps, L⟩ := by
  induction es generalizing pv with
  | nil => exact skipNewlines_none rfl h'
  | cons e es ih =>
    have := ih (e :: pv) fun x hx => h x (List.mem_cons_of_mem _ hx)
    unfold skipNewlines at this ⊢
    simp only [List.cons_append, skipNewlines.go, h e List.mem_cons_self, if_true, List.reverse_cons, List.append_assoc,
      List.nil_append] at this ⊢
    exact this

theorem run_lines (es : List Token) (h : Eols es) (h' : u.type.isEndOfLine = false) :
    skipNewlines c ⟨pv, es ++ u :: ts, ds, ps, L⟩ = .ok () ⟨es.reverse ++ pv, u :: ts, ds, ps, L⟩ :=
  skip_lines c pv u ts ds ps L es h h'

theorem run_skip_semi (es : List Token) (ht : t.type.isEndOfLine = true) (he : Eols es)
    (h : u.type.isEndOfLine = false) :
    skipNewlines c ⟨pv, t :: (es ++ u :: ts), ds, ps, L⟩ = .ok () ⟨es.reverse ++ t :: pv, u :: ts, ds, ps, L⟩ := by
  have := skip_lines c pv u ts ds ps L (t :: es) (fun x hx => by
    rcases List.mem_cons.1 hx with rfl | hx
    · exact ht
    · exact he x hx) h
  simpa using this

theorem run_next_semi (es : List Token) (ht : t.type.isEndOfLine = true) (he : Eols es)
    (h : u.type.isEndOfLine = false) :
    nextExpression c ⟨pv, t :: (es ++ u :: ts), ds, ps, L⟩ = .ok () ⟨es.reverse ++ t :: pv, u :: ts, ds, ps, L⟩ := by
  unfold nextExpression
  have hx : t.type.isEndOfExpression = true := by
    generalize t.type = ty at ht
    cases ty <;> first | rfl | cases ht
  rw [run_bind, run_curTy, PRes.andThen_ok, if_pos hx]
  exact run_skip_semi c pv t u ts ds ps L es ht he h

theorem run_next_end (h : t.type.isEndOfLine = false) (h' : t.type.isEndOfExpression = true) :
    nextExpression c ⟨pv, t :: ts, ds, ps, L⟩ = .ok () ⟨pv, t :: ts, ds, ps, L⟩ := by
  unfold nextExpression
  rw [run_bind, run_curTy, PRes.andThen_ok, if_pos h', run_skip _ _ _ _ _ _ _ h]

theorem run_validate (h : t.type.isValid = true) :
    validateCurrent c ⟨pv, t :: ts, ds, ps, L⟩ = .ok () ⟨pv, t :: ts, ds, ps, L⟩ := validate_ok h

theorem run_inc (d : Nat) (h : d + 1 < 4294967296) :
    incDepth c ⟨pv, ts, d :: ds, ps, L⟩ = .ok () ⟨pv, ts, (d + 1) :: ds, ps, L⟩ := by
  show PRes.ok () _ = _
  rw [Nat.mod_eq_of_lt h]

theorem run_dec (d : Nat) (h : d + 1 < 4294967296) :
    decDepth c ⟨pv, ts, (d + 1) :: ds, ps, L⟩ = .ok () ⟨pv, ts, d :: ds, ps, L⟩ := by
  show PRes.ok () _ = _
  rw [show (d + 1 + 4294967295) % 4294967296 = d by omega]

theorem run_withLocals (l : List Str) (p : P α) (s : PS) :
    withLocals l p c s = (p c { s with locals := l }).andThen (fun a => fun _ s' => .ok a { s' with locals := s.locals }) c := by
  unfold withLocals
  rw [run_bind, run_get, PRes.andThen_ok, run_bind, run_modify, PRes.andThen_ok, run_bind]
  unfold PRes.andThen
  cases p c { s with locals := l } <;> rfl

end

/-! ### Facts about types of tokens -/

@[gram] theorem isEndOfLine_Comma : Ttype.isEndOfLine .Comma = false := rfl
@[gram] theorem isEndOfLine_Newline : Ttype.isEndOfLine .Newline = true := rfl
@[gram] theorem isEndOfLine_Semicolon : Ttype.isEndOfLine .Semicolon = true := rfl
@[gram] theorem isEndOfLine_EndKeyword : Ttype.isEndOfLine .EndKeyword = false := rfl
@[gram] theorem isEndOfLine_RParen : Ttype.isEndOfLine .RParen = false := rfl
@[gram] theorem isEndOfLine_LParen : Ttype.isEndOfLine .LParen = false := rfl
@[gram] theorem isEndOfLine_RBracket : Ttype.isEndOfLine .RBracket = false := rfl
@[gram] theorem isEndOfLine_LBracket : Ttype.isEndOfLine .LBracket = false := rfl
@[gram] theorem isEndOfLine_RCurlyBrace : Ttype.isEndOfLine .RCurlyBrace = false := rfl
@[gram] theorem isEndOfLine_LCurlyBrace : Ttype.isEndOfLine .LCurlyBrace = false := rfl
@[gram] theorem isEndOfLine_Pipe : Ttype.isEndOfLine .Pipe = false := rfl
@[gram] theorem isEndOfLine_ThenKeyword : Ttype.isEndOfLine .ThenKeyword = false := rfl
@[gram] theorem isEndOfLine_ElseKeyword : Ttype.isEndOfLine .ElseKeyword = false := rfl
@[gram] theorem isEndOfLine_ElsifKeyword : Ttype.isEndOfLine .ElsifKeyword = false := rfl
@[gram] theorem isEndOfLine_WhenKeyword : Ttype.isEndOfLine .WhenKeyword = false := rfl
@[gram] theorem isEndOfLine_RescueKeyword : Ttype.isEndOfLine .RescueKeyword = false := rfl
@[gram] theorem isEndOfLine_EnsureKeyword : Ttype.isEndOfLine .EnsureKeyword = false := rfl
@[gram] theorem isEndOfLine_HashRocket : Ttype.isEndOfLine .HashRocket = false := rfl
@[gram] theorem isEndOfLine_DoKeyword : Ttype.isEndOfLine .DoKeyword = false := rfl
@[gram] theorem isEndOfLine_Eof : Ttype.isEndOfLine .Eof = false := rfl
@[gram] theorem isEndOfLine_BareName : Ttype.isEndOfLine .BareName = false := rfl
@[gram] theorem isEndOfLine_Constant : Ttype.isEndOfLine .Constant = false := rfl
@[gram] theorem isEndOfLine_Equal : Ttype.isEndOfLine .Equal = false := rfl
@[gram] theorem isEndOfLine_InKeyword : Ttype.isEndOfLine .InKeyword = false := rfl
@[gram] theorem isEndOfLine_Ampersand : Ttype.isEndOfLine .Ampersand = false := rfl
@[gram] theorem isEndOfLine_Star : Ttype.isEndOfLine .Star = false := rfl
@[gram] theorem isEndOfLine_StarStar : Ttype.isEndOfLine .StarStar = false := rfl
@[gram] theorem isEndOfLine_SymbolKey : Ttype.isEndOfLine .SymbolKey = false := rfl
@[gram] theorem isEndOfExpression_Comma : Ttype.isEndOfExpression .Comma = false := rfl
@[gram] theorem isEndOfExpression_Newline : Ttype.isEndOfExpression .Newline = true := rfl
@[gram] theorem isEndOfExpression_Semicolon : Ttype.isEndOfExpression .Semicolon = true := rfl
@[gram] theorem isEndOfExpression_EndKeyword : Ttype.isEndOfExpression .EndKeyword = true := rfl
@[gram] theorem isEndOfExpression_RParen : Ttype.isEndOfExpression .RParen = false := rfl
@[gram] theorem isEndOfExpression_LParen : Ttype.isEndOfExpression .LParen = false := rfl
@[gram] theorem isEndOfExpression_RBracket : Ttype.isEndOfExpression .RBracket = false := rfl
@[gram] theorem isEndOfExpression_LBracket : Ttype.isEndOfExpression .LBracket = false := rfl
@[gram] theorem isEndOfExpression_RCurlyBrace : Ttype.isEndOfExpression .RCurlyBrace = true := rfl
@[gram] theorem isEndOfExpression_LCurlyBrace : Ttype.isEndOfExpression .LCurlyBrace = false := rfl
@[gram] theorem isEndOfExpression_Pipe : Ttype.isEndOfExpression .Pipe = false := rfl
@[gram] theorem isEndOfExpression_ThenKeyword : Ttype.isEndOfExpression .ThenKeyword = false := rfl
@[gram] theorem isEndOfExpression_ElseKeyword : Ttype.isEndOfExpression .ElseKeyword = false := rfl
@[gram] theorem isEndOfExpression_ElsifKeyword : Ttype.isEndOfExpression .ElsifKeyword = false := rfl
@[gram] theorem isEndOfExpression_WhenKeyword : Ttype.isEndOfExpression .WhenKeyword = false := rfl
@[gram] theorem isEndOfExpression_RescueKeyword : Ttype.isEndOfExpression .RescueKeyword = false := rfl
@[gram] theorem isEndOfExpression_EnsureKeyword : Ttype.isEndOfExpression .EnsureKeyword = false := rfl
@[gram] theorem isEndOfExpression_HashRocket : Ttype.isEndOfExpression .HashRocket = false := rfl
@[gram] theorem isEndOfExpression_DoKeyword : Ttype.isEndOfExpression .DoKeyword = false := rfl
@[gram] theorem isEndOfExpression_Eof : Ttype.isEndOfExpression .Eof = true := rfl
@[gram] theorem isEndOfExpression_BareName : Ttype.isEndOfExpression .BareName = false := rfl
@[gram] theorem isEndOfExpression_Constant : Ttype.isEndOfExpression .Constant = false := rfl
@[gram] theorem isEndOfExpression_Equal : Ttype.isEndOfExpression .Equal = false := rfl
@[gram] theorem isEndOfExpression_InKeyword : Ttype.isEndOfExpression .InKeyword = false := rfl
@[gram] theorem isEndOfExpression_Ampersand : Ttype.isEndOfExpression .Ampersand = false := rfl
@[gram] theorem isEndOfExpression_Star : Ttype.isEndOfExpression .Star = false := rfl
@[gram] theorem isEndOfExpression_StarStar : Ttype.isEndOfExpression .StarStar = false := rfl
@[gram] theorem isEndOfExpression_SymbolKey : Ttype.isEndOfExpression .SymbolKey = false := rfl
@[gram] theorem isValid_Comma : Ttype.isValid .Comma = true := rfl
@[gram] theorem isValid_Newline : Ttype.isValid .Newline = true := rfl
@[gram] theorem isValid_Semicolon : Ttype.isValid .Semicolon = true := rfl
@[gram] theorem isValid_EndKeyword : Ttype.isValid .EndKeyword = true := rfl
@[gram] theorem isValid_RParen : Ttype.isValid .RParen = true := rfl
@[gram] theorem isValid_LParen : Ttype.isValid .LParen = true := rfl
@[gram] theorem isValid_RBracket : Ttype.isValid .RBracket = true := rfl
@[gram] theorem isValid_LBracket : Ttype.isValid .LBracket = true := rfl
@[gram] theorem isValid_RCurlyBrace : Ttype.isValid .RCurlyBrace = true := rfl
@[gram] theorem isValid_LCurlyBrace : Ttype.isValid .LCurlyBrace = true := rfl
@[gram] theorem isValid_Pipe : Ttype.isValid .Pipe = true := rfl
@[gram] theorem isValid_ThenKeyword : Ttype.isValid .ThenKeyword = true := rfl
@[gram] theorem isValid_ElseKeyword : Ttype.isValid .ElseKeyword = true := rfl
@[gram] theorem isValid_ElsifKeyword : Ttype.isValid .ElsifKeyword = true := rfl
@[gram] theorem isValid_WhenKeyword : Ttype.isValid .WhenKeyword = true := rfl
@[gram] theorem isValid_RescueKeyword : Ttype.isValid .RescueKeyword = true := rfl
@[gram] theorem isValid_EnsureKeyword : Ttype.isValid .EnsureKeyword = true := rfl
@[gram] theorem isValid_HashRocket : Ttype.isValid .HashRocket = true := rfl
@[gram] theorem isValid_DoKeyword : Ttype.isValid .DoKeyword = true := rfl
@[gram] theorem isValid_Eof : Ttype.isValid .Eof = true := rfl
@[gram] theorem isValid_BareName : Ttype.isValid .BareName = true := rfl
@[gram] theorem isValid_Constant : Ttype.isValid .Constant = true := rfl
@[gram] theorem isValid_Equal : Ttype.isValid .Equal = true := rfl
@[gram] theorem isValid_InKeyword : Ttype.isValid .InKeyword = true := rfl
@[gram] theorem isValid_Ampersand : Ttype.isValid .Ampersand = true := rfl
@[gram] theorem isValid_Star : Ttype.isValid .Star = true := rfl
@[gram] theorem isValid_StarStar : Ttype.isValid .StarStar = true := rfl
@[gram] theorem isValid_SymbolKey : Ttype.isValid .SymbolKey = true := rfl

attribute [gram] run_bind PRes.andThen_ok run_pure run_cur run_curTy run_peek run_advance run_pushDepth run_popDepth run_addLocal
  run_addNames run_get run_modify run_expect run_ite run_lit run_skip run_lines run_skip_semi run_next_semi run_next_end run_validate
  run_withLocals Rec.exp reduceCtorEq if_true if_false List.append_assoc List.cons_append List.nil_append
  List.reverse_cons List.reverse_append List.reverse_nil beq_iff_eq beq_self_eq_true bne_iff_ne ne_eq not_true_eq_false
  not_false_eq_true Bool.and_eq_true Bool.or_eq_true Bool.not_eq_true' Bool.false_eq_true or_true true_or or_false false_or
  and_true true_and and_false false_and

/-- Run a function of the parser. -/
macro "psim" "[" xs:Lean.Parser.Tactic.simpLemma,* "]" : tactic => `(tactic| simp only [gram, reduceCtorEq, $xs,*])

/-! ### From functions with known results of nested calls to the parser -/

variable {α α₁ α₂ α₃ α₄ : Type} {F : Rec → P α} {c : Cx} {s s' : PS} {a : α}

theorem Evals.by1 {F₁ : Rec → P α₁} {s₁ s₁' : PS} {a₁ : α₁} (h₁ : Evals F₁ c s₁ a₁ s₁')
    (h : ∀ R, F₁ R c s₁ = .ok a₁ s₁' → F R c s = .ok a s') : Evals F c s a s' := by
  obtain ⟨n₁, h₁⟩ := h₁
  exact ⟨n₁, fun n hn => h _ (h₁ n hn)⟩

theorem Evals.by2 {F₁ : Rec → P α₁} {s₁ s₁' : PS} {a₁ : α₁} {F₂ : Rec → P α₂} {s₂ s₂' : PS} {a₂ : α₂}
    (h₁ : Evals F₁ c s₁ a₁ s₁') (h₂ : Evals F₂ c s₂ a₂ s₂')
    (h : ∀ R, F₁ R c s₁ = .ok a₁ s₁' → F₂ R c s₂ = .ok a₂ s₂' → F R c s = .ok a s') : Evals F c s a s' := by
  obtain ⟨n₁, h₁⟩ := h₁
  obtain ⟨n₂, h₂⟩ := h₂
  exact ⟨max n₁ n₂, fun n hn => h _ (h₁ n (by omega)) (h₂ n (by omega))⟩

theorem Evals.by3 {F₁ : Rec → P α₁} {s₁ s₁' : PS} {a₁ : α₁} {F₂ : Rec → P α₂} {s₂ s₂' : PS} {a₂ : α₂} {F₃ : Rec → P α₃}
    {s₃ s₃' : PS} {a₃ : α₃} (h₁ : Evals F₁ c s₁ a₁ s₁') (h₂ : Evals F₂ c s₂ a₂ s₂') (h₃ : Evals F₃ c s₃ a₃ s₃')
    (h : ∀ R, F₁ R c s₁ = .ok a₁ s₁' → F₂ R c s₂ = .ok a₂ s₂' → F₃ R c s₃ = .ok a₃ s₃' → F R c s = .ok a s') :
    Evals F c s a s' := by
  obtain ⟨n₁, h₁⟩ := h₁
  obtain ⟨n₂, h₂⟩ := h₂
  obtain ⟨n₃, h₃⟩ := h₃
  exact ⟨max n₁ (max n₂ n₃), fun n hn => h _ (h₁ n (by omega)) (h₂ n (by omega)) (h₃ n (by omega))⟩

end NP
