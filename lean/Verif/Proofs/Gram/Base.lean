import Verif.Spec.Grammar
import Verif.Proofs.Expr
import Verif.Proofs.Gram.Sym
import Verif.Proofs.Gram.Eqs1
import Verif.Proofs.Gram.Eqs2

/-! Definitions for the proof that the parser reads what the grammar of Spec/Grammar.lean writes. -/

namespace NP.Gram
open Spec

/-! ### Tokens -/

/-- The token is the one that had to be written, or stands in for it. -/
structure Bears (w : Want) (t : Token) : Prop where
  acc : accepts w.p.type t.type = true
  lit : t.lit = w.p.lit
  fix : t.fix = w.p.fix
  ws : ∀ b, w.ws = some b → t.ws = b

/-- The types of first tokens of expressions. -/
def starts : Ttype → Bool
  | .Fixnum | .Minus | .String | .Symbol | .NilKeyword | .TrueKeyword | .FalseKeyword | .SelfKeyword | .RedoKeyword
  | .RetryKeyword | .BareName | .InstanceVariable | .ClassVariable | .GlobalVariable | .Constant | .LBracketRBracket
  | .LBracket | .LCurlyBrace | .ConstantResolution | .SuperKeyword | .YieldKeyword | .LParen | .Arrow | .Plus | .Not | .Tilde
  | .NotKeyword | .IfKeyword | .UnlessKeyword | .WhileKeyword | .UntilKeyword | .ForKeyword | .CaseKeyword | .BeginKeyword
  | .DefKeyword | .ClassKeyword | .ModuleKeyword | .ENDKeyword | .ReturnKeyword | .BreakKeyword | .NextKeyword => true
  | _ => false

/-- Other tokens may stand in for one of this type. -/
def loose (ty : Ttype) : Bool := ty == .Semicolon || ty == .ThenKeyword

/-- More line ends may follow a token of this type. -/
def broken (ty : Ttype) : Bool := ty == .Semicolon || ty == .ThenKeyword || ty == .ElseKeyword || ty == .DoKeyword

theorem Var.broken (v : Var) : Gram.broken v.piece.type = false := by cases v <;> rfl
theorem Bop.broken (o : Bop) : Gram.broken o.type = false := by cases o <;> rfl
theorem Uop.broken (o : Uop) : Gram.broken o.type = false := by cases o <;> rfl
theorem Aop.broken (o : Aop) : Gram.broken o.type = false := by cases o <;> rfl
theorem Modi.broken (o : Modi) : Gram.broken o.type = false := by cases o <;> rfl
theorem Jump.broken (o : Jump) : Gram.broken o.type = false := by cases o <;> rfl
theorem Word.broken (o : Word) : Gram.broken o.type = false := by cases o <;> rfl
theorem dot_broken (b : Bool) : broken (dot b).p.type = false := by cases b <;> rfl
theorem close_broken (b : Bool) : broken (close b).p.type = false := by cases b <;> rfl
theorem starts_broken {ty : Ttype} (h : starts ty = true) : broken ty = false := by
  cases ty <;> first | rfl | cases h

theorem loose_broken {ty : Ttype} (h : broken ty = false) : loose ty = false := by
  cases ty <;> first | rfl | cases h

theorem breaks_broken {w : Want} {ws : List Want} (h : broken w.p.type = false) : breaks w ws = false := by
  unfold breaks
  generalize w.p.type = ty at h
  cases ty <;> first | rfl | cases h

theorem accepts_eq {a b : Ttype} (hl : loose a = false) (h : accepts a b = true) : b = a := by
  unfold accepts at h
  split at h
  · cases hl
  · cases hl
  · exact of_decide_eq_true h

macro "unbroken" : tactic => `(tactic| first | rfl | exact Var.broken _ | exact Bop.broken _ | exact Uop.broken _ | exact Aop.broken _ | exact Modi.broken _ | exact Jump.broken _ | exact Word.broken _ | exact dot_broken _ | exact close_broken _ | assumption)

theorem Bears.type {w : Want} {t : Token} (h : Bears w t) (hl : broken w.p.type = false := by unbroken) : t.type = w.p.type :=
  accepts_eq (loose_broken hl) h.acc

theorem Bears.eol {t : Token} (h : Bears semi t) : Eol t := by
  have := h.acc
  simp only [semi, Gram.fix, Piece.type, accepts, decide_eq_true_eq, List.mem_cons, List.not_mem_nil, or_false] at this
  exact this

theorem Bears.then_ {t : Token} (h : Bears (Gram.fix (cs! "then") .ThenKeyword) t) : t.type = .ThenKeyword ∨ Eol t := by
  have := h.acc
  simp only [Gram.fix, Piece.type, accepts, decide_eq_true_eq, List.mem_cons, List.not_mem_nil, or_false] at this
  exact this

theorem Eols.nil : Eols [] := nofun

theorem Eol.line {t : Token} (h : Eol t) : t.type.isEndOfLine = true := by rcases h with h | h <;> rw [h] <;> rfl

theorem Eol.valid {t : Token} (h : Eol t) : t.type.isValid = true := by rcases h with h | h <;> rw [h] <;> rfl

theorem Eol.need {t : Token} (h : Eol t) : need t.type = 0 := by rcases h with h | h <;> rw [h] <;> rfl

theorem Eol.do_ {t : Token} (h : Eol t) : t.type ≠ .DoKeyword := by rcases h with h | h <;> rw [h] <;> nofun

theorem Eols.cons {t : Token} {es : List Token} (h : Eol t) (h' : Eols es) : Eols (t :: es) := by
  intro e he
  rcases List.mem_cons.1 he with rfl | he
  · exact h.line
  · exact h' e he

theorem Eols.uncons {t : Token} {es : List Token} (h : Eols (t :: es)) : Eol t ∧ Eols es := by
  refine ⟨?_, fun e he => h e (List.mem_cons_of_mem _ he)⟩
  have := h t List.mem_cons_self
  unfold Eol
  generalize t.type = ty at this ⊢
  cases ty <;> first | exact .inl rfl | exact .inr rfl | cases this

theorem Bears.else_ {t : Token} (h : Bears (Gram.fix (cs! "else") .ElseKeyword) t) : t.type = .ElseKeyword :=
  accepts_eq rfl h.acc

theorem Bears.do_ {t : Token} (h : Bears (Gram.fix (cs! "do") .DoKeyword) t) : t.type = .DoKeyword :=
  accepts_eq rfl h.acc

/-- The tokens are the ones that had to be written. -/
inductive Ms : List Want → List Token → Prop where
  | nil : Ms [] []
  | cons {w : Want} {t : Token} {es : List Token} {ws : List Want} {ts : List Token} : Bears w t → Eols es →
    (es = [] ∨ breaks w ws = true) → Ms ws ts → Ms (w :: ws) (t :: (es ++ ts))

theorem Ms.cons1 {w : Want} {t : Token} {ws : List Want} {ts : List Token} (h : Bears w t) (h' : Ms ws ts) :
    Ms (w :: ws) (t :: ts) := .cons (es := []) h (fun _ h => by cases h) (.inl rfl) h'

theorem Ms.nil_inv {ts : List Token} (h : Ms [] ts) : ts = [] := by cases h; rfl

theorem Ms.line_inv {w : Want} {ws : List Want} {ts : List Token} (h : Ms (w :: ws) ts) :
    ∃ t es ts', ts = t :: (es ++ ts') ∧ Bears w t ∧ Eols es ∧ Ms ws ts' := by
  cases h with
  | cons h he hb h' => exact ⟨_, _, _, rfl, h, he, h'⟩

theorem Ms.cons_inv' {w : Want} {ws : List Want} {ts : List Token} (h : Ms (w :: ws) ts) (hb : breaks w ws = false) :
    ∃ t ts', ts = t :: ts' ∧ Bears w t ∧ Ms ws ts' := by
  cases h with
  | cons h he hb' h' =>
    rcases hb' with rfl | hb'
    · exact ⟨_, _, rfl, h, h'⟩
    · rw [hb] at hb'; cases hb'

theorem Ms.cons_inv {w : Want} {ws : List Want} {ts : List Token} (h : Ms (w :: ws) ts)
    (hb : broken w.p.type = false := by unbroken) : ∃ t ts', ts = t :: ts' ∧ Bears w t ∧ Ms ws ts' :=
  h.cons_inv' (breaks_broken hb)

theorem next_append {a b : List Want} (h : a ≠ []) : next (a ++ b) = next a := by
  cases a with
  | nil => exact absurd rfl h
  | cons => rfl

theorem Ms.append_inv : ∀ {a b : List Want} {ts : List Token}, Ms (a ++ b) ts → ∃ t1 t2, ts = t1 ++ t2 ∧ Ms a t1 ∧ Ms b t2
  | [], _, ts, h => ⟨[], ts, rfl, .nil, h⟩
  | [w], _, _, .cons (t := t) (es := es) (ts := ts) h he hb h' => ⟨t :: (es ++ []), ts, by simp, .cons h he (hb.imp id fun hb => by
      simp only [breaks, Bool.and_eq_true] at hb ⊢; exact ⟨hb.1, rfl⟩) .nil, h'⟩
  | _ :: w :: ws, _, _, .cons h he hb h' => by
    obtain ⟨t1, t2, rfl, h1, h2⟩ := Ms.append_inv (a := w :: ws) h'
    exact ⟨_ :: (_ ++ t1), t2, by simp, .cons h he hb h1, h2⟩

theorem Ms.one_inv {w : Want} {ts : List Token} (h : Ms [w] ts) (hb : broken w.p.type = false := by unbroken) :
    ∃ t, ts = [t] ∧ Bears w t := by
  obtain ⟨t, ts', rfl, h1, h'⟩ := h.cons_inv hb
  cases h'.nil_inv
  exact ⟨t, rfl, h1⟩

/-- A part and one more token. -/
theorem Ms.snoc_inv {a : List Want} {w : Want} {ts : List Token} (h : Ms (a ++ [w]) ts)
    (hb : broken w.p.type = false := by unbroken) : ∃ t1 t, ts = t1 ++ [t] ∧ Ms a t1 ∧ Bears w t := by
  obtain ⟨t1, t2, rfl, h1, h2⟩ := h.append_inv
  obtain ⟨t, rfl, h3⟩ := h2.one_inv hb
  exact ⟨t1, t, rfl, h1, h3⟩

/-- A part, one more token and another part. -/
theorem Ms.mid_inv {a b : List Want} {w : Want} {ts : List Token} (h : Ms (a ++ w :: b) ts)
    (hb : broken w.p.type = false := by unbroken) : ∃ t1 t t2, ts = t1 ++ t :: t2 ∧ Ms a t1 ∧ Bears w t ∧ Ms b t2 := by
  obtain ⟨t1, t2, rfl, h1, h2⟩ := h.append_inv
  obtain ⟨t, t3, rfl, h4, h3⟩ := h2.cons_inv hb
  exact ⟨t1, t, t3, rfl, h1, h4, h3⟩

/-- A part, a token at which a line may end and another part. -/
theorem Ms.mid_line {a b : List Want} {w : Want} {ts : List Token} (h : Ms (a ++ w :: b) ts) :
    ∃ t1 t es t2, ts = t1 ++ t :: (es ++ t2) ∧ Ms a t1 ∧ Bears w t ∧ Eols es ∧ Ms b t2 := by
  obtain ⟨t1, t2, rfl, h1, h2⟩ := h.append_inv
  obtain ⟨t, es, t3, rfl, h4, h5, h3⟩ := h2.line_inv
  exact ⟨t1, t, es, t3, rfl, h1, h4, h5, h3⟩

/-! ### First tokens -/

theorem Var.starts (v : Var) : Gram.starts v.piece.type = true := by cases v <;> rfl

theorem toks_first : ∀ {k : Kind} (e : Ex k), k = .ex → ∃ p ws, (∀ w, toks w e = ⟨w, p⟩ :: ws) ∧ starts p.type = true := by
  intro k e hk
  induction e with
  | int n =>
    by_cases h : n < 0
    · exact ⟨_, _, fun w => by simp only [gtoks, if_pos h]; rfl, rfl⟩
    · exact ⟨_, _, fun w => by simp only [gtoks, if_neg h]; rfl, rfl⟩
  | word x => exact ⟨_, _, fun w => rfl, by cases x <;> rfl⟩
  | var v => exact ⟨_, _, fun w => rfl, v.starts⟩
  | array a =>
    by_cases h : a.isNil = true
    · exact ⟨_, _, fun w => by simp only [gtoks, if_pos h]; rfl, rfl⟩
    · exact ⟨_, _, fun w => by simp only [gtoks, if_neg h]; rfl, rfl⟩
  | asgn v e => exact ⟨_, _, fun w => rfl, v.starts⟩
  | opasgn v o e => exact ⟨_, _, fun w => rfl, v.starts⟩
  | masgn v u vs e => exact ⟨_, _, fun w => rfl, v.starts⟩
  | masgnL v u vs e a => exact ⟨_, _, fun w => rfl, v.starts⟩
  | un o e => exact ⟨_, _, fun w => rfl, by cases o <;> rfl⟩
  | jump0 j => exact ⟨_, _, fun w => rfl, by cases j <;> rfl⟩
  | jump j e => exact ⟨_, _, fun w => rfl, by cases j <;> rfl⟩
  | while_ neg c a =>
    refine ⟨_, _, fun w => rfl, ?_⟩
    cases neg <;> rfl
  | send safe r m ih | sendA safe r m a ih | sendC safe r m a b ih | index r a ih | colon2 r x ih | block d r ps b ih
  | bin o r x ih | tern r x y ih | attr safe r m e ih | opattr safe r m o e ih | setIndex r a e ih | opindex r a o e ih
  | modi m r x ih | rescueM r x ih =>
    obtain ⟨p, ws, h1, h2⟩ := ih rfl
    exact ⟨p, _, fun w => by simp only [gtoks, h1, List.cons_append]; rfl, h2⟩
  | str | sym | hash | fcall | cmd | colon3 | super0 | superA | yield0 | yieldA | paren | lam | notE | if_ | unless_ | for_
  | case_ | case0 | begin_ | def_ | defE | class_ | module_ | sclass | postexe | ret0 | ret => exact ⟨_, _, fun w => rfl, rfl⟩
  | _ => cases hk

/-- The first token of an expression. -/
theorem Ms.first {e : Ex .ex} {w : Option Bool} {ts : List Token} (h : Ms (toks w e) ts) :
    ∃ t ts', ts = t :: ts' ∧ starts t.type = true ∧ t.type = start e ∧ ∀ b, w = some b → t.ws = b := by
  obtain ⟨p, ws, h1, h2⟩ := toks_first e rfl
  rw [h1] at h
  have hb := starts_broken h2
  obtain ⟨t, ts', rfl, h3, -⟩ := h.cons_inv hb
  refine ⟨t, ts', rfl, by rw [h3.type hb]; exact h2, ?_, h3.ws⟩
  unfold start
  rw [h1, h3.type hb]
  rfl

/-- What is known about the types of first tokens. -/
structure Opens (ty : Ttype) : Prop where
  line : ty.isEndOfLine = false
  valid : ty.isValid = true
  eof : ty ≠ .Eof
  rparen : ty ≠ .RParen
  rbracket : ty ≠ .RBracket
  rcurly : ty ≠ .RCurlyBrace
  end_ : ty ≠ .EndKeyword
  else_ : ty ≠ .ElseKeyword
  elsif_ : ty ≠ .ElsifKeyword
  when_ : ty ≠ .WhenKeyword
  in_ : ty ≠ .InKeyword
  rescue_ : ty ≠ .RescueKeyword
  ensure_ : ty ≠ .EnsureKeyword
  comma : ty ≠ .Comma
  equal : ty ≠ .Equal
  rocket : ty ≠ .HashRocket
  amp : ty ≠ .Ampersand
  key : ty ≠ .SymbolKey
  semi : ty ≠ .Semicolon
  pipe : ty ≠ .Pipe
  range : ty.canBeRangeArg = true
  do_ : ty ≠ .DoKeyword

theorem Opens.of {ty : Ttype} (h : starts ty = true) : Opens ty := by
  refine { line := ?_, valid := ?_, range := ?_, eof := ?_, rparen := ?_, rbracket := ?_, rcurly := ?_, end_ := ?_, else_ := ?_, elsif_ := ?_, when_ := ?_, in_ := ?_, rescue_ := ?_, ensure_ := ?_, comma := ?_, equal := ?_, rocket := ?_, amp := ?_, key := ?_, semi := ?_, pipe := ?_, do_ := ?_ }
  all_goals first | (rintro rfl; cases h) | (cases ty <;> first | rfl | cases h)

/-! ### Precedences -/

/-- The operators that can be open at the start of an expression of a level, with the precedence the parser gives them. -/
def leftOps : List (Nat × Prec) :=
  [(0, .ARRAY), (1, .EXPR_MODIFIER), (2, .COMPOSITION), (5, .INLINE_RESCUE), (5, .ASSIGNMENT_LHS), (5, .OP_ASSIGNMENT_LHS),
    (7, .TERNARY_QUESTION), (8, .RANGE), (9, .LOGICAL_OR), (10, .LOGICAL_AND), (11, .EQUALITY), (11, .LESS_GREATER),
    (12, .LESS_GREATER), (13, .BITWISE_OR), (14, .BITWISE_AND), (15, .BITWISE_SHIFT), (16, .SUM), (17, .PRODUCT),
    (18, .NUMBER_DOT), (19, .EXPONENT), (21, .CONSTANT_RESOLUTION), (21, .DOT), (21, .CALL), (21, .REF)]

/-- An expression of level `n` can be parsed at the precedence `p`. -/
def above (p : Prec) (n : Nat) : Bool := leftOps.all fun x => x.1 < n || x.2.higher p

theorem above.mono {p : Prec} {n m : Nat} (h : above p n = true) (hn : n ≤ m) : above p m = true := by
  unfold above at *
  rw [List.all_eq_true] at *
  intro x hx
  have := h x hx
  simp only [Bool.or_eq_true, decide_eq_true_eq] at *
  exact this.imp (fun h => by omega) id

theorem above.op {p : Prec} {n : Nat} (h : above p n = true) {m : Nat} {q : Prec} (hx : (m, q) ∈ leftOps) (hn : n ≤ m) :
    q.higher p = true := by
  unfold above at h
  rw [List.all_eq_true] at h
  have := h _ hx
  simp only [Bool.or_eq_true, decide_eq_true_eq] at this
  exact this.resolve_left (by omega)

/-- The tokens at which an expression can end before it is completely parsed. -/
def follows : List Ttype :=
  [.RParen, .RBracket, .RCurlyBrace, .Semicolon, .Newline, .Eof, .EndKeyword, .ElseKeyword, .ElsifKeyword, .ThenKeyword,
  .HashRocket, .DoKeyword, .AndKeyword, .OrKeyword, .IfKeyword, .UnlessKeyword, .WhileKeyword, .UntilKeyword, .Comma,
  .TernaryColon, .TernaryQuestion, .RescueKeyword, .PipePipe, .AmpersandAmpersand, .DotDot, .DotDotDot, .Comparison,
  .EqualEqual, .EqualEqualEqual, .NotEqual, .Match, .NotMatch, .LessThan, .LessThanOrEqual, .GreaterThan,
  .GreaterThanOrEqual, .Pipe, .Caret, .Ampersand, .LeftShift, .RightShift, .Plus, .Minus, .Star, .Slash, .Percent, .StarStar]

theorem follows_mem {ty : Ttype} (h : need ty ≤ 20) : ty ∈ follows := by
  cases ty <;> first | exact absurd h (by decide) | simp only [follows, List.mem_cons, true_or, or_true]

/-- The precedence of such a token. -/
def folPrec : Ttype → Prec
  | .AndKeyword | .OrKeyword => .COMPOSITION
  | .IfKeyword | .UnlessKeyword | .WhileKeyword | .UntilKeyword => .EXPR_MODIFIER
  | .Comma => .ARRAY
  | .TernaryColon => .TERNARY_FALSE
  | .TernaryQuestion => .TERNARY_QUESTION
  | .RescueKeyword => .INLINE_RESCUE
  | .PipePipe => .LOGICAL_OR
  | .AmpersandAmpersand => .LOGICAL_AND
  | .DotDot | .DotDotDot => .RANGE
  | .EqualEqual | .EqualEqualEqual | .NotEqual | .Match | .NotMatch => .EQUALITY
  | .Comparison | .LessThan | .LessThanOrEqual | .GreaterThan | .GreaterThanOrEqual => .LESS_GREATER
  | .Pipe | .Caret => .BITWISE_OR
  | .Ampersand => .BITWISE_AND
  | .LeftShift | .RightShift => .BITWISE_SHIFT
  | .Plus | .Minus => .SUM
  | .Star | .Slash | .Percent => .PRODUCT
  | .StarStar => .EXPONENT
  | _ => .LOWEST

/-- Whatever may follow a construct of level `n` ends an expression parsed at the precedence `q`. -/
def ending (n : Nat) (q : Prec) : Bool := follows.all fun ty => n < need ty || !(folPrec ty).higher q

theorem ending.at {n : Nat} {q : Prec} (h : ending n q = true) {ty : Ttype} (hn : need ty ≤ n) (h' : need ty ≤ 20) :
    (folPrec ty).higher q = false := by
  unfold ending at h
  rw [List.all_eq_true] at h
  have := h _ (follows_mem h')
  simp only [Bool.or_eq_true, decide_eq_true_eq, Bool.not_eq_true'] at this
  exact this.resolve_left (by omega)

/-- An expression parsed at the precedence `q` ends at the token `f`. -/
structure Ends (q : Prec) (d : Nat) (f : Token) : Prop where
  need : need f.type ≤ 20
  prec : (folPrec f.type).higher q = false
  do_ : f.type = .DoKeyword → d ≠ 0

theorem getPrec_follow {f : Token} (h : f.type ∈ follows) (h' : f.type ≠ .DoKeyword) (l : Node) :
    getPrec f (some l) f = folPrec f.type := by
  have hb : ∀ {ty : Ttype}, f.type = ty → ty.canBeFirstArgOfImplicitCall = false → isFirstArg l f = false := by
    intro ty h1 h2
    unfold isFirstArg
    rw [h1, h2, Bool.and_false]
  simp only [follows, List.mem_cons, List.not_mem_nil, or_false] at h
  rcases h with h | h | h | h | h | h | h | h | h | h | h | h | h
  iterate 11 exact (by unfold getPrec; simp only [hb h rfl]; rw [h]; rfl)
  · exact absurd h h'
  · rcases h with h | h | h | h | h | h | h | h | h | h | h | h | h | h | h | h | h | h | h | h | h | h | h | h | h | h | h | h |
      h | h | h | h | h | h | h <;> (unfold getPrec; rw [h]; rfl)

theorem Ends.stops {q : Prec} {d : Nat} {f : Token} (h : Ends q d f) {n : Node} (hn : n.isSymbolKey = false) (ia : IterAllow)
    (c : Cx) (pv rest : List Token) (ds : List Nat) (ps : List Prec) (L : List Str) :
    higherPrecedence f n q ia c ⟨pv, f :: rest, d :: ds, ps, L⟩ = .ok false ⟨pv, f :: rest, d :: ds, ps, L⟩ := by
  unfold higherPrecedence
  by_cases hd : f.type = .DoKeyword
  · have hp : getPrec f (some n) f = .ITER_BLOCK := by unfold getPrec; rw [hd]
    have hz : (d == 0) = false := by simp [h.do_ hd]
    simp only [PS.cur, List.headD_cons, hn, Bool.false_eq_true, hp, if_true, hz, ite_self]
  · have hp := getPrec_follow (follows_mem h.need) hd n
    have h1 : folPrec f.type ≠ .ITER_BLOCK := by
      generalize f.type = ty
      cases ty <;> nofun
    have h2 : folPrec f.type ≠ .ITER_CURLY := by
      generalize f.type = ty
      cases ty <;> nofun
    simp only [PS.cur, List.headD_cons, hn, Bool.false_eq_true, if_false, hp, if_neg h1, if_neg h2, h.prec]

/-! ### Nodes -/

/-- Not one of the nodes that the parser treats differently somewhere. -/
def plain : Node → Bool
  | .nil _ | .symbolKey .. | .interpolatedSymbolKey .. | .keywordSplat .. | .splat .. | .multipleAssignment .. | .regexp ..
  | .blockPass .. | .stabbyProc .. | .bignum .. | .float .. => false
  | .block _ [_] => false
  | _ => true

/-- What a node looks like. -/
def shapeOf : Node → Shape
  | .fixnum _ n => .int n
  | .logicalAnd .. => .and
  | .logicalOr .. => .or
  | .block .. => .block
  | .begin_ .. => .begin_
  | _ => .other

/-- The node of an expression. -/
structure Good (L : List Str) (e : Ex .ex) (n : Node) : Prop where
  tr : ∃ x, sx L e = [x] ∧ tr false n = some ⟨x, none⟩
  plain : plain n = true
  shape : shapeOf n = Gram.shape e

/-- A node that a block can be given to. -/
structure Callee (n : Node) (pv : List Token) : Prop where
  call : n.isCallable = true
  block : n.canAcceptABlock = true
  pass : n.hasBlockPass = false
  paren : callWithArgs n = true → (pv.headD {}).type = .RParen

/-! ### What is to be proved of an expression -/

/-- Where an expression stands. -/
structure At (e : Ex .ex) (L : List Str) (ts : List Token) (f : Token) (d : Nat) (p : Prec) (ia : IterAllow) : Prop where
  above : above p (lhs e) = true
  after : after e f.type = true
  iter : ia ≠ .NONE
  size : d + ts.length < 4294967296
  do_ : f.type = .DoKeyword → d ≠ 0 ∨ callee L e = true
  has : hasDo e = true → d = 0 ∧ ia = .CURLY_AND_BLOCK

/-- The expression is parsed from the tokens. -/
def Parsed (e : Ex .ex) (L : List Str) (ts : List Token) (c : Cx) (pv : List Token) (f : Token) (rest : List Token) (d : Nat)
    (ds : List Nat) (p : Prec) (qs : List Prec) (ia : IterAllow) : Prop :=
  ∃ n, Good L e n ∧ (callee L e = true → Callee n (ts.reverse ++ pv)) ∧
    ∀ a s', EvalsRest p ia n c ⟨ts.reverse ++ pv, f :: rest, d :: ds, p :: qs, out L e⟩ a s' →
      EvalsFrom p ia c ⟨pv, ts ++ f :: rest, d :: ds, p :: qs, L⟩ a s'

/-- The parser reads the expression wherever it may stand. -/
def ExOk (e : Ex .ex) : Prop :=
  ∀ (L : List Str) (w : Option Bool) (ts : List Token), WF L e = true → Ms (toks w e) ts →
    ∀ (c : Cx) (pv : List Token) (f : Token) (rest : List Token) (d : Nat) (ds : List Nat) (p : Prec) (qs : List Prec)
      (ia : IterAllow), At e L ts f d p ia → Parsed e L ts c pv f rest d ds p qs ia

theorem plain_key {n : Node} (h : plain n = true) : n.isSymbolKey = false := by
  cases n <;> first | rfl | cases h

/-- An expression as a part of another. -/
theorem ExOk.nested {e : Ex .ex} (h : ExOk e) {L : List Str} {w : Option Bool} {ts : List Token} (hw : WF L e = true)
    (hm : Ms (toks w e) ts) {f : Token} {d : Nat} {q : Prec} {ia : IterAllow} (ha : At e L ts f d q ia) (he : Ends q d f) (c : Cx)
    (pv rest : List Token) (ds : List Nat) (ps : List Prec) :
    ∃ n, Good L e n ∧ Evals (fun R => R.expr q ia) c ⟨pv, ts ++ f :: rest, d :: ds, ps, L⟩ n
      ⟨ts.reverse ++ pv, f :: rest, d :: ds, ps, out L e⟩ := by
  obtain ⟨n, hg, -, hn⟩ := h L w ts hw hm c pv f rest d ds q ps ia ha
  refine ⟨n, hg, ?_⟩
  have hs := hn _ _ (.stop (he.stops (plain_key hg.plain) ia c _ _ _ _ _))
  obtain ⟨t, ts', rfl, ht, -⟩ := hm.first
  exact (EvalsFrom.expression (s := ⟨pv, t :: ts' ++ f :: rest, d :: ds, ps, L⟩) rfl (Opens.of ht).line hs rfl).expr

/-- A step of the loop of `parse_expression`. -/
theorem infix_step {p q : Prec} {ia : IterAllow} {left a b : Node} {c : Cx} {pv rest pv' rest' : List Token} {t : Token} {d : Nat}
    {ds : List Nat} {qs : List Prec} {L L' : List Str} {s' : PS} (F : Rec → P Node) (hv : t.type.isValid = true)
    (hp : getPrec t (some left) t = q) (hq : q.higher p = true) (h1 : q ≠ .ITER_BLOCK) (h2 : q ≠ .ITER_CURLY)
    (hs : left.isSymbolKey = false) (hl : ∀ R, leftDenotation R t (rest.headD {}) left p = some (F R))
    (hF : Evals F c ⟨pv, t :: rest, d :: ds, p :: qs, L⟩ a ⟨pv', rest', d :: ds, p :: qs, L'⟩)
    (h' : EvalsRest p ia a c ⟨pv', rest', d :: ds, p :: qs, L'⟩ b s') :
    EvalsRest p ia left c ⟨pv, t :: rest, d :: ds, p :: qs, L⟩ b s' := by
  refine .infix (q := p) (ps := qs) F hv ?_ hl hF rfl h'
  show higherPrecedence t left p ia c _ = _
  unfold higherPrecedence
  simp only [PS.cur, List.headD_cons, hs, Bool.false_eq_true, if_false, hp, if_neg h1, if_neg h2, hq]

end NP.Gram
