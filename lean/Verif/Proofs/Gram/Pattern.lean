import Verif.Proofs.Gram.Args

/-! Patterns. -/

namespace NP.Gram
open Spec

theorem Evals.pattern {c : Cx} {s s' : PS} {a : Node} (h : Evals parseCaseInPattern c s a s') :
    Evals (fun R => R.pattern) c s a s' := by
  obtain ⟨N, h⟩ := h
  refine ⟨N + 1, fun n hn => ?_⟩
  obtain ⟨m, rfl⟩ : ∃ m, n = m + 1 := ⟨n - 1, by omega⟩
  exact h m (by omega)

/-! ### S-expressions -/

/-- The S-expression of an element of an array pattern. -/
def V1 (n : Node) (x : Sexp) : Prop := ∃ r, NP.tr false n = some r ∧ patArg n r = some x

/-- The S-expressions of the elements of an array pattern. -/
def Vsx (ns : List Node) (xs : List Sexp) : Prop := ∃ rs, trList false ns = some rs ∧ patArgs ns rs = some xs

theorem Vsx.nil : Vsx [] [] := ⟨[], by simp only [trList], rfl⟩

theorem Vsx.cons {n : Node} {x : Sexp} {ns : List Node} {xs : List Sexp} (h : V1 n x) (h' : Vsx ns xs) : Vsx (n :: ns) (x :: xs) := by
  obtain ⟨r, h1, h2⟩ := h
  obtain ⟨rs, h3, h4⟩ := h'
  refine ⟨r :: rs, by simp only [trList, h1, h3, Option.bind_eq_bind, Option.bind_some], ?_⟩
  simp only [patArgs, h2, h4, Option.bind_eq_bind, Option.bind_some]

/-- The node of a pattern. -/
structure PGood (p : Pat .pat) (n : Node) : Prop where
  sx : ∃ x, p.sx = [x] ∧ Nsx n x
  splat : n.isSplat = false

theorem PGood.p1 {p : Pat .pat} {n : Node} (h : PGood p n) : ∃ x, p.sx = [x] ∧ V1 n x := by
  obtain ⟨x, h1, h2⟩ := h.sx
  refine ⟨x, h1, _, h2.tr, ?_⟩
  have := h.splat
  cases n <;> first | exact congrArg some h2.app | cases this

theorem PGood.wrap {p : Pat .pat} {n : Node} (h : PGood p n) : wrapSplat n = n := by
  have := h.splat
  cases n <;> first | rfl | cases this

theorem Nsx.arrayPat {t : Token} {ns : List Node} {xs : List Sexp} (h : Vsx ns xs) (hn : ns.isEmpty = false) :
    Nsx (.arrayPattern t ns) (.node (cs! "array_pat") (.nil :: xs)) := by
  obtain ⟨rs, h1, h2⟩ := h
  exact ⟨rfl, by trsim [h1, h2, hn]⟩

theorem Nsx.hashPat {t : Token} {ns : List Node} {xs : List Sexp} (h : Lsx ns xs) :
    Nsx (.hashPattern t ns) (.node (cs! "hash_pat") (.nil :: xs)) := by
  obtain ⟨rs, h1, h2⟩ := h
  exact ⟨rfl, by trsim [h1, h2]⟩

theorem Nsx.caseIn {t : Token} {a : Node} {x : Sexp} {ns : List Node} {xs : List Sexp} (h : Nsx a x) (h' : Lsx ns xs) :
    Nsx (.caseIn t a ns) (.node (cs! "in") (x :: orElse .nil xs)) := by
  have he := h'.isEmpty
  obtain ⟨rs, h1, h2⟩ := h'
  refine ⟨rfl, ?_⟩
  trsim [h.tr, h.app, h1, bodyOrNil, h2, he]
  rw [orElse_eq]

theorem Lsx.consNil {t : Token} {ns : List Node} {xs : List Sexp} (h' : Lsx ns xs) : Lsx (.nil t :: ns) (.nil :: xs) := by
  obtain ⟨rs, h1, h2⟩ := h'
  refine ⟨⟨.node (cs! "nil") [], none⟩ :: rs, by simp only [trList, NP.tr, mk, h1, Option.bind_eq_bind, Option.bind_some], ?_⟩
  show appOf _ _ :: apps ns rs = _
  rw [h2]
  rfl

/-! ### Numbers -/

theorem num_run {n : Int} {ts : List Token} (hm : Ms (Pat.num n) ts) {f : Token} (hf : need f.type ≤ 18) (hd : f.type ≠ .DoKeyword)
    (c : Cx) (pv rest : List Token) (d : Nat) (ds : List Nat) (ps : List Prec) (L : List Str) :
    ∃ t us u F, ts = t :: us ∧ (t.type = .Fixnum ∧ F = (fun _ => parseLit) ∨ t.type = .Minus ∧ F = parseUnary) ∧
      Evals F c ⟨pv, ts ++ f :: rest, d :: ds, ps, L⟩ (.fixnum u n) ⟨ts.reverse ++ pv, f :: rest, d :: ds, ps, L⟩ := by
  unfold Pat.num at hm
  by_cases hn : n < 0
  · rw [if_pos hn] at hm
    obtain ⟨t, ts', rfl, ht, hm⟩ := hm.cons_inv
    obtain ⟨u, rfl, hu⟩ := hm.one_inv
    have ht' : t.type = .Minus := ht.type
    have hu' : u.type = .Fixnum := hu.type
    have he : Ends .UNARY_MINUS d f := ⟨by omega, ending.at (n := 18) (by decide) hf (by omega), fun h => absurd h hd⟩
    have hx : Evals (fun R => R.expr .UNARY_MINUS .CURLY_AND_BLOCK) c ⟨t :: pv, u :: f :: rest, d :: ds, ps, L⟩
        (.fixnum u n.natAbs) ⟨u :: t :: pv, f :: rest, d :: ds, ps, L⟩ := by
      refine (EvalsFrom.expression (s' := ⟨u :: t :: pv, f :: rest, d :: ds, .UNARY_MINUS :: ps, L⟩) rfl
        (by rw [hu']; rfl) ?_ rfl).expr
      refine .first (fun _ => parseLit) (fun R => by rw [show PS.cur _ = u from rfl, hu']; rfl)
        (.of fun R => parseLit_fix _ _ hu' hu.fix hf (by omega) _ _ _ _) (.stop (he.stops rfl _ _ _ _ _ _ _))
    refine ⟨t, [u], u, _, rfl, .inr ⟨ht', rfl⟩, hx.by1 fun R hR => ?_⟩
    unfold parseUnary
    have hg : ∀ x, getPrec t none x = .UNARY_MINUS := fun x => by unfold getPrec; rw [ht']; rfl
    have hs : signed .Minus (.fixnum u n.natAbs) = some (.fixnum u n) := by
      unfold signed
      simp only [if_true]
      rw [if_neg (by omega), show -(n.natAbs : Int) = n by omega]
    psim [hg, hR, ht', hs]
  · rw [if_neg hn] at hm
    obtain ⟨t, rfl, ht⟩ := hm.one_inv
    have ht' : t.type = .Fixnum := ht.type
    have : t.fix = n := by rw [ht.fix]; show (n.natAbs : Int) = n; omega
    exact ⟨t, [], t, _, rfl, .inl ⟨ht', rfl⟩, .of fun R => parseLit_fix _ _ ht' this hf (by omega) _ _ _ _⟩

/-- A number at the end of a range. -/
theorem num_expr {n : Int} {ts : List Token} (hm : Ms (Pat.num n) ts) {f : Token} (hf : need f.type ≤ 8) (hd : f.type ≠ .DoKeyword)
    (c : Cx) (pv rest : List Token) (d : Nat) (ds : List Nat) (ps : List Prec) (L : List Str) :
    ∃ u, Evals (fun R => R.exp .RANGE) c ⟨pv, ts ++ f :: rest, d :: ds, ps, L⟩ (.fixnum u n) ⟨ts.reverse ++ pv, f :: rest, d :: ds, ps, L⟩ := by
  obtain ⟨t, us, u, F, rfl, hF, hk⟩ := num_run hm (f := f) (by omega) hd c pv rest d ds (.RANGE :: ps) L
  have he : Ends .RANGE d f := ⟨by omega, ending.at (n := 8) (by decide) hf (by omega), fun h => absurd h hd⟩
  refine ⟨u, (EvalsFrom.expression (s := ⟨pv, t :: us ++ f :: rest, d :: ds, ps, L⟩) (s' := ⟨(t :: us).reverse ++ pv, f :: rest, d :: ds, .RANGE :: ps, L⟩) rfl ?_ ?_ rfl).expr⟩
  · rcases hF with ⟨h, -⟩ | ⟨h, -⟩ <;> · show t.type.isEndOfLine = false; rw [h]; rfl
  · refine .first F (fun R => ?_) hk (.stop (he.stops rfl _ _ _ _ _ _ _))
    rcases hF with ⟨h, rfl⟩ | ⟨h, rfl⟩ <;> · show nullDenotation R t.type = _; rw [h]; rfl

/-! ### Single patterns -/

/-- The tokens that may follow a pattern. -/
def patEnd (ty : Ttype) : Prop :=
  ty = .Comma ∨ ty = .RBracket ∨ ty = .RCurlyBrace ∨ ty = .RParen ∨ ty = .HashRocket ∨ ty = .Pipe ∨ ty = .ThenKeyword ∨
    ty = .Semicolon ∨ ty = .Newline

theorem patEnd.facts {ty : Ttype} (h : patEnd ty) : need ty ≤ 13 ∧ ty ≠ .DoKeyword ∧ ty ≠ .DotDot ∧ ty ≠ .DotDotDot ∧
    (ty ≠ .Pipe → need ty ≤ 8) ∧ ty ≠ .BareName ∧ ty ≠ .Constant := by
  rcases h with rfl | rfl | rfl | rfl | rfl | rfl | rfl | rfl | rfl <;> decide

/-- The pattern and the range after it in `parse_case_in_pattern`. -/
def patHead (R : Rec) : P Node := do
  let n ← parsePatternBase R
  let ty ← curTy
  if ty = .DotDot ∨ ty = .DotDotDot then parseRange R n else pure n

def patTail (n : Node) : P Node := do
  if (← curTy) = .HashRocket then
    advance
    expect .BareName (cs! "pattern name")
    let t ← cur
    advance
    pure (.assignment t (.identifier t true) n)
  else pure n

theorem parseCaseInPattern_eq (R : Rec) : parseCaseInPattern R = (patHead R >>= patTail) := by
  unfold parseCaseInPattern patHead
  simp only [P.bind_assoc, P.ite_bind, P.pure_bind]
  rfl

/-- What is proved of patterns other than `p => x`. -/
def HeadOk (p : Pat .pat) : Prop :=
  ∀ (L : List Str) (ts : List Token), p.WF L = true → Ms p.toks ts → ∀ (c : Cx) (pv : List Token) (f : Token) (rest : List Token)
    (d : Nat) (ds : List Nat) (ps : List Prec), patEnd f.type → (p.isRange = true → f.type ≠ .Pipe) →
    ∃ n, PGood p n ∧ Evals patHead c ⟨pv, ts ++ f :: rest, d :: ds, ps, L⟩ n ⟨ts.reverse ++ pv, f :: rest, d :: ds, ps, p.out L⟩

/-- What is proved of patterns. -/
def PatOk (p : Pat .pat) : Prop :=
  ∀ (L : List Str) (ts : List Token), p.WF L = true → Ms p.toks ts → ∀ (c : Cx) (pv : List Token) (f : Token) (rest : List Token)
    (d : Nat) (ds : List Nat) (ps : List Prec), patEnd f.type → f.type ≠ .HashRocket → (p.isRange = true → f.type ≠ .Pipe) →
    ∃ n, PGood p n ∧ Evals (fun R => R.pattern) c ⟨pv, ts ++ f :: rest, d :: ds, ps, L⟩ n
      ⟨ts.reverse ++ pv, f :: rest, d :: ds, ps, p.out L⟩

theorem HeadOk.pat {p : Pat .pat} (h : HeadOk p) : PatOk p := by
  intro L ts hw hm c pv f rest d ds ps hf hf' hr
  obtain ⟨n, hg, hk⟩ := h L ts hw hm c pv f rest d ds ps hf hr
  refine ⟨n, hg, Evals.pattern (hk.by1 fun R hR => ?_)⟩
  rw [parseCaseInPattern_eq]
  unfold patTail
  psim [hR, hf']

theorem bind_pat {p : Pat .pat} (h : p.isBind = false → HeadOk p) (x : Str) : PatOk (.bind p x) := by
  intro L ts hw hm c pv f rest d ds ps hf hf' hr
  simp only [Pat.WF, Bool.and_eq_true, Bool.not_eq_true'] at hw
  simp only [Pat.toks] at hm
  obtain ⟨ta, t, us, rfl, hma, ht, hm⟩ := hm.mid_inv
  obtain ⟨u, rfl, hu⟩ := hm.one_inv
  have ht' : t.type = .HashRocket := ht.type
  have hu' : u.type = .BareName := hu.type
  have hl : u.lit = some x := hu.lit
  obtain ⟨n, hg, hk⟩ := h hw.1.2 L ta hw.1.1 hma c pv t (u :: f :: rest) d ds ps (by rw [ht']; simp [patEnd]) (by rw [ht']; nofun)
  obtain ⟨y, hy, hn⟩ := hg.sx
  refine ⟨.assignment u (.identifier u true) n, ⟨⟨_, ?_, Nsx.assignment (VarTok.target (.loc hu' hl) true) hn⟩, rfl⟩, Evals.pattern (hk.by1 fun R hR => ?_)⟩
  · simp only [Pat.sx, nd, hy]; rfl
  rw [parseCaseInPattern_eq]
  unfold patTail
  simp only [gram] at hR ⊢
  psim [hR, ht', hu', Pat.out]

/-- A pattern read by the `switch` alone. -/
theorem HeadOk.base {p : Pat .pat} (h : ∀ (L : List Str) (ts : List Token), p.WF L = true → Ms p.toks ts → ∀ (c : Cx) (pv : List Token) (f : Token) (rest : List Token)
    (d : Nat) (ds : List Nat) (ps : List Prec), patEnd f.type →
    ∃ n, PGood p n ∧ Evals parsePatternBase c ⟨pv, ts ++ f :: rest, d :: ds, ps, L⟩ n ⟨ts.reverse ++ pv, f :: rest, d :: ds, ps, p.out L⟩) :
    HeadOk p := by
  intro L ts hw hm c pv f rest d ds ps hf hr
  obtain ⟨n, hg, hk⟩ := h L ts hw hm c pv f rest d ds ps hf
  refine ⟨n, hg, hk.by1 fun R hR => ?_⟩
  obtain ⟨-, -, h1, h2, -⟩ := hf.facts
  unfold patHead
  psim [hR, h1, h2, or_self]

theorem base_at {R : Rec} {t : Token} {c : Cx} {pv ts : List Token} {ds : List Nat} {ps : List Prec} {L : List Str} {ty : Ttype} {F : P Node}
    (ht : t.type = ty) (h : parsePatternBase R c ⟨pv, { t with type := ty } :: ts, ds, ps, L⟩ = F c ⟨pv, { t with type := ty } :: ts, ds, ps, L⟩) :
    parsePatternBase R c ⟨pv, t :: ts, ds, ps, L⟩ = F c ⟨pv, t :: ts, ds, ps, L⟩ := by
  subst ht
  exact h

theorem name_pat (x : Str) : HeadOk (.name x) := .base fun L ts hw hm c pv f rest d ds ps hf => by
  obtain ⟨t, rfl, ht⟩ := Ms.one_inv hm
  have ht' : t.type = .BareName := ht.type
  have hl : t.lit = some x := ht.lit
  refine ⟨.identifier t true, ⟨⟨_, rfl, rfl, ?_⟩, rfl⟩, .of fun R => ?_⟩
  · have := VarTok.getS (.loc ht' hl)
    trsim [this]
    rfl
  · unfold parsePatternBase
    psim [ht', identNames, hl, Pat.out, if_true, Option.map_some]

theorem int_pat (n : Int) : HeadOk (.int n) := .base fun L ts hw hm c pv f rest d ds ps hf => by
  obtain ⟨h0, hd, -⟩ := hf.facts
  obtain ⟨t, us, u, F, rfl, hF, hk⟩ := num_run hm (f := f) (by omega) hd c pv rest d ds ps L
  refine ⟨.fixnum u n, ⟨⟨_, rfl, rfl, rfl⟩, rfl⟩, hk.by1 fun R hR => ?_⟩
  unfold parsePatternBase
  rw [List.cons_append] at hR ⊢
  rcases hF with ⟨h, rfl⟩ | ⟨h, rfl⟩ <;> psim [h, hR, Pat.out]

theorem str_pat (s : Str) : HeadOk (.str s) := .base fun L ts hw hm c pv f rest d ds ps hf => by
  obtain ⟨t, rfl, ht⟩ := Ms.one_inv hm
  have ht' : t.type = .String := ht.type
  have hl : t.lit = some s := ht.lit
  obtain ⟨h0, -⟩ := hf.facts
  obtain ⟨-, -, -, h1, h2, h3⟩ := lets_lit h0 (by omega)
  refine ⟨.string t s, ⟨⟨_, rfl, rfl, rfl⟩, rfl⟩, (finishString_stop (n := .string t s) (c := c) (pv := t :: pv) (rest := rest) (ds := d :: ds) (ps := ps) (L := L)
      h1 h2 h3).by1 fun R hR => ?_⟩
  unfold parsePatternBase
  psim [ht', parseString, litOf_eq hl, Pat.out]
  exact hR

theorem sym_pat (x : Str) : HeadOk (.sym x) := .base fun L ts hw hm c pv f rest d ds ps hf => by
  obtain ⟨t, rfl, ht⟩ := Ms.one_inv hm
  have ht' : t.type = .Symbol := ht.type
  have hl : t.lit = some x := ht.lit
  refine ⟨.symbol t x, ⟨⟨_, rfl, rfl, rfl⟩, rfl⟩, .of fun R => ?_⟩
  unfold parsePatternBase
  psim [ht', parseSymbol, litOf_eq hl, Pat.out]

theorem nil_pat : HeadOk .nil := .base fun L ts hw hm c pv f rest d ds ps hf => by
  obtain ⟨t, rfl, ht⟩ := Ms.one_inv hm
  have ht' : t.type = .NilKeyword := ht.type
  refine ⟨.nilSexp t, ⟨⟨_, rfl, rfl, rfl⟩, rfl⟩, .of fun R => ?_⟩
  unfold parsePatternBase
  psim [ht', parseOne, Pat.out]

theorem const_pat (x : Str) : HeadOk (.const x) := .base fun L ts hw hm c pv f rest d ds ps hf => by
  obtain ⟨t, rfl, ht⟩ := Ms.one_inv hm
  have ht' : t.type = .Constant := ht.type
  have hl : t.lit = some x := ht.lit
  refine ⟨.constant t, ⟨⟨_, rfl, rfl, ?_⟩, rfl⟩, .of fun R => ?_⟩
  · trsim [hl]
  · unfold parsePatternBase
    psim [ht', parseConstant, Pat.out]

theorem pin_pat (x : Str) : HeadOk (.pin x) := .base fun L ts hw hm c pv f rest d ds ps hf => by
  obtain ⟨t, us, rfl, ht, hm⟩ := Ms.cons_inv hm
  obtain ⟨u, rfl, hu⟩ := hm.one_inv
  have ht' : t.type = .Caret := ht.type
  have hu' : u.type = .BareName := hu.type
  have hl : u.lit = some x := hu.lit
  refine ⟨.pin t (.identifier u true), ⟨⟨_, rfl, rfl, ?_⟩, rfl⟩, .of fun R => ?_⟩
  · have := VarTok.getS (.loc hu' hl)
    trsim [this, app_ident]
    rfl
  · unfold parsePatternBase
    psim [ht', hu', Pat.out]

theorem range_pat (e : Bool) (a b : Int) : HeadOk (.range e a b) := by
  intro L ts hw hm c pv f rest d ds ps hf hr
  obtain ⟨-, hd, -, -, h1, -⟩ := hf.facts
  simp only [Pat.toks] at hm
  obtain ⟨ta, t, tb, rfl, hma, ht, hmb⟩ := hm.mid_inv (by cases e <;> rfl)
  have ht' : t.type = if e then .DotDotDot else .DotDot := by
    rw [ht.type (by cases e <;> rfl)]
    cases e <;> rfl
  obtain ⟨t1, us1, u1, F1, rfl, hF1, hk1⟩ := num_run hma (f := t) (by rw [ht']; cases e <;> decide) (by rw [ht']; cases e <;> nofun) c pv (tb ++ f :: rest) d ds ps L
  obtain ⟨u2, hk2⟩ := num_expr hmb (f := f) (h1 (hr rfl)) hd c (t :: ((t1 :: us1).reverse ++ pv)) rest d ds ps L
  refine ⟨.range t (.fixnum u1 a) (.fixnum u2 b) e, ⟨⟨_, rfl, .rangeInt _ _ _ _ _⟩, rfl⟩, hk1.by2 hk2 fun R hR hR' => ?_⟩
  obtain ⟨v, vs, rfl, hv⟩ : ∃ v vs, tb = v :: vs ∧ (v.type = .Fixnum ∨ v.type = .Minus) := by
    obtain ⟨t2, us2, u2, F2, rfl, hF2, -⟩ := num_run hmb (f := f) (by have := hf.facts; omega) hd c pv rest d ds ps L
    exact ⟨t2, us2, rfl, hF2.imp And.left And.left⟩
  have hv1 : v.type.isEndOfLine = false ∧ v.type.canBeRangeArg = true := by rcases hv with h | h <;> rw [h] <;> exact ⟨rfl, rfl⟩
  unfold patHead parsePatternBase parseRange
  simp only [gram] at hR hR' ⊢
  cases e <;> simp only [if_true, Bool.false_eq_true, if_false] at ht' <;> rcases hF1 with ⟨h, rfl⟩ | ⟨h, rfl⟩ <;> psim [h, hR, ht', hv1, hR', Pat.out, or_true, true_or, if_true]
  all_goals rfl

/-! ### First tokens -/

/-- The types of first tokens of patterns. -/
def patStart (ty : Ttype) : Prop :=
  ty = .BareName ∨ ty = .Fixnum ∨ ty = .Minus ∨ ty = .String ∨ ty = .Symbol ∨ ty = .NilKeyword ∨ ty = .Constant ∨ ty = .Caret ∨
    ty = .LBracketRBracket ∨ ty = .LBracket ∨ ty = .LCurlyBrace ∨ ty = .LParen ∨ ty = .Star

theorem patStart.facts {ty : Ttype} (h : patStart ty) : broken ty = false ∧ ty ≠ .RBracket ∧ ty ≠ .RCurlyBrace ∧ ty ≠ .Comma := by
  rcases h with rfl | rfl | rfl | rfl | rfl | rfl | rfl | rfl | rfl | rfl | rfl | rfl | rfl <;> decide

theorem num_first (n : Int) : ∃ w ws, Pat.num n = w :: ws ∧ patStart w.p.type := by
  unfold Pat.num
  split
  · exact ⟨_, _, rfl, .inr (.inr (.inl rfl))⟩
  · exact ⟨_, _, rfl, .inr (.inl rfl)⟩

theorem pat_first : ∀ {k : PKind} (p : Pat k), k = .pat → ∃ w ws, p.toks = w :: ws ∧ patStart w.p.type := by
  intro k p hk
  induction p with
  | int n => exact num_first n
  | range e a b =>
    obtain ⟨w, ws, h, h'⟩ := num_first a
    exact ⟨w, _, by simp only [Pat.toks, h, List.cons_append]; rfl, h'⟩
  | array ps =>
    by_cases h : ps.isNil = true
    · exact ⟨_, _, by simp only [Pat.toks, if_pos h]; rfl, by simp [patStart, fix, Piece.type]⟩
    · exact ⟨_, _, by simp only [Pat.toks, if_neg h]; rfl, by simp [patStart, fix, Piece.type]⟩
  | bind p x ih =>
    obtain ⟨w, ws, h, h'⟩ := ih rfl
    exact ⟨w, _, by simp only [Pat.toks, h, List.cons_append]; rfl, h'⟩
  | name | str | sym | nil | const | pin | hash | group => exact ⟨_, _, rfl, by simp [patStart, fix, Piece.type]⟩
  | _ => cases hk

theorem list_first {ps : Pat .pats} (h : ps.isNil = false) : ∃ w ws, ps.toks = w :: ws ∧ patStart w.p.type := by
  cases ps with
  | lnil => cases h
  | lcons p ps =>
    obtain ⟨w, ws, h, h'⟩ := pat_first p rfl
    exact ⟨w, _, by simp only [Pat.toks, h, List.cons_append]; rfl, h'⟩
  | lsplat o ps => exact ⟨_, _, rfl, by simp [patStart, fix, Piece.type]⟩

theorem Ms.list {ps : Pat .pats} (hn : ps.isNil = false) {ts : List Token} (h : Ms ps.toks ts) : ∃ t us, ts = t :: us ∧ patStart t.type := by
  obtain ⟨w, ws, h1, h2⟩ := list_first hn
  rw [h1] at h
  obtain ⟨t, us, rfl, ht, -⟩ := h.cons_inv h2.facts.1
  exact ⟨t, us, rfl, by rw [ht.type h2.facts.1]; exact h2⟩

theorem Ms.pat {p : Pat .pat} {ts : List Token} (h : Ms p.toks ts) : ∃ t us, ts = t :: us ∧ patStart t.type := by
  obtain ⟨w, ws, h1, h2⟩ := pat_first p rfl
  rw [h1] at h
  obtain ⟨t, us, rfl, ht, -⟩ := h.cons_inv h2.facts.1
  exact ⟨t, us, rfl, by rw [ht.type h2.facts.1]; exact h2⟩

theorem Ms.psep_inv {k : PKind} {r : Pat k} {ts : List Token} (h : Ms (Pat.sep r r.toks) ts) :
    (r.isNil = true ∧ ts = []) ∨ (r.isNil = false ∧ ∃ t us, ts = t :: us ∧ t.type = .Comma ∧ Ms r.toks us) := by
  unfold Pat.sep at h
  by_cases hn : r.isNil = true
  · rw [if_pos hn] at h
    exact .inl ⟨hn, h.nil_inv⟩
  · rw [if_neg hn] at h
    obtain ⟨t, us, rfl, ht, hm⟩ := h.cons_inv
    exact .inr ⟨by simpa using hn, t, us, rfl, ht.type, hm⟩

/-! ### Lists -/

/-- An element of an array pattern, with or without brackets. -/
def patItem (b : Bool) (R : Rec) : P Node :=
  if b then do
    let c ← cur
    if c.type = .RBracket then pure (Node.splat c none) else R.pattern
  else R.pattern

/-- The body of the loop over the elements. -/
def patBody (b : Bool) (R : Rec) (acc : List Node) : P (Loop (List Node) (List Node)) := do
  if (← curTy) = .Comma then
    advance
    let x ← patItem b R
    pure (.again (acc ++ [x]))
  else pure (.done acc)

theorem patLoop_in (R : Rec) (acc : List Node) : commaLoop R (do
    let c ← cur
    if c.type = .RBracket then pure (Node.splat c none) else R.pattern) acc = loop (patBody true R) R.fuel acc := rfl

theorem patLoop_top (R : Rec) (acc : List Node) : commaLoop R R.pattern acc = loop (patBody false R) R.fuel acc := rfl

/-- The elements are read one by one. -/
def ListOk (ps : Pat .pats) : Prop :=
  ps.isNil = false → ∀ (L : List Str) (ts : List Token), ps.WF L = true → Ms ps.toks ts → ∀ (c : Cx) (pv : List Token) (f : Token)
    (rest : List Token) (d : Nat) (ds : List Nat) (qs : List Prec), patEnd f.type → f.type ≠ .HashRocket → f.type ≠ .Pipe → f.type ≠ .Comma →
    ∃ n ns s1, Vsx (n :: ns) ps.sx ∧ ((∃ p, ps = .lcons p .lnil) → ns = [] ∧ ∃ p, ps = .lcons p .lnil ∧ PGood p n) ∧
      ((¬ ∃ p, ps = .lcons p .lnil) → ns = [] → n.isSplat = true) ∧
      Evals (fun R => R.pattern) c ⟨pv, ts ++ f :: rest, d :: ds, qs, L⟩ n s1 ∧
      ∀ b acc, EvalsLoop (patBody b) (acc ++ [n]) c s1 (acc ++ n :: ns) ⟨ts.reverse ++ pv, f :: rest, d :: ds, qs, ps.out L⟩

/-- The rest of the elements. -/
theorem list_rest {ps : Pat .pats} (h : ListOk ps) {L : List Str} {ts : List Token} (hw : ps.WF L = true) (hm : Ms (Pat.sep ps ps.toks) ts)
    {f : Token} (hf : patEnd f.type) (hf1 : f.type ≠ .HashRocket) (hf2 : f.type ≠ .Pipe) (hf3 : f.type ≠ .Comma) (c : Cx) (pv rest : List Token)
    (d : Nat) (ds : List Nat) (qs : List Prec) :
    ∃ ns, Vsx ns ps.sx ∧ ns.isEmpty = ps.isNil ∧ ∀ b acc, EvalsLoop (patBody b) acc c ⟨pv, ts ++ f :: rest, d :: ds, qs, L⟩ (acc ++ ns)
      ⟨ts.reverse ++ pv, f :: rest, d :: ds, qs, ps.out L⟩ := by
  rcases hm.psep_inv with ⟨hn, rfl⟩ | ⟨hn, t, us, rfl, ht, hm⟩
  · cases ps with
    | lnil =>
      refine ⟨[], .nil, rfl, fun b acc => .done (.of fun R => ?_)⟩
      unfold patBody
      psim [hf3, Pat.out, List.append_nil]
    | _ => cases hn
  · obtain ⟨n, ns, s1, h1, -, -, h2, h3⟩ := h hn L us hw hm c (t :: pv) f rest d ds qs hf hf1 hf2 hf3
    refine ⟨n :: ns, h1, by rw [hn]; rfl, fun b acc => ?_⟩
    refine .again (h2.by1 (a := Loop.again (acc ++ [n])) fun R hR => ?_) (by simpa only [gram] using h3 b acc)
    obtain ⟨u, vs, rfl, hu⟩ := hm.list hn
    have := hu.facts
    unfold patBody
    rw [List.cons_append] at hR
    cases b <;> psim [patItem, ht, hR, this, Bool.false_eq_true, if_true]

/-- What follows an element. -/
theorem list_follow {r : Pat .pats} {ts : List Token} (h : Ms (Pat.sep r r.toks) ts) {f : Token} (hf : patEnd f.type) (hf1 : f.type ≠ .HashRocket) (hf2 : f.type ≠ .Pipe)
    (rest : List Token) : ∃ g gs, ts ++ f :: rest = g :: gs ∧ patEnd g.type ∧ g.type ≠ .HashRocket ∧ g.type ≠ .Pipe := by
  rcases h.psep_inv with ⟨-, rfl⟩ | ⟨-, t, us, rfl, ht, -⟩
  · exact ⟨f, rest, rfl, hf, hf1, hf2⟩
  · exact ⟨t, us ++ f :: rest, rfl, by rw [ht]; exact .inl rfl, by rw [ht]; nofun, by rw [ht]; nofun⟩

theorem lcons_list {p : Pat .pat} {ps : Pat .pats} (h : PatOk p) (hs : ListOk ps) : ListOk (.lcons p ps) := by
  intro _ L ts hw hm c pv f rest d ds qs hf hf1 hf2 hf3
  simp only [Pat.WF, Bool.and_eq_true] at hw
  simp only [Pat.toks] at hm
  obtain ⟨ta, tb, rfl, hma, hmb⟩ := hm.append_inv
  obtain ⟨ns, h1, h1', h2⟩ := list_rest hs hw.2 hmb hf hf1 hf2 hf3 c (ta.reverse ++ pv) rest d ds qs
  obtain ⟨g, gs, hg, hg1, hg2, hg3⟩ := list_follow hmb hf hf1 hf2 rest
  obtain ⟨n, hn, hk⟩ := h L ta hw.1 hma c pv g gs d ds qs hg1 hg2 fun _ => hg3
  obtain ⟨x, hx, hn'⟩ := hn.p1
  refine ⟨n, ns, ⟨ta.reverse ++ pv, tb ++ f :: rest, d :: ds, qs, p.out L⟩, ?_, ?_, ?_, ?_, fun b acc => ?_⟩
  · simp only [Pat.sx, hx]
    exact .cons hn' h1
  · rintro ⟨q, hq⟩
    cases hq
    exact ⟨List.isEmpty_iff.1 h1', p, rfl, hn⟩
  · rintro hq rfl
    cases ps with
    | lnil => exact absurd ⟨p, rfl⟩ hq
    | _ => cases h1'
  · rw [hg]
    simpa only [gram, hg] using hk
  · have := h2 b (acc ++ [n])
    simpa only [gram, Pat.out] using this

theorem Ms.name? {o : Option Str} {ts : List Token} (h : Ms (Pat.name? o) ts) :
    (o = none ∧ ts = []) ∨ ∃ x t, o = some x ∧ ts = [t] ∧ t.type = .BareName ∧ t.lit = some x := by
  cases o with
  | none => exact .inl ⟨rfl, h.nil_inv⟩
  | some x =>
    obtain ⟨t, rfl, ht⟩ := Ms.one_inv h
    exact .inr ⟨x, t, rfl, rfl, ht.type, ht.lit⟩

theorem lsplat_list (o : Option Str) {ps : Pat .pats} (hs : ListOk ps) : ListOk (.lsplat o ps) := by
  intro _ L ts hw hm c pv f rest d ds qs hf hf1 hf2 hf3
  simp only [Pat.WF, Bool.and_eq_true] at hw
  simp only [Pat.toks] at hm
  obtain ⟨t, us, rfl, ht, hm⟩ := hm.cons_inv
  obtain ⟨ta, tb, rfl, hma, hmb⟩ := hm.append_inv
  have ht' : t.type = .Star := ht.type
  obtain ⟨ns, h1, h1', h2⟩ := list_rest hs hw.2 hmb hf hf1 hf2 hf3 c (ta.reverse ++ t :: pv) rest d ds qs
  obtain ⟨g, gs, hg, hg1, hg2, hg3⟩ := list_follow hmb hf hf1 hf2 rest
  obtain ⟨-, -, hd1, hd2, -, hb1, hb2⟩ := hg1.facts
  obtain ⟨n, hn, hn', hk⟩ : ∃ n, V1 n (.sym ('*' :: o.getD [])) ∧ n.isSplat = true ∧ Evals (fun R => R.pattern) c ⟨pv, t :: (ta ++ (tb ++ f :: rest)), d :: ds, qs, L⟩ n
      ⟨ta.reverse ++ t :: pv, tb ++ f :: rest, d :: ds, qs, L⟩ := by
    rw [hg]
    rcases hma.name? with ⟨rfl, rfl⟩ | ⟨x, u, rfl, rfl, hu, hl⟩
    · refine ⟨.splat g none, ⟨_, rfl, rfl⟩, rfl, Evals.pattern (.of fun R => ?_)⟩
      unfold parseCaseInPattern parsePatternBase
      psim [ht', hg2, hd1, hd2, hb1, hb2, or_self]
    · refine ⟨.splat u (some (.symbol u x)), ⟨_, rfl, rfl⟩, rfl, Evals.pattern (.of fun R => ?_)⟩
      unfold parseCaseInPattern parsePatternBase
      psim [ht', hg2, hd1, hd2, hu, litOf_eq hl, or_self, true_or, if_true]
  refine ⟨n, ns, ⟨ta.reverse ++ t :: pv, tb ++ f :: rest, d :: ds, qs, L⟩, ?_, ?_, fun _ _ => hn', ?_, fun b acc => ?_⟩
  · simp only [Pat.sx]
    exact .cons hn h1
  · rintro ⟨q, hq⟩
    cases hq
  · simpa only [gram] using hk
  · have := h2 b (acc ++ [n])
    simpa only [gram, Pat.out] using this

theorem array_pat {ps : Pat .pats} (h : ListOk ps) : HeadOk (.array ps) := .base fun L ts hw hm c pv f rest d ds qs hf => by
  simp only [Pat.WF] at hw
  simp only [Pat.toks] at hm
  by_cases hn : ps.isNil = true
  · rw [if_pos hn] at hm
    obtain ⟨t, rfl, ht⟩ := Ms.one_inv hm
    have ht' : t.type = .LBracketRBracket := ht.type
    cases ps with
    | lnil =>
      refine ⟨.arrayPattern t [], ⟨⟨_, rfl, rfl, rfl⟩, rfl⟩, .of fun R => ?_⟩
      unfold parsePatternBase
      psim [ht', Pat.out]
    | _ => cases hn
  · rw [if_neg hn] at hm
    have hn : ps.isNil = false := by simpa using hn
    obtain ⟨t, us, rfl, ht, hm⟩ := hm.cons_inv
    obtain ⟨ta, u, rfl, hma, hu⟩ := hm.snoc_inv
    have ht' : t.type = .LBracket := ht.type
    have hu' : u.type = .RBracket := hu.type
    obtain ⟨n, ns, s1, h1, -, -, h2, h3⟩ := h hn L ta hw hma c (t :: pv) u (f :: rest) d ds qs (by rw [hu']; simp [patEnd]) (by rw [hu']; nofun)
      (by rw [hu']; nofun) (by rw [hu']; nofun)
    refine ⟨.arrayPattern t (n :: ns), ⟨⟨_, ?_, .arrayPat h1 rfl⟩, rfl⟩, h2.by2 (h3 true []).evals fun R hR hR' => ?_⟩
    · simp only [Pat.sx, hn, Bool.false_eq_true, if_false, nd]
    · obtain ⟨v, vs, rfl, hv⟩ := hma.list hn
      have := hv.facts
      rw [← patLoop_in] at hR'
      unfold parsePatternBase
      simp only [gram] at hR hR' ⊢
      psim [ht', hR, this, hR', hu', Pat.out]

theorem group_pat {p : Pat .pat} (h : PatOk p) : HeadOk (.group p) := .base fun L ts hw hm c pv f rest d ds qs hf => by
  simp only [Pat.WF] at hw
  simp only [Pat.toks] at hm
  obtain ⟨t, us, rfl, ht, hm⟩ := hm.cons_inv
  obtain ⟨ta, u, rfl, hma, hu⟩ := hm.snoc_inv
  have ht' : t.type = .LParen := ht.type
  have hu' : u.type = .RParen := hu.type
  obtain ⟨n, hg, hk⟩ := h L ta hw hma c (t :: pv) u (f :: rest) d ds qs (by rw [hu']; simp [patEnd]) (by rw [hu']; nofun) (by rw [hu']; nofun)
  obtain ⟨x, hx, hn⟩ := hg.sx
  refine ⟨n, ⟨⟨x, hx, hn⟩, hg.splat⟩, hk.by1 fun R hR => ?_⟩
  unfold parsePatternBase
  simp only [gram] at hR ⊢
  psim [ht', hR, hu', Pat.out]

/-! ### Pairs -/

/-- The body of the loop over the pairs of a hash pattern. -/
def pairBody (R : Rec) (acc : List (List Node)) : P (Loop (List (List Node)) (List (List Node))) := do
  if (← curTy) = .Comma then
    advance
    let x ← patternPair R
    pure (.again (acc ++ [x]))
  else pure (.done acc)

theorem pairLoop (R : Rec) (acc : List (List Node)) : commaLoop R (patternPair R) acc = loop (pairBody R) R.fuel acc := rfl

def PPairsOk (ps : Pat .pairs) : Prop :=
  ps.isNil = false → ∀ (L : List Str) (ts : List Token), ps.WF L = true → Ms ps.toks ts → ∀ (c : Cx) (pv : List Token) (f : Token)
    (rest : List Token) (d : Nat) (ds : List Nat) (qs : List Prec), f.type = .RCurlyBrace →
    ∃ n ns s1, Lsx (n ++ ns.flatten) ps.sx ∧
      Evals (fun R => patternPair R) c ⟨pv, ts ++ f :: rest, d :: ds, qs, L⟩ n s1 ∧
      ∀ acc, EvalsLoop pairBody (acc ++ [n]) c s1 (acc ++ n :: ns) ⟨ts.reverse ++ pv, f :: rest, d :: ds, qs, ps.out L⟩

theorem pairs_rest' {ps : Pat .pairs} (h : PPairsOk ps) {L : List Str} {ts : List Token} (hw : ps.WF L = true) (hm : Ms (Pat.sep ps ps.toks) ts)
    {f : Token} (hf : f.type = .RCurlyBrace) (c : Cx) (pv rest : List Token) (d : Nat) (ds : List Nat) (qs : List Prec) :
    ∃ ns, Lsx ns.flatten ps.sx ∧ ∀ acc, EvalsLoop pairBody acc c ⟨pv, ts ++ f :: rest, d :: ds, qs, L⟩ (acc ++ ns)
      ⟨ts.reverse ++ pv, f :: rest, d :: ds, qs, ps.out L⟩ := by
  rcases hm.psep_inv with ⟨hn, rfl⟩ | ⟨hn, t, us, rfl, ht, hm⟩
  · cases ps with
    | hnil =>
      refine ⟨[], .nil, fun acc => .done (.of fun R => ?_)⟩
      unfold pairBody
      psim [hf, Pat.out, List.append_nil]
    | _ => cases hn
  · obtain ⟨n, ns, s1, h1, h2, h3⟩ := h hn L us hw hm c (t :: pv) f rest d ds qs hf
    refine ⟨n :: ns, h1, fun acc => ?_⟩
    refine .again (h2.by1 (a := Loop.again (acc ++ [n])) fun R hR => ?_) (by simpa only [gram] using h3 acc)
    unfold pairBody
    psim [ht, hR]

/-- What follows a pair. -/
theorem pair_follow {r : Pat .pairs} {ts : List Token} (h : Ms (Pat.sep r r.toks) ts) {f : Token} (hf : f.type = .RCurlyBrace)
    (rest : List Token) : ∃ g gs, ts ++ f :: rest = g :: gs ∧ (g.type = .RCurlyBrace ∨ g.type = .Comma) := by
  rcases h.psep_inv with ⟨-, rfl⟩ | ⟨-, t, us, rfl, ht, -⟩
  · exact ⟨f, rest, rfl, .inl hf⟩
  · exact ⟨t, us ++ f :: rest, rfl, .inr ht⟩

theorem hkey_pairs (x : Str) {ps : Pat .pairs} (hs : PPairsOk ps) : PPairsOk (.hkey x ps) := by
  intro _ L ts hw hm c pv f rest d ds qs hf
  simp only [Pat.WF] at hw
  simp only [Pat.toks] at hm
  obtain ⟨t, tb, rfl, ht, hmb⟩ := hm.cons_inv
  have ht' : t.type = .SymbolKey := ht.type
  have hl : t.lit = some x := ht.lit
  obtain ⟨ns, h1, h2⟩ := pairs_rest' hs hw hmb hf c (t :: pv) rest d ds qs
  obtain ⟨g, gs, hg, hg'⟩ := pair_follow hmb hf rest
  refine ⟨[.symbolKey t x, .nil g], ns, ⟨t :: pv, tb ++ f :: rest, d :: ds, qs, x :: L⟩, ?_, .of fun R => ?_, fun acc => ?_⟩
  · simp only [Pat.sx, nd, List.cons_append, List.nil_append]
    exact .cons (.symbolKey x) (.consNil h1)
  · unfold patternPair parsePatternKey parseSymbolKey
    rw [List.cons_append, hg]
    psim [ht', litOf_eq hl, hg', if_true]
  · have := h2 (acc ++ [[.symbolKey t x, .nil g]])
    simpa only [gram, Pat.out] using this

theorem hpair_pairs (x : Str) {p : Pat .pat} {ps : Pat .pairs} (h : PatOk p) (hs : PPairsOk ps) : PPairsOk (.hpair x p ps) := by
  intro _ L ts hw hm c pv f rest d ds qs hf
  simp only [Pat.WF, Bool.and_eq_true] at hw
  simp only [Pat.toks] at hm
  obtain ⟨t, tb, rfl, ht, hm⟩ := hm.cons_inv
  obtain ⟨ta, tb, rfl, hma, hmb⟩ := hm.append_inv
  have ht' : t.type = .SymbolKey := ht.type
  have hl : t.lit = some x := ht.lit
  obtain ⟨ns, h1, h2⟩ := pairs_rest' hs hw.2 hmb hf c (ta.reverse ++ t :: pv) rest d ds qs
  obtain ⟨g, gs, hg, hg'⟩ := pair_follow hmb hf rest
  obtain ⟨n, hn, hk⟩ := h L ta hw.1 hma c (t :: pv) g gs d ds qs (by rcases hg' with h | h <;> rw [h] <;> simp [patEnd])
    (by rcases hg' with h | h <;> rw [h] <;> nofun) (by rcases hg' with h | h <;> rw [h] <;> nofun)
  obtain ⟨y, hy, hn'⟩ := hn.sx
  refine ⟨[.symbolKey t x, n], ns, ⟨ta.reverse ++ t :: pv, tb ++ f :: rest, d :: ds, qs, p.out L⟩, ?_, hk.by1 fun R hR => ?_, fun acc => ?_⟩
  · simp only [Pat.sx, nd, hy, List.cons_append, List.nil_append]
    exact .cons (.symbolKey x) (.cons hn' h1)
  · unfold patternPair parsePatternKey parseSymbolKey
    simp only [gram, hg] at hR ⊢
    obtain ⟨v, vs, rfl, hv⟩ := hma.pat
    have := hv.facts
    simp only [gram] at hR ⊢
    psim [ht', litOf_eq hl, this, or_self, hR]
  · have := h2 (acc ++ [[.symbolKey t x, n]])
    simpa only [gram, Pat.out] using this

theorem Nsx.kwrest (t : Token) (o : Option Str) : Nsx (.keywordRestPattern t o) (.node (cs! "kwrest") [.sym ('*' :: '*' :: o.getD [])]) :=
  ⟨rfl, by trsim []; rfl⟩

theorem hrest_pairs (o : Option Str) : PPairsOk (.hrest o) := by
  intro _ L ts hw hm c pv f rest d ds qs hf
  simp only [Pat.toks] at hm
  obtain ⟨t, ta, rfl, ht, hma⟩ := hm.cons_inv
  have ht' : t.type = .StarStar := ht.type
  refine ⟨[.keywordRestPattern t o], [], ⟨(t :: ta).reverse ++ pv, f :: rest, d :: ds, qs, (Pat.hrest o).out L⟩, Lsx.one (.kwrest t o), .of fun R => ?_, fun acc => .done (.of fun R => ?_)⟩
  · unfold patternPair parsePatternKey
    rcases hma.name? with ⟨rfl, rfl⟩ | ⟨x, u, rfl, rfl, hu, hl⟩
    · psim [ht', hf, Pat.out, Option.toList]
    · psim [ht', hu, litOf_eq hl, Pat.out, Option.toList]
  · unfold pairBody
    psim [hf]

theorem hnone_pairs : PPairsOk .hnone := by
  intro _ L ts hw hm c pv f rest d ds qs hf
  simp only [Pat.toks] at hm
  obtain ⟨t, ta, rfl, ht, hma⟩ := hm.cons_inv
  obtain ⟨u, rfl, hu⟩ := hma.one_inv
  have ht' : t.type = .StarStar := ht.type
  have hu' : u.type = .NilKeyword := hu.type
  refine ⟨[.keywordRestPattern t (some (cs! "nil"))], [], ⟨u :: t :: pv, f :: rest, d :: ds, qs, L⟩, Lsx.one (.kwrest t _), .of fun R => ?_, fun acc => .done (.of fun R => ?_)⟩
  · unfold patternPair parsePatternKey
    psim [ht', hu']
    rfl
  · unfold pairBody
    psim [hf, Pat.out]

theorem hash_pat {ps : Pat .pairs} (h : PPairsOk ps) : HeadOk (.hash ps) := .base fun L ts hw hm c pv f rest d ds qs hf => by
  simp only [Pat.WF] at hw
  simp only [Pat.toks] at hm
  obtain ⟨t, us, rfl, ht, hm⟩ := hm.cons_inv
  obtain ⟨ta, u, rfl, hma, hu⟩ := hm.snoc_inv
  have ht' : t.type = .LCurlyBrace := ht.type
  have hu' : u.type = .RCurlyBrace := hu.type
  by_cases hn : ps.isNil = true
  · cases ps with
    | hnil =>
      cases hma.nil_inv
      refine ⟨.hashPattern t [], ⟨⟨_, rfl, rfl, rfl⟩, rfl⟩, .of fun R => ?_⟩
      unfold parsePatternBase
      psim [ht', hu', Pat.out]
    | _ => cases hn
  · have hn : ps.isNil = false := by simpa using hn
    obtain ⟨n, ns, s1, h1, h2, h3⟩ := h hn L ta hw hma c (t :: pv) u (f :: rest) d ds qs hu'
    refine ⟨.hashPattern t (n ++ ns.flatten), ⟨⟨_, rfl, .hashPat h1⟩, rfl⟩, h2.by2 (h3 []).evals fun R hR hR' => ?_⟩
    obtain ⟨v, vs, rfl, hv⟩ : ∃ v vs, ta = v :: vs ∧ v.type ≠ .RCurlyBrace := by
      cases ps with
      | hnil => cases hn
      | hkey | hpair | hrest | hnone =>
        obtain ⟨v, vs, rfl, hv, -⟩ := Ms.cons_inv hma
        exact ⟨v, vs, rfl, by rw [hv.type]; nofun⟩
    rw [← pairLoop] at hR'
    unfold parsePatternBase
    simp only [gram] at hR hR' ⊢
    psim [ht', hR, hv, hR', hu', Pat.out, List.flatten_cons]

/-! ### All patterns -/

/-- What is proved of a pattern or a part of one. -/
def PartOk : {k : PKind} → Pat k → Prop
  | .pat, p => (p.isBind = false → HeadOk p) ∧ PatOk p
  | .pats, ps => ListOk ps
  | .pairs, ps => PPairsOk ps

theorem HeadOk.both {p : Pat .pat} (h : HeadOk p) : PartOk p := ⟨fun _ => h, h.pat⟩

theorem pat_ok {k : PKind} (p : Pat k) : PartOk p := by
  induction p with
  | name x => exact (name_pat x).both
  | int n => exact (int_pat n).both
  | range e a b => exact (range_pat e a b).both
  | str s => exact (str_pat s).both
  | sym x => exact (sym_pat x).both
  | nil => exact nil_pat.both
  | const x => exact (const_pat x).both
  | pin x => exact (pin_pat x).both
  | array ps ih => exact (array_pat ih).both
  | hash ps ih => exact (hash_pat ih).both
  | group p ih => exact (group_pat ih.2).both
  | bind p x ih => exact ⟨nofun, bind_pat ih.1 x⟩
  | lnil => exact nofun
  | lcons p ps ih1 ih2 => exact lcons_list ih1.2 ih2
  | lsplat o ps ih => exact lsplat_list o ih
  | hnil => exact nofun
  | hkey x ps ih => exact hkey_pairs x ih
  | hpair x p ps ih1 ih2 => exact hpair_pairs x ih1.2 ih2
  | hrest o => exact hrest_pairs o
  | hnone => exact hnone_pairs

/-! ### What is written after `in` -/

/-- The body of the loop of `parse_case_in_patterns`. -/
def altBody (R : Rec) (acc : Node × Bool) : P (Loop (Node × Bool) Node) := do
  if (← curTy) = .Pipe then
    advance
    let q ← parsePatternList R
    let q := wrapSplat q
    pure (Loop.again (.logicalOr (if acc.2 then q.tok else acc.1.tok) acc.1 q, true))
  else pure (Loop.done acc.1)

theorem parseCaseInPatterns_eq (R : Rec) : parseCaseInPatterns R = (do
    let p ← parsePatternList R
    loop (altBody R) R.fuel (wrapSplat p, false)) := rfl

/-- A single pattern before a token other than a comma. -/
theorem pat_single {p : Pat .pat} (h : PatOk p) {L : List Str} {ts : List Token} (hw : p.WF L = true) (hm : Ms p.toks ts) {f : Token} (hf : patEnd f.type)
    (hf1 : f.type ≠ .HashRocket) (hf2 : p.isRange = true → f.type ≠ .Pipe) (hf3 : f.type ≠ .Comma) (c : Cx) (pv rest : List Token) (d : Nat) (ds : List Nat)
    (qs : List Prec) : ∃ n, PGood p n ∧ Evals (fun R => parsePatternList R) c ⟨pv, ts ++ f :: rest, d :: ds, qs, L⟩ n
      ⟨ts.reverse ++ pv, f :: rest, d :: ds, qs, p.out L⟩ := by
  obtain ⟨n, hg, hk⟩ := h L ts hw hm c pv f rest d ds qs hf hf1 hf2
  have hl : EvalsLoop (patBody false) [n] c ⟨ts.reverse ++ pv, f :: rest, d :: ds, qs, p.out L⟩ [n] ⟨ts.reverse ++ pv, f :: rest, d :: ds, qs, p.out L⟩ := by
    refine .done (.of fun R => ?_)
    unfold patBody
    psim [hf3]
  refine ⟨n, hg, hk.by2 hl.evals fun R hR hR' => ?_⟩
  obtain ⟨t, us, rfl, -⟩ := hm.pat
  rw [← patLoop_top] at hR'
  unfold parsePatternList
  simp only [gram] at hR hR' ⊢
  psim [hR, hR']

theorem alts_run : ∀ {ps : Pat .pats}, ∀ {L : List Str} {ts : List Token}, ps.WF L = true → ps.alternatives = true → Ms ps.bars ts → ∀ {f : Token} (_ : patEnd f.type)
    (_ : f.type ≠ .HashRocket) (_ : f.type ≠ .Pipe) (_ : f.type ≠ .Comma) (c : Cx) (pv rest : List Token) (d : Nat) (ds : List Nat) (qs : List Prec) (n : Node) (x : Sexp) (b : Bool),
    Nsx n x → ∃ m, Nsx m (ps.sx.foldl (fun x y => .node (cs! "or") [x, y]) x) ∧ EvalsLoop altBody (n, b) c ⟨pv, ts ++ f :: rest, d :: ds, qs, L⟩ m
      ⟨ts.reverse ++ pv, f :: rest, d :: ds, qs, ps.out L⟩
  | .lnil, L, ts, hw, ha, hm, f, hf, hf1, hf2, hf3, c, pv, rest, d, ds, qs, n, x, b, hn => by
    cases hm.nil_inv
    refine ⟨n, hn, .done (.of fun R => ?_)⟩
    unfold altBody
    psim [hf2, Pat.out]
  | .lcons p ps, L, ts, hw, ha, hm, f, hf, hf1, hf2, hf3, c, pv, rest, d, ds, qs, n, x, b, hn => by
    simp only [Pat.WF, Bool.and_eq_true] at hw
    simp only [Pat.alternatives, Bool.and_eq_true, Bool.or_eq_true, Bool.not_eq_true'] at ha
    simp only [Pat.bars] at hm
    obtain ⟨t, us, rfl, ht, hm⟩ := hm.cons_inv
    obtain ⟨ta, tb, rfl, hma, hmb⟩ := hm.append_inv
    have ht' : t.type = .Pipe := ht.type
    obtain ⟨g, gs, hgs, hg, hg1, hg2, hg3⟩ : ∃ g gs, tb ++ f :: rest = g :: gs ∧ patEnd g.type ∧ g.type ≠ .HashRocket ∧ g.type ≠ .Comma ∧ (p.isRange = true → g.type ≠ .Pipe) := by
      cases ps with
      | lnil =>
        cases hmb.nil_inv
        exact ⟨f, rest, rfl, hf, hf1, hf3, fun _ => hf2⟩
      | lcons q ps =>
        simp only [Pat.bars] at hmb
        obtain ⟨g, gs, rfl, hg, -⟩ := hmb.cons_inv
        have hg : g.type = .Pipe := hg.type
        refine ⟨g, gs ++ f :: rest, rfl, by rw [hg]; simp [patEnd], by rw [hg]; nofun, by rw [hg]; nofun, fun h => ?_⟩
        rcases ha.1.2 with h' | h'
        · cases h'
        · rw [h] at h'
          cases h'
      | lsplat => cases ha.2
    obtain ⟨k, hk, hk'⟩ := pat_single (pat_ok p).2 hw.1 hma hg hg1 hg3 hg2 c (t :: pv) gs d ds qs
    obtain ⟨y, hy, hky⟩ := hk.sx
    obtain ⟨m, hm1, hm2⟩ := alts_run (ps := ps) hw.2 ha.2 hmb hf hf1 hf2 hf3 c (ta.reverse ++ t :: pv) rest d ds qs
      (.logicalOr (if b then k.tok else n.tok) n k) _ true (.logicalOr hn hky)
    refine ⟨m, by simpa only [Pat.sx, hy, List.cons_append, List.nil_append, List.foldl_cons] using hm1,
      .again (y := (.logicalOr (if b then k.tok else n.tok) n k, true)) (s1 := ⟨ta.reverse ++ t :: pv, tb ++ f :: rest, d :: ds, qs, p.out L⟩) (hk'.by1 fun R hR => ?_)
      (by simpa only [gram, Pat.out] using hm2)⟩
    unfold altBody
    simp only [gram, hgs] at hR ⊢
    psim [ht', hR, hk.wrap]

/-- The patterns after `in`. -/
theorem top_evals {p : Top} {L : List Str} {ts : List Token} (hw : p.WF L = true) (hm : Ms p.toks ts) {f : Token} (hf : patEnd f.type)
    (hf1 : f.type ≠ .HashRocket) (hf2 : f.type ≠ .Pipe) (hf3 : f.type ≠ .Comma) (c : Cx) (pv rest : List Token) (d : Nat) (ds : List Nat) (qs : List Prec) :
    ∃ n, Nsx n p.sx ∧ Evals (fun R => parseCaseInPatterns R) c ⟨pv, ts ++ f :: rest, d :: ds, qs, L⟩ n
      ⟨ts.reverse ++ pv, f :: rest, d :: ds, qs, p.out L⟩ := by
  have stop : ∀ (n : Node) (s : List Token) (M : List Str), EvalsLoop altBody (n, false) c ⟨s, f :: rest, d :: ds, qs, M⟩ n ⟨s, f :: rest, d :: ds, qs, M⟩ := by
    intro n s M
    refine .done (.of fun R => ?_)
    unfold altBody
    psim [hf2]
  cases p with
  | list ps =>
    simp only [Top.WF, Bool.and_eq_true, Bool.not_eq_true'] at hw
    simp only [Top.toks] at hm
    obtain ⟨n, ns, s1, h1, h2, h2', h3, h4⟩ := pat_ok ps hw.2 L ts hw.1 hm c pv f rest d ds qs hf hf1 hf2 hf3
    have h4 := (h4 false []).evals
    obtain ⟨t, us, rfl, -⟩ := hm.list hw.2
    by_cases hp : ∃ p, ps = .lcons p .lnil
    · obtain ⟨rfl, p, rfl, hg⟩ := h2 hp
      obtain ⟨x, hx, hn⟩ := hg.sx
      refine ⟨n, by simpa only [Top.sx, hx, List.headD_cons] using hn, h3.by3 h4 (stop n ((t :: us).reverse ++ pv) (Pat.out L (.lcons p .lnil))).evals fun R hR hR' hR'' => ?_⟩
      rw [← patLoop_top] at hR'
      rw [parseCaseInPatterns_eq]
      unfold parsePatternList
      simp only [gram] at hR hR' hR'' ⊢
      psim [hR, hR', hg.wrap, hR'', Top.out]
    · have hx : Top.sx (.list ps) = .node (cs! "array_pat") (.nil :: ps.sx) := by
        cases ps with
        | lnil | lsplat => rfl
        | lcons p ps =>
          cases ps with
          | lnil => exact absurd ⟨p, rfl⟩ hp
          | lcons | lsplat => rfl
      rw [hx]
      by_cases hn : ns = []
      · have hs := h2' hp hn
        subst hn
        obtain ⟨u, o, rfl⟩ : ∃ u o, n = .splat u o := by cases n <;> first | exact ⟨_, _, rfl⟩ | cases hs
        refine ⟨.arrayPattern u [.splat u o], .arrayPat h1 rfl, h3.by3 h4 (stop (.arrayPattern u [.splat u o]) ((t :: us).reverse ++ pv) (Pat.out L ps)).evals fun R hR hR' hR'' => ?_⟩
        rw [← patLoop_top] at hR'
        rw [parseCaseInPatterns_eq]
        unfold parsePatternList
        simp only [gram] at hR hR' hR'' ⊢
        psim [hR, hR', wrapSplat, hR'', Top.out]
      · obtain ⟨m, ms, rfl⟩ : ∃ m ms, ns = m :: ms := by
          cases ns with
          | nil => exact absurd rfl hn
          | cons m ms => exact ⟨m, ms, rfl⟩
        refine ⟨.arrayPattern t (n :: m :: ms), .arrayPat h1 rfl, h3.by3 h4 (stop (.arrayPattern t (n :: m :: ms)) ((t :: us).reverse ++ pv) (Pat.out L ps)).evals fun R hR hR' hR'' => ?_⟩
        rw [← patLoop_top] at hR'
        rw [parseCaseInPatterns_eq]
        unfold parsePatternList
        simp only [gram] at hR hR' hR'' ⊢
        psim [hR, hR', wrapSplat, hR'', Top.out]
  | alts p ps =>
    simp only [Top.WF, Bool.and_eq_true, Bool.not_eq_true', Pat.alternatives] at hw
    simp only [Top.toks] at hm
    obtain ⟨⟨⟨hw1, hw2⟩, hw3⟩, ⟨hw4, hw5⟩, hw6⟩ := hw
    obtain ⟨ta, tb, rfl, hma, hmb⟩ := hm.append_inv
    obtain ⟨g, gs, rfl, hg⟩ : ∃ g gs, tb = g :: gs ∧ g.type = .Pipe := by
      cases ps with
      | lnil => cases hw3
      | lcons q ps =>
        simp only [Pat.bars] at hmb
        obtain ⟨g, gs, rfl, hg, -⟩ := hmb.cons_inv
        exact ⟨g, gs, rfl, hg.type⟩
      | lsplat => cases hw6
    obtain ⟨k, hk, hk'⟩ := pat_single (pat_ok p).2 hw1 hma (f := g) (by rw [hg]; simp [patEnd]) (by rw [hg]; nofun) (fun h => by rw [hw3, h] at hw5; cases hw5) (by rw [hg]; nofun) c pv (gs ++ f :: rest) d ds qs
    obtain ⟨x, hx, hkx⟩ := hk.sx
    obtain ⟨m, hm1, hm2⟩ := alts_run hw2 hw6 hmb hf hf1 hf2 hf3 c (ta.reverse ++ pv) rest d ds qs k x false hkx
    refine ⟨m, by simpa only [Top.sx, hx, List.headD_cons] using hm1, hk'.by2 hm2.evals fun R hR hR' => ?_⟩
    rw [parseCaseInPatterns_eq]
    simp only [gram] at hR hR' ⊢
    psim [hR, hk.wrap, hR', Top.out]

end NP.Gram
