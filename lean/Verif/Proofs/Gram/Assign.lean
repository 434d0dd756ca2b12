import Verif.Proofs.Gram.Args

/-! Assignments to variables. -/

namespace NP.Gram
open Spec

/-- An assignment takes several values. -/
def multi (p : Prec) : Bool := !(p = .ARRAY ∨ p = .HASH ∨ p = .BARE_CALL_ARG ∨ p = .CALL_ARG)

theorem left_equal {t : Token} (ht : t.type = .Equal) (R : Rec) (pk : Token) (left : Node) (p : Prec) :
    leftDenotation R t pk left p = some (parseAssignment R (multi p) left) := by
  unfold leftDenotation multi
  rw [ht]
  by_cases h : p = .ARRAY ∨ p = .HASH ∨ p = .BARE_CALL_ARG ∨ p = .CALL_ARG
  · simp only [h, decide_true, Bool.not_true, if_true]
  · simp only [h, decide_false, Bool.not_false, if_false]

theorem prec_equal {t : Token} (ht : t.type = .Equal) (n : Node) : getPrec t (some n) t = .ASSIGNMENT_LHS := by
  unfold getPrec
  rw [ht]

theorem prec_op {o : Aop} {t : Token} (ht : t.type = o.type) (n : Node) : getPrec t (some n) t = .OP_ASSIGNMENT_LHS := by
  unfold getPrec
  rw [ht]
  cases o <;> rfl

theorem left_op {o : Aop} {t : Token} (ht : t.type = o.type) (R : Rec) (pk : Token) (left : Node) (p : Prec) :
    leftDenotation R t pk left p = some (parseOpAssign R left) := by
  unfold leftDenotation
  rw [ht]
  cases o <;> rfl

theorem Aop.valid (o : Aop) : o.type.isValid = true := by cases o <;> rfl

theorem plain_splat {v : Node} (h : plain v = true) : v.isSplat = false := by
  cases v <;> first | rfl | cases h

theorem run_value {R : Rec} {b m : Bool} {c : Cx} {u f : Token} {pv us pv' rest : List Token} {ds ds' : List Nat} {ps ps' : List Prec}
    {L L' : List Str} {v : Node} (hv : plain v = true) (hc : f.type ≠ .Comma)
    (hR : R.expr .ASSIGNMENT_RHS .CURLY_AND_BLOCK c ⟨pv, u :: us, ds, ps, L⟩ = .ok v ⟨pv', f :: rest, ds', ps', L'⟩) :
    parseAssignmentValue R b m c ⟨pv, u :: us, ds, ps, L⟩ = .ok (if b then .toArray u v else v) ⟨pv', f :: rest, ds', ps', L'⟩ := by
  unfold parseAssignmentValue
  have hs := plain_splat hv
  cases m <;> cases b <;> (psim [hR, hc, hs]; split <;> first | rfl | cases hv)

/-- Not several targets. -/
def single : Node → Bool
  | .multipleAssignment .. | .splat .. => false
  | _ => true

/-- The assignment of one value. -/
theorem assign_step {left v b : Node} {p : Prec} {ia : IterAllow} {c : Cx} {t u f : Token} {pv us pv' rest : List Token} {d : Nat}
    {ds : List Nat} {qs : List Prec} {L L1 L2 : List Str} {s' : PS} (ht : t.type = .Equal) (hp : above p 5 = true)
    (hs : single left = true) (hk : left.isSymbolKey = false)
    (hl : addAssignmentLocals left c ⟨pv, t :: u :: us, d :: ds, p :: qs, L⟩ = .ok () ⟨pv, t :: u :: us, d :: ds, p :: qs, L1⟩)
    (hv : plain v = true) (hc : f.type ≠ .Comma)
    (hE : Evals (fun R => R.expr .ASSIGNMENT_RHS .CURLY_AND_BLOCK) c ⟨t :: pv, u :: us, d :: ds, p :: qs, L1⟩ v
      ⟨pv', f :: rest, d :: ds, p :: qs, L2⟩)
    (h : EvalsRest p ia (.assignment t left v) c ⟨pv', f :: rest, d :: ds, p :: qs, L2⟩ b s') :
    EvalsRest p ia left c ⟨pv, t :: u :: us, d :: ds, p :: qs, L⟩ b s' := by
  refine infix_step (fun R => parseAssignment R (multi p) left) (by rw [ht]; rfl) (prec_equal ht left)
    (above.op hp (m := 5) (by decide) (by omega)) nofun nofun hk (fun R => left_equal ht R _ _ _) (hE.by1 fun R hR => ?_) h
  unfold parseAssignment
  have h1 : left.isSplat = false := by cases left <;> first | rfl | cases hs
  psim [h1, hl]
  split
  · cases hs
  · rw [run_value hv hc hR]
    rfl

/-- A part that ends an assignment. -/
theorem ExOk.rhs {e x : Ex .ex} (h : ExOk x) {L L' : List Str} {ts us : List Token} {f : Token} {d : Nat}
    {p q : Prec} {ia : IterAllow} {n : Nat} (ha : At e L ts f d p ia) (hc : callee L e = false) (hw : WF L' x = true)
    (hm : Ms (toks none x) us) (hf : need f.type ≤ 5) (hf' : Gram.after x f.type = true) (hn : n ≤ lhs x)
    (hq : q = .ASSIGNMENT_RHS ∧ n = 5 ∨ q = .OP_ASSIGNMENT_RHS ∧ n = 7) (hs : us.length ≤ ts.length)
    (hh : hasDo x = true → hasDo e = true) (c : Cx) (pv rest : List Token) (ds : List Nat) (ps : List Prec) :
    ∃ n, Good L' x n ∧ Evals (fun R => R.expr q .CURLY_AND_BLOCK) c ⟨pv, us ++ f :: rest, d :: ds, ps, L'⟩ n
      ⟨us.reverse ++ pv, f :: rest, d :: ds, ps, out L' x⟩ := by
  rcases hq with ⟨rfl, rfl⟩ | ⟨rfl, rfl⟩
  · exact h.last (n := 5) ha hc hw hm hf (by decide) (by decide) hf' (above.mono (show above _ 5 = true by decide) hn) hs hh c pv rest ds ps
  · exact h.last (n := 5) ha hc hw hm hf (by decide) (by decide) hf' (above.mono (show above _ 7 = true by decide) hn) hs hh c pv rest ds ps

theorem need_comma {f : Token} (h : need f.type ≤ 5) : f.type ≠ .Comma := by
  intro hf
  rw [hf] at h
  exact absurd h (by decide)

theorem VarTok.names {v : Var} {t : Token} (h : VarTok v t) : ∃ xs, identNames t = some xs ∧ ∀ L, xs ++ L = v.bind L := by
  cases h with
  | loc h1 h2 => exact ⟨_, by unfold identNames; rw [if_pos h1, h2]; rfl, fun L => rfl⟩
  | ivar h1 h2 | cvar h1 h2 | gvar h1 h2 | const h1 h2 =>
    exact ⟨[], by unfold identNames; rw [if_neg (by rw [h1]; nofun)], fun L => rfl⟩

theorem VarTok.adds {v : Var} {t : Token} (h : VarTok v t) (c : Cx) (pv ts : List Token) (ds : List Nat) (ps : List Prec)
    (L : List Str) : addNames (identNames t) c ⟨pv, ts, ds, ps, L⟩ = .ok () ⟨pv, ts, ds, ps, v.bind L⟩ := by
  obtain ⟨xs, h1, h2⟩ := h.names
  rw [h1, run_addNames, h2]

theorem asgn_ok (v : Var) (e : Ex .ex) (h : ExOk e) : ExOk (.asgn v e) := by
  intro L w ts hw hm c pv f rest d ds p qs ia ha
  have hf := ha.after
  have hab := ha.above
  simp only [gwf, gafter, glhs, Bool.and_eq_true, lets_iff, decide_eq_true_eq] at hw hf hab
  simp only [gtoks] at hm
  obtain ⟨u, ts', rfl, hu, hm⟩ := hm.cons_inv
  obtain ⟨t, us, rfl, ht, hm⟩ := hm.cons_inv
  have hu := VarTok.of hu
  have ht' : t.type = .Equal := ht.type
  obtain ⟨n, hg, hn⟩ := h.rhs (us := us) ha rfl hw.1 hm hf.1 hf.2 hw.2 (.inl ⟨rfl, rfl⟩) (by simp only [List.length_cons]; omega)
    (fun h => by simpa only [gdo] using h) c (t :: u :: pv) rest ds (p :: qs)
  obtain ⟨x, hx, hnx⟩ := hg.nsx
  refine ⟨.assignment t (.identifier u (L.contains v.name)) n, .of (by simp only [gsx]; rw [hx]; rfl)
    (Nsx.assignment (hu.target _) hnx) rfl rfl, nofun, fun a s' hr => ?_⟩
  refine .first (fun _ => parseIdentifier) (fun R => hu.null R) (.of fun R => run_identifier hu.name _ _ _ _ _ _) ?_
  obtain ⟨u', us', rfl, -⟩ := hm.first
  exact assign_step ht' hab rfl rfl (hu.adds _ _ _ _ _ _) hg.plain (need_comma hf.1) hn (by simpa only [gram] using hr)

/-- The operator of an assignment, without `=`. -/
theorem Aop.op (o : Aop) : (tyValue o.type).dropLast = o.text := by cases o <;> rfl

theorem opasgn_ok (v : Var) (o : Aop) (e : Ex .ex) (h : ExOk e) : ExOk (.opasgn v o e) := by
  intro L w ts hw hm c pv f rest d ds p qs ia ha
  have hf := ha.after
  have hab := ha.above
  simp only [gwf, gafter, glhs, Bool.and_eq_true, lets_iff, decide_eq_true_eq] at hw hf hab
  simp only [gtoks] at hm
  obtain ⟨u, ts', rfl, hu, hm⟩ := hm.cons_inv
  obtain ⟨t, us, rfl, ht, hm⟩ := hm.cons_inv
  have hu := VarTok.of hu
  have ht' : t.type = o.type := ht.type
  obtain ⟨n, hg, hn⟩ := h.rhs (us := us) ha rfl hw.1 hm hf.1 hf.2 hw.2 (.inl ⟨rfl, rfl⟩) (by simp only [List.length_cons]; omega)
    (fun h => by simpa only [gdo] using h) c (t :: u :: pv) rest ds (p :: qs)
  obtain ⟨x, hx, hnx⟩ := hg.nsx
  obtain ⟨m, h1, h2⟩ : ∃ m, Good L (.opasgn v o e) m ∧
      Evals (fun R => parseOpAssign R (.identifier u (L.contains v.name))) c ⟨u :: pv, t :: (us ++ f :: rest), d :: ds, p :: qs, L⟩ m
        ⟨us.reverse ++ t :: u :: pv, f :: rest, d :: ds, p :: qs, out (v.bind L) e⟩ := by
    cases o with
    | and =>
      refine ⟨.opAssignAnd t (.identifier u true) n, .of (by simp only [gsx]; rw [hx]; rfl) (.opAssignAnd hu hnx) rfl rfl,
        hn.by1 fun R hR => ?_⟩
      unfold parseOpAssign parseOpAssignRest
      psim [hu.adds, ht', show Aop.type .and = .AmpersandAmpersandEqual from rfl, hR]
    | or =>
      refine ⟨.opAssignOr t (.identifier u true) n, .of (by simp only [gsx]; rw [hx]; rfl) (.opAssignOr hu hnx) rfl rfl,
        hn.by1 fun R hR => ?_⟩
      unfold parseOpAssign parseOpAssignRest
      psim [hu.adds, ht', show Aop.type .or = .PipePipeEqual from rfl, hR]
    | _ =>
      refine ⟨.opAssign t _ (.identifier u true) n, .of (by simp only [gsx]; rw [hx]; rfl) (.opAssign hu hnx _) rfl rfl,
        hn.by1 fun R hR => ?_⟩
      unfold parseOpAssign parseOpAssignRest
      psim [hu.adds, ht']
      exact P.bind_eq hR
  refine ⟨m, h1, nofun, fun a s' hr => ?_⟩
  refine .first (fun _ => parseIdentifier) (fun R => hu.null R) (.of fun R => run_identifier hu.name _ _ _ _ _ _) ?_
  exact infix_step (fun R => parseOpAssign R (.identifier u (L.contains v.name))) (by rw [ht']; exact o.valid) (prec_op ht' _)
    (above.op hab (m := 5) (q := .OP_ASSIGNMENT_LHS) (by decide) (by omega)) nofun nofun rfl (fun R => left_op ht' R _ _ _) h2
    (by simpa only [gram] using hr)

/-! ### Several targets -/

theorem Evals.assignIdent {b : Bool} {c : Cx} {s s' : PS} {a : Node} (h : Evals (fun R => parseAssignmentIdentifier R b) c s a s') :
    Evals (fun R => R.assignIdent b) c s a s' := by
  obtain ⟨N, h⟩ := h
  refine ⟨N + 1, fun n hn => ?_⟩
  obtain ⟨m, rfl⟩ : ∃ m, n = m + 1 := ⟨n - 1, by omega⟩
  exact h m (by omega)

/-- The body of the loop over what follows a target. -/
def targetBody (R : Rec) (n : Node) : P (Loop Node Node) := do
  let t ← cur
  match t.type with
  | .ConstantResolution =>
    let n ← parseConstantResolution R n
    pure (Loop.again n)
  | .Dot =>
    let n ← parseSend n
    pure (Loop.again n)
  | .LBracket =>
    if bracketIsRef n t then
      let n ← parseRef R n
      pure (Loop.again n)
    else pure (Loop.done n)
  | _ => pure (Loop.done n)

/-- A target. -/
theorem target_evals {v : Var} {u f : Token} (hu : VarTok v u) (h1 : f.type ≠ .ConstantResolution) (h2 : f.type ≠ .Dot)
    (h3 : f.type ≠ .LBracket) (b : Bool) (c : Cx) (pv rest : List Token) (ds : List Nat) (ps : List Prec) (L : List Str) :
    Evals (fun R => R.assignIdent b) c ⟨pv, u :: f :: rest, ds, ps, L⟩ (.identifier u (L.contains v.name))
      ⟨u :: pv, f :: rest, ds, ps, L⟩ := by
  have hx : EvalsLoop targetBody (.identifier u (L.contains v.name)) c ⟨u :: pv, f :: rest, ds, ps, L⟩
      (.identifier u (L.contains v.name)) ⟨u :: pv, f :: rest, ds, ps, L⟩ := by
    refine .done (.of fun R => ?_)
    unfold targetBody
    psim []
  refine Evals.assignIdent (hx.evals.by1 fun R hR => ?_)
  have hi := run_identifier hu.name c pv (f :: rest) ds ps L
  unfold parseAssignmentIdentifier
  unfold targetBody at hR
  cases hu with
  | loc h | ivar h | cvar h | gvar h | const h =>
    psim [h, hi]
    exact hR

/-- The body of the loop over targets. -/
def masgnBody (R : Rec) (ns : List Node) : P (Loop (List Node) (List Node)) := do
  if (← curTy) = .Comma then
    advance
    let ty ← curTy
    if ty = .RParen ∨ ty = .Equal ∨ ty = .InKeyword then pure (Loop.done ns)
    else
      let n ← R.assignIdent true
      pure (Loop.again (ns ++ [n]))
  else pure (Loop.done ns)

theorem VarTok.type {v : Var} {t : Token} (h : VarTok v t) : t.type ≠ .RParen ∧ t.type ≠ .Equal ∧ t.type ≠ .InKeyword := by
  cases h with
  | loc h | ivar h | cvar h | gvar h | const h => rw [h]; exact ⟨nofun, nofun, nofun⟩

/-- Further targets. -/
theorem targets_evals {f : Token} (hf : f.type = .Equal) (c : Cx) (rest : List Token) (ds : List Nat) (ps : List Prec) (L : List Str) :
    ∀ (vs : List Var) (ts : List Token), Ms (targets vs) ts → ∀ (acc : List Node) (pv : List Token), ∃ ns,
      List.Forall₂ (fun n v => ∃ u, n = .identifier u (L.contains v.name) ∧ VarTok v u) ns vs ∧
      EvalsLoop masgnBody acc c ⟨pv, ts ++ f :: rest, ds, ps, L⟩ (acc ++ ns) ⟨ts.reverse ++ pv, f :: rest, ds, ps, L⟩
  | [], ts, hm, acc, pv => by
    cases hm.nil_inv
    refine ⟨[], .nil, .done (.of fun R => ?_)⟩
    unfold masgnBody
    psim [hf, List.append_nil]
  | v :: vs, ts, hm, acc, pv => by
    unfold targets at hm
    obtain ⟨t, ts, rfl, ht, hm⟩ := hm.cons_inv
    obtain ⟨u, ts, rfl, hu, hm⟩ := hm.cons_inv
    have ht' : t.type = .Comma := ht.type
    have hu := VarTok.of hu
    obtain ⟨ns, h1, h2⟩ := targets_evals hf c rest ds ps L vs ts hm (acc ++ [.identifier u (L.contains v.name)]) (u :: t :: pv)
    obtain ⟨g, rest', hg, hgt⟩ : ∃ g rest', ts ++ f :: rest = g :: rest' ∧ (g.type = .Comma ∨ g.type = .Equal) := by
      cases vs with
      | nil =>
        cases hm.nil_inv
        exact ⟨f, rest, rfl, .inr hf⟩
      | cons v' vs =>
        unfold targets at hm
        obtain ⟨g, ts, rfl, hg, -⟩ := hm.cons_inv
        exact ⟨g, _, rfl, .inl hg.type⟩
    have he := target_evals (f := g) hu (by rcases hgt with h | h <;> rw [h] <;> nofun)
      (by rcases hgt with h | h <;> rw [h] <;> nofun) (by rcases hgt with h | h <;> rw [h] <;> nofun) true c (t :: pv) rest' ds ps L
    obtain ⟨k1, k2, k3⟩ := hu.type
    refine ⟨.identifier u (L.contains v.name) :: ns, .cons ⟨u, rfl, hu⟩ h1, .again (he.by1 fun R hR => ?_)
      (by simpa only [gram, hg] using h2)⟩
    unfold masgnBody
    psim [ht', hg, k1, k2, k3, hR]

/-- The names that targets make local variables. -/
theorem targets_names {L : List Str} : ∀ {ns : List Node} {vs : List Var},
    List.Forall₂ (fun n v => ∃ u, n = .identifier u (L.contains v.name) ∧ VarTok v u) ns vs →
    ∃ xs, masgnNamesList ns = some xs ∧ ∀ K, xs ++ K = binds K vs
  | _, _, .nil => ⟨[], rfl, fun _ => rfl⟩
  | _, _, .cons ⟨u, hn, hu⟩ h => by
    subst hn
    obtain ⟨xs, h1, h2⟩ := targets_names h
    obtain ⟨ys, h3, h4⟩ := hu.names
    refine ⟨ys ++ xs, ?_, fun K => ?_⟩
    · show (masgnNames _ >>= fun a => masgnNamesList _ >>= fun b => pure (a ++ b)) = _
      unfold masgnNames
      rw [h3, h1]
      rfl
    · rw [List.append_assoc, h2, h4]
      rfl

theorem targets_target {L : List Str} {ns : List Node} {vs : List Var}
    (h : List.Forall₂ (fun n v => ∃ u, n = .identifier u (L.contains v.name) ∧ VarTok v u) ns vs) : List.Forall₂ Target ns vs := by
  induction h with
  | nil => exact .nil
  | cons h _ ih =>
    obtain ⟨u, rfl, hu⟩ := h
    exact .cons (hu.target _) ih

/-- The targets of an assignment. -/
theorem masgn_step {v : Var} {vs : List Var} {u : Token} {ts : List Token} (hu : VarTok v u) {t : Token} (ht : t.type = .Equal)
    (hm : Ms (targets vs) ts) (hv : vs ≠ []) {p : Prec} {ia : IterAllow} {c : Cx} {pv us : List Token} {d : Nat} {ds : List Nat}
    {qs : List Prec} {L : List Str} (hp : above p 0 = true) : ∃ ns xs, List.Forall₂ Target ns (v :: vs) ∧
      masgnNamesList ns = some xs ∧ (∀ K, xs ++ K = binds K (v :: vs)) ∧
      ∀ b s', EvalsRest p ia (.multipleAssignment u ns 0) c ⟨ts.reverse ++ u :: pv, t :: us, d :: ds, p :: qs, L⟩ b s' →
        EvalsFrom p ia c ⟨pv, u :: (ts ++ t :: us), d :: ds, p :: qs, L⟩ b s' := by
  obtain ⟨ns, h1, h2⟩ := targets_evals ht c us (d :: ds) (p :: qs) L vs ts hm [.identifier u (L.contains v.name)] (u :: pv)
  have h3 : List.Forall₂ (fun n v => ∃ u, n = .identifier u (L.contains v.name) ∧ VarTok v u)
      (.identifier u (L.contains v.name) :: ns) (v :: vs) := .cons ⟨u, rfl, hu⟩ h1
  obtain ⟨xs, h4, h5⟩ := targets_names h3
  refine ⟨_, xs, targets_target h3, h4, h5, fun b s' h => ?_⟩
  refine .first (fun _ => parseIdentifier) (fun R => hu.null R) (.of fun R => run_identifier hu.name _ _ _ _ _ _) ?_
  cases vs with
  | nil => exact absurd rfl hv
  | cons v' vs =>
    unfold targets at hm
    obtain ⟨g, ts, rfl, hg, hm⟩ := hm.cons_inv
    have hg' : g.type = .Comma := hg.type
    refine infix_step (fun R => parseMultipleAssignment R (.identifier u (L.contains v.name))) (by rw [hg']; rfl)
      (q := .ARRAY) (by unfold getPrec; rw [hg']) (above.op hp (m := 0) (by decide) (by omega)) nofun nofun rfl
      (fun R => by unfold leftDenotation; rw [hg']) (h2.evals.by1 fun R hR => ?_) h
    unfold parseMultipleAssignment
    unfold masgnBody at hR
    have hia : Node.isAssignable (.identifier u (L.contains v.name)) = true := rfl
    simp only [hia, if_true]
    exact P.bind_eq hR

theorem multi_low {p : Prec} (h : above p 0 = true) : multi p = true := by
  have := above.op h (m := 0) (q := .ARRAY) (by decide) (by omega)
  cases p <;> first | rfl | cases this

theorem masgn_adds {ns : List Node} {xs : List Str} {vs : List Var} {g : Token} (h2 : masgnNamesList ns = some xs)
    (h3 : ∀ K, xs ++ K = binds K vs) (c : Cx) (pv ts : List Token) (ds : List Nat) (ps : List Prec) (L : List Str) :
    addAssignmentLocals (.multipleAssignment g ns 0) c ⟨pv, ts, ds, ps, L⟩ = .ok () ⟨pv, ts, ds, ps, binds L vs⟩ := by
  show addNames (masgnNamesList ns) c _ = _
  rw [h2, run_addNames, h3]

theorem masgn_ok (v u : Var) (vs : List Var) (e : Ex .ex) (h : ExOk e) : ExOk (.masgn v u vs e) := by
  intro L w ts hw hm c pv f rest d ds p qs ia ha
  have hf := ha.after
  have hab := ha.above
  simp only [gwf, gafter, glhs, Bool.and_eq_true, lets_iff, decide_eq_true_eq] at hw hf hab
  simp only [gtoks] at hm
  obtain ⟨g, ts', rfl, hu, hm⟩ := hm.cons_inv
  obtain ⟨tv, t, us, rfl, hmt, ht, hm⟩ := hm.mid_inv
  have hu := VarTok.of hu
  have ht' : t.type = .Equal := ht.type
  obtain ⟨ns, xs, h1, h2, h3, h4⟩ := masgn_step (ia := ia) (c := c) (pv := pv) (us := us ++ f :: rest) (d := d) (ds := ds) (qs := qs)
    (L := L) hu ht' hmt nofun hab
  obtain ⟨n, hg, hn⟩ := h.rhs (us := us) ha rfl hw.1 hm hf.1 hf.2 hw.2 (.inl ⟨rfl, rfl⟩) (by simp; omega)
    (fun h => by simpa only [gdo] using h) c (t :: (tv.reverse ++ g :: pv)) rest ds (p :: qs)
  obtain ⟨x, hx, hnx⟩ := hg.nsx
  obtain ⟨u', us', rfl, -⟩ := hm.first
  refine ⟨.assignment t (.multipleAssignment g ns 0) (.toArray u' n), .of (by simp only [gsx]; rw [hx]; rfl)
    (Nsx.masgn h1 hnx) rfl rfl, nofun, fun a s' hr => ?_⟩
  have := h4 a s' (infix_step (fun R => parseAssignment R (multi p) (.multipleAssignment g ns 0)) (by rw [ht']; rfl)
    (prec_equal ht' _) (above.op hab (m := 5) (by decide) (by omega)) nofun nofun rfl (fun R => left_equal ht' R _ _ _)
    (hn.by1 fun R hR => ?_) (by simpa only [gram] using hr))
  · simpa only [gram] using this
  · unfold parseAssignment
    simp only [gram] at hR
    psim [show Node.isSplat (.multipleAssignment g ns 0) = false from rfl, masgn_adds h2 h3, run_value hg.plain (need_comma hf.1) hR]

theorem masgnL_ok (v u : Var) (vs : List Var) (e : Ex .ex) (a : Ex .args) (h : ExOk e) (ha : AOk a) : ExOk (.masgnL v u vs e a) := by
  intro L w ts hw hm c pv f rest d ds p qs ia hat
  have hf := hat.after
  have hab := hat.above
  have hsz := hat.size
  have hdo := hat.has
  simp only [gwf, gafter, glhs, gdo, Bool.and_eq_true, Bool.or_eq_true, lets_iff, decide_eq_true_eq, Bool.not_eq_true'] at hw hf hab hdo
  simp only [gtoks] at hm
  obtain ⟨⟨⟨⟨⟨hw1, hw2⟩, hw3⟩, hw4⟩, hw5⟩, hw6⟩ := hw
  obtain ⟨g, ts', rfl, hu, hm⟩ := hm.cons_inv
  obtain ⟨tv, t, us, rfl, hmt, ht, hm⟩ := hm.mid_inv
  obtain ⟨te, k, ta, rfl, hme, hk, hma⟩ := hm.mid_inv
  have hu := VarTok.of hu
  have ht' : t.type = .Equal := ht.type
  have hk' : k.type = .Comma := hk.type
  simp only [List.length_append, List.length_cons] at hsz
  have hd : f.type = .DoKeyword → d ≠ 0 := fun h => (hat.do_ h).resolve_right nofun
  obtain ⟨ns, xs, h1, h2, h3, h4⟩ := masgn_step (ia := ia) (c := c) (pv := pv) (us := te ++ k :: ta ++ f :: rest) (d := d) (ds := ds) (qs := qs)
    (L := L) hu ht' hmt nofun hab
  obtain ⟨n, hg, hn⟩ := h.elem (q := .ASSIGNMENT_RHS) (f := k) (d := d) (j := 5) hw1 hme hw2 (by decide) (.comma hk') (by decide)
    (by rw [hk']; exact hw3) (by omega) (fun h => (hdo (.inl h)).1) c (t :: (tv.reverse ++ g :: pv)) (ta ++ f :: rest) ds (p :: qs)
  have hsi : ∀ {k : Kind} (a : Ex k), values a = true → simple a = true := by
    intro k a
    induction a <;> intro h <;> first | (cases h; done) | rfl | (rename_i ih; exact ih h)
  obtain ⟨ms, hms, hl⟩ := simple_rest ha.simple (j := 5) (q := .ASSIGNMENT_RHS) (ts := k :: ta) (f := f) (d := d) (by decide) hw4
    (hsi a hw5) (by unfold sep; rw [if_neg (by rw [hw6]; nofun)]; exact .cons1 hk hma) ⟨.inl hf.1, hd⟩ (need_comma hf.1)
    (fun _ => hf.2) (by simp only [List.length_cons]; omega) (fun h => (hdo (.inr h)).1) c (te.reverse ++ t :: (tv.reverse ++ g :: pv)) rest ds (p :: qs)
  obtain ⟨x, hx, hnx⟩ := hg.nsx
  obtain ⟨u', us', rfl, -⟩ := hme.first
  refine ⟨.assignment t (.multipleAssignment g ns 0) (.array u' (n :: ms)), .of (by simp only [gsx]; rw [hx]; rfl)
    (Nsx.masgnL h1 (.cons hnx hms)) rfl rfl, nofun, fun a s' hr => ?_⟩
  have := h4 a s' (infix_step (fun R => parseAssignment R (multi p) (.multipleAssignment g ns 0)) (by rw [ht']; rfl)
    (prec_equal ht' _) (above.op hab (m := 5) (by decide) (by omega)) nofun nofun rfl (fun R => left_equal ht' R _ _ _)
    (hn.by2 (hl [n]).evals fun R hR hR' => ?_) (by simpa only [gram] using hr))
  · simpa only [gram] using this
  · unfold parseAssignment parseAssignmentValue
    rw [← commaLoop_eq] at hR'
    simp only [gram] at hR hR'
    psim [show Node.isSplat (.multipleAssignment g ns 0) = false from rfl, masgn_adds h2 h3, multi_low hab, hR, hk', hR']

end NP.Gram
