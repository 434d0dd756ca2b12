import Verif.Proofs.Gram.Tr

/-! Operators. -/

namespace NP.Gram
open Spec

/-- A part of an expression. -/
theorem At.sub {e x : Ex .ex} {L L' : List Str} {ts us : List Token} {f g : Token} {d : Nat} {p q : Prec} {ia : IterAllow}
    (ha : At e L ts f d p ia) (h1 : Gram.above q (lhs x) = true) (h2 : Gram.after x g.type = true)
    (h3 : us.length ≤ ts.length) (h4 : g.type = .DoKeyword → d ≠ 0 ∨ callee L' x = true) (h5 : hasDo x = true → hasDo e = true) :
    At x L' us g d q .CURLY_AND_BLOCK where
  above := h1
  after := h2
  iter := nofun
  size := by have := ha.size; omega
  do_ := h4
  has h := ⟨(ha.has (h5 h)).1, rfl⟩

/-- A part at the start. -/
theorem At.left {e x : Ex .ex} {L L' : List Str} {ts us : List Token} {f g : Token} {d : Nat} {p : Prec} {ia : IterAllow}
    (ha : At e L ts f d p ia) (h1 : lhs e ≤ lhs x) (h2 : Gram.after x g.type = true)
    (h3 : us.length ≤ ts.length) (h4 : g.type = .DoKeyword → d ≠ 0 ∨ callee L' x = true) (h5 : hasDo x = true → hasDo e = true) :
    At x L' us g d p ia where
  above := above.mono ha.above h1
  after := h2
  iter := ha.iter
  size := by have := ha.size; omega
  do_ := h4
  has h := ha.has (h5 h)

/-- An expression that starts with another one and an operator. -/
theorem Parsed.infix {e l : Ex .ex} {L : List Str} {w : Option Bool} {tl tr : List Token} {t : Token} {c : Cx} {pv : List Token}
    {f : Token} {rest : List Token} {d : Nat} {ds : List Nat} {p : Prec} {qs : List Prec} {ia : IterAllow} {q : Prec}
    (hl : ExOk l) (hw : WF L l = true) (hm : Ms (toks w l) tl) (ha : At l L tl t d p ia) (hv : t.type.isValid = true)
    (hp : ∀ n, Good L l n → (callee L l = true → Callee n (tl.reverse ++ pv)) → getPrec t (some n) t = q)
    (hq : q.higher p = true) (h1 : q ≠ .ITER_BLOCK) (h2 : q ≠ .ITER_CURLY)
    (hs : ∀ n, Good L l n → (callee L l = true → Callee n (tl.reverse ++ pv)) → ∃ m, Good L e m ∧
      (callee L e = true → Callee m (tr.reverse ++ t :: (tl.reverse ++ pv))) ∧
      ∃ F : Rec → P Node, (∀ R, leftDenotation R t ((tr ++ f :: rest).headD {}) n p = some (F R)) ∧
        Evals F c ⟨tl.reverse ++ pv, t :: (tr ++ f :: rest), d :: ds, p :: qs, out L l⟩ m
          ⟨tr.reverse ++ t :: (tl.reverse ++ pv), f :: rest, d :: ds, p :: qs, out L e⟩) :
    Parsed e L (tl ++ t :: tr) c pv f rest d ds p qs ia := by
  obtain ⟨n, hg, hc, hn⟩ := hl L w tl hw hm c pv t (tr ++ f :: rest) d ds p qs ia ha
  obtain ⟨m, hg', hc', F, hF, hE⟩ := hs n hg hc
  have he : (tl ++ t :: tr).reverse ++ pv = tr.reverse ++ t :: (tl.reverse ++ pv) := by simp
  refine ⟨m, hg', by rw [he]; exact hc', fun a s' h => ?_⟩
  rw [he] at h
  rw [List.append_assoc, List.cons_append]
  exact hn a s' (infix_step F hv (hp n hg hc) hq h1 h2 (plain_key hg.plain) hF hE h)

/-- The precedence of an operator. -/
def Bop.prec (o : Bop) : Prec := folPrec o.type

theorem Bop.ty (o : Bop) : o.type.isValid = true ∧ o.type ≠ .DoKeyword ∧ need o.type ≤ 20 ∧
    (o.level, o.prec) ∈ leftOps ∧ above o.prec o.needR = true ∧ ending o.level o.prec = true ∧ o.level ≤ 20 ∧
    o.prec ≠ .ITER_BLOCK ∧ o.prec ≠ .ITER_CURLY := by
  revert o
  intro o
  cases o <;> decide

theorem plain_regexp {n : Node} (h : plain n = true) : ∀ t s o, n ≠ .regexp t s o := by
  rintro t s o rfl
  cases h

theorem mkAnd_nsx {t : Token} {n m : Node} {x y : Sexp} (h : Nsx n x) (h' : Nsx m y) :
    ∃ z, grouped (cs! "and") (shapeOf n == .and) [x] [y] = [z] ∧ Nsx (mkAnd t n m) z ∧ plain (mkAnd t n m) = true ∧
      shapeOf (mkAnd t n m) = .and := by
  unfold mkAnd
  split
  case h_1 lt a b =>
    obtain ⟨-, ht⟩ := h
    simp only [tr, Option.bind_eq_bind, Option.bind_eq_some_iff, mk, Option.some.injEq, TR.mk.injEq] at ht
    obtain ⟨r, hr, q, hq, hx, -⟩ := ht
    subst hx
    exact ⟨_, rfl, ⟨rfl, by trsim [hr, hq, h'.tr, h'.app]; rfl⟩, rfl, rfl⟩
  case h_2 hn =>
    have hs : shapeOf n ≠ .and := by
      intro hs
      cases n <;> first | exact hn _ _ _ rfl | cases hs
    refine ⟨.node (cs! "and") [x, y], ?_, h.logicalAnd h', rfl, rfl⟩
    rw [beq_eq_false_iff_ne.2 hs]
    rfl

theorem mkOr_nsx {t : Token} {n m : Node} {x y : Sexp} (h : Nsx n x) (h' : Nsx m y) :
    ∃ z, grouped (cs! "or") (shapeOf n == .or) [x] [y] = [z] ∧ Nsx (mkOr t n m) z ∧ plain (mkOr t n m) = true ∧
      shapeOf (mkOr t n m) = .or := by
  unfold mkOr
  split
  case h_1 lt a b =>
    obtain ⟨-, ht⟩ := h
    simp only [tr, Option.bind_eq_bind, Option.bind_eq_some_iff, mk, Option.some.injEq, TR.mk.injEq] at ht
    obtain ⟨r, hr, q, hq, hx, -⟩ := ht
    subst hx
    exact ⟨_, rfl, ⟨rfl, by trsim [hr, hq, h'.tr, h'.app]; rfl⟩, rfl, rfl⟩
  case h_2 hn =>
    have hs : shapeOf n ≠ .or := by
      intro hs
      cases n <;> first | exact hn _ _ _ rfl | cases hs
    refine ⟨.node (cs! "or") [x, y], ?_, h.logicalOr h', rfl, rfl⟩
    rw [beq_eq_false_iff_ne.2 hs]
    rfl

theorem run_match {R : Rec} {l r : Node} {t : Token} {c : Cx} {pv ts : List Token} {ds : List Nat} {ps : List Prec}
    {L : List Str} {s : PS} (h : plain l = true) (h' : plain r = true)
    (hR : R.expr .EQUALITY .CURLY_AND_BLOCK c ⟨t :: pv, ts, ds, ps, L⟩ = .ok r s) :
    parseMatch R l c ⟨pv, t :: ts, ds, ps, L⟩ = .ok (.call t l (cs! "=~") [r]) s := by
  unfold parseMatch
  psim [hR]
  split
  · exact absurd rfl (plain_regexp h _ _ _)
  · split
    · exact absurd rfl (plain_regexp h' _ _ _)
    · rfl

theorem shapeOf_int {n : Node} {k : Int} (h : shapeOf n = .int k) : ∃ u, n = .fixnum u k := by
  cases n <;> first | cases h; exact ⟨_, rfl⟩ | cases h

theorem Shape.isInt_iff {s : Shape} (h : s.isInt = true) : ∃ n, s = .int n := by
  cases s <;> first | exact ⟨_, rfl⟩ | cases h

theorem binary_range {o : Bop} {l r : Shape} {x y : List Sexp} (h : l.isInt = false ∨ r.isInt = false)
    (ho : o = .dot2 ∨ o = .dot3) :
    binary o l r x y = nd (if o == .dot3 then cs! "dot3" else cs! "dot2") (x ++ y) := by
  rcases ho with rfl | rfl <;> cases l <;> cases r <;> first | rfl | (rcases h with h | h <;> cases h)

theorem bin_ok (o : Bop) (l r : Ex .ex) (hl : ExOk l) (hr : ExOk r) : ExOk (.bin o l r) := by
  intro L w ts hw hm c pv f rest d ds p qs ia ha
  have hf := ha.after
  have hab := ha.above
  simp only [gwf, gafter, glhs, Bool.and_eq_true, lets_iff, decide_eq_true_eq] at hw hf hab
  simp only [gtoks] at hm
  obtain ⟨⟨⟨hw1, hw2⟩, hw3⟩, hw4⟩ := hw
  obtain ⟨tl, t, tr, rfl, hm1, ht, hm2⟩ := hm.mid_inv
  have ht' : t.type = o.type := ht.type
  obtain ⟨ho1, ho2, ho3, ho4, ho5, ho6, ho7, ho8, ho9⟩ := o.ty
  have hdo : hasDo l = true → hasDo (.bin o l r) = true := fun h => by simp only [gdo, h, Bool.true_or]
  have hdo' : hasDo r = true → hasDo (.bin o l r) = true := fun h => by simp only [gdo, h, Bool.or_true]
  have hd : f.type = .DoKeyword → d ≠ 0 := fun h => (ha.do_ h).resolve_right nofun
  refine Parsed.infix (q := o.prec) (w := w) hl hw1 hm1
    (ha.left (by simp only [glhs]; omega) (by rw [ht']; exact hw3) (by simp) (fun h => absurd (ht'.symm.trans h) ho2) hdo)
    (by rw [ht']; exact ho1) (fun n _ _ => ?_) (above.op hab ho4 (by omega)) ho8 ho9 fun n hg _ => ?_
  · rw [getPrec_follow (by rw [ht']; exact follows_mem ho3) (by rw [ht']; exact ho2), ht']
    rfl
  have hp : getPrec t (some n) t = o.prec := by
    rw [getPrec_follow (by rw [ht']; exact follows_mem ho3) (by rw [ht']; exact ho2), ht']
    rfl
  obtain ⟨m, hg', hm'⟩ := hr.nested hw2 hm2
    (ha.sub (q := o.prec) (g := f) (us := tr) (above.mono ho5 hw4) hf.2 (by simp; omega) (fun h => .inl (hd h)) hdo')
    ⟨by omega, ending.at ho6 hf.1 (by omega), hd⟩ c (t :: (tl.reverse ++ pv)) rest ds (p :: qs)
  obtain ⟨x, hx, hnx⟩ := hg.nsx
  obtain ⟨y, hy, hny⟩ := hg'.nsx
  obtain ⟨u, tr', rfl, hu, -, hus⟩ := hm2.first
  have hln := (Opens.of hu).line
  have hra := (Opens.of hu).range
  rw [List.cons_append] at hm'
  have infixes : ∀ op, tyValue o.type = op → (∀ x y, binary o (shape l) (shape r) x y = nd (cs! "call") (x ++ .sym op :: y)) →
      shape (.bin o l r) = .other →
      (∀ R, leftDenotation R t u n p = some (parseInfix R n)) → ∃ m, Good L (.bin o l r) m ∧
      (callee L (.bin o l r) = true → Callee m ((u :: tr').reverse ++ t :: (tl.reverse ++ pv))) ∧
      ∃ F : Rec → P Node, (∀ R, leftDenotation R t ((u :: tr' ++ f :: rest).headD {}) n p = some (F R)) ∧
        Evals F c ⟨tl.reverse ++ pv, t :: (u :: tr' ++ f :: rest), d :: ds, p :: qs, out L l⟩ m
          ⟨(u :: tr').reverse ++ t :: (tl.reverse ++ pv), f :: rest, d :: ds, p :: qs, out L (.bin o l r)⟩ := by
    intro op h1 h2 h3 h4
    refine ⟨.infixOp t n op m, .of (by simp only [gsx]; rw [h2, hx, hy]; rfl) (hnx.infixOp hny op) rfl h3.symm, nofun,
      fun R => parseInfix R n, h4, hm'.by1 fun R hR => ?_⟩
    unfold parseInfix
    psim [ht', hp, hR, h1]
  cases o with
  | land | kand =>
    obtain ⟨z, hz, hnz, hpz, hsz⟩ := mkAnd_nsx (t := t) hnx hny
    refine ⟨mkAnd t n m, .of (by simp only [gsx]; unfold binary; rw [hx, hy, ← hg.shape]; exact hz) hnz hpz hsz, nofun,
      fun R => parseLogical R n, fun R => by unfold leftDenotation; rw [ht']; rfl, hm'.by1 fun R hR => ?_⟩
    unfold parseLogical
    psim [ht', show Bop.type .land = .AmpersandAmpersand from rfl, show Bop.type .kand = .AndKeyword from rfl]
    erw [hR]
    psim []
  | lor | kor =>
    obtain ⟨z, hz, hnz, hpz, hsz⟩ := mkOr_nsx (t := t) hnx hny
    refine ⟨mkOr t n m, .of (by simp only [gsx]; unfold binary; rw [hx, hy, ← hg.shape]; exact hz) hnz hpz hsz, nofun,
      fun R => parseLogical R n, fun R => by unfold leftDenotation; rw [ht']; rfl, hm'.by1 fun R hR => ?_⟩
    unfold parseLogical
    psim [ht', show Bop.type .lor = .PipePipe from rfl, show Bop.type .kor = .OrKeyword from rfl]
    erw [hR]
    psim []
  | mat =>
    refine ⟨.call t n (cs! "=~") [m], .of (by simp only [gsx]; unfold binary; rw [hx, hy]; rfl) (hnx.call (.one hny) _) rfl rfl,
      nofun, fun R => parseMatch R n, fun R => by unfold leftDenotation; rw [ht']; rfl, hm'.by1 fun R hR => ?_⟩
    exact run_match hg.plain hg'.plain hR
  | nmat =>
    refine ⟨.notMatch t (.call t n (cs! "=~") [m]), .of (by simp only [gsx]; unfold binary; rw [hx, hy]; rfl)
      (hnx.call (.one hny) _).notMatch rfl rfl,
      nofun, fun R => parseNotMatch R n, fun R => by unfold leftDenotation; rw [ht']; rfl, hm'.by1 fun R hR => ?_⟩
    unfold parseNotMatch
    psim []
    rw [run_match hg.plain hg'.plain hR]
    psim []
  | dot2 | dot3 =>
    have hrun : ∀ R : Rec, R.expr .RANGE .CURLY_AND_BLOCK c ⟨t :: (tl.reverse ++ pv), u :: (tr' ++ f :: rest), d :: ds, p :: qs,
        out L l⟩ = .ok m ⟨(u :: tr').reverse ++ t :: (tl.reverse ++ pv), f :: rest, d :: ds, p :: qs, out (out L l) r⟩ →
        parseRange R n c ⟨tl.reverse ++ pv, t :: (u :: tr' ++ f :: rest), d :: ds, p :: qs, out L l⟩ =
        .ok (.range t n m (t.type == .DotDotDot))
          ⟨(u :: tr').reverse ++ t :: (tl.reverse ++ pv), f :: rest, d :: ds, p :: qs, out (out L l) r⟩ := fun R hR => by
      unfold parseRange
      psim [hln, hra, hR]
    rw [ht'] at hrun
    refine ⟨_, ⟨?_, rfl, rfl⟩, nofun, fun R => parseRange R n, fun R => by unfold leftDenotation; rw [ht']; rfl,
      hm'.by1 fun R hR => hrun R hR⟩
    by_cases hi : (shape l).isInt = true ∧ (shape r).isInt = true
    · obtain ⟨a, h1⟩ := Shape.isInt_iff hi.1
      obtain ⟨b, h2⟩ := Shape.isInt_iff hi.2
      obtain ⟨_, rfl⟩ := shapeOf_int (hg.shape.trans h1)
      obtain ⟨_, rfl⟩ := shapeOf_int (hg'.shape.trans h2)
      exact ⟨_, by simp only [gsx]; rw [h1, h2]; rfl, (Nsx.rangeInt _ _ _ _ _).tr⟩
    · have hi' : (shape l).isInt = false ∨ (shape r).isInt = false := by
        rwa [not_and_or, Bool.not_eq_true, Bool.not_eq_true] at hi
      refine ⟨_, by simp only [gsx]; rw [binary_range hi' (by simp), hx, hy]; rfl, (hnx.range hny _ ?_).tr⟩
      rwa [hg.shape, hg'.shape]
  | add | sub =>
    refine infixes _ rfl (fun _ _ => rfl) rfl fun R => ?_
    unfold leftDenotation
    rw [ht']
    simp only [Bop.type, hus true rfl, Bool.or_true, Bool.true_or, if_true]
  | _ => exact infixes _ rfl (fun _ _ => rfl) rfl fun R => by unfold leftDenotation; rw [ht']; rfl

/-- An expression that follows a token and ends the construct. -/
theorem ExOk.last {e x : Ex .ex} (h : ExOk x) {L L' : List Str} {w : Option Bool} {ts us : List Token} {f : Token} {d : Nat}
    {p q : Prec} {ia : IterAllow} {n : Nat} (ha : At e L ts f d p ia) (hc : callee L e = false) (hw : WF L' x = true)
    (hm : Ms (toks w x) us) (hf : need f.type ≤ n) (hn : n ≤ 20) (hq : ending n q = true) (hf' : Gram.after x f.type = true)
    (hl : above q (lhs x) = true) (hs : us.length ≤ ts.length) (hh : hasDo x = true → hasDo e = true) (c : Cx)
    (pv rest : List Token) (ds : List Nat) (ps : List Prec) :
    ∃ n, Good L' x n ∧ Evals (fun R => R.expr q .CURLY_AND_BLOCK) c ⟨pv, us ++ f :: rest, d :: ds, ps, L'⟩ n
      ⟨us.reverse ++ pv, f :: rest, d :: ds, ps, out L' x⟩ := by
  have hd : f.type = .DoKeyword → d ≠ 0 := fun h => (ha.do_ h).resolve_right (by rw [hc]; nofun)
  exact h.nested hw hm (ha.sub hl hf' hs (fun h => .inl (hd h)) hh) ⟨by omega, ending.at hq hf (by omega), hd⟩ c pv rest ds ps

theorem signed_none {n : Node} {ty : Ttype} (hp : plain n = true) (hs : (shapeOf n).isInt = false) : signed ty n = none := by
  have hn : n.isNumeric = false := by cases n <;> first | rfl | (cases hp; done) | (cases hs; done)
  unfold signed
  split
  · cases n <;> first | rfl | cases hn
  · rw [if_neg]
    rw [hn]
    simp

/-- The precedence of a unary operator. -/
def Uop.prec : Uop → Prec
  | .neg => .UNARY_MINUS
  | _ => .UNARY_PLUS

theorem un_ok (o : Uop) (e : Ex .ex) (h : ExOk e) : ExOk (.un o e) := by
  intro L w ts hw hm c pv f rest d ds p qs ia ha
  have hf := ha.after
  simp only [gwf, gafter, Bool.and_eq_true, lets_iff, decide_eq_true_eq, Bool.not_eq_true'] at hw hf
  simp only [gtoks] at hm
  obtain ⟨⟨hw1, hw2⟩, hw3⟩ := hw
  obtain ⟨t, us, rfl, ht, hm⟩ := hm.cons_inv
  have ht' : t.type = o.type := ht.type
  obtain ⟨n, hg, hn⟩ := h.last (q := o.prec) (n := o.level) (us := us) ha rfl hw1 hm hf.1 (by cases o <;> decide)
    (by cases o <;> decide) hf.2 (above.mono (show above o.prec o.need = true by cases o <;> decide) hw2) (by simp)
    (fun h => by simpa only [gdo] using h) c (t :: pv) rest ds (p :: qs)
  obtain ⟨x, hx, hnx⟩ := hg.nsx
  obtain ⟨u, us', rfl, -⟩ := hm.first
  rw [List.cons_append] at hn
  have hp : getPrec t none u = o.prec := by unfold getPrec; rw [ht']; cases o <;> rfl
  by_cases ho : o = .not
  · subst ho
    refine Parsed.first (n := .not_ t n) (fun R => parseNot R) (fun R => by rw [ht']; rfl) (hn.by1 fun R hR => ?_)
      (.of (by simp only [gsx]; rw [hx]; rfl) hnx.not_ rfl rfl) nofun
    unfold parseNot
    psim [hp, hR]
  · have hsg : signed t.type n = none := by
      cases o with
      | compl =>
        unfold signed
        rw [ht']
        rfl
      | not => exact absurd rfl ho
      | neg | pos =>
        refine signed_none hg.plain ?_
        rw [hg.shape]
        exact hw3
    refine Parsed.first (n := .unaryOp t o.method n) (fun R => parseUnary R)
      (fun R => by rw [ht']; cases o <;> first | rfl | exact absurd rfl ho) (hn.by1 fun R hR => ?_)
      (.of (by simp only [gsx]; rw [hx]; rfl) (hnx.unaryOp _) rfl rfl) nofun
    unfold parseUnary
    psim [hp, hR, hsg]
    rw [ht']
    cases o with
    | not => exact absurd rfl ho
    | _ => rfl

theorem notE_ok (e : Ex .ex) (h : ExOk e) : ExOk (.notE e) := by
  intro L w ts hw hm c pv f rest d ds p qs ia ha
  have hf := ha.after
  simp only [gwf, gafter, Bool.and_eq_true, lets_iff, decide_eq_true_eq] at hw hf
  simp only [gtoks] at hm
  obtain ⟨t, us, rfl, ht, hm⟩ := hm.cons_inv
  have ht' : t.type = .NotKeyword := ht.type
  obtain ⟨n, hg, hn⟩ := h.last (q := .LOGICAL_NOT) (n := 3) (us := us) ha rfl hw.1 hm hf.1 (by decide)
    (by decide) hf.2 (above.mono (show above .LOGICAL_NOT 11 = true by decide) hw.2) (by simp)
    (fun h => by simpa only [gdo] using h) c (t :: pv) rest ds (p :: qs)
  obtain ⟨x, hx, hnx⟩ := hg.nsx
  obtain ⟨u, us', rfl, -⟩ := hm.first
  rw [List.cons_append] at hn
  have hp : getPrec t none u = .LOGICAL_NOT := by unfold getPrec; rw [ht']
  refine Parsed.first (n := .not_ t n) (fun R => parseNot R) (fun R => by rw [ht']; rfl) (hn.by1 fun R hR => ?_)
    (.of (by simp only [gsx]; rw [hx]; rfl) hnx.not_ rfl rfl) nofun
  unfold parseNot
  psim [hp, hR]

theorem tern_ok (a l r : Ex .ex) (h1 : ExOk a) (h2 : ExOk l) (h3 : ExOk r) : ExOk (.tern a l r) := by
  intro L w ts hw hm c pv f rest d ds p qs ia ha
  have hf := ha.after
  have hab := ha.above
  simp only [gwf, gafter, glhs, Bool.and_eq_true, lets_iff, decide_eq_true_eq] at hw hf hab
  simp only [gtoks] at hm
  obtain ⟨⟨⟨⟨⟨⟨hw1, hw2⟩, hw3⟩, hw4⟩, hw5⟩, hw6⟩, hw7⟩ := hw
  obtain ⟨ta, t, us, rfl, hma, ht, hm⟩ := hm.mid_inv
  obtain ⟨tl, u, tr, rfl, hml, hu, hmr⟩ := hm.mid_inv
  have ht' : t.type = .TernaryQuestion := ht.type
  have hu' : u.type = .TernaryColon := hu.type
  refine Parsed.infix (q := .TERNARY_QUESTION) (w := w) h1 hw1 hma
    (ha.left (by simp only [glhs]; omega) (by rw [ht']; exact hw4) (by simp) (fun h => by rw [ht'] at h; cases h)
      (fun h => by simp only [gdo, h, Bool.true_or])) (by rw [ht']; rfl) (fun n _ _ => by unfold getPrec; rw [ht'])
    (above.op hab (m := 7) (by decide) (by omega)) nofun nofun fun n hg _ => ?_
  obtain ⟨m, hg', hm'⟩ := h2.nested (f := u) hw2 hml
    (ha.sub (q := .TERNARY_TRUE) (us := tl) (above.mono (show above _ 7 = true by decide) hw5) (by rw [hu']; exact hw6)
      (by simp; omega) (fun h => by rw [hu'] at h; cases h) (fun h => by simp only [gdo, h, Bool.true_or, Bool.or_true]))
    ⟨by rw [hu']; decide, by rw [hu']; rfl, fun h => by rw [hu'] at h; cases h⟩ c (t :: (ta.reverse ++ pv)) (tr ++ f :: rest)
    ds (p :: qs)
  obtain ⟨k, hg'', hk⟩ := h3.last (q := .TERNARY_FALSE) (n := 7) (us := tr) ha rfl hw3 hmr hf.1 (by decide)
    (by decide) hf.2 (above.mono (show above _ 7 = true by decide) hw7) (by simp; omega)
    (fun h => by simp only [gdo, h, Bool.or_true]) c (u :: (tl.reverse ++ t :: (ta.reverse ++ pv))) rest ds (p :: qs)
  obtain ⟨x, hx, hnx⟩ := hg.nsx
  obtain ⟨y, hy, hny⟩ := hg'.nsx
  obtain ⟨z, hz, hnz⟩ := hg''.nsx
  refine ⟨.if_ t n m k, .of (by simp only [gsx]; rw [hx, hy, hz]; rfl) (hnx.if_ hny hnz) rfl rfl, nofun,
    fun R => parseTernary R n, fun R => by unfold leftDenotation; rw [ht'], hm'.by2 hk fun R hR hR' => ?_⟩
  unfold parseTernary
  psim [hR, hR', ht', hu']

theorem modi_ok (m : Modi) (l a : Ex .ex) (h1 : ExOk l) (h2 : ExOk a) : ExOk (.modi m l a) := by
  intro L w ts hw hm c pv f rest d ds p qs ia ha
  have hf := ha.after
  have hab := ha.above
  simp only [gwf, gafter, glhs, Bool.and_eq_true, lets_iff, decide_eq_true_eq, Bool.not_eq_true'] at hw hf hab
  simp only [gtoks] at hm
  obtain ⟨⟨⟨⟨hw1, hw2⟩, hw3⟩, hw4⟩, hw5⟩ := hw
  obtain ⟨tl, t, tr, rfl, hm1, ht, hm2⟩ := hm.mid_inv
  have ht' : t.type = m.type := ht.type
  have hty : m.type.isValid = true ∧ m.type ≠ .DoKeyword := by cases m <;> exact ⟨rfl, nofun⟩
  refine Parsed.infix (q := .EXPR_MODIFIER) (w := w) h1 hw1 hm1
    (ha.left (by simp only [glhs]; omega) (by rw [ht']; exact hw3) (by simp) (fun h => absurd (ht'.symm.trans h) hty.2)
      (fun h => by simp only [gdo, h, Bool.true_or])) (by rw [ht']; exact hty.1)
    (fun n _ _ => by unfold getPrec; rw [ht']; cases m <;> rfl)
    (above.op hab (m := 1) (by decide) (by omega)) nofun nofun fun n hg _ => ?_
  obtain ⟨k, hg', hk⟩ := h2.last (q := .LOWEST) (n := 0) (us := tr) ha rfl hw2 hm2 hf.1 (by decide)
    (by decide) hf.2 (above.mono (show above _ 2 = true by decide) hw4) (by simp; omega)
    (fun h => by simp only [gdo, h, Bool.or_true]) c (t :: (tl.reverse ++ pv)) rest ds (p :: qs)
  obtain ⟨x, hx, hnx⟩ := hg.nsx
  obtain ⟨y, hy, hny⟩ := hg'.nsx
  cases m with
  | if_ =>
    refine ⟨.if_ t k n (.nil t), .of (by simp only [gsx]; rw [hx, hy]; rfl) (hny.ifO hnx.osx .nil) rfl rfl, nofun,
      fun R => parseModifier R n, fun R => by unfold leftDenotation; rw [ht']; rfl, hk.by1 fun R hR => ?_⟩
    unfold parseModifier
    psim [hR, ht', show Modi.type .if_ = .IfKeyword from rfl]
  | unless_ =>
    refine ⟨.if_ t k (.nil t) n, .of (by simp only [gsx]; rw [hx, hy]; rfl) (hny.ifO .nil hnx.osx) rfl rfl, nofun,
      fun R => parseModifier R n, fun R => by unfold leftDenotation; rw [ht']; rfl, hk.by1 fun R hR => ?_⟩
    unfold parseModifier
    psim [hR, ht', show Modi.type .unless_ = .UnlessKeyword from rfl]
  | while_ =>
    refine ⟨.while_ t k [n] true, .of (by simp only [gsx]; rw [hx, hy]; rfl) (hny.while_ (.one hnx)) rfl rfl, nofun,
      fun R => parseModifier R n, fun R => by unfold leftDenotation; rw [ht']; rfl, hk.by1 fun R hR => ?_⟩
    have hs1 : shapeOf n ≠ .block := by rw [hg.shape]; intro h; rw [h] at hw5; exact absurd hw5 (by decide)
    have hs2 : shapeOf n ≠ .begin_ := by rw [hg.shape]; intro h; rw [h] at hw5; exact absurd hw5 (by decide)
    unfold parseModifier
    psim [hR, ht', show Modi.type .while_ = .WhileKeyword from rfl]
    split <;> first | rfl | exact absurd rfl hs1 | exact absurd rfl hs2
  | until_ =>
    refine ⟨.until_ t k [n] true, .of (by simp only [gsx]; rw [hx, hy]; rfl) (hny.until_ (.one hnx)) rfl rfl, nofun,
      fun R => parseModifier R n, fun R => by unfold leftDenotation; rw [ht']; rfl, hk.by1 fun R hR => ?_⟩
    have hs1 : shapeOf n ≠ .block := by rw [hg.shape]; intro h; rw [h] at hw5; exact absurd hw5 (by decide)
    have hs2 : shapeOf n ≠ .begin_ := by rw [hg.shape]; intro h; rw [h] at hw5; exact absurd hw5 (by decide)
    unfold parseModifier
    psim [hR, ht', show Modi.type .until_ = .UntilKeyword from rfl]
    split <;> first | rfl | exact absurd rfl hs1 | exact absurd rfl hs2

theorem rescueM_ok (l r : Ex .ex) (h1 : ExOk l) (h2 : ExOk r) : ExOk (.rescueM l r) := by
  intro L w ts hw hm c pv f rest d ds p qs ia ha
  have hf := ha.after
  have hab := ha.above
  simp only [gwf, gafter, glhs, Bool.and_eq_true, lets_iff, decide_eq_true_eq] at hw hf hab
  simp only [gtoks] at hm
  obtain ⟨⟨⟨hw1, hw2⟩, hw3⟩, hw4⟩ := hw
  obtain ⟨tl, t, tr, rfl, hm1, ht, hm2⟩ := hm.mid_inv
  have ht' : t.type = .RescueKeyword := ht.type
  refine Parsed.infix (q := .INLINE_RESCUE) (w := w) h1 hw1 hm1
    (ha.left (by simp only [glhs]; omega) (by rw [ht']; exact hw3) (by simp) (fun h => by rw [ht'] at h; cases h)
      (fun h => by simp only [gdo, h, Bool.true_or])) (by rw [ht']; rfl)
    (fun n _ _ => by unfold getPrec; rw [ht'])
    (above.op hab (m := 5) (by decide) (by omega)) nofun nofun fun n hg _ => ?_
  obtain ⟨k, hg', hk⟩ := h2.last (q := .LOWEST) (n := 0) (us := tr) ha rfl hw2 hm2 hf.1 (by decide)
    (by decide) hf.2 (above.mono (show above _ 5 = true by decide) hw4) (by simp; omega)
    (fun h => by simp only [gdo, h, Bool.or_true]) c (t :: (tl.reverse ++ pv)) rest ds (p :: qs)
  obtain ⟨x, hx, hnx⟩ := hg.nsx
  obtain ⟨y, hy, hny⟩ := hg'.nsx
  obtain ⟨z, hz, hnz⟩ := Nsx.begin_ (t := t) (.one hnx) (.one (Nsx.resbody (t := t) .nil (.one hny))) .none .none
  refine ⟨_, .of (by simp only [gsx]; rw [hx, hy]; exact hz) hnz rfl rfl, nofun,
    fun R => parseRescueMod R n, fun R => by unfold leftDenotation; rw [ht'], hk.by1 fun R hR => ?_⟩
  unfold parseRescueMod
  psim [hR]

end NP.Gram
