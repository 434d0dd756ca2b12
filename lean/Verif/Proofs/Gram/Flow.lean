import Verif.Proofs.Gram.Cmd

/-! Parentheses, conditionals, loops and jumps. -/

namespace NP.Gram
open Spec

theorem IsEnd.one {ty : Ttype} (h1 : ty.isEndOfLine = false) (h2 : ty.isValid = true) (h3 : Gram.need ty = 0) (h4 : ty ≠ .DoKeyword)
    (h5 : starts ty = false) {f : Token} (hf : f.type = ty) : IsEnd (fun t => t == ty) f :=
  ⟨by rw [hf]; exact h1, by rw [hf]; exact h2, by rw [hf]; exact beq_self_eq_true ty, .inl (by rw [hf]; exact h3), by rw [hf]; exact h4,
    fun t ht => beq_eq_false_iff_ne.2 (by rintro rfl; rw [h1] at ht; cases ht), fun t ht => beq_eq_false_iff_ne.2 (by rintro rfl; rw [h5] at ht; cases ht)⟩

theorem IsEnd.end_ {f : Token} (hf : f.type = .EndKeyword) : IsEnd (fun t => t == .EndKeyword) f :=
  .one (ty := .EndKeyword) rfl rfl rfl nofun rfl hf

/-- The nodes of statements as one node. -/
theorem Stm.single {ss : Ex .sts} {ns : List Node} (h : Stm ss ns) (hn : ss.isNil = false) {xs : List Sexp} (hx : Lsx ns xs) (t : Token) :
    Nsx (Blk.single ⟨t, ns⟩) (bod xs) ∧ plain (Blk.single ⟨t, ns⟩) = true ∧ shapeOf (Blk.single ⟨t, ns⟩) = shape ss := by
  match ns, h with
  | [], h => exact absurd (hn.symm.trans h) nofun
  | [n], ⟨_, h1, h2, x, h3⟩ =>
    obtain ⟨rs, h4, rfl⟩ := hx
    simp only [trList, h3.tr, Option.bind_eq_bind, Option.bind_some, Option.some.injEq] at h4
    subst h4
    refine ⟨?_, h1, h2⟩
    show Nsx n (appOf n ⟨x, none⟩)
    rw [h3.app]
    exact h3
  | a :: b :: ns, ⟨_, h1⟩ =>
    have hb := Nsx.block (t := t) hx
    have hl := hx
    obtain ⟨rs, h4, rfl⟩ := hl
    have h5 := apps_length (trList_length h4)
    refine ⟨?_, rfl, h1.symm⟩
    generalize apps (a :: b :: ns) rs = ys at hb h5
    match ys, h5 with
    | _ :: _ :: _, _ => exact hb

theorem need_equal {f : Token} (h : need f.type ≤ 21) : f.type ≠ .Equal := by
  intro hf
  rw [hf] at h
  exact absurd h (by decide)

/-- What is done with the node between parentheses. -/
def groupRest (t : Token) (n : Node) : P Node :=
  match n with
  | .multipleAssignment mt ns d =>
    if 0 < d then pure (.multipleAssignment t [.multipleAssignment mt ns (d + 1)] 1)
    else pure (.multipleAssignment mt ns (d + 1))
  | e => do
    if (← curTy) = .Equal then throwUnexpected (cs! "multiple assignment on left-hand-side")
    else pure e

theorem parseGroup_eq (R : Rec) : parseGroup R = (do
    let t ← cur
    advance
    if (← curTy) = .RParen then
      advance
      pure (.nilSexp t)
    else
      let b ← parseBody R .LOWEST fun ty => ty == .RParen
      expect .RParen (cs! "group closing paren")
      advance
      groupRest t b.single) := rfl

theorem run_group {n : Node} (hp : plain n = true) {f : Token} (hf : f.type ≠ .Equal) (t : Token) (c : Cx) (pv rest : List Token)
    (ds : List Nat) (qs : List Prec) (L : List Str) :
    groupRest t n c ⟨pv, f :: rest, ds, qs, L⟩ = .ok n ⟨pv, f :: rest, ds, qs, L⟩ := by
  unfold groupRest
  cases n <;> first | (cases hp; done) | (psim [hf])

theorem paren_ok (ss : Ex .sts) (h : SOk ss) : ExOk (.paren ss) := by
  intro L w ts hw hm c pv f rest d ds p qs ia ha
  have hsz := ha.size
  have hf := ha.after
  simp only [gwf, gafter, Bool.and_eq_true, lets_iff] at hw hf
  simp only [gtoks] at hm
  obtain ⟨t, us, rfl, ht, hm'⟩ := hm.cons_inv
  obtain ⟨us, u, rfl, hm', hu⟩ := hm'.snoc_inv
  have ht' : t.type = .LParen := ht.type
  have hu' : u.type = .RParen := hu.type
  simp only [List.length_append, List.length_cons] at hsz
  by_cases hn : ss.isNil = true
  · cases sts_nil hn
    cases hm'.nil_inv
    refine Parsed.first (ts := [u]) (n := .nilSexp t) (fun R => parseGroup R) (fun R => by rw [ht']; rfl) (.of fun R => ?_)
      (.of (by simp only [gsx]; rfl) ⟨rfl, by trsim []⟩ rfl rfl) nofun
    rw [parseGroup_eq]
    psim [hu']
  · have hn : ss.isNil = false := by simpa using hn
    obtain ⟨ns, bt, h1, h2, h3⟩ := body_evals h hw.1 hm' (by omega) c (t :: pv) (f :: rest) (d :: ds) (p :: qs)
      (.one (ty := .RParen) rfl rfl rfl nofun rfl hu') (.inr ⟨by rw [hu']; rfl, by rw [hu']; exact hw.2⟩) .nil
    obtain ⟨h4, h5, h6⟩ := h2.single hn h1 bt
    refine Parsed.first (n := Blk.single ⟨bt, ns⟩) (fun R => parseGroup R) (fun R => by rw [ht']; rfl) ?_
      (.of (by simp only [gsx]; rw [if_neg (by rw [hn]; nofun)]) h4 h5 h6) nofun
    obtain ⟨v, vs, rfl, hv⟩ := hm'.sts hn
    refine h3.by1 fun R hR => ?_
    simp only [gram] at hR
    rw [parseGroup_eq]
    psim [(Opens.of hv).rparen, hR, hu']
    exact run_group h5 (need_equal hf) t _ _ _ _ _ _

/-! ### Conditionals -/

theorem match_plain {n : Node} (h : plain n = true) : matchCondition n = n := by
  cases n <;> first | rfl | cases h

theorem Evals.ifBranch {b : Bool} {c : Cx} {s s' : PS} {a : Node} (h : Evals (fun R => parseIfBranch R b) c s a s') :
    Evals (fun R => R.ifBranch b) c s a s' := by
  obtain ⟨N, h⟩ := h
  refine ⟨N + 1, fun n hn => ?_⟩
  obtain ⟨m, rfl⟩ : ∃ m, n = m + 1 := ⟨n - 1, by omega⟩
  exact h m (by omega)

/-- The parser reads the branches after the first one. -/
inductive LOk : Ex .els → Prop where
  | nil : LOk .enil
  | els {ss : Ex .sts} : SOk ss → LOk (.els ss)
  | elsif {c : Ex .ex} {a : Ex .sts} {e : Ex .els} : ExOk c → SOk a → LOk e → LOk (.elsif c a e)

/-- The first token of these branches and what follows. -/
theorem Ms.els {e : Ex .els} {te : List Token} (h : Ms (toks none e) te) {v : Token} (hv : v.type = .EndKeyword) (rest : List Token) :
    ∃ g rest', te ++ v :: rest = g :: rest' ∧ g.type = e.head ∧
      (g.type = .ElsifKeyword ∨ g.type = .ElseKeyword ∨ g.type = .EndKeyword) := by
  cases e with
  | enil =>
    cases h.nil_inv
    exact ⟨v, rest, rfl, hv, .inr (.inr hv)⟩
  | els ss =>
    simp only [gtoks] at h
    obtain ⟨t, es, us, rfl, ht, -⟩ := h.line_inv
    exact ⟨t, es ++ us ++ v :: rest, rfl, ht.else_, .inr (.inl ht.else_)⟩
  | elsif c a e =>
    simp only [gtoks] at h
    obtain ⟨t, us, rfl, ht, -⟩ := h.cons_inv
    exact ⟨t, us ++ v :: rest, rfl, ht.type, .inl ht.type⟩

/-- What stands between a condition and the statements that depend on it. -/
def Then (t : Token) : Prop := t.type = .ThenKeyword ∨ Eol t

theorem Then.need {t : Token} (h : Then t) : Gram.need t.type = 0 := h.elim (fun h => by rw [h]; rfl) Eol.need

theorem Then.do_ {t : Token} (h : Then t) : t.type ≠ .DoKeyword := h.elim (fun h => by rw [h]; nofun) Eol.do_

theorem Then.after {k : Kind} {e : Ex k} {t : Token} (h : Then t) (h' : Gram.after e .ThenKeyword = true) : Gram.after e t.type = true :=
  h.elim (fun h => by rw [h]; exact h') fun h => h.after (after_then e h')

/-- The body of a branch with what stands before it. -/
theorem then_evals {ss : Ex .sts} (h : SOk ss) {u f : Token} {L : List Str} {ts es : List Token} {d : Nat} (hu : Then u) (hes : Eols es)
    (hw : WF L ss = true) (hm : Ms (toks none ss) ts) (hs : d + ts.length < 4294967296) (hh : hasDo ss = true → d = 0)
    (hf : f.type = .ElsifKeyword ∨ f.type = .ElseKeyword ∨ f.type = .EndKeyword) (ha : Gram.after ss f.type = true) (c : Cx)
    (pv rest : List Token) (ds : List Nat) (ps : List Prec) :
    ∃ n s, Osx n (opt (sx L ss)) ∧ thenOrNewline c ⟨pv, u :: (es ++ (ts ++ f :: rest)), d :: ds, ps, L⟩ = .ok () s ∧
      Evals parseIfBody c s n ⟨ts.reverse ++ (es.reverse ++ u :: pv), f :: rest, d :: ds, ps, out L ss⟩ := by
  rcases hu with hu | hu
  · obtain ⟨n, h1, h2⟩ := if_evals h hw hm hs hh hf ha c (u :: pv) rest ds ps hes
    refine ⟨n, _, h1, ?_, h2⟩
    unfold thenOrNewline
    psim [hu]
  · obtain ⟨n, h1, h2⟩ := if_evals h hw hm hs hh hf ha c (es.reverse ++ u :: pv) rest ds ps .nil
    refine ⟨n, _, h1, ?_, h2⟩
    obtain ⟨g, gs, hgs, hg, -⟩ := hm.stsF (ifBody_loops hf).line (ifBody_loops hf).valid rest
    rw [hgs]
    unfold thenOrNewline
    rcases hu with hu | hu <;> psim [hu, hes, hg]

theorem branch_evals {e : Ex .els} (he : LOk e) : ∀ {c : Ex .ex} {a : Ex .sts} (_ : ExOk c) (_ : SOk a) {L : List Str}
    {t u v f : Token} {tc ta te es : List Token} {d : Nat} (_ : WF L c = true) (_ : WF (out L c) a = true)
    (_ : WF (out (out L c) a) e = true) (_ : after c .ThenKeyword = true) (_ : after a e.head = true)
    (_ : e.isNil = true ∨ after e .EndKeyword = true) (_ : Ms (toks none c) tc) (_ : Then u) (_ : Eols es)
    (_ : Ms (toks none a) ta) (_ : Ms (toks none e) te) (_ : v.type = .EndKeyword)
    (_ : d + (tc.length + ta.length + te.length) < 4294967296) (_ : hasDo c = true ∨ hasDo a = true ∨ hasDo e = true → d = 0)
    (b : Bool) (cx : Cx) (pv rest : List Token) (ds : List Nat) (ps : List Prec),
    ∃ n x, nd (cs! "if") (sx L c ++ opt (sx (out L c) a) :: sx (out (out L c) a) e) = [x] ∧ Nsx n x ∧ plain n = true ∧
      shapeOf n = .other ∧
      Evals (fun R => parseIfBranch R b) cx ⟨pv, t :: (tc ++ u :: (es ++ (ta ++ (te ++ v :: f :: rest)))), d :: ds, ps, L⟩ n
        ⟨v :: (te.reverse ++ (ta.reverse ++ (es.reverse ++ u :: (tc.reverse ++ t :: pv)))), f :: rest, d :: ds, ps, out (out (out L c) a) e⟩ := by
  induction he with
  | nil =>
    intro c a hc ha' L t u v f tc ta te es d hw1 hw2 hw3 h1 h2 h3 hmc hu hes hma hme hv hs hd b cx pv rest ds ps
    cases hme.nil_inv
    obtain ⟨n, hg, hn⟩ := hc.stmt hw1 hmc (f := u) (d := d) hu.need hu.do_ (hu.after h1) (by omega)
      (fun h => hd (.inl h)) cx (t :: pv) (es ++ (ta ++ v :: f :: rest)) ds ps
    obtain ⟨m, s1, hm, hth, hk⟩ := then_evals ha' hu hes hw2 hma (f := v) (d := d) (by omega) (fun h => hd (.inr (.inl h))) (.inr (.inr hv))
      (by rw [hv]; exact h2) cx (tc.reverse ++ t :: pv) (f :: rest) ds ps
    obtain ⟨x, hx, hnx⟩ := hg.nsx
    refine ⟨.if_ t n m (.nil v), _, by simp only [gsx]; rw [hx]; rfl, hnx.ifO hm .nil, rfl, rfl, hn.by2 hk fun R hR hR' => ?_⟩
    unfold parseIfBranch
    psim [hR, hth, hR', hv, match_plain hg.plain, ite_self]
  | els hss =>
    rename_i ss
    intro c a hc ha' L t u v f tc ta te es d hw1 hw2 hw3 h1 h2 h3 hmc hu hes hma hme hv hs hd b cx pv rest ds ps
    simp only [gtoks, gwf, gafter, gdo] at hme hw3 h3 hd
    have h3 := h3.resolve_left nofun
    obtain ⟨q, es', te, rfl, hq, hes', hme⟩ := hme.line_inv
    have hq' : q.type = .ElseKeyword := hq.else_
    simp only [List.length_cons, List.length_append] at hs
    obtain ⟨n, hg, hn⟩ := hc.stmt hw1 hmc (f := u) (d := d) hu.need hu.do_ (hu.after h1) (by omega)
      (fun h => hd (.inl h)) cx (t :: pv) (es ++ (ta ++ q :: (es' ++ (te ++ v :: f :: rest)))) ds ps
    obtain ⟨m, s1, hm, hth, hk⟩ := then_evals ha' hu hes hw2 hma (f := q) (d := d) (by omega) (fun h => hd (.inr (.inl h))) (.inr (.inl hq'))
      (by rw [hq']; exact h2) cx (tc.reverse ++ t :: pv) (es' ++ (te ++ v :: f :: rest)) ds ps
    obtain ⟨m', hm', hk'⟩ := if_evals hss hw3 hme (f := v) (d := d) (by omega) (fun h => hd (.inr (.inr h))) (.inr (.inr hv))
      (by rw [hv]; exact h3) cx (q :: (ta.reverse ++ (es.reverse ++ u :: (tc.reverse ++ t :: pv)))) (f :: rest) ds ps hes'
    obtain ⟨x, hx, hnx⟩ := hg.nsx
    refine ⟨.if_ t n m m', _, by simp only [gsx]; rw [hx]; rfl, hnx.ifO hm hm', rfl, rfl, hn.by3 hk hk' fun R hR hR' hR'' => ?_⟩
    unfold parseIfBranch
    psim [hR, hth, hR', hv, hq', hR'', match_plain hg.plain, ite_self]
  | elsif hc2 ha2 he2 ih =>
    rename_i c2 a2 e2
    intro c a hc ha' L t u v f tc ta te es d hw1 hw2 hw3 h1 h2 h3 hmc hu hes hma hme hv hs hd b cx pv rest ds ps
    simp only [gtoks, gwf, gafter, gdo, Bool.and_eq_true, Bool.or_eq_true] at hme hw3 h3 hd
    obtain ⟨⟨⟨⟨hw4, hw5⟩, hw6⟩, hw7⟩, hw8⟩ := hw3
    have h3 := h3.resolve_left nofun
    obtain ⟨q, us, rfl, hq, hme⟩ := hme.cons_inv
    have hq' : q.type = .ElsifKeyword := hq.type
    obtain ⟨tc2, u2, es2, us, rfl, hmc2, hu2, hes2, hme⟩ := hme.mid_line
    obtain ⟨ta2, te2, rfl, hma2, hme2⟩ := hme.append_inv
    simp only [List.length_cons, List.length_append] at hs
    obtain ⟨n, hg, hn⟩ := hc.stmt hw1 hmc (f := u) (d := d) hu.need hu.do_ (hu.after h1) (by omega)
      (fun h => hd (.inl h)) cx (t :: pv) (es ++ (ta ++ q :: (tc2 ++ u2 :: (es2 ++ (ta2 ++ (te2 ++ v :: f :: rest)))))) ds ps
    obtain ⟨m, s1, hm, hth, hk⟩ := then_evals ha' hu hes hw2 hma (f := q) (d := d) (by omega) (fun h => hd (.inr (.inl h))) (.inl hq')
      (by rw [hq']; exact h2) cx (tc.reverse ++ t :: pv) (tc2 ++ u2 :: (es2 ++ (ta2 ++ (te2 ++ v :: f :: rest)))) ds ps
    obtain ⟨m', x', hx', hm', -, -, hk'⟩ := ih hc2 ha2 (t := q) (f := f) (d := d) hw4 hw5 hw6 hw7 hw8 (by
        by_cases he : e2.isNil = true
        · exact .inl he
        · rw [if_neg he] at h3
          exact .inr h3) hmc2 hu2.then_ hes2 hma2 hme2 hv (by omega)
      (fun h => hd (.inr (.inr (by rcases h with h | h | h <;> simp [h])))) false cx
      (ta.reverse ++ (es.reverse ++ u :: (tc.reverse ++ t :: pv))) rest ds ps
    obtain ⟨x, hx, hnx⟩ := hg.nsx
    refine ⟨.if_ f n m m', _, by simp only [gsx]; rw [hx, hx']; rfl, hnx.ifO hm hm'.osx, rfl, rfl,
      hn.by3 hk (Evals.ifBranch hk') fun R hR hR' hR'' => ?_⟩
    unfold parseIfBranch
    psim [hR, hth, hR', hv, hq', hR'', match_plain hg.plain, ite_self]

theorem if_ok (e : Ex .ex) (a : Ex .sts) (l : Ex .els) (h1 : ExOk e) (h2 : SOk a) (h3 : LOk l) : ExOk (.if_ e a l) := by
  intro L w ts hw hm c pv f rest d ds p qs ia ha
  have hsz := ha.size
  have hdo := ha.has
  simp only [gwf, gdo, Bool.and_eq_true, Bool.or_eq_true] at hw hdo
  simp only [gtoks] at hm
  obtain ⟨⟨⟨⟨⟨hw1, hw2⟩, hw3⟩, hw4⟩, hw5⟩, hw6⟩ := hw
  obtain ⟨t, us, rfl, ht, hm'⟩ := hm.cons_inv
  obtain ⟨tc, u, es, us, rfl, hmc, hu, hes, hm'⟩ := hm'.mid_line
  obtain ⟨ta, us, rfl, hma, hm'⟩ := hm'.append_inv
  obtain ⟨te, v, rfl, hme, hv⟩ := hm'.snoc_inv
  have ht' : t.type = .IfKeyword := ht.type
  simp only [List.length_append, List.length_cons] at hsz
  obtain ⟨n, x, hx, hnx, hp, hs, hn⟩ := branch_evals h3 h1 h2 (t := t) (f := f) (d := d) hw1 hw2 hw3 hw4 hw5 (.inr hw6) hmc hu.then_ hes hma hme hv.type
    (by omega) (fun h => (hdo (by rcases h with h | h | h <;> simp [h])).1) true c pv rest ds (p :: qs)
  refine Parsed.first (n := n) (fun R => parseIfBranch R true) (fun R => by rw [ht']; rfl) (hn.by1 fun R hR => ?_)
    (.of (by simp only [gsx]; exact hx) hnx hp hs) nofun
  simpa only [gram] using hR

/-- The parser reads the statements, if there are any. -/
def TOk (e : Ex .part) : Prop := ∀ ss, e = .part ss → SOk ss

theorem Ms.opt_inv {e : Ex .part} {xs : List Want} {ts : List Token} (h : Ms (opt? e xs) ts) :
    e = .tnil ∧ ts = [] ∨ (∃ ss, e = .part ss) ∧ Ms xs ts := by
  cases e with
  | tnil => exact .inl ⟨rfl, h.nil_inv⟩
  | part ss => exact .inr ⟨⟨ss, rfl⟩, h⟩

theorem unless_ok (e : Ex .ex) (a : Ex .sts) (l : Ex .part) (h1 : ExOk e) (h2 : SOk a) (h3 : TOk l) : ExOk (.unless_ e a l) := by
  intro L w ts hw hm c pv f rest d ds p qs ia ha
  have hsz := ha.size
  have hdo := ha.has
  simp only [gwf, gdo, Bool.and_eq_true, Bool.or_eq_true] at hw hdo
  simp only [gtoks] at hm
  obtain ⟨⟨⟨⟨⟨hw1, hw2⟩, hw3⟩, hw4⟩, hw5⟩, hw6⟩ := hw
  obtain ⟨t, us, rfl, ht, hm'⟩ := hm.cons_inv
  obtain ⟨tc, u, es, us, rfl, hmc, hu, hes, hm'⟩ := hm'.mid_line
  obtain ⟨ta, us, rfl, hma, hm'⟩ := hm'.append_inv
  obtain ⟨te, v, rfl, hme, hv⟩ := hm'.snoc_inv
  have ht' : t.type = .UnlessKeyword := ht.type
  have hu' : Then u := hu.then_
  have hv' : v.type = .EndKeyword := hv.type
  simp only [List.length_append, List.length_cons] at hsz
  obtain ⟨n, hg, hn⟩ := h1.stmt hw1 hmc (f := u) (d := d) hu'.need hu'.do_ (hu'.after hw4) (by omega)
    (fun h => (hdo (.inl (.inl h))).1) c (t :: pv) (es ++ (ta ++ (te ++ v :: f :: rest))) ds (p :: qs)
  obtain ⟨x, hx, hnx⟩ := hg.nsx
  rcases hme.opt_inv with ⟨rfl, rfl⟩ | ⟨⟨ss, rfl⟩, hme⟩
  · obtain ⟨m, s1, hm, hth, hk⟩ := then_evals h2 hu' hes hw2 hma (f := v) (d := d) (by omega) (fun h => (hdo (.inl (.inr h))).1) (.inr (.inr hv'))
      (by rw [hv']; exact hw5) c (tc.reverse ++ t :: pv) (f :: rest) ds (p :: qs)
    refine Parsed.first (n := .if_ t n (.nil v) m) (fun R => parseUnless R) (fun R => by rw [ht']; rfl) (hn.by2 hk fun R hR hR' => ?_)
      (.of (by simp only [gsx]; rw [hx]; rfl) (hnx.ifO .nil hm) rfl rfl) nofun
    simp only [gram] at hR
    unfold parseUnless
    psim [hR, hth, hR', hv', match_plain hg.plain]
  · simp only [gtoks, gwf, gafter, gdo] at hme hw3 hw6 hdo
    obtain ⟨q, es', te, rfl, hq, hes', hme⟩ := hme.line_inv
    have hq' : q.type = .ElseKeyword := hq.else_
    simp only [List.length_cons, List.length_append] at hsz
    obtain ⟨m, s1, hm, hth, hk⟩ := then_evals h2 hu' hes hw2 hma (f := q) (d := d) (by omega) (fun h => (hdo (.inl (.inr h))).1) (.inr (.inl hq'))
      (by rw [hq']; exact hw5) c (tc.reverse ++ t :: pv) (es' ++ (te ++ v :: f :: rest)) ds (p :: qs)
    obtain ⟨m', hm', hk'⟩ := if_evals (h3 ss rfl) hw3 hme (f := v) (d := d) (by omega) (fun h => (hdo (.inr h)).1) (.inr (.inr hv'))
      (by rw [hv']; exact hw6) c (q :: (ta.reverse ++ (es.reverse ++ u :: (tc.reverse ++ t :: pv)))) (f :: rest) ds (p :: qs) hes'
    refine Parsed.first (n := .if_ t n m' m) (fun R => parseUnless R) (fun R => by rw [ht']; rfl)
      (hn.by3 hk hk' fun R hR hR' hR'' => ?_)
      (.of (by simp only [gsx]; rw [hx]; rfl) (hnx.ifO hm' hm) rfl rfl) nofun
    simp only [gram] at hR
    unfold parseUnless
    psim [hR, hth, hR', hv', hq', hR'', match_plain hg.plain]

/-! ### Loops -/

theorem while_ok (neg : Bool) (e : Ex .ex) (a : Ex .sts) (h1 : ExOk e) (h2 : SOk a) : ExOk (.while_ neg e a) := by
  intro L w ts hw hm c pv f rest d ds p qs ia ha
  have hsz := ha.size
  simp only [gwf, Bool.and_eq_true, Bool.not_eq_true'] at hw
  simp only [gtoks] at hm
  obtain ⟨⟨⟨⟨hw1, hw2⟩, hw3⟩, hw4⟩, hw5⟩ := hw
  obtain ⟨t, us, rfl, ht, hm'⟩ := hm.cons_inv (by cases neg <;> rfl)
  obtain ⟨tc, u, es, us, rfl, hmc, hu, hes, hm'⟩ := hm'.mid_line
  obtain ⟨ta, v, rfl, hma, hv⟩ := hm'.snoc_inv
  have hu' : Eol u := hu.eol
  have hv' : v.type = .EndKeyword := hv.type
  simp only [List.length_append, List.length_cons] at hsz
  obtain ⟨n, hg, hn⟩ := h1.nested hw1 hmc (ia := .CURLY_ONLY) (f := u) (d := d)
    ⟨above.mono (n := 0) (p := .LOWEST) (by decide) (by omega), hu'.after hw4, nofun, by omega, fun h => absurd h hu'.do_,
      fun h => by rw [hw2] at h; cases h⟩
    ⟨by rw [hu'.need]; decide, by rcases hu' with h | h <;> rw [h] <;> rfl, fun h => absurd h hu'.do_⟩ c (t :: pv) (es ++ (ta ++ v :: f :: rest)) ds (p :: qs)
  obtain ⟨ns, bt, h3, -, h4⟩ := body_evals h2 hw3 hma (by omega) c (es.reverse ++ u :: (tc.reverse ++ t :: pv)) (f :: rest) (d :: ds) (p :: qs)
    (.end_ hv') (.inr ⟨by rw [hv']; rfl, by rw [hv']; exact hw5⟩) .nil
  obtain ⟨x, hx, hnx⟩ := hg.nsx
  obtain ⟨g, gs, hgs, hg1, -⟩ := hma.stsF (f := v) (by rw [hv']; rfl) (by rw [hv']; rfl) (f :: rest)
  cases neg with
  | false =>
    have ht' : t.type = .WhileKeyword := ht.type
    refine Parsed.first (n := .while_ t n ns true) (fun R => parseWhile R) (fun R => by rw [ht']; rfl) (hn.by2 h4 fun R hR hR' => ?_)
      (.of (by simp only [gsx]; rw [hx]; rfl) (hnx.while_ h3) rfl rfl) nofun
    rw [hgs] at hR hR'
    simp only [List.nil_append, List.reverse_nil] at hR'
    unfold parseWhile parseBodyEnd
    rcases hu' with hu' | hu' <;> psim [hgs, hR, hu', hes, hg1, hR', hv', ht', match_plain hg.plain]
  | true =>
    have ht' : t.type = .UntilKeyword := ht.type
    refine Parsed.first (n := .until_ t n ns true) (fun R => parseWhile R) (fun R => by rw [ht']; rfl) (hn.by2 h4 fun R hR hR' => ?_)
      (.of (by simp only [gsx]; rw [hx]; rfl) (hnx.until_ h3) rfl rfl) nofun
    rw [hgs] at hR hR'
    simp only [List.nil_append, List.reverse_nil] at hR'
    unfold parseWhile parseBodyEnd
    rcases hu' with hu' | hu' <;> psim [hgs, hR, hu', hes, hg1, hR', hv', ht', match_plain hg.plain]

theorem VarTok.locals {v : Var} {t : Token} (h : VarTok v t) (l : Bool) (c : Cx) (pv ts : List Token) (ds : List Nat) (ps : List Prec)
    (L : List Str) : addAssignmentLocals (.identifier t l) c ⟨pv, ts, ds, ps, L⟩ = .ok () ⟨pv, ts, ds, ps, v.bind L⟩ :=
  h.adds c pv ts ds ps L

/-- One step deeper and back, with the depth in between as a variable. -/
theorem depth_steps {d : Nat} (h : d + 1 < 4294967296) : ∃ m, m = d + 1 ∧
    (∀ c pv ts ds ps L, incDepth c ⟨pv, ts, d :: ds, ps, L⟩ = .ok () ⟨pv, ts, m :: ds, ps, L⟩) ∧
    (∀ c pv ts ds ps L, decDepth c ⟨pv, ts, m :: ds, ps, L⟩ = .ok () ⟨pv, ts, d :: ds, ps, L⟩) :=
  ⟨_, rfl, fun _ _ _ _ _ _ => run_inc _ _ _ _ _ _ _ h, fun _ _ _ _ _ _ => run_dec _ _ _ _ _ _ _ h⟩

/-- The part of `parse_for` after the target. -/
def forRest (R : Rec) (t : Token) (v : Node) : P Node := do
  expect .InKeyword (cs! "for in")
  advance
  incDepth
  let e ← R.expr .BARE_CALL_ARG .CURLY_ONLY
  decDepth
  if (← curTy) = .DoKeyword then advance else pure ()
  let b ← parseBodyEnd R
  expect .EndKeyword (cs! "for end")
  advance
  pure (.for_ t e v b.nodes)

theorem parseFor_eq (R : Rec) : parseFor R = (do
    let t ← cur
    advance
    let v ← R.assignIdent true
    let v ← if (← curTy) = .Comma ∨ v.isSplat then parseMultipleAssignment R v else pure v
    addAssignmentLocals v
    forRest R t v) := rfl

theorem run_for {R : Rec} {c : Cx} {t q u z : Token} {pv rs rs' rest pv' pv'' : List Token} {d m : Nat} {ds : List Nat} {ps : List Prec}
    {L L' L'' : List Str} {n v : Node} {b : Blk} (hinc : ∀ c pv ts ds ps L, incDepth c ⟨pv, ts, d :: ds, ps, L⟩ = .ok () ⟨pv, ts, m :: ds, ps, L⟩)
    (hdec : ∀ c pv ts ds ps L, decDepth c ⟨pv, ts, m :: ds, ps, L⟩ = .ok () ⟨pv, ts, d :: ds, ps, L⟩)
    (hq : q.type = .InKeyword) (hu : u.type ≠ .DoKeyword) (hz : z.type = .EndKeyword)
    (hR' : R.expr .BARE_CALL_ARG .CURLY_ONLY c ⟨q :: pv, rs, m :: ds, ps, L⟩ = .ok n ⟨pv', u :: rs', m :: ds, ps, L'⟩)
    (hR'' : parseBody R .LOWEST (fun t => t == .EndKeyword) c ⟨pv', u :: rs', d :: ds, ps, L'⟩ = .ok b ⟨pv'', z :: rest, d :: ds, ps, L''⟩) :
    forRest R t v c ⟨pv, q :: rs, d :: ds, ps, L⟩ = .ok (.for_ t n v b.nodes) ⟨z :: pv'', rest, d :: ds, ps, L''⟩ := by
  unfold forRest parseBodyEnd
  psim [hq, hinc]
  rw [hR', PRes.andThen_ok, run_bind, hdec, PRes.andThen_ok]
  psim [hu, hR'', hz]

theorem for_ok (v : Var) (e : Ex .ex) (a : Ex .sts) (h1 : ExOk e) (h2 : SOk a) : ExOk (.for_ v e a) := by
  intro L w ts hw hm c pv f rest d ds p qs ia ha
  have hsz := ha.size
  simp only [gwf, Bool.and_eq_true, Bool.not_eq_true', decide_eq_true_eq] at hw
  simp only [gtoks] at hm
  obtain ⟨⟨⟨⟨⟨hw1, hw2⟩, hw3⟩, hw4⟩, hw5⟩, hw6⟩ := hw
  obtain ⟨t, us, rfl, ht, hm'⟩ := hm.cons_inv
  obtain ⟨y, us, rfl, hy, hm'⟩ := hm'.cons_inv
  obtain ⟨q, us, rfl, hq, hm'⟩ := hm'.cons_inv
  obtain ⟨tc, u, es, us, rfl, hmc, hu, hes, hm'⟩ := hm'.mid_line
  obtain ⟨ta, z, rfl, hma, hz⟩ := hm'.snoc_inv
  have ht' : t.type = .ForKeyword := ht.type
  have hy' := VarTok.of hy
  have hq' : q.type = .InKeyword := hq.type
  have hu' : Eol u := hu.eol
  have hz' : z.type = .EndKeyword := hz.type
  simp only [List.length_append, List.length_cons] at hsz
  have hv := target_evals hy' (f := q) (by rw [hq']; nofun) (by rw [hq']; nofun) (by rw [hq']; nofun) true c (t :: pv)
    (tc ++ u :: (es ++ (ta ++ z :: f :: rest))) (d :: ds) (p :: qs) L
  obtain ⟨m, hm1, hinc, hdec⟩ := depth_steps (d := d) (by omega)
  obtain ⟨n, hg, hn⟩ := h1.nested hw1 hmc (ia := .CURLY_ONLY) (f := u) (d := m)
    ⟨above.mono (n := 7) (p := .BARE_CALL_ARG) (by decide) (by omega), hu'.after hw4, nofun, by omega,
      fun h => absurd h hu'.do_, fun h => by rw [hw2] at h; cases h⟩
    ⟨by rw [hu'.need]; decide, by rcases hu' with h | h <;> rw [h] <;> rfl, fun h => absurd h hu'.do_⟩ c (q :: y :: t :: pv) (es ++ (ta ++ z :: f :: rest)) ds (p :: qs)
  obtain ⟨ns, bt, h3, -, h4⟩ := body_evals h2 hw5 hma (by omega) c (tc.reverse ++ q :: y :: t :: pv) (f :: rest) (d :: ds) (p :: qs)
    (.end_ hz') (.inr ⟨by rw [hz']; rfl, by rw [hz']; exact hw6⟩) (.cons hu' hes)
  obtain ⟨x, hx, hnx⟩ := hg.nsx
  refine Parsed.first (n := .for_ t n (.identifier y (L.contains v.name)) ns) (fun R => parseFor R) (fun R => by rw [ht']; rfl)
    (hv.by3 hn h4 fun R hR hR' hR'' => ?_)
    (.of (by simp only [gsx]; rw [hx]; rfl) (hnx.for_ rfl (hy'.target _).tr h3) rfl rfl) nofun
  rw [parseFor_eq]
  have hz := run_for (t := t) (v := .identifier y (L.contains v.name)) hinc hdec hq' hu'.do_ hz' hR' hR''
  psim [hR, hq', hy'.locals, Node.isSplat, hz]

/-! ### Jumps -/

theorem modifier_end {ty : Ttype} (h : starts ty = true) (h' : modifier ty = false) : ty.isEndOfExpression = false := by
  cases ty <;> first | rfl | exact absurd h (by decide) | exact absurd h' (by decide)

theorem ret_ok (e : Ex .ex) (h : ExOk e) : ExOk (.ret e) := by
  intro L w ts hw hm c pv f rest d ds p qs ia ha
  have hf := ha.after
  simp only [gwf, gafter, Bool.and_eq_true, lets_iff, decide_eq_true_eq, Bool.not_eq_true', bne_iff_ne, ne_eq] at hw hf
  simp only [gtoks] at hm
  obtain ⟨⟨hw1, hw2⟩, hw3⟩ := hw
  obtain ⟨t, us, rfl, ht, hm⟩ := hm.cons_inv
  have ht' : t.type = .ReturnKeyword := ht.type
  obtain ⟨n, hg, hn⟩ := h.last (q := .BARE_CALL_ARG) (n := 5) (us := us) ha rfl hw1 hm hf.1.1 (by decide)
    (by decide) hf.2 (above.mono (show above .BARE_CALL_ARG 7 = true by decide) hw2) (by simp)
    (fun h => by simpa only [gdo] using h) c (t :: pv) rest ds (p :: qs)
  obtain ⟨x, hx, hnx⟩ := hg.nsx
  obtain ⟨u, us', rfl, hu, hu', -⟩ := hm.first
  rw [← hu'] at hw3
  refine Parsed.first (n := .return_ t n) (fun R => parseReturn R) (fun R => by rw [ht']; rfl) (hn.by1 fun R hR => ?_)
    (.of (by simp only [gsx]; rw [hx]; rfl) hnx.return_ rfl rfl) nofun
  simp only [gram] at hR
  unfold parseReturn
  psim [modifier_end hu hw3, hR, plain_key hg.plain, hf.1.2, need_comma hf.1.1]

theorem jump_first {ty : Ttype} (h : jumpStart ty = true) : ty ≠ .LParen ∧ ty.canBeFirstArgOfImplicitCall = true := by
  cases ty <;> first | exact absurd h (by decide) | exact ⟨nofun, rfl⟩

theorem jump_ok (j : Jump) (e : Ex .ex) (h : ExOk e) : ExOk (.jump j e) := by
  intro L w ts hw hm c pv f rest d ds p qs ia ha
  have hf := ha.after
  simp only [gwf, gafter, Bool.and_eq_true, lets_iff, decide_eq_true_eq] at hw hf
  simp only [gtoks] at hm
  obtain ⟨⟨hw1, hw2⟩, hw3⟩ := hw
  obtain ⟨t, us, rfl, ht, hm⟩ := hm.cons_inv
  have ht' : t.type = j.type := ht.type
  obtain ⟨n, hg, hn⟩ := h.last (q := .BARE_CALL_ARG) (n := 5) (us := us) ha rfl hw1 hm hf.1 (by decide)
    (by decide) hf.2 (above.mono (show above .BARE_CALL_ARG 7 = true by decide) hw2) (by simp)
    (fun h => by simpa only [gdo] using h) c (t :: pv) rest ds (p :: qs)
  obtain ⟨x, hx, hnx⟩ := hg.nsx
  obtain ⟨u, us', rfl, -, hu', -⟩ := hm.first
  rw [← hu'] at hw3
  obtain ⟨h1, h2⟩ := jump_first hw3
  have hr : ∀ mk, Evals (fun R => parseBreakNext R mk) c ⟨pv, t :: ((u :: us') ++ f :: rest), d :: ds, p :: qs, L⟩ (mk t (some n))
      ⟨(u :: us').reverse ++ t :: pv, f :: rest, d :: ds, p :: qs, out L e⟩ := fun mk => hn.by1 fun R hR => by
    simp only [gram] at hR
    unfold parseBreakNext
    psim [h1, h2, hR, need_comma hf.1]
  cases j with
  | break_ =>
    exact Parsed.first (n := .break_ t (some n)) (fun R => parseBreakNext R .break_) (fun R => by rw [ht']; rfl) (hr _)
      (.of (by simp only [gsx]; rw [hx]; rfl) hnx.break_ rfl rfl) nofun
  | next =>
    exact Parsed.first (n := .next t (some n)) (fun R => parseBreakNext R .next) (fun R => by rw [ht']; rfl) (hr _)
      (.of (by simp only [gsx]; rw [hx]; rfl) hnx.next rfl rfl) nofun

end NP.Gram
