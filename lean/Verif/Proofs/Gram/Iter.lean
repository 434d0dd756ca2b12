import Verif.Proofs.Gram.Params

/-! Blocks. -/

namespace NP.Gram
open Spec

/-! ### Parameters -/

/-- Parameters that can be parsed where they stand. -/
structure QAt (ps : Ex .prms) (L : List Str) (cl : Ttype) (n d : Nat) : Prop where
  ok : QOk ps
  wf : WF L ps = true
  ord : ordered 0 ps = true
  after : Gram.after ps cl = true
  size : d + n < 4294967296
  has : hasDo ps = true → d = 0

theorem iterArgs_evals {ps : Ex .prms} {L : List Str} {ts : List Token} {d : Nat} (h : QAt ps L .Pipe ts.length d)
    (hn : ps.isNil = false) (hm : Ms (toks none ps) ts) {f : Token} (hf : f.type = .Pipe)
    (c : Cx) (pv rest : List Token) (ds : List Nat) (qs : List Prec) :
    ∃ args, Qsx (tuple ps) args (sx L ps) ∧
      Evals parseIterArgs c ⟨pv, ts ++ f :: rest, d :: ds, qs, L⟩ args ⟨ts.reverse ++ pv, f :: rest, d :: ds, qs, out L ps⟩ := by
  obtain ⟨n1, ns, s1, h1, h2, h3⟩ := h.ok.run hn 0 .Block L ts c pv f rest d ds qs h.wf h.ord hm (.inr hf) (by rw [hf]; exact h.after)
    h.size h.has
  refine ⟨n1 :: ns, h1, (h2 [] .nil).by2 (h3 iterArgsBody [] (by rw [hf]; exact iterArgs_params) .nil).evals fun R hR hR' => ?_⟩
  obtain ⟨t, us, rfl, ht⟩ := hm.prms hn
  rw [parseIterArgs_eq]
  have ht' : t.type ≠ .Semicolon := by rintro h; rw [h] at ht; cases ht
  simp only [List.nil_append, List.cons_append] at hR hR' ⊢
  psim [ht', hR, hR', hf]

theorem procArgs_evals {ps : Ex .prms} {L : List Str} {ts : List Token} {d : Nat} (h : QAt ps L .RParen ts.length d)
    (hn : ps.isNil = false) (hm : Ms (toks none ps) ts) {f : Token} (hf : f.type = .RParen)
    (c : Cx) (pv rest : List Token) (ds : List Nat) (qs : List Prec) :
    ∃ args, Qsx (tuple ps) args (sx L ps) ∧ Evals (fun R => parseProcArgs R .CURLY_AND_BLOCK) c ⟨pv, ts ++ f :: rest, d :: ds, qs, L⟩ args
      ⟨ts.reverse ++ pv, f :: rest, d :: ds, qs, out L ps⟩ := by
  obtain ⟨n1, ns, s1, h1, h2, h3⟩ := h.ok.run hn 0 .Proc L ts c pv f rest d ds qs h.wf h.ord hm (.inl hf) (by rw [hf]; exact h.after)
    h.size h.has
  refine ⟨n1 :: ns, h1, (h2 [] .nil).by2 (h3 procArgsBody [] (by rw [hf]; exact procArgs_params) .nil).evals fun R hR hR' => ?_⟩
  obtain ⟨t, us, rfl, ht⟩ := hm.prms hn
  rw [parseProcArgs_eq]
  have ht' : t.type ≠ .Semicolon := by rintro h; rw [h] at ht; cases ht
  simp only [List.nil_append, List.cons_append] at hR hR' ⊢
  psim [ht', hR, hR', hf]

theorem defArgs_evals {ps : Ex .prms} {L : List Str} {ts : List Token} {d : Nat} (h : QAt ps L .RParen ts.length d)
    (hn : ps.isNil = false) (hm : Ms (toks none ps) ts) {f : Token} (hf : f.type = .RParen)
    (c : Cx) (pv rest : List Token) (ds : List Nat) (qs : List Prec) :
    ∃ args, Qsx (tuple ps) args (sx L ps) ∧
      Evals parseDefArgs c ⟨pv, ts ++ f :: rest, d :: ds, qs, L⟩ args ⟨ts.reverse ++ pv, f :: rest, d :: ds, qs, out L ps⟩ := by
  obtain ⟨n1, ns, s1, h1, h2, h3⟩ := h.ok.run hn 0 .Method L ts c pv f rest d ds qs h.wf h.ord hm (.inl hf) (by rw [hf]; exact h.after)
    h.size h.has
  refine ⟨n1 :: ns, h1, (h2 [] .nil).by2 (h3 defArgsBody [] (by rw [hf]; exact defArgs_params) .nil).evals fun R hR hR' => ?_⟩
  rw [parseDefArgs_eq]
  simp only [List.nil_append] at hR hR'
  psim [hR, hR']

theorem prms_isEmpty (L : List Str) (ps : Ex .prms) : (sx L ps).isEmpty = ps.isNil := by
  cases ps <;> simp only [gsx, nd] <;> rfl

/-! ### Blocks -/

/-- The end of a block. -/
theorem close_end (d : Bool) {u : Token} (hu : Bears (close d) u) :
    u.type = (if d then .EndKeyword else .RCurlyBrace) ∧
      IsEnd (fun ty => ty == (if (!d) = true then Ttype.RCurlyBrace else .EndKeyword)) u := by
  have h : u.type = if d then Ttype.EndKeyword else .RCurlyBrace := by
    rw [hu.type]
    cases d <;> rfl
  refine ⟨h, ?_⟩
  cases d <;>
  · simp only [Bool.false_eq_true, if_false, if_true] at h
    refine ⟨by rw [h]; rfl, by rw [h]; rfl, by rw [h]; rfl, .inl (by rw [h]; rfl), by rw [h]; nofun, fun ty h => (by cases ty <;> first | rfl | cases h), fun ty hty => ?_⟩
    have := Opens.of hty
    first | exact beq_eq_false_iff_ne.2 this.rcurly | exact beq_eq_false_iff_ne.2 this.end_

/-- The parameters of a block. -/
def iterParams (R : Rec) (left : Node) : P (Bool × List Node) :=
  match left with
  | .stabbyProc _ hasArgs args => do
    advance
    pure (hasArgs, args)
  | left =>
    if left.canAcceptABlock then
      if left.hasBlockPass then P.throw (.plain (cs! "Both block arg and actual block given."))
      else do
        advance
        let ty ← curTy
        if ty = .PipePipe then
          advance
          pure (true, [])
        else if ty = .Pipe then
          advance
          if (← curTy) = .Pipe then
            advance
            pure (true, [])
          else
            let args ← parseIterArgs R
            expect .Pipe (cs! "end of block args")
            advance
            pure (true, args)
        else pure (false, [])
    else throwTok left.tok false (cs! "call to accept block")

theorem parseIter_eq (R : Rec) (left : Node) : parseIter R left = (do
    let t ← cur
    let s ← P.get
    let curly := t.type == .LCurlyBrace
    if curly && callWithArgs left && s.prevTok.type != .RParen then
      throwUnexpected (cs! "nearest object cannot accept a { ... } block")
    else
      let endTy : Ttype := if curly then .RCurlyBrace else .EndKeyword
      let (hasArgs, args, body) ← withLocals s.locals do
        let (hasArgs, args) ← iterParams R left
        let body ← parseBodyRescue R .LOWEST fun ty => ty == endTy
        pure (hasArgs, args, body)
      expect endTy (if curly then cs! "}" else cs! "end")
      advance
      pure (.iter t left hasArgs args body.nodes)) := by
  unfold parseIter iterParams
  refine congrArg (cur >>= ·) (funext fun t => congrArg (P.get >>= ·) (funext fun s => ?_))
  dsimp only
  split
  · rfl
  refine congrArg (fun f => withLocals s.locals f >>= _) ?_
  split
  · simp only [P.bind_assoc, P.pure_bind]
  · simp only [P.bind_assoc, P.pure_bind, P.ite_bind]

theorem open_type {d : Bool} {t : Token} (ht : Bears (open_ d) t) : t.type = if d then .DoKeyword else .LCurlyBrace := by
  cases d with
  | false => exact ht.type
  | true => exact ht.do_

/-- The parameters between bars. -/
def bars (ps : Ex .prms) : List Want := opt? ps (bar :: (toks none ps ++ [bar]))

theorem bars_nil {ps : Ex .prms} (h : ps.isNil = true) : bars ps = [] := if_pos h

theorem bars_cons {ps : Ex .prms} (h : ps.isNil = false) : bars ps = bar :: (toks none ps ++ [bar]) :=
  if_neg (by rw [h]; nofun)

/-- The parts of a block. -/
theorem Ms.block {d : Bool} {ps : Ex .prms} {b : Ex .sts} {ts : List Token}
    (h : Ms (open_ d :: (bars ps ++ (toks none b ++ [close d]))) ts) :
    ∃ t tb es tc u, ts = t :: (tb ++ (es ++ (tc ++ [u]))) ∧ Bears (open_ d) t ∧ Ms (bars ps) tb ∧ Eols es ∧ Ms (toks none b) tc ∧
      Bears (close d) u := by
  by_cases hn : ps.isNil = true
  · rw [bars_nil hn] at h ⊢
    obtain ⟨t, es, ts, rfl, ht, hes, hm⟩ := h.line_inv
    obtain ⟨tc, u, rfl, hm, hu⟩ := Ms.snoc_inv (a := toks none b) hm
    exact ⟨t, [], es, tc, u, rfl, ht, .nil, hes, hm, hu⟩
  · have hn : ps.isNil = false := by simpa using hn
    obtain ⟨t, ts, rfl, ht, hm⟩ := h.cons_inv' (by rw [bars_cons hn]; cases d <;> rfl)
    obtain ⟨tb, ts, rfl, hb, hm⟩ := hm.append_inv
    obtain ⟨tc, u, rfl, hm, hu⟩ := hm.snoc_inv
    exact ⟨t, tb, [], tc, u, rfl, ht, hb, Eols.nil, hm, hu⟩

/-- The state after the parameters. -/
theorem iterParams_evals {n : Node} (hblock : n.canAcceptABlock = true) (hpass : n.hasBlockPass = false) {ps : Ex .prms} {L : List Str}
    {tb : List Token} {d : Nat} (hq : QAt ps L .Pipe tb.length d) (hb : Ms (bars ps) tb) {u : Token} (hu : u.type ≠ .Pipe) (hu' : u.type ≠ .PipePipe) (t : Token) (c : Cx) (pv rest : List Token)
    (ds : List Nat) (qs : List Prec) :
    ∃ args, Qsx (tuple ps) args (sx L ps) ∧ Evals (fun R => iterParams R n) c ⟨pv, t :: (tb ++ u :: rest), d :: ds, qs, L⟩ (!ps.isNil, args)
      ⟨tb.reverse ++ t :: pv, u :: rest, d :: ds, qs, out L ps⟩ := by
  have hnb : ∀ R, iterParams R n = (do
      advance
      let ty ← curTy
      if ty = .PipePipe then
        advance
        pure (true, [])
      else if ty = .Pipe then
        advance
        if (← curTy) = .Pipe then
          advance
          pure (true, [])
        else
          let args ← parseIterArgs R
          expect .Pipe (cs! "end of block args")
          advance
          pure (true, args)
      else pure (false, [])) := by
    intro R
    unfold iterParams
    split
    · cases hblock
    · rw [if_pos hblock, if_neg (by rw [hpass]; nofun)]
  by_cases hn : ps.isNil = true
  · cases prms_nil hn
    rw [bars_nil rfl] at hb
    cases hb.nil_inv
    refine ⟨[], by simp only [gsx]; exact .nil _, .of fun R => ?_⟩
    rw [hnb]
    psim [hu, hu']
    rfl
  · have hn : ps.isNil = false := by simpa using hn
    rw [bars_cons hn] at hb
    obtain ⟨p1, tb, rfl, hp1, hb⟩ := Ms.cons_inv hb
    obtain ⟨tb, p2, rfl, hb, hp2⟩ := hb.snoc_inv
    have hp1' : p1.type = .Pipe := hp1.type
    have hp2' : p2.type = .Pipe := hp2.type
    have hs := hq.size
    simp only [List.length_cons, List.length_append] at hs
    obtain ⟨args, h1, h2⟩ := iterArgs_evals { hq with size := by omega } hn hb hp2' c (p1 :: t :: pv) (u :: rest) ds qs
    refine ⟨args, h1, h2.by1 fun R hR => ?_⟩
    rw [hnb, hn]
    obtain ⟨v, us, rfl, hv⟩ := hb.prms hn
    have hv : v.type ≠ .Pipe := by rintro h; rw [h] at hv; cases hv
    rw [List.cons_append] at hR
    psim [hp1', hp2', hv, hR]
    rfl

/-- The first token of a body is not a bar. -/
theorem Ms.stsB {ss : Ex .sts} {ts : List Token} (h : Ms (toks none ss) ts) {f : Token} (hf : f.type = .EndKeyword ∨ f.type = .RCurlyBrace)
    (rest : List Token) {es : List Token} (hes : Eols es) :
    ∃ u us, es ++ (ts ++ f :: rest) = u :: us ∧ u.type ≠ .Pipe ∧ u.type ≠ .PipePipe := by
  rcases es with _ | ⟨e, es⟩
  · by_cases hn : ss.isNil = true
    · cases sts_nil hn
      cases h.nil_inv
      exact ⟨f, rest, rfl, by rcases hf with h | h <;> rw [h] <;> nofun, by rcases hf with h | h <;> rw [h] <;> nofun⟩
    · obtain ⟨t, us, rfl, ht⟩ := h.sts (by simpa using hn)
      exact ⟨t, us ++ f :: rest, rfl, (by rintro h; rw [h] at ht; cases ht), (by rintro h; rw [h] at ht; cases ht)⟩
  · rcases hes.uncons.1 with h | h <;> exact ⟨e, _, rfl, by rw [h]; nofun, by rw [h]; nofun⟩

/-- A block whose parameters are parsed. -/
theorem iter_core {n : Node} {pv : List Token} {d : Bool} {t u : Token} (ht : Bears (open_ d) t)
    (hp : d = false → callWithArgs n = true → (pv.headD {}).type = .RParen) {hasArgs : Bool} {args : List Node} {L' : List Str}
    {tb es ts : List Token} (hes : Eols es) {b : Ex .sts} (h : SOk b) (hu : Bears (close d) u) {L : List Str}
    (hw : WF (L') b = true) (hm : Ms (toks none b) ts) (hs : ts.length < 4294967296)
    (ha : after b (close d).p.type = true) {c : Cx} {rest : List Token} {ds : List Nat} {qs : List Prec}
    (h2 : Evals (fun R => iterParams R n) c ⟨pv, t :: (tb ++ (es ++ (ts ++ u :: rest))), ds, qs, L⟩ (hasArgs, args)
      ⟨tb.reverse ++ t :: pv, es ++ (ts ++ u :: rest), ds, qs, L'⟩) :
    ∃ ns, Lsx ns (sx (L') b) ∧ Evals (fun R => parseIter R n) c
      ⟨pv, t :: (tb ++ (es ++ (ts ++ u :: rest))), ds, qs, L⟩ (.iter t n hasArgs args ns)
      ⟨u :: (ts.reverse ++ (es.reverse ++ (tb.reverse ++ t :: pv))), rest, ds, qs, L⟩ := by
  obtain ⟨hu', hi⟩ := close_end d hu
  have ht' := open_type ht
  obtain ⟨ns, bt, h3, -, h4⟩ := rescue_evals h hw hm hs c (tb.reverse ++ t :: pv) rest ds qs hi
    (.inr ⟨by rw [hu']; cases d <;> rfl, by rw [hu.type]; exact ha⟩) hes
  refine ⟨ns, h3, h2.by2 h4 fun R hR hR' => ?_⟩
  rw [parseIter_eq]
  cases d with
  | false =>
    have hpv : ¬ (callWithArgs n = true ∧ ¬ (PS.prevTok ⟨pv, t :: (tb ++ (es ++ (ts ++ u :: rest))), ds, qs, L⟩).type = .RParen) := by
      rintro ⟨h1, h2⟩
      exact h2 (hp rfl h1)
    simp only [Bool.false_eq_true, if_false, Bool.not_false, if_true] at hu' ht' hR'
    psim [ht', hpv, hR, hR', hu']
    simp only [PRes.andThen, gram, hu']
  | true =>
    simp only [if_true, Bool.not_true, Bool.false_eq_true, if_false] at hu' ht' hR'
    psim [ht', hR, hR', hu']
    simp only [PRes.andThen, gram, hu']

theorem iter_evals {n : Node} {pv : List Token} (hblock : n.canAcceptABlock = true) (hpass : n.hasBlockPass = false) {d : Bool}
    (hp : d = false → callWithArgs n = true → (pv.headD {}).type = .RParen) {t u : Token} (ht : Bears (open_ d) t) {ps : Ex .prms}
    {tb es ts : List Token} {k : Nat} {L : List Str} (hq : QAt ps L .Pipe tb.length k) (hb : Ms (bars ps) tb) (hes : Eols es) {b : Ex .sts} (h : SOk b) (hu : Bears (close d) u)
    (hw : WF (out L ps) b = true) (hm : Ms (toks none b) ts) (hs : ts.length < 4294967296)
    (ha : after b (close d).p.type = true) (c : Cx) (rest : List Token) (ds : List Nat) (qs : List Prec) :
    ∃ args ns, Qsx (tuple ps) args (sx L ps) ∧ Lsx ns (sx (out L ps) b) ∧ Evals (fun R => parseIter R n) c
      ⟨pv, t :: (tb ++ (es ++ (ts ++ u :: rest))), k :: ds, qs, L⟩ (.iter t n (!(sx L ps).isEmpty) args ns)
      ⟨u :: (ts.reverse ++ (es.reverse ++ (tb.reverse ++ t :: pv))), rest, k :: ds, qs, L⟩ := by
  obtain ⟨hu', -⟩ := close_end d hu
  obtain ⟨v, vs, hvs, hv1, hv2⟩ := hm.stsB (f := u) (by rw [hu']; cases d <;> simp) rest hes
  obtain ⟨args, h1, h2⟩ := iterParams_evals hblock hpass hq hb hv1 hv2 t c pv vs ds qs
  rw [← hvs, ← prms_isEmpty L ps] at h2
  obtain ⟨ns, h3, h4⟩ := iter_core ht hp hes h hu hw hm hs ha h2
  exact ⟨args, ns, h1, h3, h4⟩

/-- A block after a call. -/
theorem iter_step {n b : Node} {p : Prec} {ia : IterAllow} {pv pv' rest : List Token} (hn : n.isCallable = true) (hk : n.isSymbolKey = false)
    {d : Bool} {t : Token} (ht : Bears (open_ d) t) {k : Nat} (hia : ia ≠ .NONE) (hd : d = true → k = 0 ∧ ia = .CURLY_AND_BLOCK) {c : Cx}
    {ts : List Token} {ds : List Nat} {qs : List Prec} {L : List Str} {a : Node} {s' : PS}
    (h : Evals (fun R => parseIter R n) c ⟨pv, t :: ts, k :: ds, p :: qs, L⟩ a ⟨pv', rest, k :: ds, p :: qs, L⟩)
    (h' : EvalsRest p ia a c ⟨pv', rest, k :: ds, p :: qs, L⟩ b s') :
    EvalsRest p ia n c ⟨pv, t :: ts, k :: ds, p :: qs, L⟩ b s' := by
  have ht' := open_type ht
  refine .infix (q := p) (ps := qs) (fun R => parseIter R n) (by show t.type.isValid = true; rw [ht']; cases d <;> rfl) ?_ (fun R => ?_) h rfl h'
  · show higherPrecedence t n p ia c _ = _
    unfold higherPrecedence
    cases d with
    | false =>
      have hp : getPrec t (some n) t = .ITER_CURLY := by unfold getPrec; rw [ht']; rfl
      have : (ia != .NONE) = true := by simpa using hia
      simp only [PS.cur, List.headD_cons, hk, Bool.false_eq_true, if_false, hp, reduceCtorEq, if_true, hn, this, Bool.and_self]
    | true =>
      obtain ⟨rfl, rfl⟩ := hd rfl
      have hp : getPrec t (some n) t = .ITER_BLOCK := by unfold getPrec; rw [ht']; rfl
      simp only [PS.cur, List.headD_cons, hk, Bool.false_eq_true, if_false, hp, if_true, beq_self_eq_true]
  · show leftDenotation R t _ n p = _
    unfold leftDenotation
    rw [ht']
    cases d <;> rfl

end NP.Gram
