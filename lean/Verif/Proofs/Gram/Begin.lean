import Verif.Proofs.Gram.Case

/-! `begin` with `rescue`, `else` and `ensure`. -/

namespace NP.Gram

/-- The clauses and the bodies of `else` and `ensure` read so far. -/
abbrev Rests := List Node × Option (List Node) × Option (List Node)

def endRescue (ty : Ttype) : Bool := ty == .RescueKeyword || ty == .ElseKeyword || ty == .EnsureKeyword || ty == .EndKeyword
def endElse (ty : Ttype) : Bool := ty == .EnsureKeyword || ty == .EndKeyword

/-- The end of a `rescue` clause. -/
def rescueRest (R : Rec) (x : Rests) (ct : Token) (exs : List Node) (name : Option Node) : P (Loop Rests Rests) := do
  nextExpression
  let b ← parseBody R .LOWEST endRescue
  if endRescue (← curTy) then
    pure (Loop.again (x.1 ++ [.beginRescue ct exs name b.nodes], x.2.1, x.2.2))
  else throwUnexpected (cs! "begin: rescue, else, ensure, or end")

/-- The variable of a `rescue` clause and what follows. -/
def nameThen (R : Rec) (k : Option Node → P (Loop Rests Rests)) : P (Loop Rests Rests) := do
  if (← curTy) = .HashRocket then
    advance
    let n ← R.exp .ASSIGNMENT_LHS
    addAssignmentLocals n
    let name ← pure (some n)
    k name
  else
    let name ← pure none
    k name

/-- The exceptions of a `rescue` clause and what follows. -/
def exsThen (R : Rec) (k : List Node → P (Loop Rests Rests)) : P (Loop Rests Rests) := do
  let ty ← curTy
  if !ty.isEndOfLine && ty != .HashRocket then
    let e ← R.exp .BARE_CALL_ARG
    let exs ← commaLoop R (R.exp .BARE_CALL_ARG) [e]
    k exs
  else
    let exs ← pure []
    k exs

/-- A round of the loop of `parse_rest_of_begin` at the token `ct` of type `ty`. -/
def restArm (R : Rec) (x : Rests) (ct : Token) (ty : Ttype) : P (Loop Rests Rests) :=
  match ty with
  | .Eof | .EndKeyword => pure (Loop.done x)
  | .RescueKeyword => do
    advance
    exsThen R fun exs => nameThen R fun name => rescueRest R x ct exs name
  | .ElseKeyword => do
    advance
    nextExpression
    let b ← parseBody R .LOWEST endElse
    if endElse (← curTy) then pure (Loop.again (x.1, some b.nodes, x.2.2))
    else throwUnexpected (cs! "begin: ensure or end")
  | .EnsureKeyword => do
    advance
    nextExpression
    let b ← parseBody R .LOWEST fun ty => ty == .EndKeyword
    pure (Loop.again (x.1, x.2.1, some b.nodes))
  | _ => throwUnexpected (cs! "begin end")

/-- The body of the loop of `parse_rest_of_begin`. -/
def restBody (R : Rec) (x : Rests) : P (Loop Rests Rests) := do
  let ct ← cur
  restArm R x ct ct.type

theorem parseRestOfBegin_eq (R : Rec) (t : Token) (body : List Node) : parseRestOfBegin R (parseBody R .LOWEST) t body = (do
    let x ← loop (restBody R) R.fuel ([], none, none)
    expect .EndKeyword (cs! "begin/rescue/ensure end")
    advance
    pure (.begin_ t body x.1 x.2.1 x.2.2)) := rfl

theorem line_semi : Ttype.isEndOfLine .Semicolon = true := rfl

theorem line_newline : Ttype.isEndOfLine .Newline = true := rfl

theorem exs_evals {a : Ex .args} (h : AOk a) {f : Token} {L : List Str} {ts : List Token} {d : Nat} (hw : WF L a = true)
    (hsi : simple a = true) (hm : Ms (toks none a) ts) (hf : Eol f ∨ f.type = .HashRocket) (haf : after a f.type = true)
    (hs : d + ts.length < 4294967296) (hd : hasDo a = true → d = 0) (c : Cx) (pv rest : List Token) (ds : List Nat) (ps : List Prec) :
    ∃ ns, Lsx ns (sx L a) ∧ ∀ (k : Rec → List Node → P (Loop Rests Rests)) r s',
      Evals (fun R => k R ns) c ⟨ts.reverse ++ pv, f :: rest, d :: ds, ps, out L a⟩ r s' →
      Evals (fun R => exsThen R (k R)) c ⟨pv, ts ++ f :: rest, d :: ds, ps, L⟩ r s' := by
  by_cases hn : a.isNil = true
  · cases args_nil hn
    cases hm.nil_inv
    refine ⟨[], .nil, fun k r s' hk => hk.by1 fun R hR => ?_⟩
    simp only [gram] at hR
    unfold exsThen
    rcases hf with (hf | hf) | hf <;> psim [hf, hR, line_semi, line_newline, ite_self]
  · have hn : a.isNil = false := by simpa using hn
    obtain ⟨as', arg, s1, hA, hk, hl⟩ := h.simple hn 5 .BARE_CALL_ARG L ts c pv f rest d ds ps (by decide) hw hsi hm
      (by rcases hf with hf | hf
          · exact .zero rfl hf.need hf.do_
          · exact .zero hf rfl nofun) (by rcases hf with (hf | hf) | hf <;> rw [hf] <;> nofun) haf hs hd
    have hl' := (hl []).evals
    refine ⟨as', hA, fun k r s' hk' => hk.by3 hl' hk' fun R hR hR' hR'' => ?_⟩
    obtain ⟨u, us, rfl, hu, -⟩ := Ms.args hn hw hm
    rw [← commaLoop_eq] at hR'
    simp only [gram] at hR hR' hR''
    unfold exsThen
    psim [hu.line, hu.rocket, hR, hR', hR'']

theorem VarTok.line {v : Var} {t : Token} (h : VarTok v t) : t.type.isEndOfLine = false := by
  cases h with
  | loc h | ivar h | cvar h | gvar h | const h => rw [h]; rfl

theorem name_some {v : Var} {y f : Token} (hy : VarTok v y) (hf : Eol f) {h : Token} (hh : h.type = .HashRocket) (c : Cx)
    (pv rest : List Token) (d : Nat) (ds : List Nat) (ps : List Prec) (L : List Str) (k : Rec → Option Node → P (Loop Rests Rests)) (r : Loop Rests Rests) (s' : PS)
    (hk : Evals (fun R => k R (some (.identifier y (L.contains v.name)))) c ⟨y :: h :: pv, f :: rest, d :: ds, ps, v.bind L⟩ r s') :
    Evals (fun R => nameThen R (k R)) c ⟨pv, h :: y :: f :: rest, d :: ds, ps, L⟩ r s' := by
  have h1 := prefix_evals (q := .ASSIGNMENT_LHS) (ia := .CURLY_AND_BLOCK) (c := c) (t := y) (pv := h :: pv) (ts := f :: rest) (f := f) (d := d)
    (ds := ds) (ps := ps) (L := L) (fun R => parseIdentifier) hy.null hy.line
    (.of fun R => run_identifier hy.name c (h :: pv) (f :: rest) (d :: ds) (.ASSIGNMENT_LHS :: ps) L)
    (.inr ⟨rfl, ⟨by rw [hf.need]; decide, by rcases hf with h | h <;> rw [h] <;> rfl, fun h => absurd h hf.do_⟩⟩)
  refine h1.by2 hk fun R hR hR' => ?_
  unfold nameThen
  psim [hh, hR, hy.locals, hR']

theorem name_none {f : Token} (hf : Eol f) (c : Cx) (pv rest : List Token) (ds : List Nat) (ps : List Prec) (L : List Str)
    (k : Rec → Option Node → P (Loop Rests Rests)) (r : Loop Rests Rests) (s' : PS) (hk : Evals (fun R => k R none) c ⟨pv, f :: rest, ds, ps, L⟩ r s') :
    Evals (fun R => nameThen R (k R)) c ⟨pv, f :: rest, ds, ps, L⟩ r s' := by
  refine hk.by1 fun R hR => ?_
  unfold nameThen
  rcases hf with hf | hf <;> psim [hf, hR]

theorem start_ends {ty : Ttype} (h : starts ty = true) : endRescue ty = false ∧ endElse ty = false := by
  cases ty <;> first | exact ⟨rfl, rfl⟩ | exact absurd h (by decide)

theorem line_ends {ty : Ttype} (h : ty.isEndOfLine = true) : endRescue ty = false ∧ endElse ty = false := by
  cases ty <;> first | exact ⟨rfl, rfl⟩ | exact absurd h (by decide)

theorem IsEnd.rescue {f : Token} (hf : endRescue f.type = true) : IsEnd endRescue f := by
  refine ⟨?_, ?_, hf, ?_, ?_, fun ty h => (line_ends h).1, fun ty h => (start_ends h).1⟩ <;> generalize f.type = ty at hf ⊢ <;> cases ty <;>
    first | rfl | exact .inl rfl | exact .inr (.inl rfl) | exact .inr (.inr rfl) | exact absurd hf (by decide) | nofun

theorem IsEnd.else_ {f : Token} (hf : endElse f.type = true) : IsEnd endElse f := by
  refine ⟨?_, ?_, hf, ?_, ?_, fun ty h => (line_ends h).2, fun ty h => (start_ends h).2⟩ <;> generalize f.type = ty at hf ⊢ <;> cases ty <;>
    first | rfl | exact .inl rfl | exact .inr (.inl rfl) | exact .inr (.inr rfl) | exact absurd hf (by decide) | nofun

/-- The parser reads the clauses. -/
inductive ROk : Ex .rescues → Prop where
  | nil : ROk .rnil
  | resc {a : Ex .args} {v : Option Var} {b : Ex .sts} {rs : Ex .rescues} : AOk a → SOk b → ROk rs → ROk (.resc a v b rs)

/-- The first token of the clauses and what follows. -/
theorem Ms.rescues {rs : Ex .rescues} {ts : List Token} (h : Ms (toks none rs) ts) {f : Token}
    (hf : endRescue f.type = true) (rest : List Token) : ∃ g rest', ts ++ f :: rest = g :: rest' ∧ endRescue g.type = true := by
  cases rs with
  | rnil =>
    cases h.nil_inv
    exact ⟨f, rest, rfl, hf⟩
  | resc a v b rs =>
    simp only [gtoks] at h
    obtain ⟨t, us, rfl, ht, -⟩ := h.cons_inv
    exact ⟨t, us ++ f :: rest, rfl, by rw [ht.type]; rfl⟩

theorem rest_rescue (R : Rec) (x : Rests) (t : Token) : restArm R x t .RescueKeyword = (do
    advance
    exsThen R fun exs => nameThen R fun name => rescueRest R x t exs name) := rfl

theorem rest_else (R : Rec) (x : Rests) (t : Token) : restArm R x t .ElseKeyword = (do
    advance
    nextExpression
    let b ← parseBody R .LOWEST endElse
    if endElse (← curTy) then pure (Loop.again (x.1, some b.nodes, x.2.2))
    else throwUnexpected (cs! "begin: ensure or end")) := rfl

theorem rest_ensure (R : Rec) (x : Rests) (t : Token) : restArm R x t .EnsureKeyword = (do
    advance
    nextExpression
    let b ← parseBody R .LOWEST fun ty => ty == .EndKeyword
    pure (Loop.again (x.1, x.2.1, some b.nodes))) := rfl

theorem rest_end (R : Rec) (x : Rests) (t : Token) : restArm R x t .EndKeyword = pure (Loop.done x) := rfl

/-- The body of a clause. -/
theorem clause_evals {b : Ex .sts} (h : SOk b) {L : List Str} {ts : List Token} (hw : WF L b = true) (hm : Ms (toks none b) ts)
    (hs : ts.length < 4294967296) (hcl : closed b = true) {s g : Token} (hs' : Eol s) {es : List Token} (hes : Eols es) (hg : endRescue g.type = true) (c : Cx)
    (pv rest : List Token) (ds : List Nat) (ps : List Prec) :
    ∃ ms, Lsx ms (sx L b) ∧ ∀ x t exs name, Evals (fun R => rescueRest R x t exs name) c ⟨pv, s :: (es ++ (ts ++ g :: rest)), ds, ps, L⟩
      (.again (x.1 ++ [.beginRescue t exs name ms], x.2.1, x.2.2)) ⟨ts.reverse ++ (es.reverse ++ s :: pv), g :: rest, ds, ps, out L b⟩ := by
  obtain ⟨ms, bt, hM, -, hk⟩ := body_evals h hw hm hs c (es.reverse ++ s :: pv) rest ds ps (.rescue hg) (.inl hcl) .nil
  obtain ⟨v, vs, hvs, hv, -⟩ := hm.stsF (IsEnd.rescue hg).line (IsEnd.rescue hg).valid rest
  refine ⟨ms, hM, fun x t exs name => hk.by1 fun R hR => ?_⟩
  simp only [List.nil_append, List.reverse_nil] at hR
  rw [hvs] at hR ⊢
  unfold rescueRest
  rcases hs' with hs' | hs' <;> psim [hs', hes, hv, hR, hg]

theorem rescues_run {rs : Ex .rescues} (h : ROk rs) : ∀ {L : List Str} {ts : List Token} {d : Nat} {f : Token} (_ : WF L rs = true)
    (_ : Ms (toks none rs) ts) (_ : d + ts.length < 4294967296) (_ : hasDo rs = true → d = 0)
    (_ : endRescue f.type = true) (c : Cx) (pv rest : List Token) (ds : List Nat) (ps : List Prec),
    ∃ ns, Lsx ns (sx L rs) ∧ ns.isEmpty = rs.isNil ∧ ∀ acc r s',
      EvalsLoop restBody (acc ++ ns, none, none) c ⟨ts.reverse ++ pv, f :: rest, d :: ds, ps, out L rs⟩ r s' →
      EvalsLoop restBody (acc, none, none) c ⟨pv, ts ++ f :: rest, d :: ds, ps, L⟩ r s' := by
  induction h with
  | nil =>
    intro L ts d f hw hm hs hd hf c pv rest ds ps
    cases hm.nil_inv
    refine ⟨[], .nil, rfl, fun acc r s' h => ?_⟩
    simpa only [gram, List.append_nil] using h
  | resc ha hb hrs ih =>
    rename_i a v b rs
    intro L ts d f hw hm hs hd hf c pv rest ds ps
    simp only [gtoks] at hm
    obtain ⟨t, us, rfl, ht, hm'⟩ := hm.cons_inv
    have ht' : t.type = .RescueKeyword := ht.type
    obtain ⟨ta, us, rfl, hma, hm'⟩ := hm'.append_inv
    simp only [gdo, Bool.or_eq_true] at hd
    cases v with
    | none =>
      simp only [gwf, Bool.and_eq_true] at hw
      obtain ⟨⟨⟨⟨⟨hw1, hw2⟩, hw3⟩, hw4⟩, hw5⟩, hw6⟩ := hw
      simp only [List.nil_append] at hm'
      obtain ⟨u, es', us, rfl, hu, hes, hm'⟩ := hm'.line_inv
      have hu' : Eol u := hu.eol
      obtain ⟨tb, tr, rfl, hmb, hmr⟩ := hm'.append_inv
      simp only [List.length_cons, List.length_append] at hs
      obtain ⟨es, hE, hke⟩ := exs_evals ha hw1 hw2 hma (f := u) (d := d) (.inl hu') (hu'.after hw3) (by omega)
        (fun h => hd (.inl h)) c (t :: pv) (es' ++ (tb ++ (tr ++ f :: rest))) ds ps
      obtain ⟨g, gs, hgs, hg⟩ := hmr.rescues hf rest
      obtain ⟨ms, hM, hkb⟩ := clause_evals hb hw4 hmb (by omega) hw5 hu' hes hg c (ta.reverse ++ t :: pv) gs (d :: ds) ps
      obtain ⟨ns, hN, -, ih⟩ := ih (d := d) (f := f) hw6 hmr (by omega) (fun h => hd (.inr h)) hf c
        (tb.reverse ++ (es'.reverse ++ u :: (ta.reverse ++ t :: pv))) rest ds ps
      refine ⟨.beginRescue t es none ms :: ns, ?_, rfl, fun acc r s' h => ?_⟩
      · simp only [gsx]
        exact .cons (.resbody hE hM) hN
      · refine .again (y := (acc ++ [.beginRescue t es none ms], none, none))
          (s1 := ⟨tb.reverse ++ (es'.reverse ++ u :: (ta.reverse ++ t :: pv)), tr ++ f :: rest, d :: ds, ps, out (out L a) b⟩) ?_ (ih _ _ _ ?_)
        · rw [hgs] at hke ⊢
          refine (hke (fun R exs => nameThen R fun name => rescueRest R (acc, none, none) t exs name) _ _
            (name_none hu' c _ _ _ _ _ (fun R name => rescueRest R (acc, none, none) t es name) _ _ (hkb (acc, none, none) t es none))).by1
              fun R hR => ?_
          unfold restBody
          simp only [gram] at hR
          psim [ht', rest_rescue, hgs, hR]
        · simpa only [gram] using h
    | some v =>
      simp only [gwf, Bool.and_eq_true] at hw
      obtain ⟨⟨⟨⟨⟨hw1, hw2⟩, hw3⟩, hw4⟩, hw5⟩, hw6⟩ := hw
      simp only [List.cons_append, List.nil_append] at hm'
      obtain ⟨q, us, rfl, hq, hm'⟩ := hm'.cons_inv
      obtain ⟨y, us, rfl, hy, hm'⟩ := hm'.cons_inv
      obtain ⟨u, es', us, rfl, hu, hes, hm'⟩ := hm'.line_inv
      have hq' : q.type = .HashRocket := hq.type
      have hy' := VarTok.of hy
      have hu' : Eol u := hu.eol
      obtain ⟨tb, tr, rfl, hmb, hmr⟩ := hm'.append_inv
      simp only [List.length_cons, List.length_append] at hs
      obtain ⟨es, hE, hke⟩ := exs_evals ha hw1 hw2 hma (f := q) (d := d) (.inr hq') (by rw [hq']; exact hw3) (by omega)
        (fun h => hd (.inl h)) c (t :: pv) (y :: u :: (es' ++ (tb ++ (tr ++ f :: rest)))) ds ps
      obtain ⟨g, gs, hgs, hg⟩ := hmr.rescues hf rest
      obtain ⟨ms, hM, hkb⟩ := clause_evals hb hw4 hmb (by omega) hw5 hu' hes hg c (y :: q :: (ta.reverse ++ t :: pv)) gs (d :: ds) ps
      obtain ⟨ns, hN, -, ih⟩ := ih (d := d) (f := f) hw6 hmr (by omega) (fun h => hd (.inr h)) hf c
        (tb.reverse ++ (es'.reverse ++ u :: y :: q :: (ta.reverse ++ t :: pv))) rest ds ps
      let nm : Node := .identifier y ((out L a).contains v.name)
      refine ⟨.beginRescue t es (some nm) ms :: ns, ?_, rfl, fun acc r s' h => ?_⟩
      · simp only [gsx]
        exact .cons (.resbodyV hE hM (hy'.target _)) hN
      · refine .again (y := (acc ++ [.beginRescue t es (some nm) ms], none, none))
          (s1 := ⟨tb.reverse ++ (es'.reverse ++ u :: y :: q :: (ta.reverse ++ t :: pv)), tr ++ f :: rest, d :: ds, ps, out (v.bind (out L a)) b⟩) ?_ (ih _ _ _ ?_)
        · rw [hgs] at hke ⊢
          refine (hke (fun R exs => nameThen R fun name => rescueRest R (acc, none, none) t exs name) _ _
            (name_some hy' hu' hq' c _ _ _ _ _ _ (fun R name => rescueRest R (acc, none, none) t es name) _ _
              (hkb (acc, none, none) t es (some nm)))).by1 fun R hR => ?_
          unfold restBody
          simp only [gram] at hR
          psim [ht', rest_rescue, hgs, hR]
        · simpa only [gram] using h

/-- The S-expressions of an optional part. -/
def partSx (L : List Str) : Ex .part → Option (List Sexp)
  | .tnil => none
  | .part ss => some (sx L ss)

theorem sx_begin_part (L : List Str) (b : Ex .sts) (rs : Ex .rescues) (el en : Ex .part) : sx L (.begin_ b rs el en) =
    rescued (sx L b) (sx (out L b) rs) (partSx (out (out L b) rs) el) (partSx (out (out (out L b) rs) el) en) := by
  cases el <;> cases en <;> rfl

theorem ensure_run {en : Ex .part} (h : TOk en) {L : List Str} {ts : List Token} {v : Token} (hw : WF L en = true) (hcl : closed en = true)
    (hm : Ms (opt? en (fix (cs! "ensure") .EnsureKeyword :: semi :: toks none en)) ts) (hs : ts.length < 4294967296)
    (hv : v.type = .EndKeyword) (c : Cx) (pv rest : List Token) (ds : List Nat) (ps : List Prec) :
    ∃ ens, Psx ens (partSx L en) ∧ ∀ ns els, EvalsLoop restBody (ns, els, none) c ⟨pv, ts ++ v :: rest, ds, ps, L⟩ (ns, els, ens)
      ⟨ts.reverse ++ pv, v :: rest, ds, ps, out L en⟩ := by
  rcases hm.opt_inv with ⟨rfl, rfl⟩ | ⟨⟨ss, rfl⟩, hm'⟩
  · refine ⟨none, .none, fun ns els => .done (.of fun R => ?_)⟩
    unfold restBody
    psim [hv, rest_end]
  · simp only [gtoks, gwf] at hm' hw
    obtain ⟨q, us, rfl, hq, hm'⟩ := hm'.cons_inv
    obtain ⟨u, es, ts, rfl, hu, hes, hm'⟩ := hm'.line_inv
    have hq' : q.type = .EnsureKeyword := hq.type
    have hu' : Eol u := hu.eol
    simp only [List.length_cons, List.length_append] at hs
    obtain ⟨ms, bt, hM, -, hk⟩ := body_evals (h ss rfl) hw hm' (by omega) c (es.reverse ++ u :: q :: pv) rest ds ps (.end_ hv) (.inl hcl) .nil
    obtain ⟨g, gs, hgs, hg, -⟩ := hm'.stsF (f := v) (by rw [hv]; rfl) (by rw [hv]; rfl) rest
    refine ⟨some ms, .some hM, fun ns els => .again (y := (ns, els, some ms)) (s1 := ⟨ts.reverse ++ (es.reverse ++ u :: q :: pv), v :: rest, ds, ps, out L ss⟩)
      (hk.by1 fun R hR => ?_) (.done (.of fun R => ?_))⟩
    · unfold restBody
      simp only [List.nil_append, List.reverse_nil] at hR
      rw [hgs] at hR
      rcases hu' with hu' | hu' <;> psim [hes, hgs, hq', rest_ensure, hu', hg, hR]
    · unfold restBody
      psim [hv, rest_end]

theorem else_run {el : Ex .part} (h : TOk el) {L : List Str} {ts : List Token} {v : Token} (hw : WF L el = true) (hcl : closed el = true)
    (hm : Ms (opt? el (fix (cs! "else") .ElseKeyword :: semi :: toks none el)) ts) (hs : ts.length < 4294967296)
    (hv : endElse v.type = true) (c : Cx) (pv rest : List Token) (ds : List Nat) (ps : List Prec) :
    ∃ els, Psx els (partSx L el) ∧ ∀ ns r s', EvalsLoop restBody (ns, els, none) c ⟨ts.reverse ++ pv, v :: rest, ds, ps, out L el⟩ r s' →
      EvalsLoop restBody (ns, none, none) c ⟨pv, ts ++ v :: rest, ds, ps, L⟩ r s' := by
  rcases hm.opt_inv with ⟨rfl, rfl⟩ | ⟨⟨ss, rfl⟩, hm'⟩
  · refine ⟨none, .none, fun ns r s' hk => ?_⟩
    simpa only [gram] using hk
  · simp only [gtoks, gwf] at hm' hw
    obtain ⟨q, us, rfl, hq, hm'⟩ := hm'.cons_inv' rfl
    obtain ⟨u, es, ts, rfl, hu, hes, hm'⟩ := hm'.line_inv
    have hq' : q.type = .ElseKeyword := hq.else_
    have hu' : Eol u := hu.eol
    simp only [List.length_cons, List.length_append] at hs
    obtain ⟨ms, bt, hM, -, hk⟩ := body_evals (h ss rfl) hw hm' (by omega) c (es.reverse ++ u :: q :: pv) rest ds ps (.else_ hv) (.inl hcl) .nil
    obtain ⟨g, gs, hgs, hg, -⟩ := hm'.stsF (IsEnd.else_ hv).line (IsEnd.else_ hv).valid rest
    refine ⟨some ms, .some hM, fun ns r s' hk' => .again (y := (ns, some ms, none)) (s1 := ⟨ts.reverse ++ (es.reverse ++ u :: q :: pv), v :: rest, ds, ps, out L ss⟩)
      (hk.by1 fun R hR => ?_) ?_⟩
    · unfold restBody
      simp only [List.nil_append, List.reverse_nil] at hR
      rw [hgs] at hR
      rcases hu' with hu' | hu' <;> psim [hes, hgs, hq', rest_else, hu', hg, hR, hv]
    · simpa only [gram] using hk'

theorem Ms.ensure {en : Ex .part} {ts : List Token} (h : Ms (opt? en (fix (cs! "ensure") .EnsureKeyword :: semi :: toks none en)) ts)
    {v : Token} (hv : v.type = .EndKeyword) (rest : List Token) : ∃ g rest', ts ++ v :: rest = g :: rest' ∧ endElse g.type = true := by
  rcases h.opt_inv with ⟨rfl, rfl⟩ | ⟨⟨ss, rfl⟩, h'⟩
  · exact ⟨v, rest, rfl, by rw [hv]; rfl⟩
  · obtain ⟨q, us, rfl, hq, -⟩ := h'.cons_inv
    exact ⟨q, us ++ v :: rest, rfl, by rw [hq.type]; rfl⟩

theorem endElse_rescue {ty : Ttype} (h : endElse ty = true) : endRescue ty = true := by
  cases ty <;> first | rfl | exact absurd h (by decide)

theorem Ms.else_ {el : Ex .part} {ts : List Token} (h : Ms (opt? el (fix (cs! "else") .ElseKeyword :: semi :: toks none el)) ts)
    {v : Token} (hv : endElse v.type = true) (rest : List Token) : ∃ g rest', ts ++ v :: rest = g :: rest' ∧ endRescue g.type = true := by
  rcases h.opt_inv with ⟨rfl, rfl⟩ | ⟨⟨ss, rfl⟩, h'⟩
  · exact ⟨v, rest, rfl, endElse_rescue hv⟩
  · obtain ⟨q, us, rfl, hq, -⟩ := h'.cons_inv' rfl
    exact ⟨q, us ++ v :: rest, rfl, by rw [hq.else_]; rfl⟩

/-- What `parse_begin` makes of the node. -/
def beginNode (b : Blk) (n : Node) : P Node :=
  match n with
  | .begin_ _ _ [] none none => do
    if (← curTy).isExpressionModifier then pure b.node else pure b.single
  | n => pure n

theorem parseBegin_eq (R : Rec) : parseBegin R = (do
    let t ← cur
    advance
    nextExpression
    let b ← parseBodyRescue R .LOWEST endRescue
    if endRescue (← curTy) then
      let n ← parseRestOfBegin R (parseBody R .LOWEST) t b.nodes
      beginNode b n
    else throwUnexpected (cs! "begin: rescue, else, ensure, or end")) := rfl

theorem begin_ok (b : Ex .sts) (rs : Ex .rescues) (el en : Ex .part) (h1 : SOk b) (h2 : ROk rs) (h3 : TOk el) (h4 : TOk en) :
    ExOk (.begin_ b rs el en) := by
  intro L w ts hw hm c pv f rest d ds p qs ia ha
  have hsz := ha.size
  have hdo := ha.has
  simp only [gwf, gdo, Bool.and_eq_true, Bool.not_eq_true'] at hw hdo
  simp only [gtoks] at hm
  obtain ⟨⟨⟨⟨⟨⟨⟨⟨hw1, hw2⟩, hw3⟩, hw4⟩, hw5⟩, hw6⟩, hw7⟩, hw8⟩, hw9⟩ := hw
  obtain ⟨t, us, rfl, ht, hm'⟩ := hm.cons_inv
  obtain ⟨u, es, us, rfl, hu, hes, hm'⟩ := hm'.line_inv
  obtain ⟨tb, us, rfl, hmb, hm'⟩ := hm'.append_inv
  obtain ⟨tr, us, rfl, hmr, hm'⟩ := hm'.append_inv
  obtain ⟨tl, us, rfl, hml, hm'⟩ := hm'.append_inv
  obtain ⟨tn, v, rfl, hmn, hv⟩ := hm'.snoc_inv
  have ht' : t.type = .BeginKeyword := ht.type
  have hu' : Eol u := hu.eol
  have hv' : v.type = .EndKeyword := hv.type
  simp only [List.length_append, List.length_cons] at hsz
  obtain ⟨g1, r1, hg1, he1⟩ := hmn.ensure hv' (f :: rest)
  obtain ⟨g2, r2, hg2, he2⟩ := hml.else_ he1 r1
  obtain ⟨g3, r3, hg3, he3⟩ := hmr.rescues he2 r2
  obtain ⟨ms, bt, hM, -, hkb⟩ := rescue_evals h1 hw1 hmb (by omega) c (es.reverse ++ u :: t :: pv) r3 (d :: ds) (p :: qs) (.rescue he3) (.inl hw2) .nil
  obtain ⟨ns, hN, hN', hkr⟩ := rescues_run h2 hw3 hmr (d := d) (by omega) (fun h => (hdo h).1) he2 c (tb.reverse ++ (es.reverse ++ u :: t :: pv)) r2 ds (p :: qs)
  obtain ⟨els, hE, hkl⟩ := else_run h3 hw4 hw5 hml (by omega) he1 c (tr.reverse ++ (tb.reverse ++ (es.reverse ++ u :: t :: pv))) r1 (d :: ds) (p :: qs)
  obtain ⟨ens, hF, hkn⟩ := ensure_run h4 hw6 hw7 hmn (by omega) hv' c (tl.reverse ++ (tr.reverse ++ (tb.reverse ++ (es.reverse ++ u :: t :: pv)))) (f :: rest) (d :: ds) (p :: qs)
  have hne : ∀ bl, beginNode bl (.begin_ t ms ns els ens) = pure (.begin_ t ms ns els ens) := by
    intro bl
    cases ns with
    | cons _ _ => rfl
    | nil =>
      cases en with
      | tnil =>
        have h : rs.isNil = true := hN'.symm
        rw [h] at hw8
        cases hw8
      | part ss =>
        obtain ⟨o, rfl⟩ : ∃ o, ens = some o := by
          cases hF
          exact ⟨_, rfl⟩
        cases els <;> rfl
  have hl := (hkr [] _ _ (hg2 ▸ hkl ns _ _ (hg1 ▸ hkn ns els))).evals
  obtain ⟨x, hx, hnx⟩ := Nsx.begin_ (t := t) hM hN hE hF
  obtain ⟨g, gs, hgs, hg, -⟩ := hmb.stsF (IsEnd.rescue he3).line (IsEnd.rescue he3).valid r3
  refine Parsed.first (n := .begin_ t ms ns els ens) (fun R => parseBegin R) (fun R => by rw [ht']; rfl) (hkb.by2 hl fun R hR hR' => ?_)
    (.of (by rw [sx_begin_part]; exact hx) hnx rfl rfl) nofun
  rw [parseBegin_eq]
  simp only [List.nil_append, List.reverse_nil] at hR
  rw [hgs] at hR
  rw [hg3] at hR'
  rcases hu' with hu' | hu' <;> psim [hes, hg1, hg2, hg3, hgs, hu', hg, hR, he3, parseRestOfBegin_eq, hR', hv', hne]

end NP.Gram
