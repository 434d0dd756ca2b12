import Verif.Proofs.Gram.Assign
import Mathlib.Tactic.Tauto

/-! Lists of statements. -/

namespace NP.Gram
open Spec

/-- The parser reads each of the statements. -/
inductive SOk : Ex .sts → Prop where
  | nil : SOk .snil
  | last {e : Ex .ex} : ExOk e → SOk (.slast e)
  | cons {e : Ex .ex} {ss : Ex .sts} : ExOk e → SOk ss → SOk (.scons e ss)

theorem sts_nil {ss : Ex .sts} (h : ss.isNil = true) : ss = .snil := by
  cases ss <;> first | rfl | cases h

/-- The first token of statements. -/
theorem Ms.sts {ss : Ex .sts} {ts : List Token} (h : Ms (toks none ss) ts) (hn : ss.isNil = false) :
    ∃ t ts', ts = t :: ts' ∧ starts t.type = true := by
  cases ss with
  | snil => cases hn
  | slast e =>
    simp only [gtoks] at h
    obtain ⟨t, us, rfl, ht, -⟩ := h.first
    exact ⟨t, us, rfl, ht⟩
  | scons e ss =>
    simp only [gtoks] at h
    obtain ⟨tv, tr, rfl, h, -⟩ := h.append_inv
    obtain ⟨t, us, rfl, ht, -⟩ := h.first
    exact ⟨t, us ++ tr, rfl, ht⟩

/-- The first token of statements and what follows. -/
theorem Ms.stsF {ss : Ex .sts} {ts : List Token} (h : Ms (toks none ss) ts) {f : Token} (hl : f.type.isEndOfLine = false)
    (hv : f.type.isValid = true) (rest : List Token) :
    ∃ u us, ts ++ f :: rest = u :: us ∧ u.type.isEndOfLine = false ∧ u.type.isValid = true := by
  by_cases hn : ss.isNil = true
  · cases sts_nil hn
    cases h.nil_inv
    exact ⟨f, rest, rfl, hl, hv⟩
  · obtain ⟨t, us, rfl, ht⟩ := h.sts (by simpa using hn)
    exact ⟨t, us ++ f :: rest, rfl, (Opens.of ht).line, (Opens.of ht).valid⟩

/-- The nodes of statements. -/
def Stm (ss : Ex .sts) : List Node → Prop
  | [] => ss.isNil = true
  | [n] => ss.isNil = false ∧ plain n = true ∧ shapeOf n = shape ss ∧ ∃ x, Nsx n x
  | _ :: _ :: _ => ss.isNil = false ∧ shape ss = .block

/-- A loop over statements up to a token. -/
structure Loops {α : Type} (B : Rec → List Node → P (Loop (List Node) α)) (wrap : List Node → α) (f : Token) (cl : Bool) :
    Prop where
  line : f.type.isEndOfLine = false
  valid : f.type.isValid = true
  done : ∀ (acc : List Node) (c : Cx) (pv rest : List Token) (ds : List Nat) (ps : List Prec) (L : List Str),
    EvalsLoop B acc c ⟨pv, f :: rest, ds, ps, L⟩ (wrap acc) ⟨pv, f :: rest, ds, ps, L⟩
  step : ∀ (acc : List Node) (c : Cx) (pv : List Token) (t : Token) (us : List Token) (ds : List Nat) (ps : List Prec) (L : List Str)
    (n : Node) (pv' : List Token) (s : Token) (es : List Token) (u : Token) (rest : List Token) (L' : List Str),
    starts t.type = true → Eol s → Eols es → u.type.isEndOfLine = false →
    Evals (fun R => R.expr .LOWEST .CURLY_AND_BLOCK) c ⟨pv, t :: us, ds, ps, L⟩ n ⟨pv', s :: (es ++ u :: rest), ds, ps, L'⟩ →
    Evals (fun R => B R acc) c ⟨pv, t :: us, ds, ps, L⟩ (.again (acc ++ [n])) ⟨es.reverse ++ s :: pv', u :: rest, ds, ps, L'⟩
  last : cl = false → need f.type = 0 ∧ f.type ≠ .DoKeyword ∧ ∀ (acc : List Node) (c : Cx) (pv : List Token) (t : Token)
    (us : List Token) (ds : List Nat) (ps : List Prec) (L : List Str) (n : Node) (pv' rest : List Token) (L' : List Str),
    starts t.type = true →
    Evals (fun R => R.expr .LOWEST .CURLY_AND_BLOCK) c ⟨pv, t :: us, ds, ps, L⟩ n ⟨pv', f :: rest, ds, ps, L'⟩ →
    EvalsLoop B acc c ⟨pv, t :: us, ds, ps, L⟩ (wrap (acc ++ [n])) ⟨pv', f :: rest, ds, ps, L'⟩

theorem after_eol : ∀ {k : Kind} (e : Ex k), after e .Newline = after e .Semicolon := by
  intro k e
  induction e with
  | _ => first | rfl | (simp only [gafter, *]; done) | (simp only [gafter, *]; rfl)

theorem Eol.after {k : Kind} {e : Ex k} {t : Token} (h : Eol t) (h' : Gram.after e .Semicolon = true) : Gram.after e t.type = true := by
  rcases h with h | h <;> rw [h]
  · exact h'
  · rw [after_eol]; exact h'

theorem after_then : ∀ {k : Kind} (e : Ex k), after e .ThenKeyword = true → after e .Semicolon = true := by
  intro k e
  induction e with
  | ret0 => nofun
  | _ => first
    | exact id
    | (have e0 : ∀ n, lets n .ThenKeyword = lets n .Semicolon := fun _ => rfl
       simp only [gafter, e0, Bool.and_eq_true, Bool.or_eq_true]
       first
       | exact And.imp id (by assumption)
       | exact And.imp (And.imp id (by assumption)) (by assumption)
       | (split <;> simp_all; done)
       | (simp_all; done)
       | (intro h; simp_all; tauto))

/-- A statement. -/
theorem ExOk.stmt {e : Ex .ex} (h : ExOk e) {L : List Str} {ts : List Token} (hw : WF L e = true) (hm : Ms (toks none e) ts)
    {f : Token} {d : Nat} (hn : need f.type = 0) (hd : f.type ≠ .DoKeyword) (hf : after e f.type = true)
    (hs : d + ts.length < 4294967296) (hh : hasDo e = true → d = 0) (c : Cx) (pv rest : List Token) (ds : List Nat)
    (ps : List Prec) :
    ∃ n, Good L e n ∧ Evals (fun R => R.expr .LOWEST .CURLY_AND_BLOCK) c ⟨pv, ts ++ f :: rest, d :: ds, ps, L⟩ n
      ⟨ts.reverse ++ pv, f :: rest, d :: ds, ps, out L e⟩ :=
  h.nested hw hm (ia := .CURLY_AND_BLOCK) ⟨above.mono (n := 0) (by decide) (by omega), hf, nofun, hs, fun h => absurd h hd,
    fun h => ⟨hh h, rfl⟩⟩
    ⟨by omega, ending.at (n := 0) (by decide) (by omega) (by omega), fun h => absurd h hd⟩ c pv rest ds ps

theorem SOk.run {ss : Ex .sts} (h : SOk ss) {α : Type} {B : Rec → List Node → P (Loop (List Node) α)} {wrap : List Node → α}
    {f : Token} {cl : Bool} (hB : Loops B wrap f cl) : ∀ {L : List Str} {ts : List Token} {d : Nat},
    closed ss = true ∨ cl = false ∧ after ss f.type = true → WF L ss = true → Ms (toks none ss) ts →
    d + ts.length < 4294967296 → (hasDo ss = true → d = 0) → ∀ (c : Cx) (pv rest : List Token) (ds : List Nat) (ps : List Prec),
    ∃ ns, Lsx ns (sx L ss) ∧ Stm ss ns ∧ ∀ acc, EvalsLoop B acc c ⟨pv, ts ++ f :: rest, d :: ds, ps, L⟩ (wrap (acc ++ ns))
      ⟨ts.reverse ++ pv, f :: rest, d :: ds, ps, out L ss⟩ := by
  induction h with
  | nil =>
    intro L ts d hc hw hm hs hh c pv rest ds ps
    cases hm.nil_inv
    exact ⟨[], .nil, rfl, fun acc => by rw [List.append_nil]; exact hB.done acc c pv rest (d :: ds) ps L⟩
  | last he =>
    rename_i e
    intro L ts d hc hw hm hs hh c pv rest ds ps
    obtain ⟨hc, hf⟩ := hc.resolve_left nofun
    obtain ⟨h1, h2, h3⟩ := hB.last hc
    simp only [gwf, gafter, gtoks, gdo] at hw hm hf hh
    obtain ⟨n, hg, hn⟩ := he.stmt hw hm h1 h2 hf hs hh c pv rest ds ps
    obtain ⟨x, hx, hnx⟩ := hg.nsx
    obtain ⟨t, us, rfl, ht, -⟩ := hm.first
    exact ⟨[n], by simp only [gsx, hx]; exact .one hnx, ⟨rfl, hg.plain, hg.shape, x, hnx⟩, fun acc => h3 acc c pv t _ _ ps L n _ rest _ ht hn⟩
  | cons he hss ih =>
    rename_i e ss
    intro L ts d hc hw hm hs hh c pv rest ds ps
    simp only [gwf, gafter, gtoks, gdo, Bool.and_eq_true, Bool.or_eq_true] at hw hm hh hc
    obtain ⟨⟨hw1, hw2⟩, hw3⟩ := hw
    obtain ⟨tv, s, es, tr, rfl, hmv, hsm, hes, hmr⟩ := hm.mid_line
    have hs' : Eol s := hsm.eol
    simp only [List.length_append, List.length_cons] at hs
    obtain ⟨n, hg, hn⟩ := he.stmt hw1 hmv (f := s) hs'.need hs'.do_ (hs'.after hw3) (by omega)
      (fun h => hh (.inl h)) c pv (es ++ (tr ++ f :: rest)) ds ps
    obtain ⟨ns, hns, hst, hl⟩ := ih (d := d) (hc.imp id fun h => ⟨h.1, h.2.2⟩) hw2 hmr (by omega) (fun h => hh (.inr h)) c
      (es.reverse ++ s :: (tv.reverse ++ pv)) rest ds ps
    obtain ⟨x, hx, hnx⟩ := hg.nsx
    obtain ⟨u, us, hus, hu, -⟩ := hmr.stsF hB.line hB.valid rest
    obtain ⟨t, us', rfl, ht, -⟩ := hmv.first
    refine ⟨n :: ns, by simp only [gsx, hx]; exact .cons hnx hns, ?_, fun acc => ?_⟩
    · match ns, hst with
      | [], hst => exact ⟨rfl, hg.plain, by rw [hg.shape]; show _ = if ss.isNil = true then shape e else .block; rw [if_pos (show ss.isNil = true from hst)], x, hnx⟩
      | [_], hst | _ :: _ :: _, hst =>
        refine ⟨rfl, ?_⟩
        show (if ss.isNil = true then shape e else .block) = .block
        rw [if_neg (by rw [hst.1]; nofun)]
    · have hl := hl (acc ++ [n])
      rw [hus] at hn hl
      have hst := hB.step acc c pv t (us' ++ s :: (es ++ u :: us)) _ ps L n _ s es u us _ ht hs' hes hu hn
      rw [← hus] at hst hl
      refine .again (by simpa only [gram] using hst) ?_
      rw [hus]
      rw [hus] at hl
      simpa only [gram] using hl

/-! ### The loops -/

/-- The body of the loop of `parse_body`. -/
def bodyBody (p : Prec) (isEnd : Ttype → Bool) (R : Rec) (ns : List Node) : P (Loop (List Node) (List Node)) := do
  let ty ← curTy
  if ty = .Eof ∨ isEnd ty then pure (Loop.done ns)
  else
    let e ← R.exp p
    if isEnd (← curTy) then pure (Loop.done (ns ++ [e]))
    else
      nextExpression
      pure (Loop.again (ns ++ [e]))

theorem parseBody_eq (R : Rec) (p : Prec) (isEnd : Ttype → Bool) : parseBody R p isEnd = (do
    pushDepth
    let t ← cur
    validateCurrent
    skipNewlines
    let ns ← loop (bodyBody p isEnd R) R.fuel []
    popDepth
    pure ⟨t, ns⟩) := rfl

/-- A test for the end of a body. -/
structure IsEnd (isEnd : Ttype → Bool) (f : Token) : Prop where
  line : f.type.isEndOfLine = false
  valid : f.type.isValid = true
  here : isEnd f.type = true
  need : need f.type = 0 ∨ f.type = .RescueKeyword ∨ f.type = .EnsureKeyword
  do_ : f.type ≠ .DoKeyword
  semi : ∀ ty, ty.isEndOfLine = true → isEnd ty = false
  start : ∀ ty, starts ty = true → isEnd ty = false

theorem bodyBody_loops {isEnd : Ttype → Bool} {f : Token} (h : IsEnd isEnd f) {cl : Bool}
    (hcl : cl = false → Gram.need f.type = 0) : Loops (bodyBody .LOWEST isEnd) id f cl where
  line := h.line
  valid := h.valid
  done acc c pv rest ds ps L := .done (.of fun R => by
    unfold bodyBody
    psim [h.here, id])
  step acc c pv t us ds ps L n pv' s es u rest L' ht hs hes hu hn := hn.by1 fun R hR => by
    unfold bodyBody
    have hs2 := h.semi _ hs.line
    rcases hs with hs | hs <;> (rw [hs] at hs2; psim [(Opens.of ht).eof, h.start _ ht, hR, hs, hs2, hes, hu])
  last hc := ⟨hcl hc, h.do_, fun acc c pv t us ds ps L n pv' rest L' ht hn => .done (hn.by1 fun R hR => by
    unfold bodyBody
    psim [(Opens.of ht).eof, h.start _ ht, hR, h.here, id])⟩

/-- The body of the loop of `parse_body` with `allow_rescue`. -/
def rescueBody (p : Prec) (isEnd : Ttype → Bool) (t : Token) (R : Rec) (ns : List Node) :
    P (Loop (List Node) (List Node × Bool)) := do
  let ty ← curTy
  if ty = .Eof ∨ isEnd ty then pure (Loop.done (ns, false))
  else if ty = .RescueKeyword ∨ ty = .EnsureKeyword then
    let b ← parseRestOfBegin R (parseBody R .LOWEST) t ns
    rewind
    pure (Loop.done ([b], true))
  else
    let e ← R.exp p
    if isEnd (← curTy) then pure (Loop.done (ns ++ [e], false))
    else
      nextExpression
      pure (Loop.again (ns ++ [e]))

theorem parseBodyRescue_eq (R : Rec) (p : Prec) (isEnd : Ttype → Bool) : parseBodyRescue R p isEnd = (do
    pushDepth
    let t ← cur
    validateCurrent
    skipNewlines
    let (ns, rescued) ← loop (rescueBody p isEnd t R) R.fuel []
    if rescued then pure ⟨t, ns⟩
    else
      popDepth
      pure ⟨t, ns⟩) := rfl

theorem rescueBody_loops {isEnd : Ttype → Bool} {f : Token} (h : IsEnd isEnd f) {cl : Bool}
    (hcl : cl = false → Gram.need f.type = 0) (t0 : Token) : Loops (rescueBody .LOWEST isEnd t0) (·, false) f cl where
  line := h.line
  valid := h.valid
  done acc c pv rest ds ps L := .done (.of fun R => by
    unfold rescueBody
    psim [h.here])
  step acc c pv t us ds ps L n pv' s es u rest L' ht hs hes hu hn := hn.by1 fun R hR => by
    unfold rescueBody
    have hs2 := h.semi _ hs.line
    rcases hs with hs | hs <;> (rw [hs] at hs2; psim [(Opens.of ht).eof, (Opens.of ht).rescue_, (Opens.of ht).ensure_, h.start _ ht, hR, hs, hs2, hes, hu])
  last hc := ⟨hcl hc, h.do_, fun acc c pv t us ds ps L n pv' rest L' ht hn => .done (hn.by1 fun R hR => by
    unfold rescueBody
    psim [(Opens.of ht).eof, (Opens.of ht).rescue_, (Opens.of ht).ensure_, h.start _ ht, hR, h.here])⟩

/-- The body of the loop of `parse_if_body`. -/
def ifBody (R : Rec) (ns : List Node) : P (Loop (List Node) (List Node)) := do
  let divider := fun ty : Ttype => ty == .ElsifKeyword || ty == .ElseKeyword || ty == .EndKeyword
  let ty ← curTy
  if ty = .Eof ∨ divider ty then pure (Loop.done ns)
  else
    let e ← R.exp .LOWEST
    validateCurrent
    if divider (← curTy) then pure () else nextExpression
    pure (Loop.again (ns ++ [e]))

/-- The ends of the bodies of `if`. -/
def divider (ty : Ttype) : Bool := ty == .ElsifKeyword || ty == .ElseKeyword || ty == .EndKeyword

theorem parseIfBody_eq (R : Rec) : parseIfBody R = (do
    skipNewlines
    let t ← cur
    validateCurrent
    skipNewlines
    let ns ← loop (ifBody R) R.fuel []
    if divider (← curTy) then
      match ns with
      | [] => pure (.nil t)
      | ns => pure (Blk.single ⟨t, ns⟩)
    else throwUnexpected (cs! "if end")) := rfl

theorem ifBody_loops {f : Token} (h : f.type = .ElsifKeyword ∨ f.type = .ElseKeyword ∨ f.type = .EndKeyword) :
    Loops ifBody id f false where
  line := by rcases h with h | h | h <;> rw [h] <;> rfl
  valid := by rcases h with h | h | h <;> rw [h] <;> rfl
  done acc c pv rest ds ps L := .done (.of fun R => by
    unfold ifBody
    rcases h with h | h | h <;> psim [h, id])
  step acc c pv t us ds ps L n pv' s es u rest L' ht hs hes hu hn := hn.by1 fun R hR => by
    have ho := Opens.of ht
    unfold ifBody
    rcases hs with hs | hs <;> psim [ho.eof, ho.elsif_, ho.else_, ho.end_, hR, hs, hes, hu]
  last _ := ⟨by rcases h with h | h | h <;> rw [h] <;> rfl, by rcases h with h | h | h <;> rw [h] <;> nofun,
    fun acc c pv t us ds ps L n pv' rest L' ht hn => by
      have ho := Opens.of ht
      refine .again (y := acc ++ [n]) (s1 := ⟨pv', f :: rest, ds, ps, L'⟩) (hn.by1 fun R hR => ?_) (.done (.of fun R => ?_))
      · unfold ifBody
        rcases h with h | h | h <;> psim [ho.eof, ho.elsif_, ho.else_, ho.end_, hR, h]
      · unfold ifBody
        rcases h with h | h | h <;> psim [h, id]⟩

/-- The body of the loop of `parse_case_body`. -/
def caseBody (ty : Ttype) (R : Rec) (ns : List Node) : P (Loop (List Node) (List Node)) := do
  let c ← curTy
  if c = .Eof ∨ c = ty ∨ c = .ElseKeyword ∨ c = .EndKeyword then pure (Loop.done ns)
  else
    let e ← R.exp .LOWEST
    validateCurrent
    nextExpression
    pure (Loop.again (ns ++ [e]))

theorem parseCaseBody_eq (R : Rec) (ty : Ttype) : parseCaseBody R ty = (do
    validateCurrent
    skipNewlines
    let ns ← loop (caseBody ty R) R.fuel []
    let c ← curTy
    if c = ty ∨ c = .ElseKeyword ∨ c = .EndKeyword then pure ns
    else if ty = .InKeyword then throwUnexpected (cs! "case: in, else, or end")
    else throwUnexpected (cs! "case: when, else, or end")) := rfl

theorem caseBody_loops {ty : Ttype} (hty : ty = .WhenKeyword ∨ ty = .InKeyword) {f : Token}
    (h : f.type = ty ∨ f.type = .ElseKeyword ∨ f.type = .EndKeyword) : Loops (caseBody ty) id f true where
  line := by rcases hty with rfl | rfl <;> rcases h with h | h | h <;> rw [h] <;> rfl
  valid := by rcases hty with rfl | rfl <;> rcases h with h | h | h <;> rw [h] <;> rfl
  done acc c pv rest ds ps L := .done (.of fun R => by
    unfold caseBody
    rcases h with h | h | h <;> psim [h, id])
  step acc c pv t us ds ps L n pv' s es u rest L' ht hs hes hu hn := hn.by1 fun R hR => by
    have ho := Opens.of ht
    have hx : t.type ≠ ty := by rcases hty with rfl | rfl <;> [exact ho.when_; exact ho.in_]
    unfold caseBody
    rcases hs with hs | hs <;> psim [ho.eof, hx, ho.else_, ho.end_, hR, hs, hes, hu]
  last := nofun

theorem treeBody_loops {f : Token} (h : f.type = .Eof) : Loops treeBody id f false where
  line := by rw [h]; rfl
  valid := by rw [h]; rfl
  done acc c pv rest ds ps L := .done (.of fun R => by
    unfold treeBody
    psim [h, id])
  step acc c pv t us ds ps L n pv' s es u rest L' ht hs hes hu hn := hn.by1 fun R hR => by
    unfold treeBody
    rcases hs with hs | hs <;> psim [(Opens.of ht).eof, hR, hs, hes, hu]
  last _ := ⟨by rw [h]; rfl, by rw [h]; nofun, fun acc c pv t us ds ps L n pv' rest L' ht hn => by
      refine .again (y := acc ++ [n]) (s1 := ⟨pv', f :: rest, ds, ps, L'⟩) (hn.by1 fun R hR => ?_) (.done (.of fun R => ?_))
      · unfold treeBody
        psim [(Opens.of ht).eof, hR, h]
      · unfold treeBody
        psim [h, id]⟩

/-! ### The bodies -/

section
variable {ss : Ex .sts} (h : SOk ss) {f : Token} {L : List Str} {ts : List Token} (hw : WF L ss = true) (hm : Ms (toks none ss) ts)
  (hs : ts.length < 4294967296) (c : Cx) (pv rest : List Token) (ds : List Nat) (ps : List Prec)
include h hw hm hs

/-- A body up to a token, with line ends in front of it. -/
theorem body_evals {isEnd : Ttype → Bool} (hi : IsEnd isEnd f)
    (hc : closed ss = true ∨ Gram.need f.type = 0 ∧ after ss f.type = true) {es : List Token} (hes : Eols es) :
    ∃ ns t, Lsx ns (sx L ss) ∧ Stm ss ns ∧ Evals (fun R => parseBody R .LOWEST isEnd) c ⟨pv, es ++ (ts ++ f :: rest), ds, ps, L⟩ ⟨t, ns⟩
      ⟨ts.reverse ++ (es.reverse ++ pv), f :: rest, ds, ps, out L ss⟩ := by
  obtain ⟨u, us, hus, hu, hv⟩ := hm.stsF hi.line hi.valid rest
  obtain ⟨ns, h1, h2, h3⟩ := h.run (bodyBody_loops hi (cl := closed ss) (fun h => (hc.resolve_left (by rw [h]; nofun)).1)) (d := 0)
    (by rcases hc with h | h
        · exact .inl h
        · by_cases hc : closed ss = true
          · exact .inl hc
          · exact .inr ⟨by simpa using hc, h.2⟩) hw hm (by omega) (fun _ => rfl) c (es.reverse ++ pv) rest ds ps
  have h3 := (h3 []).evals
  rw [hus] at h3 ⊢
  rcases es with _ | ⟨e, es⟩
  · refine ⟨ns, u, h1, h2, h3.by1 fun R hR => ?_⟩
    simp only [List.reverse_nil, List.nil_append] at hR
    rw [parseBody_eq]
    psim [hu, hv, hR, id]
  · obtain ⟨he, hes⟩ := hes.uncons
    refine ⟨ns, e, h1, h2, h3.by1 fun R hR => ?_⟩
    simp only [List.reverse_cons, List.append_assoc, List.cons_append, List.nil_append] at hR
    rw [parseBody_eq]
    psim [hu, he.valid, he.line, hes, hR, id]

/-- A body with `allow_rescue`. -/
theorem rescue_evals {isEnd : Ttype → Bool} (hi : IsEnd isEnd f)
    (hc : closed ss = true ∨ Gram.need f.type = 0 ∧ after ss f.type = true) {es : List Token} (hes : Eols es) :
    ∃ ns t, Lsx ns (sx L ss) ∧ Stm ss ns ∧ Evals (fun R => parseBodyRescue R .LOWEST isEnd) c ⟨pv, es ++ (ts ++ f :: rest), ds, ps, L⟩ ⟨t, ns⟩
      ⟨ts.reverse ++ (es.reverse ++ pv), f :: rest, ds, ps, out L ss⟩ := by
  obtain ⟨u, us, hus, hu, hv⟩ := hm.stsF hi.line hi.valid rest
  obtain ⟨ns, h1, h2, h3⟩ := h.run (rescueBody_loops hi (cl := closed ss) (fun h => (hc.resolve_left (by rw [h]; nofun)).1) ((es ++ u :: us).headD u)) (d := 0)
    (by rcases hc with h | h
        · exact .inl h
        · by_cases hc : closed ss = true
          · exact .inl hc
          · exact .inr ⟨by simpa using hc, h.2⟩) hw hm (by omega) (fun _ => rfl) c (es.reverse ++ pv) rest ds ps
  have h3 := (h3 []).evals
  rw [hus] at h3 ⊢
  rcases es with _ | ⟨e, es⟩
  · refine ⟨ns, u, h1, h2, h3.by1 fun R hR => ?_⟩
    simp only [List.reverse_nil, List.nil_append, List.headD_cons] at hR
    rw [parseBodyRescue_eq]
    psim [hu, hv, hR]
  · obtain ⟨he, hes⟩ := hes.uncons
    refine ⟨ns, e, h1, h2, h3.by1 fun R hR => ?_⟩
    simp only [List.reverse_cons, List.append_assoc, List.cons_append, List.nil_append, List.headD_cons] at hR
    rw [parseBodyRescue_eq]
    psim [hu, he.valid, he.line, hes, hR]

end

/-- The nodes of statements as one node or nothing. -/
def optN (t : Token) : List Node → Node
  | [] => .nil t
  | ns => Blk.single ⟨t, ns⟩

theorem Lsx.opt {t : Token} {ns : List Node} {xs : List Sexp} (h : Lsx ns xs) : Osx (optN t ns) (opt xs) := by
  have hl : ns.length = xs.length := by
    obtain ⟨rs, h1, rfl⟩ := h
    rw [apps_length (trList_length h1)]
  match ns, xs, hl with
  | [], [], _ => exact .nil
  | [n], [x], _ =>
    obtain ⟨rs, h1, h2⟩ := h
    simp only [trList, Option.bind_eq_bind, Option.bind_eq_some_iff] at h1
    obtain ⟨r, hr, rs', hrs, hh⟩ := h1
    cases hrs
    cases hh
    cases h2
    exact ⟨r, hr, rfl⟩
  | a :: b :: ns, x :: y :: xs, _ => exact (Nsx.block h).osx

/-- The body of an `if`. -/
theorem if_evals {ss : Ex .sts} (h : SOk ss) {f : Token} {L : List Str} {ts : List Token} {d : Nat} (hw : WF L ss = true)
    (hm : Ms (toks none ss) ts) (hs : d + ts.length < 4294967296) (hh : hasDo ss = true → d = 0)
    (hf : f.type = .ElsifKeyword ∨ f.type = .ElseKeyword ∨ f.type = .EndKeyword) (ha : after ss f.type = true) (c : Cx)
    (pv rest : List Token) (ds : List Nat) (ps : List Prec) {es : List Token} (hes : Eols es) :
    ∃ n, Osx n (opt (sx L ss)) ∧ Evals parseIfBody c ⟨pv, es ++ (ts ++ f :: rest), d :: ds, ps, L⟩ n
      ⟨ts.reverse ++ (es.reverse ++ pv), f :: rest, d :: ds, ps, out L ss⟩ := by
  obtain ⟨ns, h1, h2, h3⟩ := h.run (ifBody_loops hf) (d := d) (.inr ⟨rfl, ha⟩) hw hm hs hh c (es.reverse ++ pv) rest ds ps
  have h3 := (h3 []).evals
  obtain ⟨u, us, hus, hu, hv⟩ := hm.stsF (ifBody_loops hf).line (ifBody_loops hf).valid rest
  have hdv : divider f.type = true := by rcases hf with h | h | h <;> rw [h] <;> rfl
  refine ⟨optN u ns, h1.opt, h3.by1 fun R hR => ?_⟩
  rw [parseIfBody_eq, hus]
  rw [hus] at hR
  psim [hu, hv, hes, hR, hdv, id]
  cases ns <;> rfl

/-- The body of a branch of `case`. -/
theorem case_evals {ss : Ex .sts} (h : SOk ss) {ty : Ttype} (hty : ty = .WhenKeyword ∨ ty = .InKeyword) {f : Token} {L : List Str}
    {ts : List Token} {d : Nat} (hw : WF L ss = true)
    (hm : Ms (toks none ss) ts) (hs : d + ts.length < 4294967296) (hh : hasDo ss = true → d = 0)
    (hf : f.type = ty ∨ f.type = .ElseKeyword ∨ f.type = .EndKeyword) (hcl : closed ss = true) (c : Cx)
    (pv rest : List Token) (ds : List Nat) (ps : List Prec) :
    ∃ ns, Lsx ns (sx L ss) ∧ Evals (fun R => parseCaseBody R ty) c ⟨pv, ts ++ f :: rest, d :: ds, ps, L⟩ ns
      ⟨ts.reverse ++ pv, f :: rest, d :: ds, ps, out L ss⟩ := by
  obtain ⟨ns, h1, h2, h3⟩ := h.run (caseBody_loops hty hf) (d := d) (.inl hcl) hw hm hs hh c pv rest ds ps
  have h3 := (h3 []).evals
  obtain ⟨u, us, hus, hu, hv⟩ := hm.stsF (caseBody_loops hty hf).line (caseBody_loops hty hf).valid rest
  refine ⟨ns, h1, h3.by1 fun R hR => ?_⟩
  rw [parseCaseBody_eq, hus]
  rw [hus] at hR
  rcases hf with h | h | h <;> psim [hu, hv, hR, h, id]

end NP.Gram
