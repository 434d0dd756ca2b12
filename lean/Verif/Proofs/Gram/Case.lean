import Verif.Proofs.Gram.Flow
import Verif.Proofs.Gram.Pattern

/-! `case` with `when` and `in`. -/

namespace NP.Gram

/-- A round of the loop of `parse_case` at the token `c` of type `ty`. -/
def clauseArm (R : Rec) (x : List Node × Option (List Node)) (c : Token) (ty : Ttype) :
    P (Loop (List Node × Option (List Node)) (List Node × Option (List Node))) :=
  match ty with
  | .EndKeyword => pure (Loop.done x)
  | .WhenKeyword => do
    advance
    let conds ← parseCommaSeparated R
    afterCondition
    let b ← parseCaseBody R .WhenKeyword
    pure (Loop.again (x.1 ++ [.caseWhen c (.array c conds) b], x.2))
  | .InKeyword => do
    advance
    let pat ← parseCaseInPatterns R
    afterCondition
    let b ← parseCaseBody R .InKeyword
    pure (Loop.again (x.1 ++ [.caseIn c pat b], x.2))
  | .ElseKeyword =>
    if x.1.isEmpty then throwUnexpected (cs! "case 'when' or 'in'")
    else do
      advance
      skipNewlines
      let b ← parseBodyEnd R
      expect .EndKeyword (cs! "case end")
      pure (Loop.again (x.1, some b.nodes))
  | _ => throwUnexpected (cs! "case when keyword")

/-- The body of the loop of `parse_case`. -/
def clauseBody (R : Rec) (x : List Node × Option (List Node)) :
    P (Loop (List Node × Option (List Node)) (List Node × Option (List Node))) := do
  let c ← cur
  clauseArm R x c c.type

/-- What `parse_case` does after the subject. -/
def caseRest (R : Rec) (t : Token) (subject : Node) : P Node := do
  let x ← loop (clauseBody R) R.fuel ([], none)
  expect .EndKeyword (cs! "case end")
  advance
  pure (.case_ t subject x.1 x.2)

/-- What `parse_case` does after `case` at a token of the type. -/
def caseFrom (R : Rec) (t : Token) (ty : Ttype) : P Node :=
  match ty with
  | .WhenKeyword => caseRest R t (.nil t)
  | .Newline | .Semicolon => do
    advance
    caseRest R t (.nil t)
  | _ => do
    let e ← R.exp .CASE
    nextExpression
    caseRest R t e

theorem parseCase_eq (R : Rec) : parseCase R = (do
    let t ← cur
    advance
    caseFrom R t (← curTy)) := rfl

theorem caseFrom_subject {R : Rec} {ty : Ttype} (h : starts ty = true) (t : Token) : caseFrom R t ty = (do
    let e ← R.exp .CASE
    nextExpression
    caseRest R t e) := by
  cases ty <;> first | rfl | exact absurd h (by decide)

/-- The parser reads the clauses. -/
inductive WOk : Ex .whens → Prop where
  | nil : WOk .wnil
  | when_ {a : Ex .args} {b : Ex .sts} {ws : Ex .whens} : AOk a → SOk b → WOk ws → WOk (.when_ a b ws)
  | in_ {p : Top} {b : Ex .sts} {ws : Ex .whens} : SOk b → WOk ws → WOk (.in_ p b ws)

/-- The first token of the clauses and what follows. -/
theorem Ms.whens {ws : Ex .whens} {ts : List Token} (h : Ms (toks none ws) ts) {f : Token}
    (hf : f.type = .ElseKeyword ∨ f.type = .EndKeyword) (rest : List Token) :
    ∃ g rest', ts ++ f :: rest = g :: rest' ∧ (ws.isNil = false ∧ g.type = clause ws ∨ g.type = .ElseKeyword ∨ g.type = .EndKeyword) := by
  cases ws with
  | wnil =>
    cases h.nil_inv
    exact ⟨f, rest, rfl, .inr hf⟩
  | when_ a b ws | in_ p b ws =>
    simp only [gtoks] at h
    obtain ⟨t, us, rfl, ht, -⟩ := h.cons_inv
    exact ⟨t, us ++ f :: rest, rfl, .inl ⟨rfl, ht.type⟩⟩

/-- The keyword of the clauses. -/
theorem clause_cases {ws : Ex .whens} (h : ws.isNil = false) : clause ws = .WhenKeyword ∨ clause ws = .InKeyword := by
  cases ws with
  | wnil => cases h
  | when_ => exact .inl rfl
  | in_ => exact .inr rfl

theorem clause_after {ws : Ex .whens} {g : Token} {ty : Ttype} (hty : ∀ ty', ty' = .WhenKeyword ∨ ty' = .InKeyword → clause ws = ty' → ty' = ty)
    (h : ws.isNil = false ∧ g.type = clause ws ∨ g.type = .ElseKeyword ∨ g.type = .EndKeyword) :
    g.type = ty ∨ g.type = .ElseKeyword ∨ g.type = .EndKeyword :=
  h.imp (fun h => h.2.trans (hty _ (clause_cases h.1) rfl)) id

theorem clause_when (R : Rec) (x : List Node × Option (List Node)) (t : Token) : clauseArm R x t .WhenKeyword = (do
    advance
    let conds ← parseCommaSeparated R
    afterCondition
    let b ← parseCaseBody R .WhenKeyword
    pure (Loop.again (x.1 ++ [.caseWhen t (.array t conds) b], x.2))) := rfl

theorem clause_in (R : Rec) (x : List Node × Option (List Node)) (t : Token) : clauseArm R x t .InKeyword = (do
    advance
    let pat ← parseCaseInPatterns R
    afterCondition
    let b ← parseCaseBody R .InKeyword
    pure (Loop.again (x.1 ++ [.caseIn t pat b], x.2))) := rfl

theorem clause_end (R : Rec) (x : List Node × Option (List Node)) (t : Token) : clauseArm R x t .EndKeyword = pure (.done x) := rfl

theorem clause_else (R : Rec) {ns : List Node} (hn : ns.isEmpty = false) (o : Option (List Node)) (t : Token) :
    clauseArm R (ns, o) t .ElseKeyword = (do
      advance
      skipNewlines
      let b ← parseBodyEnd R
      expect .EndKeyword (cs! "case end")
      pure (Loop.again (ns, some b.nodes))) := by
  show (if ns.isEmpty = true then _ else _ : P _) = _
  rw [if_neg (by rw [hn]; nofun)]

theorem whens_run {ws : Ex .whens} (h : WOk ws) : ∀ {L : List Str} {ts : List Token} {d : Nat} {f : Token} (_ : WF L ws = true)
    (_ : Ms (toks none ws) ts) (_ : d + ts.length < 4294967296) (_ : hasDo ws = true → d = 0)
    (_ : f.type = .ElseKeyword ∨ f.type = .EndKeyword) (c : Cx) (pv rest : List Token) (ds : List Nat) (ps : List Prec),
    ∃ ns, Lsx ns (sx L ws) ∧ ns.isEmpty = ws.isNil ∧ ∀ acc r s', EvalsLoop clauseBody (acc ++ ns, none) c ⟨ts.reverse ++ pv, f :: rest, d :: ds, ps, out L ws⟩ r s' →
      EvalsLoop clauseBody (acc, none) c ⟨pv, ts ++ f :: rest, d :: ds, ps, L⟩ r s' := by
  induction h with
  | nil =>
    intro L ts d f hw hm hs hd hf c pv rest ds ps
    cases hm.nil_inv
    refine ⟨[], .nil, rfl, fun acc r s' h => ?_⟩
    simpa only [gram, List.append_nil] using h
  | when_ ha hb hws ih =>
    rename_i a b ws
    intro L ts d f hw hm hs hd hf c pv rest ds ps
    simp only [gwf, gdo, Bool.and_eq_true, Bool.or_eq_true, Bool.not_eq_true'] at hw hd
    obtain ⟨⟨⟨⟨⟨⟨⟨hw1, hw2⟩, hw3⟩, hw4⟩, hw5⟩, hw6⟩, hw7⟩, hw8⟩ := hw
    simp only [gtoks] at hm
    obtain ⟨t, us, rfl, ht, hm'⟩ := hm.cons_inv
    obtain ⟨ta, u, es, us, rfl, hma, hu, hes, hm'⟩ := hm'.mid_line
    obtain ⟨tb, tw, rfl, hmb, hmw⟩ := hm'.append_inv
    have ht' : t.type = .WhenKeyword := ht.type
    have hu' : Then u := hu.then_
    simp only [List.length_cons, List.length_append] at hs
    obtain ⟨as', arg, s1, hA, hk, hl⟩ := ha.simple hw3 0 .ARRAY L ta c (t :: pv) u (es ++ (tb ++ (tw ++ f :: rest))) d ds ps (by decide) hw1 hw2 hma
      (.zero rfl hu'.need hu'.do_) (by rcases hu' with h | h | h <;> rw [h] <;> nofun) (hu'.after hw4) (by omega) (fun h => hd (.inl (.inl h)))
    have hl' := (hl []).evals
    obtain ⟨g, gs, hgs, hg⟩ := hmw.whens hf rest
    have hg := clause_after (ty := .WhenKeyword) (by rintro _ (rfl | rfl) h; exacts [rfl, absurd (bne_iff_ne.1 hw8) (by rw [h]; simp)]) hg
    obtain ⟨ms, hM, hk'⟩ := case_evals hb (.inl rfl) hw5 hmb (f := g) (d := d) (by omega) (fun h => hd (.inl (.inr h))) hg hw6 c
      (es.reverse ++ u :: (ta.reverse ++ t :: pv)) gs ds ps
    obtain ⟨ns, hN, hne, ih⟩ := ih (d := d) (f := f) hw7 hmw (by omega) (fun h => hd (.inr h)) hf c (tb.reverse ++ (es.reverse ++ u :: (ta.reverse ++ t :: pv))) rest ds ps
    refine ⟨.caseWhen t (.array t as') ms :: ns, ?_, rfl, fun acc r s' h => ?_⟩
    · simp only [gsx]
      exact .cons (.caseWhen (.array hA) hM) hN
    · refine .again (y := (acc ++ [.caseWhen t (.array t as') ms], none))
        (s1 := ⟨tb.reverse ++ (es.reverse ++ u :: (ta.reverse ++ t :: pv)), tw ++ f :: rest, d :: ds, ps, out (out L a) b⟩)
        (hk.by3 hl' hk' fun R hR hR' hR'' => ?_) (ih _ _ _ ?_)
      · obtain ⟨v, vs, hvs, hv, -⟩ := hmb.stsF (f := g) (by rcases hg with h | h | h <;> rw [h] <;> rfl)
          (by rcases hg with h | h | h <;> rw [h] <;> rfl) gs
        unfold clauseBody
        simp only [gram, ht', clause_when]
        rw [← hgs] at hR''
        rw [← commaLoop_eq] at hR'
        simp only [gram] at hR hR'
        unfold parseCommaSeparated afterCondition
        rw [hgs, hvs] at hR hR' hR'' ⊢
        rcases hu' with hu' | hu' | hu' <;> psim [hR, hR', hu', hes, hv, hR'']
      · simpa only [gram] using h
  | in_ hb hws ih =>
    rename_i p b ws
    intro L ts d f hw hm hs hd hf c pv rest ds ps
    simp only [gwf, gdo, Bool.and_eq_true, Bool.or_eq_true, Bool.not_eq_true'] at hw hd
    obtain ⟨⟨⟨⟨hw1, hw5⟩, hw6⟩, hw7⟩, hw8⟩ := hw
    simp only [gtoks] at hm
    obtain ⟨t, us, rfl, ht, hm'⟩ := hm.cons_inv
    obtain ⟨ta, u, es, us, rfl, hma, hu, hes, hm'⟩ := hm'.mid_line
    obtain ⟨tb, tw, rfl, hmb, hmw⟩ := hm'.append_inv
    have ht' : t.type = .InKeyword := ht.type
    have hu' : Then u := hu.then_
    simp only [List.length_cons, List.length_append] at hs
    obtain ⟨pt, hA, hk⟩ := top_evals hw1 hma (f := u) (by rcases hu' with h | h | h <;> rw [h] <;> simp [patEnd])
      (by rcases hu' with h | h | h <;> rw [h] <;> nofun) (by rcases hu' with h | h | h <;> rw [h] <;> nofun)
      (by rcases hu' with h | h | h <;> rw [h] <;> nofun) c (t :: pv) (es ++ (tb ++ (tw ++ f :: rest))) d ds ps
    obtain ⟨g, gs, hgs, hg⟩ := hmw.whens hf rest
    have hg := clause_after (ty := .InKeyword) (by rintro _ (rfl | rfl) h; exacts [absurd (bne_iff_ne.1 hw8) (by rw [h]; simp), rfl]) hg
    obtain ⟨ms, hM, hk'⟩ := case_evals hb (.inr rfl) hw5 hmb (f := g) (d := d) (by omega) (fun h => hd (.inl h)) hg hw6 c
      (es.reverse ++ u :: (ta.reverse ++ t :: pv)) gs ds ps
    obtain ⟨ns, hN, hne, ih⟩ := ih (d := d) (f := f) hw7 hmw (by omega) (fun h => hd (.inr h)) hf c (tb.reverse ++ (es.reverse ++ u :: (ta.reverse ++ t :: pv))) rest ds ps
    refine ⟨.caseIn t pt ms :: ns, ?_, rfl, fun acc r s' h => ?_⟩
    · simp only [gsx]
      exact .cons (.caseIn hA hM) hN
    · refine .again (y := (acc ++ [.caseIn t pt ms], none))
        (s1 := ⟨tb.reverse ++ (es.reverse ++ u :: (ta.reverse ++ t :: pv)), tw ++ f :: rest, d :: ds, ps, out (p.out L) b⟩)
        (hk.by2 hk' fun R hR hR'' => ?_) (ih _ _ _ ?_)
      · obtain ⟨v, vs, hvs, hv, -⟩ := hmb.stsF (f := g) (by rcases hg with h | h | h <;> rw [h] <;> rfl)
          (by rcases hg with h | h | h <;> rw [h] <;> rfl) gs
        unfold clauseBody
        simp only [gram, ht', clause_in]
        rw [← hgs] at hR''
        unfold afterCondition
        rw [hgs, hvs] at hR hR'' ⊢
        rcases hu' with hu' | hu' | hu' <;> psim [hR, hu', hes, hv, hR'']
      · simpa only [gram] using h

theorem case_rest {ws : Ex .whens} {e : Ex .part} (h1 : WOk ws) (h2 : TOk e) {L : List Str} {tw te : List Token} {v f : Token} {d : Nat}
    (hw : WF L ws = true) (hn : ws.isNil = false) (hwe : WF (out L ws) e = true) (hne : e ≠ .part .snil) (hf : after e .EndKeyword = true)
    (hmw : Ms (toks none ws) tw) (hme : Ms (opt? e (fix (cs! "else") .ElseKeyword :: toks none e)) te) (hv : v.type = .EndKeyword)
    (hs : d + (tw.length + te.length) < 4294967296) (hd : hasDo ws = true → d = 0) (c : Cx) (pv rest : List Token) (ds : List Nat)
    (ps : List Prec) :
    ∃ ns els, (∀ t n x, Osx n x → Nsx (.case_ t n ns els) (.node (cs! "case") (x :: sx L ws ++ sx (out L ws) e))) ∧
      ∀ t n, Evals (fun R => caseRest R t n) c ⟨pv, tw ++ (te ++ v :: f :: rest), d :: ds, ps, L⟩ (.case_ t n ns els)
        ⟨v :: (te.reverse ++ (tw.reverse ++ pv)), f :: rest, d :: ds, ps, out (out L ws) e⟩ := by
  rcases hme.opt_inv with ⟨rfl, rfl⟩ | ⟨⟨ss, rfl⟩, hme'⟩
  · obtain ⟨ns, hN, -, hk⟩ := whens_run h1 hw hmw (f := v) (d := d) (by omega) hd (.inr hv) c pv (f :: rest) ds ps
    refine ⟨ns, none, fun t n x h => ?_, fun t n => ?_⟩
    · simp only [gsx]
      exact Nsx.case_ h hN
    · have hl := (hk [] (ns, none) ⟨tw.reverse ++ pv, v :: f :: rest, d :: ds, ps, out L ws⟩ (.done (.of fun R => ?_))).evals
      · refine hl.by1 fun R hR => ?_
        unfold caseRest
        psim [hR, hv]
      · unfold clauseBody
        psim [hv, clause_end]
  · simp only [gtoks, gwf, gafter] at hme' hwe hf
    obtain ⟨q, es, te, rfl, hq, hes, hme'⟩ := hme'.line_inv
    have hq' : q.type = .ElseKeyword := hq.else_
    simp only [List.length_cons, List.length_append] at hs
    obtain ⟨ns, hN, hN', hk⟩ := whens_run h1 hw hmw (f := q) (d := d) (by omega) hd (.inl hq') c pv (es ++ (te ++ v :: f :: rest)) ds ps
    rw [hn] at hN'
    obtain ⟨ms, bt, hM, hM', hk'⟩ := body_evals (h2 ss rfl) hwe hme' (by omega) c (es.reverse ++ q :: (tw.reverse ++ pv)) (f :: rest) (d :: ds) ps
      (.end_ hv) (.inr ⟨by rw [hv]; rfl, by rw [hv]; exact hf⟩) .nil
    refine ⟨ns, some ms, fun t n x h => ?_, fun t n => ?_⟩
    · have h' := Nsx.caseElse (t := t) h hN hM
      have he := hM.isEmpty
      simp only [gsx]
      cases ms with
      | nil =>
        exact absurd (congrArg Ex.part (sts_nil hM')) hne
      | cons m ms =>
        cases hx : sx (out L ws) ss with
        | nil => rw [hx] at he; cases he
        | cons y ys => rw [hx] at h'; exact h'
    · have hl := (hk [] (ns, some ms) ⟨te.reverse ++ (es.reverse ++ q :: (tw.reverse ++ pv)), v :: f :: rest, d :: ds, ps, out (out L ws) ss⟩ (.again (y := (ns, some ms))
        (s1 := ⟨te.reverse ++ (es.reverse ++ q :: (tw.reverse ++ pv)), v :: f :: rest, d :: ds, ps, out (out L ws) ss⟩) (hk'.by1 fun R hR => ?_) (.done (.of fun R => ?_)))).evals
      · refine hl.by1 fun R hR => ?_
        unfold caseRest
        psim [hR, hv]
      · unfold clauseBody
        obtain ⟨g, gs, hgs, hg, -⟩ := hme'.stsF (f := v) (by rw [hv]; rfl) (by rw [hv]; rfl) (f :: rest)
        simp only [List.nil_append, List.reverse_nil] at hR
        rw [hgs] at hR
        psim [hgs, hq', clause_else _ hN', parseBodyEnd, hes, hg, hR, hv]
      · unfold clauseBody
        psim [hv, clause_end]

/-- The first token of the clauses and of the part after `else` and what follows. -/
theorem Ms.whens' {ws : Ex .whens} {e : Ex .part} {tw te : List Token} (h : Ms (toks none ws) tw)
    (h' : Ms (opt? e (fix (cs! "else") .ElseKeyword :: toks none e)) te) {v : Token} (hv : v.type = .EndKeyword) (rest : List Token) :
    ∃ g rest', tw ++ (te ++ v :: rest) = g :: rest' ∧ g.type.isEndOfLine = false := by
  have hc : ∀ {g : Token}, (ws.isNil = false ∧ g.type = clause ws ∨ g.type = .ElseKeyword ∨ g.type = .EndKeyword) → g.type.isEndOfLine = false := by
    rintro g (⟨h, h'⟩ | h | h)
    · rw [h']; rcases clause_cases h with h | h <;> rw [h] <;> rfl
    all_goals rw [h]; rfl
  rcases h'.opt_inv with ⟨rfl, rfl⟩ | ⟨⟨ss, rfl⟩, h'⟩
  · obtain ⟨g, gs, h1, h2⟩ := h.whens (.inr hv) rest
    exact ⟨g, gs, h1, hc h2⟩
  · obtain ⟨q, es, te, rfl, hq, -⟩ := h'.line_inv
    obtain ⟨g, gs, h1, h2⟩ := h.whens (.inl hq.else_) (es ++ (te ++ v :: rest))
    exact ⟨g, gs, by simpa using h1, hc h2⟩

theorem case_part {e : Ex .part} (h : (match e with
    | .part .snil => false
    | _ => true) = true) : e ≠ .part .snil := by
  rintro rfl
  cases h

theorem case_ok (s : Ex .ex) (ws : Ex .whens) (e : Ex .part) (h : ExOk s) (h1 : WOk ws) (h2 : TOk e) : ExOk (.case_ s ws e) := by
  intro L w ts hw hm c pv f rest d ds p qs ia ha
  have hsz := ha.size
  have hdo := ha.has
  simp only [gwf, gdo, Bool.and_eq_true, Bool.or_eq_true, Bool.not_eq_true', decide_eq_true_eq] at hw hdo
  simp only [gtoks] at hm
  obtain ⟨⟨⟨⟨⟨⟨⟨hw1, hw2⟩, hw3⟩, hw4⟩, hw5⟩, hw6⟩, hw7⟩, hw8⟩ := hw
  obtain ⟨t, us, rfl, ht, hm'⟩ := hm.cons_inv
  obtain ⟨ta, u, es, us, rfl, hma, hu, hes, hm'⟩ := hm'.mid_line
  obtain ⟨tw, us, rfl, hmw, hm'⟩ := hm'.append_inv
  obtain ⟨te, v, rfl, hme, hv⟩ := hm'.snoc_inv
  have ht' : t.type = .CaseKeyword := ht.type
  have hu' : Eol u := hu.eol
  simp only [List.length_append, List.length_cons] at hsz
  obtain ⟨n, hg, hn⟩ := h.nested hw1 hma (ia := .CURLY_AND_BLOCK) (q := .CASE) (f := u) (d := d)
    ⟨above.mono (n := 1) (p := .CASE) (by decide) hw2, hu'.after hw3, nofun, by omega,
      fun h => absurd h hu'.do_, fun h => ⟨(hdo (.inl h)).1, rfl⟩⟩
    ⟨by rw [hu'.need]; decide, by rcases hu' with h | h <;> rw [h] <;> rfl, fun h => absurd h hu'.do_⟩ c (t :: pv) (es ++ (tw ++ (te ++ v :: f :: rest))) ds (p :: qs)
  obtain ⟨ns, els, hN, hk⟩ := case_rest h1 h2 (f := f) (d := d) hw4 hw5 hw6 (case_part hw7) hw8 hmw hme hv.type (by omega)
    (fun h => (hdo (.inr h)).1) c (es.reverse ++ u :: (ta.reverse ++ t :: pv)) rest ds (p :: qs)
  obtain ⟨x, hx, hnx⟩ := hg.nsx
  obtain ⟨g, gs, rfl, hg', -⟩ := hma.first
  refine Parsed.first (n := .case_ t n ns els) (fun R => parseCase R) (fun R => by rw [ht']; rfl) (hn.by2 (hk t n) fun R hR hR' => ?_)
    (.of (by simp only [gsx]; rw [hx]; rfl) (hN t n x hnx.osx) rfl rfl) nofun
  rw [parseCase_eq]
  simp only [gram] at hR hR'
  obtain ⟨k, ks, hks, hk⟩ := hmw.whens' hme hv.type (f :: rest)
  rw [hks] at hR hR'
  rcases hu' with hu' | hu' <;> psim [hks, caseFrom_subject hg', hR, hu', hes, hk, hR']

theorem Ms.when_head {ws : Ex .whens} {ts : List Token} (hn : clause ws = .WhenKeyword) (h : Ms (toks none ws) ts) (rest : List Token) :
    ∃ g rest', ts ++ rest = g :: rest' ∧ g.type = .WhenKeyword := by
  cases ws with
  | wnil => cases hn
  | in_ => cases hn
  | when_ a b ws =>
    simp only [gtoks] at h
    obtain ⟨t, us, rfl, ht, -⟩ := h.cons_inv
    exact ⟨t, us ++ rest, rfl, ht.type⟩

theorem case0_ok (ws : Ex .whens) (e : Ex .part) (h1 : WOk ws) (h2 : TOk e) : ExOk (.case0 ws e) := by
  intro L w ts hw hm c pv f rest d ds p qs ia ha
  have hsz := ha.size
  have hdo := ha.has
  simp only [gwf, gdo, Bool.and_eq_true, Bool.not_eq_true'] at hw hdo
  simp only [gtoks] at hm
  obtain ⟨⟨⟨⟨hw4, hw5⟩, hw6⟩, hw7⟩, hw8⟩ := hw
  have hw5 : clause ws = .WhenKeyword := by simpa using hw5
  have hn : ws.isNil = false := by cases ws <;> first | rfl | cases hw5
  obtain ⟨t, us, rfl, ht, hm'⟩ := hm.cons_inv
  obtain ⟨tw, us, rfl, hmw, hm'⟩ := hm'.append_inv
  obtain ⟨te, v, rfl, hme, hv⟩ := hm'.snoc_inv
  have ht' : t.type = .CaseKeyword := ht.type
  simp only [List.length_append, List.length_cons] at hsz
  obtain ⟨ns, els, hN, hk⟩ := case_rest h1 h2 (f := f) (d := d) hw4 hn hw6 (case_part hw7) hw8 hmw hme hv.type (by omega)
    (fun h => (hdo h).1) c (t :: pv) rest ds (p :: qs)
  refine Parsed.first (n := .case_ t (.nil t) ns els) (fun R => parseCase R) (fun R => by rw [ht']; rfl)
    ((hk t (.nil t)).by1 fun R hR => ?_) (.of (by simp only [gsx]; rfl) (hN t _ _ .nil) rfl rfl) nofun
  rw [parseCase_eq]
  obtain ⟨k, ks, hks, hk⟩ := Ms.when_head hw5 hmw (te ++ v :: f :: rest)
  have h0 : caseFrom R t .WhenKeyword = caseRest R t (.nil t) := rfl
  rw [hks] at hR
  psim [hks, hk, h0, hR]

end NP.Gram
