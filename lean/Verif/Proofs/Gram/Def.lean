import Verif.Proofs.Gram.Begin

/-! Definitions of methods, classes and modules. -/

namespace NP.Gram

theorem const_evals {x : Str} {y f : Token} (hy : y.type = .Constant) (hl : y.lit = some x) {q : Prec} {d : Nat} (he : Ends q d f)
    (ia : IterAllow) (c : Cx) (pv rest : List Token) (ds : List Nat) (ps : List Prec) (L : List Str) :
    Evals (fun R => R.expr q ia) c ⟨pv, y :: f :: rest, d :: ds, ps, L⟩ (.identifier y (L.contains x)) ⟨y :: pv, f :: rest, d :: ds, ps, L⟩ :=
  prefix_evals (fun _ => parseIdentifier) (VarTok.const hy hl).null (VarTok.const hy hl).line
    (.of fun _ => run_identifier hl c pv (f :: rest) (d :: ds) (q :: ps) L) (.inr ⟨rfl, he⟩)

theorem className_evals {x : Str} {y f : Token} (hy : y.type = .Constant) (hl : y.lit = some x) {d : Nat} (he : Ends .LESS_GREATER d f)
    (c : Cx) (pv rest : List Token) (ds : List Nat) (ps : List Prec) (L : List Str) :
    Evals parseClassOrModuleName c ⟨pv, y :: f :: rest, d :: ds, ps, L⟩ (.identifier y (L.contains x)) ⟨y :: pv, f :: rest, d :: ds, ps, L⟩ := by
  refine (const_evals hy hl he .CURLY_AND_BLOCK c pv rest ds ps L).by1 fun R hR => ?_
  unfold parseClassOrModuleName
  psim [hR, hy]

theorem ends_semi {q : Prec} {d : Nat} {f : Token} (hf : Eol f) : Ends q d f :=
  ⟨by rw [hf.need]; decide, by rcases hf with h | h <;> rw [h] <;> cases q <;> rfl, fun h => absurd h hf.do_⟩

theorem const_sx {x : Str} {y : Token} (hy : y.type = .Constant) (hl : y.lit = some x) {l : Bool} :
    Nsx (.identifier y l) (.node (cs! "const") [.sym x]) :=
  ⟨rfl, by trsim [identSexp, hy, hl]⟩

theorem module_ok (x : Str) (b : Ex .sts) (h : SOk b) : ExOk (.module_ x b) := by
  intro L w ts hw hm c pv f rest d ds p qs ia ha
  have hsz := ha.size
  simp only [gwf, Bool.and_eq_true] at hw
  simp only [gtoks] at hm
  obtain ⟨hw1, hw2⟩ := hw
  obtain ⟨t, us, rfl, ht, hm'⟩ := hm.cons_inv
  obtain ⟨y, us, rfl, hy, hm'⟩ := hm'.cons_inv
  obtain ⟨u, es, us, rfl, hu, hes, hm'⟩ := hm'.line_inv
  obtain ⟨tb, v, rfl, hmb, hv⟩ := hm'.snoc_inv
  have ht' : t.type = .ModuleKeyword := ht.type
  have hy' : y.type = .Constant := hy.type
  have hl : y.lit = some x := hy.lit
  have hu' : Eol u := hu.eol
  have hv' : v.type = .EndKeyword := hv.type
  simp only [List.length_append, List.length_cons] at hsz
  have hk := className_evals hy' hl (f := u) (d := d) (ends_semi hu') c (t :: pv) (es ++ (tb ++ v :: f :: rest)) ds (p :: qs) []
  obtain ⟨ns, bt, hN, -, hk'⟩ := rescue_evals h hw1 hmb (by omega) c (y :: t :: pv) (f :: rest) (d :: ds) (p :: qs)
    (.end_ hv') (.inr ⟨by rw [hv']; rfl, by rw [hv']; exact hw2⟩) (.cons hu' hes)
  refine Parsed.first (n := .module_ t (.identifier y (([] : List Str).contains x)) ns) (fun R => parseModule R) (fun R => by rw [ht']; rfl)
    (hk.by2 hk' fun R hR hR' => ?_) (.of (by simp only [gsx]; rfl) (.module_ hy' hl hN) rfl rfl) nofun
  simp only [gram] at hR'
  unfold parseModule
  psim [hR, hR']
  simp only [PRes.andThen, gram, hv']

theorem class_ok (x : Str) (sup : Option Str) (b : Ex .sts) (h : SOk b) : ExOk (.class_ x sup b) := by
  intro L w ts hw hm c pv f rest d ds p qs ia ha
  have hsz := ha.size
  simp only [gwf, Bool.and_eq_true] at hw
  simp only [gtoks] at hm
  obtain ⟨hw1, hw2⟩ := hw
  obtain ⟨t, us, rfl, ht, hm'⟩ := hm.cons_inv
  obtain ⟨y, us, rfl, hy, hm'⟩ := hm'.cons_inv
  have ht' : t.type = .ClassKeyword := ht.type
  have hy' : y.type = .Constant := hy.type
  have hl : y.lit = some x := hy.lit
  cases sup with
  | none =>
    simp only [List.nil_append] at hm'
    obtain ⟨u, es, us, rfl, hu, hes, hm'⟩ := hm'.line_inv
    obtain ⟨tb, v, rfl, hmb, hv⟩ := hm'.snoc_inv
    have hu' : Eol u := hu.eol
    have hv' : v.type = .EndKeyword := hv.type
    simp only [List.length_append, List.length_cons] at hsz
    have hk := className_evals hy' hl (f := u) (d := d) (ends_semi hu') c (t :: pv) (es ++ (tb ++ v :: f :: rest)) ds (p :: qs) []
    obtain ⟨ns, bt, hN, -, hk'⟩ := rescue_evals h hw1 hmb (by omega) c (y :: t :: pv) (f :: rest) (d :: ds) (p :: qs)
      (.end_ hv') (.inr ⟨by rw [hv']; rfl, by rw [hv']; exact hw2⟩) (.cons hu' hes)
    refine Parsed.first (n := .class_ t (.identifier y (([] : List Str).contains x)) (.nil t) ns) (fun R => parseClass R) (fun R => by rw [ht']; rfl)
      (hk.by2 hk' fun R hR hR' => ?_) (.of (by simp only [gsx]; rfl) (.class_ hy' hl .nil hN) rfl rfl) nofun
    simp only [gram] at hR'
    unfold parseClass
    rcases hu' with hu' | hu' <;> (psim [hy', hR, hu', hR']; simp only [PRes.andThen, gram, hv'])
  | some z =>
    simp only [List.cons_append, List.nil_append] at hm'
    obtain ⟨q, us, rfl, hq, hm'⟩ := hm'.cons_inv
    obtain ⟨k, us, rfl, hk, hm'⟩ := hm'.cons_inv
    obtain ⟨u, es, us, rfl, hu, hes, hm'⟩ := hm'.line_inv
    obtain ⟨tb, v, rfl, hmb, hv⟩ := hm'.snoc_inv
    have hq' : q.type = .LessThan := hq.type
    have hk' : k.type = .Constant := hk.type
    have hkl : k.lit = some z := hk.lit
    have hu' : Eol u := hu.eol
    have hv' : v.type = .EndKeyword := hv.type
    simp only [List.length_append, List.length_cons] at hsz
    have h1 := className_evals hy' hl (f := q) (d := d) ⟨by rw [hq']; decide, by rw [hq']; rfl, fun h => absurd (hq'.symm.trans h) nofun⟩
      c (t :: pv) (k :: u :: (es ++ (tb ++ v :: f :: rest))) ds (p :: qs) []
    have h2 := const_evals hk' hkl (q := .LOWEST) (f := u) (d := d) (ends_semi hu') .CURLY_AND_BLOCK c (q :: y :: t :: pv) (es ++ (tb ++ v :: f :: rest)) ds (p :: qs) []
    obtain ⟨ns, bt, hN, -, h3⟩ := rescue_evals h hw1 hmb (by omega) c (k :: q :: y :: t :: pv) (f :: rest) (d :: ds) (p :: qs)
      (.end_ hv') (.inr ⟨by rw [hv']; rfl, by rw [hv']; exact hw2⟩) (.cons hu' hes)
    have hc : Nsx (.identifier k (([] : List Str).contains z)) (.node (cs! "const") [.sym z]) := const_sx hk' hkl
    refine Parsed.first (n := .class_ t (.identifier y (([] : List Str).contains x)) (.identifier k (([] : List Str).contains z)) ns) (fun R => parseClass R) (fun R => by rw [ht']; rfl)
      (h1.by3 h2 h3 fun R hR hR' hR'' => ?_) (.of (by simp only [gsx]; rfl) (.class_ hy' hl hc.osx hN) rfl rfl) nofun
    simp only [gram] at hR''
    unfold parseClass
    psim [hy', hR, hq', hR', hR'']
    simp only [PRes.andThen, gram, hv']

theorem sclass_ok (e : Ex .ex) (b : Ex .sts) (h : ExOk e) (h' : SOk b) : ExOk (.sclass e b) := by
  intro L w ts hw hm c pv f rest d ds p qs ia ha
  have hsz := ha.size
  have hdo := ha.has
  simp only [gwf, gdo, Bool.and_eq_true, decide_eq_true_eq] at hw hdo
  simp only [gtoks] at hm
  obtain ⟨⟨⟨⟨⟨⟨hw1, hw2⟩, hw3⟩, hw4⟩, hw5⟩, hw6⟩, hw7⟩ := hw
  obtain ⟨t, us, rfl, ht, hm'⟩ := hm.cons_inv
  obtain ⟨y, us, rfl, hy, hm'⟩ := hm'.cons_inv
  obtain ⟨te, u, es, us, rfl, hme, hu, hes, hm'⟩ := hm'.mid_line
  obtain ⟨tb, v, rfl, hmb, hv⟩ := hm'.snoc_inv
  have ht' : t.type = .ClassKeyword := ht.type
  have hy' : y.type = .LeftShift := hy.type
  have hu' : Eol u := hu.eol
  have hv' : v.type = .EndKeyword := hv.type
  simp only [List.length_append, List.length_cons] at hsz
  obtain ⟨n, hg, hn⟩ := h.nested hw1 hme (ia := .CURLY_AND_BLOCK) (q := .BARE_CALL_ARG) (f := u) (d := d)
    ⟨above.mono (n := 7) (p := .BARE_CALL_ARG) (by decide) hw2, hu'.after hw3, nofun, by omega,
      fun h => absurd h hu'.do_, fun h => ⟨(hdo h).1, rfl⟩⟩ (ends_semi hu') c (y :: t :: pv) (es ++ (tb ++ v :: f :: rest)) ds (p :: qs)
  obtain ⟨ns, bt, hN, -, hk⟩ := body_evals h' hw4 hmb (by omega) c (te.reverse ++ y :: t :: pv) (f :: rest) (d :: ds) (p :: qs)
    (.end_ hv') (.inr ⟨by rw [hv']; rfl, by rw [hv']; exact hw5⟩) (.cons hu' hes)
  have ho : out (out L e) b = out L (.sclass e b) := by
    simp only [gram]
    rw [List.isEmpty_iff.1 hw6] at hw7 ⊢
    rw [List.isEmpty_iff.1 hw7]
  rw [ho] at hk
  obtain ⟨x, hx, hnx⟩ := hg.nsx
  refine Parsed.first (n := .sclass t n ns) (fun R => parseClass R) (fun R => by rw [ht']; rfl) (hn.by2 hk fun R hR hR' => ?_)
    (.of (by simp only [gsx]; rw [hx]; rfl) (.sclass hnx hN) rfl rfl) nofun
  simp only [gram] at hR hR'
  unfold parseClass parseSclass parseBodyEnd
  psim [hy', hR, hR', hv']

theorem methodName_run {x : Str} {y : Token} (hy : y.type = .BareName) (hl : y.lit = some x) (c : Cx) (pv ts : List Token) (ds : List Nat)
    (ps : List Prec) (L : List Str) : parseMethodName c ⟨pv, y :: ts, ds, ps, L⟩ = .ok x ⟨y :: pv, ts, ds, ps, L⟩ := by
  unfold parseMethodName
  psim [hy, litOf_eq hl]

theorem defName_plain (R : Rec) {x : Str} {y u : Token} (hy : y.type = .BareName) (hl : y.lit = some x) (h1 : u.type ≠ .Dot)
    (h2 : u.type ≠ .ConstantResolution) (c : Cx) (pv ts : List Token) (ds : List Nat) (ps : List Prec) (L : List Str) :
    parseDefName R c ⟨pv, y :: u :: ts, ds, ps, L⟩ = .ok (none, x) ⟨y :: pv, u :: ts, ds, ps, L⟩ := by
  unfold parseDefName
  psim [hy, h1, h2, methodName_run hy hl]

theorem defName_self (R : Rec) {x : Str} {k o y : Token} (hk : k.type = .SelfKeyword) (ho : o.type = .Dot) (hy : y.type = .BareName)
    (hl : y.lit = some x) (c : Cx) (pv ts : List Token) (ds : List Nat) (ps : List Prec) (L : List Str) :
    parseDefName R c ⟨pv, k :: o :: y :: ts, ds, ps, L⟩ = .ok (some (.self k), x) ⟨y :: o :: k :: pv, ts, ds, ps, L⟩ := by
  unfold parseDefName
  psim [hk, ho, methodName_run hy hl]

/-- What `parse_def` does after the name. -/
def defRest (R : Rec) (t : Token) (self : Option Node) (name : Str) : P Node := do
  let (args, body) ← withLocals [] do
    let ty ← curTy
    let args ←
      if ty = .LParen then do
        advance
        if (← curTy) = .RParen then
          advance
          pure []
        else
          let args ← parseDefArgs R
          expect .RParen (cs! "args closing paren")
          advance
          pure args
      else if ty.canBeFirstArgOfDef then parseDefArgs R
      else pure []
    if (← curTy) = .Equal then
      advance
      if isSetterName name then
        P.throw (.plain (cs! "setter method cannot be defined in an endless method definition"))
      else
        let e ← R.exp .LOWEST
        pure (args, [e])
    else
      let b ← parseDefBody R
      expect .EndKeyword (cs! "def end")
      advance
      pure (args, b.nodes)
  pure (.def_ t self name args body)

theorem parseDef_eq (R : Rec) : parseDef R = (do
    let t ← cur
    advance
    let x ← parseDefName R
    defRest R t x.1 x.2) := rfl

theorem defRest_evals {ps : Ex .prms} {b : Ex .sts} {ts : List Token} {d : Nat} (hq : QAt ps [] .RParen ts.length d) (h : SOk b)
    (hw : WF (out [] ps) b = true) (ha : after b .EndKeyword = true)
    {tb : List Token} (hm : Ms (opt? ps (lparen :: (toks none ps ++ [rparen]))) ts) {u v f : Token} (hu : Eol u) {es : List Token} (hes : Eols es) (hmb : Ms (toks none b) tb)
    (hv : v.type = .EndKeyword) (hs : tb.length < 4294967296) (t : Token) (self : Option Node) (x : Str) (c : Cx) (pv rest : List Token)
    (ds : List Nat) (qs : List Prec) (L : List Str) :
    ∃ args ns, Qsx (tuple ps) args (sx [] ps) ∧ Lsx ns (sx (out [] ps) b) ∧
      Evals (fun R => defRest R t self x) c ⟨pv, ts ++ u :: (es ++ (tb ++ v :: f :: rest)), d :: ds, qs, L⟩ (.def_ t self x args ns)
        ⟨v :: (tb.reverse ++ (es.reverse ++ u :: (ts.reverse ++ pv))), f :: rest, d :: ds, qs, L⟩ := by
  obtain ⟨ns, bt, hN, -, hk⟩ := rescue_evals h hw hmb hs c (ts.reverse ++ pv) (f :: rest) (d :: ds) qs
    (.end_ hv) (.inr ⟨by rw [hv]; rfl, by rw [hv]; exact ha⟩) (.cons hu hes)
  by_cases hn : ps.isNil = true
  · cases prms_nil hn
    cases hm.nil_inv
    refine ⟨[], ns, by simp only [gsx]; exact .nil _, hN, hk.by1 fun R hR => ?_⟩
    simp only [gram] at hR
    unfold defRest
    rcases hu with hu | hu <;> (psim [hu, Ttype.canBeFirstArgOfDef, parseDefBody, hR, hv]; simp only [PRes.andThen, gram])
  · have hn : ps.isNil = false := by simpa using hn
    unfold opt? at hm
    rw [if_neg (by rw [hn]; nofun)] at hm
    obtain ⟨q, us, rfl, hq0, hm'⟩ := hm.cons_inv
    obtain ⟨tn, k, rfl, hmn, hk'⟩ := hm'.snoc_inv
    have hq' : q.type = .LParen := hq0.type
    have hk1 : k.type = .RParen := hk'.type
    have hsz := hq.size
    simp only [List.length_cons, List.length_append] at hsz
    obtain ⟨args, hA, hka⟩ := defArgs_evals { hq with size := by omega } hn hmn (f := k) hk1 c (q :: pv)
      (u :: (es ++ (tb ++ v :: f :: rest))) ds qs
    refine ⟨args, ns, hA, hN, hka.by2 hk fun R hR hR' => ?_⟩
    obtain ⟨y', us, rfl, hy'⟩ := hmn.prms hn
    have hy' : y'.type ≠ .RParen := by rintro h; rw [h] at hy'; cases hy'
    simp only [gram] at hR hR'
    unfold defRest
    rcases hu with hu | hu <;> (psim [hq', hy', hR, hk1, hu, parseDefBody, hR', hv]; simp only [PRes.andThen, gram])

/-- The body of a method after `=`. -/
theorem defRestE_evals {ps : Ex .prms} {n : Node} {ts : List Token} {d : Nat} (hq : QAt ps [] .RParen ts.length d)
    {te : List Token} (hm : Ms (opt? ps (lparen :: (toks none ps ++ [rparen]))) ts) {u f : Token} (hu : u.type = .Equal)
    {x : Str} (hx : isSetterName x = false) {c : Cx} {pv rest : List Token} {ds : List Nat} {qs : List Prec} {L' : List Str}
    (hk : Evals (fun R => R.expr .LOWEST .CURLY_AND_BLOCK) c ⟨u :: (ts.reverse ++ pv), te ++ f :: rest, d :: ds, qs, out [] ps⟩ n
        ⟨te.reverse ++ u :: (ts.reverse ++ pv), f :: rest, d :: ds, qs, L'⟩) (t : Token) (self : Option Node) (L : List Str) :
    ∃ args, Qsx (tuple ps) args (sx [] ps) ∧
      Evals (fun R => defRest R t self x) c ⟨pv, ts ++ u :: (te ++ f :: rest), d :: ds, qs, L⟩ (.def_ t self x args [n])
        ⟨te.reverse ++ u :: (ts.reverse ++ pv), f :: rest, d :: ds, qs, L⟩ := by
  by_cases hn : ps.isNil = true
  · cases prms_nil hn
    cases hm.nil_inv
    refine ⟨[], by simp only [gsx]; exact .nil _, hk.by1 fun R hR => ?_⟩
    simp only [gram] at hR
    unfold defRest
    psim [hu, Ttype.canBeFirstArgOfDef, hx, hR]
    simp only [PRes.andThen, gram]
  · have hn : ps.isNil = false := by simpa using hn
    unfold opt? at hm
    rw [if_neg (by rw [hn]; nofun)] at hm
    obtain ⟨q, us, rfl, hq0, hm'⟩ := hm.cons_inv
    obtain ⟨tn, k, rfl, hmn, hk'⟩ := hm'.snoc_inv
    have hq' : q.type = .LParen := hq0.type
    have hk1 : k.type = .RParen := hk'.type
    have hsz := hq.size
    simp only [List.length_cons, List.length_append] at hsz
    obtain ⟨args, hA, hka⟩ := defArgs_evals { hq with size := by omega } hn hmn (f := k) hk1 c (q :: pv) (u :: (te ++ f :: rest)) ds qs
    refine ⟨args, hA, hka.by2 hk fun R hR hR' => ?_⟩
    obtain ⟨y', us, rfl, hy'⟩ := hmn.prms hn
    have hy' : y'.type ≠ .RParen := by rintro h; rw [h] at hy'; cases hy'
    simp only [gram] at hR hR'
    unfold defRest
    psim [hq', hy', hR, hk1, hu, hx, hR']
    simp only [PRes.andThen, gram]

theorem setter_false {x : Str} (h : x.getLast? ≠ some '=') : isSetterName x = false := by
  unfold isSetterName
  rw [Bool.and_eq_false_iff]
  left
  rw [Bool.eq_false_iff]
  intro h'
  obtain ⟨y, rfl⟩ := List.isSuffixOf_iff_suffix.1 h'
  exact h (by simp)

theorem defE_ok (slf : Bool) (x : Str) (ps : Ex .prms) (e : Ex .ex) (hq : QOk ps) (h : ExOk e) : ExOk (.defE slf x ps e) := by
  intro L w ts hw hm c pv f rest d ds p qs ia ha
  have hsz := ha.size
  have hdo := ha.has
  have hf := ha.after
  simp only [gwf, gdo, gafter, Bool.and_eq_true, Bool.or_eq_true, lets_iff, decide_eq_true_eq, bne_iff_ne] at hw hdo hf
  simp only [gtoks] at hm
  obtain ⟨⟨⟨⟨⟨hq1, hq2⟩, hq3⟩, hw1⟩, hw2⟩, hw3⟩ := hw
  have hx := setter_false hw3
  obtain ⟨t, us, rfl, ht, hm'⟩ := hm.cons_inv
  have ht' : t.type = .DefKeyword := ht.type
  cases slf with
  | false =>
    simp only [Bool.false_eq_true, if_false, List.nil_append] at hm'
    obtain ⟨y, us, rfl, hy, hm'⟩ := hm'.cons_inv
    obtain ⟨tp, u, te, rfl, hmp, hu, hme⟩ := hm'.mid_inv
    have hy' : y.type = .BareName := hy.type
    have hl : y.lit = some x := hy.lit
    have hu' : u.type = .Equal := hu.type
    simp only [List.length_append, List.length_cons] at hsz
    obtain ⟨n, hg, hn⟩ := h.last (q := .LOWEST) (n := 0) (us := te) ha rfl hw1 hme hf.1 (by decide)
      (by decide) hf.2 (above.mono (show above .LOWEST 5 = true by decide) hw2) (by simp; omega)
      (fun h => by simp only [gdo, h, Bool.or_true]) c (u :: (tp.reverse ++ y :: t :: pv)) rest ds (p :: qs)
    obtain ⟨args, hA, hk⟩ := defRestE_evals ⟨hq, hq1, hq2, hq3, by omega, fun h => (hdo (.inl h)).1⟩ hmp hu' hx hn t none L
    obtain ⟨z, hz, hnz⟩ := hg.nsx
    have hN : Lsx [n] [z] := .cons hnz .nil
    refine Parsed.first (n := .def_ t none x args [n]) (fun R => parseDef R) (fun R => by rw [ht']; rfl)
      (hk.by1 fun R hR => ?_) (.of (by simp only [gsx]; rw [hz]; rfl) (.defn hA hN x) rfl rfl) nofun
    rw [parseDef_eq]
    obtain ⟨g, gs, hgs, hg1, hg2⟩ : ∃ g gs, tp ++ u :: (te ++ f :: rest) = g :: gs ∧ g.type ≠ .Dot ∧ g.type ≠ .ConstantResolution := by
      unfold opt? at hmp
      split at hmp
      · cases hmp.nil_inv
        exact ⟨u, _, rfl, by rw [hu']; nofun, by rw [hu']; nofun⟩
      · obtain ⟨q, us, rfl, hq, -⟩ := hmp.cons_inv
        exact ⟨q, _, rfl, by rw [hq.type]; nofun, by rw [hq.type]; nofun⟩
    rw [hgs] at hR
    psim [hgs, defName_plain _ hy' hl hg1 hg2, hR]
  | true =>
    simp only [if_true, List.cons_append, List.nil_append] at hm'
    obtain ⟨k, us, rfl, hk, hm'⟩ := hm'.cons_inv
    obtain ⟨o, us, rfl, ho, hm'⟩ := hm'.cons_inv
    obtain ⟨y, us, rfl, hy, hm'⟩ := hm'.cons_inv
    obtain ⟨tp, u, te, rfl, hmp, hu, hme⟩ := hm'.mid_inv
    have hk' : k.type = .SelfKeyword := hk.type
    have ho' : o.type = .Dot := ho.type
    have hy' : y.type = .BareName := hy.type
    have hl : y.lit = some x := hy.lit
    have hu' : u.type = .Equal := hu.type
    simp only [List.length_append, List.length_cons] at hsz
    obtain ⟨n, hg, hn⟩ := h.last (q := .LOWEST) (n := 0) (us := te) ha rfl hw1 hme hf.1 (by decide)
      (by decide) hf.2 (above.mono (show above .LOWEST 5 = true by decide) hw2) (by simp; omega)
      (fun h => by simp only [gdo, h, Bool.or_true]) c (u :: (tp.reverse ++ y :: o :: k :: t :: pv)) rest ds (p :: qs)
    obtain ⟨args, hA, hk⟩ := defRestE_evals ⟨hq, hq1, hq2, hq3, by omega, fun h => (hdo (.inl h)).1⟩ hmp hu' hx hn t (some (.self k)) L
    obtain ⟨z, hz, hnz⟩ := hg.nsx
    have hN : Lsx [n] [z] := .cons hnz .nil
    refine Parsed.first (n := .def_ t (some (.self k)) x args [n]) (fun R => parseDef R) (fun R => by rw [ht']; rfl)
      (hk.by1 fun R hR => ?_) (.of (by simp only [gsx]; rw [hz]; rfl) (.defs hA hN x k) rfl rfl) nofun
    rw [parseDef_eq]
    psim [defName_self _ hk' ho' hy' hl, hR]

theorem def_ok (slf : Bool) (x : Str) (ps : Ex .prms) (b : Ex .sts) (hq : QOk ps) (h : SOk b) : ExOk (.def_ slf x ps b) := by
  intro L w ts hw hm c pv f rest d ds p qs ia ha
  have hsz := ha.size
  have hdo := ha.has
  simp only [gwf, gdo, Bool.and_eq_true] at hw hdo
  simp only [gtoks] at hm
  obtain ⟨⟨⟨⟨hq1, hq2⟩, hq3⟩, hw1⟩, hw2⟩ := hw
  obtain ⟨t, us, rfl, ht, hm'⟩ := hm.cons_inv
  have ht' : t.type = .DefKeyword := ht.type
  cases slf with
  | false =>
    simp only [Bool.false_eq_true, if_false, List.nil_append] at hm'
    obtain ⟨y, us, rfl, hy, hm'⟩ := hm'.cons_inv
    obtain ⟨tp, u, es, us, rfl, hmp, hu, hes, hm'⟩ := hm'.mid_line
    obtain ⟨tb, v, rfl, hmb, hv⟩ := hm'.snoc_inv
    have hy' : y.type = .BareName := hy.type
    have hl : y.lit = some x := hy.lit
    have hu' : Eol u := hu.eol
    have hv' : v.type = .EndKeyword := hv.type
    simp only [List.length_append, List.length_cons] at hsz
    obtain ⟨args, ns, hA, hN, hk⟩ := defRest_evals ⟨hq, hq1, hq2, hq3, by omega, fun h => (hdo h).1⟩ h hw1 hw2 hmp hu' hes hmb hv' (f := f) (by omega) t none x c (y :: t :: pv) rest ds (p :: qs) L
    refine Parsed.first (n := .def_ t none x args ns) (fun R => parseDef R) (fun R => by rw [ht']; rfl)
      (hk.by1 fun R hR => ?_) (.of (by simp only [gsx]; rfl) (.defn hA hN x) rfl rfl) nofun
    rw [parseDef_eq]
    obtain ⟨g, gs, hgs, hg1, hg2⟩ : ∃ g gs, tp ++ u :: (es ++ (tb ++ v :: f :: rest)) = g :: gs ∧ g.type ≠ .Dot ∧ g.type ≠ .ConstantResolution := by
      unfold opt? at hmp
      split at hmp
      · cases hmp.nil_inv
        exact ⟨u, _, rfl, by rcases hu' with h | h <;> rw [h] <;> nofun, by rcases hu' with h | h <;> rw [h] <;> nofun⟩
      · obtain ⟨q, us, rfl, hq, -⟩ := hmp.cons_inv
        exact ⟨q, _, rfl, by rw [hq.type]; nofun, by rw [hq.type]; nofun⟩
    rw [hgs] at hR
    psim [hgs, defName_plain _ hy' hl hg1 hg2, hR]
  | true =>
    simp only [if_true, List.cons_append, List.nil_append] at hm'
    obtain ⟨k, us, rfl, hk, hm'⟩ := hm'.cons_inv
    obtain ⟨o, us, rfl, ho, hm'⟩ := hm'.cons_inv
    obtain ⟨y, us, rfl, hy, hm'⟩ := hm'.cons_inv
    obtain ⟨tp, u, es, us, rfl, hmp, hu, hes, hm'⟩ := hm'.mid_line
    obtain ⟨tb, v, rfl, hmb, hv⟩ := hm'.snoc_inv
    have hk' : k.type = .SelfKeyword := hk.type
    have ho' : o.type = .Dot := ho.type
    have hy' : y.type = .BareName := hy.type
    have hl : y.lit = some x := hy.lit
    have hu' : Eol u := hu.eol
    have hv' : v.type = .EndKeyword := hv.type
    simp only [List.length_append, List.length_cons] at hsz
    obtain ⟨args, ns, hA, hN, hk⟩ := defRest_evals ⟨hq, hq1, hq2, hq3, by omega, fun h => (hdo h).1⟩ h hw1 hw2 hmp hu' hes hmb hv' (f := f) (by omega) t (some (.self k)) x c (y :: o :: k :: t :: pv) rest
      ds (p :: qs) L
    refine Parsed.first (n := .def_ t (some (.self k)) x args ns) (fun R => parseDef R) (fun R => by rw [ht']; rfl)
      (hk.by1 fun R hR => ?_) (.of (by simp only [gsx]; rfl) (.defs hA hN x k) rfl rfl) nofun
    rw [parseDef_eq]
    psim [defName_self _ hk' ho' hy' hl, hR]

end NP.Gram
