import Verif.Proofs.Gram.Body

/-! Parameters. -/

namespace NP.Gram
open Spec

theorem Evals.defSingleArg {args : List Node} {ctx : ArgsContext} {ia : IterAllow} {c : Cx} {s s' : PS} {a : List Node}
    (h : Evals (fun R => parseDefSingleArg R args ctx ia) c s a s') : Evals (fun R => R.defSingleArg args ctx ia) c s a s' := by
  obtain ⟨N, h⟩ := h
  refine ⟨N + 1, fun n hn => ?_⟩
  obtain ⟨m, rfl⟩ : ∃ m, n = m + 1 := ⟨n - 1, by omega⟩
  exact h m (by omega)

theorem Evals.argDefault {ia : IterAllow} {c : Cx} {s s' : PS} {a : Node}
    (h : Evals (fun R => parseArgDefaultValue R ia) c s a s') : Evals (fun R => R.argDefault ia) c s a s' := by
  obtain ⟨N, h⟩ := h
  refine ⟨N + 1, fun n hn => ?_⟩
  obtain ⟨m, rfl⟩ : ∃ m, n = m + 1 := ⟨n - 1, by omega⟩
  exact h m (by omega)

/-! ### The second token of an expression -/

theorem second_left {r : Ex .ex} (ih : 7 ≤ lhs r → start r = .BareName → ∀ {w : Option Bool} {t : Token} {us : List Token},
      Ms (toks w r) (t :: us) → ∀ {g : Token} (rest : List Token), g.type ≠ .Equal → ∃ u vs, us ++ g :: rest = u :: vs ∧ u.type ≠ .Equal)
    {x : Want} {more : List Want} (hx : x.p.type ≠ .Equal) (hb : loose x.p.type = false) (hl : 7 ≤ lhs r) (hs : start r = .BareName)
    {w : Option Bool} {t : Token} {us : List Token} (hm : Ms (toks w r ++ x :: more) (t :: us)) {g : Token} (rest : List Token) :
    ∃ u vs, us ++ g :: rest = u :: vs ∧ u.type ≠ .Equal := by
  obtain ⟨t1, t2, he, h1, h2⟩ := hm.append_inv
  obtain ⟨t', us1, rfl, -⟩ := h1.first
  obtain ⟨o, es, t3, rfl, ho, -⟩ := h2.line_inv
  cases he
  have ho' : o.type = x.p.type := accepts_eq hb ho.acc
  obtain ⟨u, vs, h3, h4⟩ := ih hl hs h1 (g := o) (es ++ t3 ++ g :: rest) (by rw [ho']; exact hx)
  exact ⟨u, vs, by rw [← h3]; simp, h4⟩

theorem start_left {r e : Ex .ex} {ws : List Want} (h : ∀ w, toks w e = toks w r ++ ws) : start e = start r := by
  obtain ⟨p, vs, h1, -⟩ := toks_first r rfl
  unfold start
  rw [h, h1]
  rfl

theorem second_ne : ∀ {k : Kind} (e : Ex k), k = .ex → 7 ≤ lhs e → start e = .BareName → ∀ {w : Option Bool} {t : Token}
    {us : List Token}, Ms (toks w e) (t :: us) → ∀ {g : Token} (rest : List Token), g.type ≠ .Equal →
    ∃ u vs, us ++ g :: rest = u :: vs ∧ u.type ≠ .Equal := by
  intro k e hk
  induction e with
  | var v =>
    intro _ _ w t us hm g rest hg
    simp only [gtoks] at hm
    obtain ⟨t', he, -⟩ := hm.one_inv
    cases he
    exact ⟨g, rest, rfl, hg⟩
  | fcall x a =>
    intro _ _ w t us hm g rest hg
    simp only [gtoks] at hm
    obtain ⟨t, us, he, -, hm⟩ := hm.cons_inv
    cases he
    obtain ⟨u, us, rfl, hu, hm⟩ := hm.cons_inv
    exact ⟨u, us ++ g :: rest, rfl, by rw [hu.type]; nofun⟩
  | send safe r m ih | sendA safe r m a ih =>
    intro hl hs w t us hm g rest hg
    simp only [glhs, gtoks] at hl hm
    refine second_left (fun h h' => ih rfl h h') (by cases safe <;> intro h <;> cases h) (by cases safe <;> rfl) ?_ ?_ hm rest
    · split at hl <;> omega
    · rw [← hs]; exact (start_left fun w => by simp only [gtoks]; rfl).symm
  | index r a ih | colon2 r x ih =>
    intro hl hs w t us hm g rest hg
    simp only [glhs, gtoks] at hl hm
    refine second_left (fun h h' => ih rfl h h') (by intro h; cases h) rfl (by omega) ?_ hm rest
    rw [← hs]; exact (start_left fun w => by simp only [gtoks]; rfl).symm
  | block d r ps b ih =>
    intro hl hs w t us hm g rest hg
    simp only [glhs, gtoks] at hl hm
    refine second_left (fun h h' => ih rfl h h') (by cases d <;> intro h <;> cases h) (by cases d <;> rfl) (by omega) ?_ hm rest
    rw [← hs]; exact (start_left fun w => by simp only [gtoks]; rfl).symm
  | bin o r x ih =>
    intro hl hs w t us hm g rest hg
    simp only [glhs, gtoks] at hl hm
    refine second_left (fun h h' => ih rfl h h') (by cases o <;> nofun) (by cases o <;> rfl) (by omega) ?_ hm rest
    rw [← hs]; exact (start_left fun w => by simp only [gtoks]; rfl).symm
  | tern r x y ih =>
    intro hl hs w t us hm g rest hg
    simp only [glhs, gtoks] at hl hm
    refine second_left (fun h h' => ih rfl h h') (by intro h; cases h) rfl (by omega) ?_ hm rest
    rw [← hs]; exact (start_left fun w => by simp only [gtoks]; rfl).symm
  | int n =>
    intro _ hs
    unfold start at hs
    simp only [gtoks] at hs
    split at hs <;> cases hs
  | array a =>
    intro _ hs
    unfold start at hs
    simp only [gtoks] at hs
    split at hs <;> cases hs
  | word x => intro _ hs; cases x <;> cases hs
  | un o => intro _ hs; cases o <;> cases hs
  | jump0 o | jump o => intro _ hs; cases o <;> cases hs
  | while_ neg => intro _ hs; cases neg <;> cases hs
  | cmd | sendC | attr | opattr | setIndex | opindex | modi | rescueM | asgn | opasgn | masgn | masgnL =>
    intro hl
    simp only [glhs] at hl
    omega
  | str | sym | hash | colon3 | super0 | superA | yield0 | yieldA | paren | lam | notE | if_ | unless_ | for_
  | case_ | case0 | begin_ | def_ | class_ | module_ | ret0 | ret | defE | sclass | postexe => intro _ hs; cases hs
  | _ => cases hk

/-! ### Values -/

/-- The token ends a parameter. -/
def EndsParam (g : Token) : Prop := g.type = .Comma ∨ g.type = .RParen ∨ g.type = .Pipe

theorem EndsParam.equal {g : Token} (h : EndsParam g) : g.type ≠ .Equal := by
  rcases h with h | h | h <;> rw [h] <;> nofun

theorem EndsParam.name {g : Token} (h : EndsParam g) : g.type ≠ .BareName := by
  rcases h with h | h | h <;> rw [h] <;> nofun

theorem EndsParam.keyword {g : Token} (h : EndsParam g) : g.type.isKeyword = false := by
  rcases h with h | h | h <;> rw [h] <;> rfl

theorem EndsParam.do_ {g : Token} (h : EndsParam g) : g.type ≠ .DoKeyword := by
  rcases h with h | h | h <;> rw [h] <;> nofun

theorem EndsParam.ends {g : Token} (h : EndsParam g) (d : Nat) : Ends .DEF_ARG d g :=
  ⟨by rcases h with h | h | h <;> rw [h] <;> decide, by rcases h with h | h | h <;> rw [h] <;> decide, fun h' => absurd h' h.do_⟩

theorem value_evals {e : Ex .ex} (h : ExOk e) {L : List Str} {ts : List Token} {f : Token} {d : Nat} (hw : WF L e = true)
    (hm : Ms (toks none e) ts) (hl : 16 ≤ lhs e) (hf : Gram.after e f.type = true) (hs : d + ts.length < 4294967296)
    (hh : hasDo e = true → d = 0) (he : EndsParam f) (c : Cx) (pv rest : List Token) (ds : List Nat) (qs : List Prec) :
    ∃ n, Good L e n ∧ Evals (fun R => R.expr .DEF_ARG .CURLY_AND_BLOCK) c ⟨pv, ts ++ f :: rest, d :: ds, qs, L⟩ n
      ⟨ts.reverse ++ pv, f :: rest, d :: ds, qs, out L e⟩ :=
  h.nested (ia := .CURLY_AND_BLOCK) hw hm ⟨above.mono (show above .DEF_ARG 16 = true by decide) hl, hf, nofun, hs, fun h => absurd h he.do_,
    fun h => ⟨hh h, rfl⟩⟩ (he.ends d) c pv rest ds qs

theorem default_evals {e : Ex .ex} (h : ExOk e) {L : List Str} {ts : List Token} {f : Token} {d : Nat} (hw : WF L e = true)
    (hm : Ms (toks none e) ts) (hl : 16 ≤ lhs e) (hf : Gram.after e f.type = true) (hs : d + ts.length < 4294967296)
    (hh : hasDo e = true → d = 0) (he : EndsParam f) (c : Cx) (pv rest : List Token) (ds : List Nat) (qs : List Prec) :
    ∃ n, Good L e n ∧ Evals (fun R => R.argDefault .CURLY_AND_BLOCK) c ⟨pv, ts ++ f :: rest, d :: ds, qs, L⟩ n
      ⟨ts.reverse ++ pv, f :: rest, d :: ds, qs, out L e⟩ := by
  obtain ⟨n, hg, hn⟩ := value_evals h hw hm hl hf hs hh he c pv rest ds qs
  refine ⟨n, hg, Evals.argDefault (hn.by1 fun R hR => ?_)⟩
  obtain ⟨t, us, rfl, -, ht, -⟩ := hm.first
  unfold parseArgDefaultValue
  rw [List.cons_append] at hR ⊢
  by_cases hb : t.type = .BareName
  · obtain ⟨u, vs, h1, h2⟩ := second_ne e rfl (by omega) (ht.symm.trans hb) hm rest he.equal
    rw [h1] at hR ⊢
    psim [hb, h2, hR]
  · obtain ⟨u, vs, h1⟩ : ∃ u vs, us ++ f :: rest = u :: vs := by cases us <;> exact ⟨_, _, rfl⟩
    rw [h1] at hR ⊢
    psim [hb, hR]

/-! ### Parameters -/

inductive QOk : Ex .prms → Prop where
  | nil : QOk .qnil
  | name {x : Str} {ps : Ex .prms} : QOk ps → QOk (.qname x ps)
  | value {x : Str} {e : Ex .ex} {ps : Ex .prms} : ExOk e → QOk ps → QOk (.qdef x e ps)
  | tup {qs ps : Ex .prms} : QOk qs → QOk ps → QOk (.qtup qs ps)
  | splat {o : Option Str} {ps : Ex .prms} : QOk ps → QOk (.qsplat o ps)
  | key {x : Str} {ps : Ex .prms} : QOk ps → QOk (.qkey x ps)
  | keyValue {x : Str} {e : Ex .ex} {ps : Ex .prms} : ExOk e → QOk ps → QOk (.qkeyd x e ps)
  | kws {o : Option Str} {ps : Ex .prms} : QOk ps → QOk (.qkws o ps)
  | blk {x : Str} : QOk (.qblk x)

theorem prms_nil {ps : Ex .prms} (h : ps.isNil = true) : ps = .qnil := by cases ps <;> first | rfl | cases h

/-- What the parser looks at in the parameters before. -/
structure Pre (k : Nat) (args : List Node) : Prop where
  fwd : lastIsForward args = false
  key : lastIsKeyword args = true → 4 ≤ k
  splat : lastIsSplat args = true → 2 ≤ k

theorem Pre.nil : Pre 0 [] := ⟨rfl, nofun, nofun⟩

theorem Pre.arg (k : Nat) (args : List Node) (t : Token) (o : Option Str) (b : Bool) (v : Option Node) :
    Pre k (args ++ [.arg t o b false false v]) := by
  constructor <;> simp [lastIsForward, lastIsKeyword, lastIsSplat]

theorem Pre.splatArg {k : Nat} (hk : 2 ≤ k) (args : List Node) (t : Token) (o : Option Str) (s kw : Bool) :
    Pre k (args ++ [.arg t o false s kw none]) := by
  constructor
  · simp [lastIsForward]
  · simp [lastIsKeyword]
  · exact fun _ => hk

theorem Pre.tup (k : Nat) (args : List Node) (t : Token) (ns : List Node) : Pre k (args ++ [.multipleAssignmentArg t ns]) := by
  constructor <;> simp [lastIsForward, lastIsKeyword, lastIsSplat]

theorem Pre.keyArg {k : Nat} (hk : 4 ≤ k) (args : List Node) (t : Token) (x : Str) (v : Option Node) :
    Pre k (args ++ [.keywordArg t x v]) := by
  constructor
  · simp [lastIsForward]
  · exact fun _ => hk
  · simp [lastIsSplat]

theorem Pre.key_false {k : Nat} {args : List Node} (h : Pre k args) (hk : k ≤ 3) : lastIsKeyword args = false := by
  cases hl : lastIsKeyword args
  · rfl
  · have := h.key hl; omega

theorem Pre.splat_false {k : Nat} {args : List Node} (h : Pre k args) (hk : k ≤ 1) : lastIsSplat args = false := by
  cases hl : lastIsSplat args
  · rfl
  · have := h.splat hl; omega

/-- A loop over parameters. -/
structure Params (B : Rec → List Node → P (Loop (List Node) (List Node))) (ctx : ArgsContext) (cl : Ttype) : Prop where
  step : ∀ (args args' : List Node) (c : Cx) (pv : List Token) (g t : Token) (rest : List Token) (ds : List Nat)
    (qs : List Prec) (L : List Str) (s' : PS), g.type = .Comma → t.type ≠ .Pipe →
    Evals (fun R => R.defSingleArg args ctx .CURLY_AND_BLOCK) c ⟨g :: pv, t :: rest, ds, qs, L⟩ args' s' →
    Evals (fun R => B R args) c ⟨pv, g :: t :: rest, ds, qs, L⟩ (.again args') s'
  done : ∀ (args : List Node) (c : Cx) (pv : List Token) (f : Token) (rest : List Token) (ds : List Nat)
    (qs : List Prec) (L : List Str), f.type = cl →
    EvalsLoop B args c ⟨pv, f :: rest, ds, qs, L⟩ args ⟨pv, f :: rest, ds, qs, L⟩

/-- The body of the loop of `parse_def_args`. -/
def defArgsBody (R : Rec) (args : List Node) : P (Loop (List Node) (List Node)) := do
  if (← curTy) = .Comma then
    advance
    let args ← R.defSingleArg args .Method .CURLY_AND_BLOCK
    pure (Loop.again args)
  else pure (Loop.done args)

theorem parseDefArgs_eq (R : Rec) : parseDefArgs R = (do
    let args ← R.defSingleArg [] .Method .CURLY_AND_BLOCK
    loop (defArgsBody R) R.fuel args) := rfl

/-- The body of the loop of `parse_iter_args`. -/
def iterArgsBody (R : Rec) (args : List Node) : P (Loop (List Node) (List Node)) := do
  if (← curTy) = .Comma then
    advance
    let t ← cur
    if t.type = .Pipe then pure (Loop.done (args ++ [.nil t]))
    else
      let args ← R.defSingleArg args .Block .CURLY_AND_BLOCK
      pure (Loop.again args)
  else pure (Loop.done args)

theorem parseIterArgs_eq (R : Rec) : parseIterArgs R = (do
    if (← curTy) = .Semicolon then parseShadowVars R []
    else
      let args ← R.defSingleArg [] .Block .CURLY_AND_BLOCK
      let args ← loop (iterArgsBody R) R.fuel args
      if (← curTy) = .Semicolon then parseShadowVars R args else pure args) := rfl

/-- The body of the loop of `parse_proc_args`. -/
def procArgsBody (R : Rec) (args : List Node) : P (Loop (List Node) (List Node)) := do
  if (← curTy) = .Comma then
    advance
    let args ← R.defSingleArg args .Proc .CURLY_AND_BLOCK
    pure (Loop.again args)
  else pure (Loop.done args)

theorem parseProcArgs_eq (R : Rec) : parseProcArgs R .CURLY_AND_BLOCK = (do
    if (← curTy) = .Semicolon then parseShadowVars R []
    else
      let args ← R.defSingleArg [] .Proc .CURLY_AND_BLOCK
      let args ← loop (procArgsBody R) R.fuel args
      if (← curTy) = .Semicolon then parseShadowVars R args else pure args) := rfl

theorem procArgs_params : Params procArgsBody .Proc .RParen where
  step args args' c pv g t rest ds qs L s' hg ht h := h.by1 fun R hR => by
    unfold procArgsBody
    psim [hg, hR]
  done args c pv f rest ds qs L hf := .done (.of fun R => by
    unfold procArgsBody
    psim [hf])

theorem defArgs_params : Params defArgsBody .Method .RParen where
  step args args' c pv g t rest ds qs L s' hg ht h := h.by1 fun R hR => by
    unfold defArgsBody
    psim [hg, hR]
  done args c pv f rest ds qs L hf := .done (.of fun R => by
    unfold defArgsBody
    psim [hf])

theorem iterArgs_params : Params iterArgsBody .Block .Pipe where
  step args args' c pv g t rest ds qs L s' hg ht h := h.by1 fun R hR => by
    unfold iterArgsBody
    psim [hg, ht, hR]
  done args c pv f rest ds qs L hf := .done (.of fun R => by
    unfold iterArgsBody
    psim [hf])

/-- The types of first tokens of parameters. -/
def paramStart : Ttype → Bool
  | .BareName | .LParen | .Star | .StarStar | .SymbolKey | .Ampersand => true
  | _ => false

theorem Ms.prms {ps : Ex .prms} {ts : List Token} (h : Ms (toks none ps) ts) (hn : ps.isNil = false) :
    ∃ t us, ts = t :: us ∧ paramStart t.type = true := by
  cases ps with
  | qnil => cases hn
  | _ =>
    simp only [gtoks] at h
    obtain ⟨t, us, rfl, ht, -⟩ := h.cons_inv
    exact ⟨t, us, rfl, by rw [ht.type]; rfl⟩

theorem tuple_after : ∀ {k : Kind} {ps : Ex k}, k = .prms → tuple ps = true → ∀ ty, Gram.after ps ty = true := by
  intro k ps hk
  induction ps with
  | qnil => intro _ ty; rfl
  | qname x ps ih => intro h ty; simp only [gafter]; exact ih rfl h ty
  | qtup qs ps _ ih => intro h ty; simp only [gafter]; exact ih rfl h ty
  | qsplat o ps ih => intro h ty; simp only [gafter]; exact ih rfl h ty
  | qkey | qdef | qkeyd | qkws | qblk => intro h; cases h
  | _ => cases hk

/-- The parser reads the parameters: the first one, and then the others in a loop. -/
def PrmsRun (ps : Ex .prms) : Prop :=
  ∀ (k : Nat) (ctx : ArgsContext) (L : List Str) (ts : List Token) (c : Cx) (pv : List Token) (f : Token) (rest : List Token)
    (d : Nat) (ds : List Nat) (qs : List Prec), WF L ps = true → ordered k ps = true → Ms (toks none ps) ts →
    (f.type = .RParen ∨ f.type = .Pipe) → Gram.after ps f.type = true → d + ts.length < 4294967296 → (hasDo ps = true → d = 0) →
    ∃ n1 ns s1, Qsx (tuple ps) (n1 :: ns) (sx L ps) ∧
      (∀ args, Pre k args → Evals (fun R => R.defSingleArg args ctx .CURLY_AND_BLOCK) c ⟨pv, ts ++ f :: rest, d :: ds, qs, L⟩
        (args ++ [n1]) s1) ∧
      ∀ B args, Params B ctx f.type → Pre k args → EvalsLoop B (args ++ [n1]) c s1 (args ++ n1 :: ns)
        ⟨ts.reverse ++ pv, f :: rest, d :: ds, qs, out L ps⟩

/-- The token after a parameter. -/
theorem prm_follow {r : Ex .prms} {ts : List Token} (h : Ms (sep r (toks none r)) ts) {f : Token}
    (hf : f.type = .RParen ∨ f.type = .Pipe) (rest : List Token) :
    ∃ g rest', ts ++ f :: rest = g :: rest' ∧ EndsParam g ∧ (r.isNil = true ∧ g = f ∨ r.isNil = false ∧ g.type = .Comma) := by
  rcases h.sep_inv with ⟨hn, rfl⟩ | ⟨hn, t, us, rfl, ht, -⟩
  · exact ⟨f, rest, rfl, .inr hf, .inl ⟨hn, rfl⟩⟩
  · exact ⟨t, us ++ f :: rest, rfl, .inl ht, .inr ⟨hn, ht⟩⟩

/-- The parameters after the first. -/
theorem prms_rest {ps : Ex .prms} (h : ps.isNil = false → PrmsRun ps) {k : Nat} {ctx : ArgsContext} {L : List Str} {ts : List Token}
    (hw : WF L ps = true) (ho : ordered k ps = true) (hm : Ms (sep ps (toks none ps)) ts) {f : Token}
    (hf : f.type = .RParen ∨ f.type = .Pipe) (ha : ps.isNil = false → Gram.after ps f.type = true) {d : Nat}
    (hs : d + ts.length < 4294967296) (hh : hasDo ps = true → d = 0) (c : Cx) (pv rest : List Token) (ds : List Nat) (qs : List Prec) :
    ∃ ns, Qsx (tuple ps) ns (sx L ps) ∧ ∀ B args, Params B ctx f.type → Pre k args →
      EvalsLoop B args c ⟨pv, ts ++ f :: rest, d :: ds, qs, L⟩ (args ++ ns)
        ⟨ts.reverse ++ pv, f :: rest, d :: ds, qs, out L ps⟩ := by
  rcases hm.sep_inv with ⟨hn, rfl⟩ | ⟨hn, t, us, rfl, ht, hm'⟩
  · cases prms_nil hn
    refine ⟨[], by simp only [gsx]; exact .nil _, fun B args hB _ => ?_⟩
    simp only [gram, List.append_nil]
    exact hB.done _ _ _ _ _ _ _ _ rfl
  · obtain ⟨n1, ns, s1, h1, h2, h3⟩ := h hn k ctx L us c (t :: pv) f rest d ds qs hw ho hm' hf (ha hn)
      (by simp only [List.length_cons] at hs; omega) hh
    refine ⟨n1 :: ns, h1, fun B args hB hp => ?_⟩
    obtain ⟨u, us', rfl, hu⟩ := hm'.prms hn
    have h4 := hB.step args (args ++ [n1]) c pv t u (us' ++ f :: rest) (d :: ds) qs L s1 ht (by rintro h; rw [h] at hu; cases hu)
      (h2 args hp)
    exact .again h4 (by simpa only [gram] using h3 B args hB hp)

theorem QOk.run {ps : Ex .prms} (h : QOk ps) : ps.isNil = false → PrmsRun ps := by
  induction h with
  | nil => nofun
  | blk =>
    rename_i x
    intro _ k ctx L ts c pv f rest d ds qs hw ho hm hf ha hs hh
    simp only [gtoks] at hm
    obtain ⟨t, us, rfl, ht, hm⟩ := hm.cons_inv
    obtain ⟨u, rfl, hu⟩ := hm.one_inv
    have ht' : t.type = .Ampersand := ht.type
    have hu' : u.type = .BareName := hu.type
    have hx : u.lit = some x := hu.lit
    refine ⟨.arg t (some x) true false false none, [], ⟨u :: t :: pv, f :: rest, d :: ds, qs, x :: L⟩, ?_, fun args hp => ?_,
      fun B args hB hp => ?_⟩
    · simp only [gsx]
      exact .cons (.arg _ _ _ _ _ _) (.nil _)
    · refine Evals.defSingleArg (.of fun R => ?_)
      unfold parseDefSingleArg
      psim [hp.fwd, ht', hu', litOf_eq hx]
    · simp only [gram]
      exact hB.done _ _ _ _ _ _ _ _ rfl
  | name h ih =>
    rename_i x ps
    intro _ k ctx L ts c pv f rest d ds qs hw ho hm hf ha hs hh
    simp only [gtoks, gwf, gafter, gdo] at hm hw ha hh
    have ho' : (decide (k ≤ 3) && ordered (if k = 0 then 0 else 3) ps) = true := ho
    rw [Bool.and_eq_true, decide_eq_true_eq] at ho'
    obtain ⟨t, us, rfl, ht, hm⟩ := hm.cons_inv
    have ht' : t.type = .BareName := ht.type
    have hx : t.lit = some x := ht.lit
    obtain ⟨ns, h1, h2⟩ := prms_rest ih (ctx := ctx) hw ho'.2 hm hf (fun _ => ha) (by simp only [List.length_cons] at hs; omega) hh c
      (t :: pv) rest ds qs
    obtain ⟨g, rest', hg, hg', -⟩ := prm_follow hm hf rest
    refine ⟨.arg t (some x) false false false none, ns, ⟨t :: pv, us ++ f :: rest, d :: ds, qs, x :: L⟩, ?_, fun args hp => ?_,
      fun B args hB hp => ?_⟩
    · simp only [gsx]
      exact .cons (.arg _ _ _ _ _ _) h1
    · refine Evals.defSingleArg (.of fun R => ?_)
      rw [List.cons_append, hg]
      have h1 := hp.key_false ho'.1
      have h2 := hg'.equal
      unfold parseDefSingleArg
      psim [hp.fwd, ht', litOf_eq hx, h1, h2]
    · have := h2 B (args ++ [.arg t (some x) false false false none]) hB (.arg _ _ _ _ _ _)
      simpa only [gram, List.append_assoc, List.singleton_append, List.nil_append, List.cons_append] using this
  | value he h ih =>
    rename_i x e ps
    intro _ k ctx L ts c pv f rest d ds qs hw ho hm hf ha hs hh
    simp only [gtoks, gwf, gafter, gdo, Bool.and_eq_true, Bool.or_eq_true, decide_eq_true_eq] at hm hw ha hh
    have ho' : (decide (k ≤ 1) && ordered 1 ps) = true := ho
    rw [Bool.and_eq_true, decide_eq_true_eq] at ho'
    obtain ⟨⟨⟨hw1, hw2⟩, hw3⟩, hw4⟩ := hw
    obtain ⟨t, us, rfl, ht, hm⟩ := hm.cons_inv
    obtain ⟨q, us, rfl, hq, hm⟩ := hm.cons_inv
    obtain ⟨te, us, rfl, hme, hm⟩ := hm.append_inv
    have ht' : t.type = .BareName := ht.type
    have hx : t.lit = some x := ht.lit
    have hq' : q.type = .Equal := hq.type
    simp only [List.length_cons, List.length_append] at hs
    obtain ⟨ns, h1, h2⟩ := prms_rest ih (ctx := ctx) hw2 ho'.2 hm hf (fun hn => by
        rw [if_neg (by rw [hn]; nofun), Bool.and_eq_true] at ha; exact ha.2) (d := d) (by omega) (fun h => hh (.inr h)) c
      (te.reverse ++ q :: t :: pv) rest ds qs
    obtain ⟨g, rest', hg, hg', hgf⟩ := prm_follow hm hf rest
    have hga : Gram.after e g.type = true := by
      rcases hgf with ⟨hn, rfl⟩ | ⟨hn, hc⟩
      · rw [if_pos hn] at ha; exact ha
      · rw [if_neg (by rw [hn]; nofun), Bool.and_eq_true] at ha; rw [hc]; exact ha.1
    obtain ⟨n, hn, hev⟩ := default_evals he hw1 hme hw3 hga (d := d) (by omega) (fun h => hh (.inl h)) hg' c (q :: t :: pv) rest' ds qs
    obtain ⟨y, hy, hny⟩ := hn.nsx
    rw [← hg] at hev
    refine ⟨.arg t (some x) false false false (some n), ns, ⟨te.reverse ++ q :: t :: pv, us ++ f :: rest, d :: ds, qs, out (x :: L) e⟩,
      ?_, fun args hp => ?_, fun B args hB hp => ?_⟩
    · simp only [gsx, hy, nd]
      exact .cons (.value hny _ _) h1.weak
    · refine Evals.defSingleArg (hev.by1 fun R hR => ?_)
      simp only [List.cons_append, List.append_assoc] at hR ⊢
      have h1 := hp.key_false (by omega)
      have h2 := hp.splat_false (by omega)
      unfold parseDefSingleArg
      psim [hp.fwd, ht', litOf_eq hx, h1, h2, hq', hR]
    · have := h2 B (args ++ [.arg t (some x) false false false (some n)]) hB (.arg _ _ _ _ _ _)
      simpa only [gram, List.append_assoc, List.singleton_append, List.nil_append, List.cons_append, List.reverse_cons,
        List.reverse_append] using this
  | tup hq h ihq ih =>
    rename_i qs' ps
    intro _ k ctx L ts c pv f rest d ds qs hw ho hm hf ha hs hh
    simp only [gtoks, gwf, gafter, gdo, Bool.and_eq_true, Bool.or_eq_true, Bool.not_eq_true'] at hm hw ha hh
    have ho' : (decide (k ≤ 3) && ordered (if k = 0 then 0 else 3) ps) = true := ho
    rw [Bool.and_eq_true, decide_eq_true_eq] at ho'
    obtain ⟨⟨⟨⟨hw1, hw2⟩, hw3⟩, hw4⟩, hw5⟩ := hw
    obtain ⟨t, us, rfl, ht, hm⟩ := hm.cons_inv
    obtain ⟨tq, r, us, rfl, hmq, hr, hm⟩ := hm.mid_inv
    have ht' : t.type = .LParen := ht.type
    have hr' : r.type = .RParen := hr.type
    simp only [List.length_cons, List.length_append] at hs
    obtain ⟨n1, ns', s1, h3, h4, h5⟩ := ihq hw4 0 .Method L tq c (t :: pv) r (us ++ f :: rest) d ds qs hw1 hw2 hmq (.inl hr')
      (tuple_after rfl hw3 _) (by omega) (fun h => hh (.inl h))
    have hsub : Evals parseDefArgs c ⟨t :: pv, tq ++ r :: (us ++ f :: rest), d :: ds, qs, L⟩ (n1 :: ns')
        ⟨tq.reverse ++ t :: pv, r :: (us ++ f :: rest), d :: ds, qs, out L qs'⟩ :=
      (h4 [] .nil).by2 (h5 defArgsBody [] (by rw [hr']; exact defArgs_params) .nil).evals fun R hR hR' => by
        rw [parseDefArgs_eq]
        simp only [List.nil_append] at hR hR'
        psim [hR, hR']
    obtain ⟨ns, h1, h2⟩ := prms_rest ih (ctx := ctx) hw5 ho'.2 hm hf (fun _ => ha) (d := d) (by omega) (fun h => hh (.inr h)) c
      (r :: (tq.reverse ++ t :: pv)) rest ds qs
    refine ⟨.multipleAssignmentArg t (n1 :: ns'), ns, ⟨r :: (tq.reverse ++ t :: pv), us ++ f :: rest, d :: ds, qs, out L qs'⟩,
      ?_, fun args hp => ?_, fun B args hB hp => ?_⟩
    · simp only [gsx, nd]
      rw [hw3] at h3
      exact .cons (.tup h3 _ _) h1
    · refine Evals.defSingleArg (hsub.by1 fun R hR => ?_)
      simp only [List.cons_append, List.append_assoc] at hR ⊢
      unfold parseDefSingleArg
      psim [hp.fwd, ht', hR, hr']
    · have := h2 B (args ++ [.multipleAssignmentArg t (n1 :: ns')]) hB (.tup _ _ _ _)
      simpa only [gram, List.append_assoc, List.singleton_append, List.nil_append, List.cons_append, List.reverse_cons,
        List.reverse_append] using this
  | splat h ih =>
    rename_i o ps
    intro _ k ctx L ts c pv f rest d ds qs hw ho hm hf ha hs hh
    simp only [gtoks, gwf, gafter, gdo] at hm hw ha hh
    have ho' : (decide (k ≤ 1) && ordered 2 ps) = true := ho
    rw [Bool.and_eq_true, decide_eq_true_eq] at ho'
    obtain ⟨t, us, rfl, ht, hm⟩ := hm.cons_inv
    obtain ⟨tn, us, rfl, hmo, hm⟩ := hm.append_inv
    have ht' : t.type = .Star := ht.type
    simp only [List.length_cons, List.length_append] at hs
    obtain ⟨ns, h1, h2⟩ := prms_rest ih (ctx := ctx) hw ho'.2 hm hf (fun _ => ha) (d := d) (by omega) hh c
      (tn.reverse ++ t :: pv) rest ds qs
    obtain ⟨g, rest', hg, hg', -⟩ := prm_follow hm hf rest
    refine ⟨.arg t o false true false none, ns, ⟨tn.reverse ++ t :: pv, us ++ f :: rest, d :: ds, qs, o.toList ++ L⟩, ?_,
      fun args hp => ?_, fun B args hB hp => ?_⟩
    · simp only [gsx]
      exact .cons (.arg _ _ _ _ _ _) h1
    · refine Evals.defSingleArg (.of fun R => ?_)
      rw [List.cons_append, List.append_assoc, hg]
      have hk1 := hp.splat_false ho'.1
      have hk2 := hg'.name
      unfold parseDefSingleArg
      cases o with
      | none =>
        cases hmo.nil_inv
        psim [hp.fwd, ht', hk1, hk2]
        rfl
      | some x =>
        obtain ⟨u, rfl, hu⟩ := Ms.one_inv (w := ⟨none, .name x⟩) hmo
        have hu' : u.type = .BareName := hu.type
        have hx : u.lit = some x := hu.lit
        psim [hp.fwd, ht', hk1, hu', litOf_eq hx]
        rfl
    · have := h2 B (args ++ [.arg t o false true false none]) hB (.splatArg (by omega) _ _ _ _ _)
      simpa only [gram, List.append_assoc, List.singleton_append, List.nil_append, List.cons_append, List.reverse_cons,
        List.reverse_append] using this
  | kws h ih =>
    rename_i o ps
    intro _ k ctx L ts c pv f rest d ds qs hw ho hm hf ha hs hh
    simp only [gtoks, gwf, gafter, gdo] at hm hw ha hh
    have ho' : (decide (k ≤ 4) && ordered 5 ps) = true := ho
    rw [Bool.and_eq_true, decide_eq_true_eq] at ho'
    obtain ⟨t, us, rfl, ht, hm⟩ := hm.cons_inv
    obtain ⟨tn, us, rfl, hmo, hm⟩ := hm.append_inv
    have ht' : t.type = .StarStar := ht.type
    simp only [List.length_cons, List.length_append] at hs
    obtain ⟨ns, h1, h2⟩ := prms_rest ih (ctx := ctx) hw ho'.2 hm hf (fun _ => ha) (d := d) (by omega) hh c
      (tn.reverse ++ t :: pv) rest ds qs
    obtain ⟨g, rest', hg, hg', -⟩ := prm_follow hm hf rest
    refine ⟨.arg t o false false true none, ns, ⟨tn.reverse ++ t :: pv, us ++ f :: rest, d :: ds, qs, o.toList ++ L⟩, ?_,
      fun args hp => ?_, fun B args hB hp => ?_⟩
    · simp only [gsx]
      exact Qsx.weak (.cons (.arg _ _ _ _ _ _) h1)
    · refine Evals.defSingleArg (.of fun R => ?_)
      rw [List.cons_append, List.append_assoc, hg]
      have hk2 := hg'.name
      have hk3 := hg'.keyword
      unfold parseDefSingleArg
      cases o with
      | none =>
        cases hmo.nil_inv
        psim [hp.fwd, ht', hk2, hk3]
        rfl
      | some x =>
        obtain ⟨u, rfl, hu⟩ := Ms.one_inv (w := ⟨none, .name x⟩) hmo
        have hu' : u.type = .BareName := hu.type
        have hx : u.lit = some x := hu.lit
        psim [hp.fwd, ht', hu', litOf_eq hx]
        rfl
    · have := h2 B (args ++ [.arg t o false false true none]) hB (.splatArg (by omega) _ _ _ _ _)
      simpa only [gram, List.append_assoc, List.singleton_append, List.nil_append, List.cons_append, List.reverse_cons,
        List.reverse_append] using this
  | key h ih =>
    rename_i x ps
    intro _ k ctx L ts c pv f rest d ds qs hw ho hm hf ha hs hh
    simp only [gtoks, gwf, gafter, gdo] at hm hw ha hh
    have ho' : (decide (k ≤ 4) && ordered 4 ps) = true := ho
    rw [Bool.and_eq_true, decide_eq_true_eq] at ho'
    obtain ⟨t, us, rfl, ht, hm⟩ := hm.cons_inv
    have ht' : t.type = .SymbolKey := ht.type
    have hx : t.lit = some x := ht.lit
    obtain ⟨ns, h1, h2⟩ := prms_rest ih (ctx := ctx) hw ho'.2 hm hf (fun _ => ha) (by simp only [List.length_cons] at hs; omega) hh c
      (t :: pv) rest ds qs
    obtain ⟨g, rest', hg, hg', -⟩ := prm_follow hm hf rest
    refine ⟨.keywordArg t x none, ns, ⟨t :: pv, us ++ f :: rest, d :: ds, qs, x :: L⟩, ?_, fun args hp => ?_,
      fun B args hB hp => ?_⟩
    · simp only [gsx, nd]
      exact .cons (.key _ _) h1.weak
    · refine Evals.defSingleArg (.of fun R => ?_)
      rw [List.cons_append, hg]
      unfold parseDefSingleArg
      rcases hg' with h | h | h <;> psim [hp.fwd, ht', litOf_eq hx, h]
    · have := h2 B (args ++ [.keywordArg t x none]) hB (.keyArg (by omega) _ _ _ _)
      simpa only [gram, List.append_assoc, List.singleton_append, List.nil_append, List.cons_append] using this
  | keyValue he h ih =>
    rename_i x e ps
    intro _ k ctx L ts c pv f rest d ds qs hw ho hm hf ha hs hh
    simp only [gtoks, gwf, gafter, gdo, Bool.and_eq_true, Bool.or_eq_true, decide_eq_true_eq] at hm hw ha hh
    have ho' : (decide (k ≤ 4) && ordered 4 ps) = true := ho
    rw [Bool.and_eq_true, decide_eq_true_eq] at ho'
    obtain ⟨⟨⟨⟨hw1, hw2⟩, hw3⟩, hw4⟩, -⟩ := hw
    obtain ⟨t, us, rfl, ht, hm⟩ := hm.cons_inv
    obtain ⟨te, us, rfl, hme, hm⟩ := hm.append_inv
    have ht' : t.type = .SymbolKey := ht.type
    have hx : t.lit = some x := ht.lit
    simp only [List.length_cons, List.length_append] at hs
    obtain ⟨ns, h1, h2⟩ := prms_rest ih (ctx := ctx) hw2 ho'.2 hm hf (fun hn => by
        rw [if_neg (by rw [hn]; nofun), Bool.and_eq_true] at ha; exact ha.2) (d := d) (by omega) (fun h => hh (.inr h)) c
      (te.reverse ++ t :: pv) rest ds qs
    obtain ⟨g, rest', hg, hg', hgf⟩ := prm_follow hm hf rest
    have hga : Gram.after e g.type = true := by
      rcases hgf with ⟨hn, rfl⟩ | ⟨hn, hc⟩
      · rw [if_pos hn] at ha; exact ha
      · rw [if_neg (by rw [hn]; nofun), Bool.and_eq_true] at ha; rw [hc]; exact ha.1
    obtain ⟨n, hn, hev⟩ := value_evals he hw1 hme hw3 hga (d := d) (by omega) (fun h => hh (.inl h)) hg' c (t :: pv) rest' ds qs
    obtain ⟨y, hy, hny⟩ := hn.nsx
    rw [← hg] at hev
    refine ⟨.keywordArg t x (some n), ns, ⟨te.reverse ++ t :: pv, us ++ f :: rest, d :: ds, qs, x :: out L e⟩,
      ?_, fun args hp => ?_, fun B args hB hp => ?_⟩
    · simp only [gsx, hy, nd]
      exact .cons (.keyValue hny _ _) h1.weak
    · refine Evals.defSingleArg (hev.by1 fun R hR => ?_)
      obtain ⟨u, us', rfl, hu, -⟩ := hme.first
      simp only [List.cons_append, List.append_assoc] at hR ⊢
      have h1 : ∀ {ty : Ttype}, u.type = ty → starts ty = true := fun h => h ▸ hu
      unfold parseDefSingleArg
      psim [hp.fwd, ht', litOf_eq hx]
      have h2 : (IterAllow.CURLY_AND_BLOCK == .NONE) = false := rfl
      split <;> first
        | (rename_i h; exact absurd (h1 h) (by decide))
        | psim [h2, Bool.false_eq_true, if_false, hR]
    · have := h2 B (args ++ [.keywordArg t x (some n)]) hB (.keyArg (by omega) _ _ _ _)
      simpa only [gram, List.append_assoc, List.singleton_append, List.nil_append, List.cons_append, List.reverse_cons,
        List.reverse_append] using this

end NP.Gram
