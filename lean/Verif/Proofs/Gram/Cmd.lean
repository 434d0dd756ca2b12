import Verif.Proofs.Gram.Call

/-! Calls with blocks and without parentheses, and assignments to attributes. -/

namespace NP.Gram
open Spec

/-! ### Arguments without parentheses -/

theorem cmd_prec {t : Token} (h : cmdStart t.type = true) {n : Node} (hn : n.isCallable = true) : getPrec t (some n) t = .CALL := by
  have hb : ∀ {ty : Ttype}, t.type = ty → ty.canBeFirstArgOfImplicitCall = true → isFirstArg n t = true := by
    intro ty h1 h2
    unfold isFirstArg
    rw [h1, h2, hn]
    rfl
  unfold getPrec
  cases ht : t.type <;> rw [ht] at h <;> first | exact absurd h (by decide) | exact if_pos (hb ht rfl)

theorem cmd_left {t : Token} (h : cmdStart t.type = true) {n : Node} (hn : n.isCallable = true) (R : Rec) (pk : Token) (p : Prec) :
    leftDenotation R t pk n p = some (parseCallWithoutParens R n) := by
  have hb : ∀ {ty : Ttype}, t.type = ty → ty.canBeFirstArgOfImplicitCall = true → isFirstArg n t = true := by
    intro ty h1 h2
    unfold isFirstArg
    rw [h1, h2, hn]
    rfl
  unfold leftDenotation
  cases ht : t.type <;> rw [ht] at h <;> first | exact absurd h (by decide) | exact if_pos (hb ht rfl)

theorem run_bare {R : Rec} {t : Token} (h : cmdStart t.type = true) {n n0 : Node} {c : Cx} (h0 : ∀ s, toNodeWithArgs n c s = .ok n0 s)
    (pv ts : List Token) (ds : List Nat) (qs : List Prec) (L : List Str) :
    parseCallWithoutParens R n c ⟨pv, t :: ts, ds, qs, L⟩ = parseCallArgs R n0 true .RParen c ⟨pv, t :: ts, ds, qs, L⟩ := by
  unfold parseCallWithoutParens
  psim [h0]
  generalize t.type = ty at h ⊢
  cases ty <;> first | rfl | exact absurd h (by decide)

/-- Where the arguments of a command end. -/
structure CmdEnd (f : Token) : Prop where
  need : Gram.need f.type ≤ 3
  rocket : f.type ≠ .HashRocket

theorem bare_step {a : Ex .args} (h : AOk a) {L : List Str} {ts : List Token} (hw : WF L a = true) (hm : Ms (toks none a) ts)
    (hc : cmdStart (start a) = true) (hnd : hasDo a = false) {f : Token} (hf : CmdEnd f) (hf' : after a f.type = true) {d : Nat}
    (hs : d + 1 + ts.length < 4294967296) (c : Cx) (pv rest : List Token) (ds : List Nat) (qs : List Prec)
    {p : Prec} {k : Nat} (hp : above p k = true) (hk : k ≤ 21) (acc : Bool) (hd : f.type = .DoKeyword → acc = true) :
    ∃ ns, Lsx ns (sx L a) ∧ (blockless a = true → ∀ n ∈ ns, n.isBlockPass = false) ∧ ns ≠ [] ∧
      ∀ (n n0 b : Node) (ia : IterAllow) (s' : PS), (∀ s, toNodeWithArgs n c s = .ok n0 s) → n.isSymbolKey = false → n.isCallable = true →
        n0.canAcceptABlock = acc → (ns.foldl Node.addArg n0).canAcceptABlock = acc →
        EvalsRest p ia (ns.foldl Node.addArg n0) c ⟨ts.reverse ++ pv, f :: rest, d :: ds, p :: qs, out L a⟩ b s' →
        EvalsRest p ia n c ⟨pv, ts ++ f :: rest, d :: ds, p :: qs, L⟩ b s' := by
  have hn : a.isNil = false := by
    cases a <;> first | rfl | cases hc
  obtain ⟨v, vs, hv, -, hvs⟩ := Ms.args hn hw hm
  rw [← hvs] at hc
  obtain ⟨ns, h1, h2, h3, h4⟩ := args_evals h hn (bare := true) (cl := .RParen) (f := f) (d := if acc then d + 1 else d) rfl hw hm
    ⟨⟨.inl (by have := hf.need; omega), fun h => by rw [hd h]; nofun⟩, need_comma (by have := hf.need; omega), hf.rocket⟩
    hf' (by split <;> omega) (fun h => by rw [hnd] at h; cases h) c pv rest ds (p :: qs)
  refine ⟨ns, h1, h2, h3, fun n n0 b ia s' h0 hkey hcall ha1 ha2 hr => ?_⟩
  rw [hv, List.cons_append]
  refine infix_step (q := .CALL) (fun R => parseCallWithoutParens R n) ?_ (cmd_prec hc hcall)
    (above.op hp (m := 21) (by decide) hk) nofun nofun hkey (fun R => cmd_left hc hcall R _ _) ((h4 n0).by1 fun R hR => ?_) hr
  · generalize v.type = ty at hc
    cases ty <;> first | rfl | exact absurd hc (by decide)
  · rw [run_bare hc h0, parseCallArgs_eq]
    rw [hv, List.cons_append, ← hv] at hR
    cases acc with
    | true =>
      simp only [if_true] at hR
      psim [Bool.true_and, ha1, ha2, run_inc _ _ _ _ _ _ _ (show d + 1 < 4294967296 by omega), hR,
        run_dec _ _ _ _ _ _ _ (show d + 1 < 4294967296 by omega)]
    | false =>
      simp only [Bool.false_eq_true, if_false] at hR
      psim [Bool.true_and, ha1, ha2, hR]

/-! ### Blocks -/

theorem callee_after {L : List Str} {e : Ex .ex} (h : callee L e = true) : after e .DoKeyword = true ∧ after e .LCurlyBrace = true := by
  cases e <;> first | (simp only [gafter]; decide) | exact absurd h (by simp [callee])

theorem block_ok (dd : Bool) (r : Ex .ex) (ps : Ex .prms) (b : Ex .sts) (hr : ExOk r) (hq : QOk ps) (h : SOk b) : ExOk (.block dd r ps b) := by
  intro L w ts hw hm c pv f rest d ds p qs ia ha
  have hsz := ha.size
  have hdo := ha.has
  simp only [gwf, gdo, Bool.and_eq_true, Bool.or_eq_true] at hw hdo
  simp only [gtoks] at hm
  obtain ⟨⟨⟨⟨⟨⟨hw1, hw2⟩, hq1⟩, hq2⟩, hq3⟩, hw3⟩, hw4⟩ := hw
  obtain ⟨tr, us, rfl, hm1, hm'⟩ := hm.append_inv
  obtain ⟨t, tb, es, us, u, rfl, ht, hb, hes, hm', hu⟩ := Ms.block (ps := ps) hm'
  have hat : after r t.type = true := by
    rw [open_type ht]
    have := callee_after hw2
    split
    · exact this.1
    · exact this.2
  simp only [List.length_append, List.length_cons] at hsz
  obtain ⟨n, hg, hc, hn⟩ := hr L w tr hw1 hm1 c pv t (tb ++ (es ++ (us ++ u :: f :: rest))) d ds p qs ia
    (ha.left (by simp only [glhs]; omega) hat (by simp) (fun _ => .inr hw2) (fun h => by simp only [gdo, h, Bool.or_true, Bool.true_or]))
  have hc := hc hw2
  obtain ⟨x, hx, hnx⟩ := hg.nsx
  obtain ⟨args, ns, h1, h2, h3⟩ := iter_evals hc.block hc.pass (fun _ => hc.paren) ht ⟨hq, hq1, hq2, hq3, by omega, fun h => (hdo (.inr h)).1⟩
    hb hes h hu hw3 hm' (by omega) hw4 c (f :: rest) ds (p :: qs)
  refine ⟨.iter t n _ args ns, .of (by simp only [gsx]; rw [hx]; rfl) (hnx.iter h1 h2) rfl rfl, nofun, fun b s' h => ?_⟩
  have := hn b s' (iter_step hc.call (plain_key hg.plain) ht ha.iter (fun h => hdo (.inl (.inl h))) h3 (by simpa only [gram] using h))
  simpa only [gram] using this

theorem lam_ok (dd : Bool) (ps : Ex .prms) (b : Ex .sts) (hq : QOk ps) (h : SOk b) : ExOk (.lam dd ps b) := by
  intro L w ts hw hm c pv f rest d ds p qs ia ha
  have hsz := ha.size
  have hdo := ha.has
  simp only [gwf, gdo, Bool.and_eq_true] at hw hdo
  simp only [gtoks] at hm
  obtain ⟨⟨⟨⟨hq1, hq2⟩, hq3⟩, hw1⟩, hw2⟩ := hw
  obtain ⟨v, us, rfl, hv, hm'⟩ := hm.cons_inv
  obtain ⟨tp, t, es, us, rfl, hmp, ht, hes, hm'⟩ := hm'.mid_line
  obtain ⟨us, u, rfl, hmb, hu⟩ := hm'.snoc_inv
  have hv' : v.type = .Arrow := hv.type
  have ht' := open_type ht
  have ht2 : (t.type = .DoKeyword ∨ t.type = .LCurlyBrace) ∧ t.type ≠ .LParen ∧ t.type.canBeFirstArgOfDef = false := by
    cases dd <;> simp only [Bool.false_eq_true, if_false, if_true] at ht' <;> rw [ht'] <;> decide
  simp only [List.length_append, List.length_cons] at hsz
  by_cases hn : ps.isNil = true
  · cases prms_nil hn
    cases hmp.nil_inv
    simp only [gram] at hw1 ⊢
    obtain ⟨ns, h1, h2⟩ := iter_core (n := .stabbyProc v false []) (pv := v :: pv) (L' := L) (tb := []) (L := L) (c := c)
      (rest := f :: rest) (ds := d :: ds) (qs := p :: qs) ht (fun _ => nofun) hes h hu hw1 hmb (by omega) hw2
      (hasArgs := false) (args := []) (.of fun R => rfl)
    refine Parsed.first (n := .iter t (.stabbyProc v false []) false [] ns) (fun R => parseStabbyProc R) (fun R => by rw [hv']; rfl) ?_
      (.of (by simp only [gsx]; rfl) (.iter (.stabby v _ _) (.nil true) h1) rfl rfl) nofun
    refine h2.by1 fun R hR => ?_
    unfold parseStabbyProc
    psim [ht2.1, ht2.2.1, ht2.2.2]
    simpa only [gram] using hR
  · have hn : ps.isNil = false := by simpa using hn
    unfold opt? at hmp
    rw [if_neg (by rw [hn]; nofun)] at hmp
    obtain ⟨q, us', rfl, hq0, hmp⟩ := hmp.cons_inv
    obtain ⟨tn, k, rfl, hmn, hk'⟩ := hmp.snoc_inv
    have hq' : q.type = .LParen := hq0.type
    have hk1 : k.type = .RParen := hk'.type
    simp only [List.length_append, List.length_cons] at hsz
    obtain ⟨args, hA, hka⟩ := procArgs_evals ⟨hq, hq1, hq2, hq3, by omega, fun h => (hdo h).1⟩ hn hmn (f := k) hk1 c (q :: v :: pv)
      (t :: (es ++ (us ++ u :: f :: rest))) ds (p :: qs)
    obtain ⟨ns, h1, h2⟩ := iter_core (n := .stabbyProc v true args) (pv := k :: (tn.reverse ++ q :: v :: pv)) (L' := out L ps) (tb := [])
      (L := out L ps) (c := c) (rest := f :: rest) (ds := d :: ds) (qs := p :: qs) ht (fun _ => nofun) hes h hu hw1 hmb (by omega) hw2
      (hasArgs := true) (args := args) (.of fun R => rfl)
    have hN := Nsx.iter (t := t) (.stabby v true args) hA h1
    rw [prms_isEmpty, hn] at hN
    refine Parsed.first (n := .iter t (.stabbyProc v true args) true args ns) (fun R => parseStabbyProc R) (fun R => by rw [hv']; rfl) ?_
      (.of (by simp only [gsx]; rfl) hN rfl rfl) nofun
    refine hka.by2 h2 fun R hR hR' => ?_
    obtain ⟨y', us', rfl, hy'⟩ := hmn.prms hn
    have hy' : y'.type ≠ .RParen := by rintro h; rw [h] at hy'; cases hy'
    simp only [gram] at hR hR'
    unfold parseStabbyProc
    psim [hq', hy', hR, hk1, ht2.1, hR']

theorem postexe_ok (b : Ex .sts) (h : SOk b) : ExOk (.postexe b) := by
  intro L w ts hw hm c pv f rest d ds p qs ia ha
  have hsz := ha.size
  simp only [gwf, Bool.and_eq_true] at hw
  simp only [gtoks] at hm
  obtain ⟨⟨hw1, hw2⟩, -⟩ := hw
  obtain ⟨v, us, rfl, hv, hm'⟩ := hm.cons_inv
  obtain ⟨t, tb, es, us, u, rfl, ht, hb, hes, hmb, hu⟩ := Ms.block (d := false) (ps := .qnil) hm'
  cases hb.nil_inv
  have hv' : v.type = .ENDKeyword := hv.type
  have ht' : t.type = .LCurlyBrace := ht.type
  simp only [List.length_append, List.length_cons] at hsz
  obtain ⟨args, ns, h1, h2, h3⟩ := iter_evals (n := .endBlock v) (pv := v :: pv) (d := false) (ps := .qnil) (tb := []) (k := d) (L := L) rfl rfl (fun _ => nofun) ht
    ⟨.nil, rfl, rfl, rfl, by simp only [List.length_nil]; omega, nofun⟩
    hb hes h hu hw1 hmb (by omega) hw2 c (f :: rest) ds (p :: qs)
  refine Parsed.first (n := .iter t (.endBlock v) _ args ns) (fun R => parseEndBlock R) (fun R => by rw [hv']; rfl) ?_
    (.of (by simp only [gsx]; rfl) (.iter (.endBlock v) h1 h2) rfl rfl) nofun
  refine h3.by1 fun R hR => ?_
  unfold parseEndBlock
  psim [ht']
  simpa only [gram] using hR

/-! ### Commands -/

/-- The parser reads the parameters and the body of the block, if there is one. -/
def BOk (b : Ex .blk) : Prop := ∀ ps ss, b = .bdo ps ss → QOk ps ∧ SOk ss

/-- A call with an optional block. -/
def blkSx (x : List Sexp) (L : List Str) : Ex .blk → List Sexp
  | .bnil => x
  | .bdo ps b => withBlock x (sx L ps) (sx (out L ps) b)

theorem blk_step {b : Ex .blk} (hb : BOk b) {L : List Str} {tb : List Token} (hw : WF L b = true) (hm : Ms (toks none b) tb)
    {d : Nat} (hs : d + tb.length < 4294967296) {n : Node} {x : Sexp} (hnx : Nsx n x) (hcall : n.isCallable = true) (hp : plain n = true)
    (hsh : shapeOf n = .other) (hacc : b.isNil = false → n.canAcceptABlock = true ∧ n.hasBlockPass = false) {ia : IterAllow}
    (hia : ia ≠ .NONE) (hd : b.isNil = false → d = 0 ∧ ia = .CURLY_AND_BLOCK) (c : Cx) (pv : List Token) (f : Token) (rest : List Token)
    (ds : List Nat) (p : Prec) (qs : List Prec) :
    ∃ m y, Nsx m y ∧ blkSx [x] L b = [y] ∧ plain m = true ∧ shapeOf m = .other ∧ ∀ r s',
      EvalsRest p ia m c ⟨tb.reverse ++ pv, f :: rest, d :: ds, p :: qs, L⟩ r s' →
      EvalsRest p ia n c ⟨pv, tb ++ f :: rest, d :: ds, p :: qs, L⟩ r s' := by
  cases b with
  | bnil =>
    cases hm.nil_inv
    exact ⟨n, x, hnx, rfl, hp, hsh, fun r s' h => h⟩
  | bdo ps ss =>
    simp only [gwf, Bool.and_eq_true] at hw
    simp only [gtoks] at hm
    obtain ⟨t, tb, es, us, u, rfl, ht, hbars, hes, hm', hu⟩ := Ms.block (d := true) (ps := ps) hm
    simp only [List.length_append, List.length_cons] at hs
    obtain ⟨h1, h2⟩ := hacc rfl
    obtain ⟨args, ns, h3, h4, h5⟩ := iter_evals (d := true) (pv := pv) h1 h2 nofun ht
      ⟨(hb ps ss rfl).1, hw.1.1.1.1, hw.1.1.1.2, hw.1.1.2, by omega, fun _ => (hd rfl).1⟩ hbars hes (hb ps ss rfl).2 hu hw.1.2 hm' (by omega)
      hw.2 c (f :: rest) ds (p :: qs)
    refine ⟨.iter t n _ args ns, _, hnx.iter h3 h4, rfl, rfl, rfl, fun r s' h => ?_⟩
    have := iter_step hcall (plain_key hp) (d := true) ht hia (fun _ => hd rfl) h5 (by simpa only [gram] using h)
    simpa only [gram] using this

/-- What follows the arguments of a command. -/
theorem cmd_follow {a : Ex .args} {b : Ex .blk} {tb : List Token} (hm : Ms (toks none b) tb) {f : Token}
    (h1 : after a .DoKeyword = true) (hf : ((lets 3 f.type = true ∧ f.type ≠ .HashRocket) ∧ f.type ≠ .DoKeyword) ∧
      (b.isNil = false ∨ after a f.type = true)) (rest : List Token) :
    ∃ g rest', tb ++ f :: rest = g :: rest' ∧ CmdEnd g ∧ after a g.type = true ∧ (g.type = .DoKeyword → b.isNil = false) := by
  obtain ⟨⟨⟨hf1, hf2⟩, hf3⟩, hf4⟩ := hf
  cases b with
  | bnil =>
    cases hm.nil_inv
    exact ⟨f, rest, rfl, ⟨lets_iff.1 hf1, hf2⟩, hf4.resolve_left nofun, fun h => absurd h hf3⟩
  | bdo ps ss =>
    simp only [gtoks] at hm
    obtain ⟨t, es, us, rfl, ht, -⟩ := hm.line_inv
    have ht' : t.type = .DoKeyword := ht.do_
    exact ⟨t, es ++ us ++ f :: rest, rfl, ⟨by rw [ht']; decide, by rw [ht']; nofun⟩, by rw [ht']; exact h1, fun _ => rfl⟩

theorem cmd_ok (x : Str) (a : Ex .args) (b : Ex .blk) (h : AOk a) (hb : BOk b) : ExOk (.cmd x a b) := by
  intro L w ts hw hm c pv f rest d ds p qs ia ha
  have hsz := ha.size
  have hdo := ha.has
  have hf := ha.after
  simp only [gwf, gdo, gafter, Bool.and_eq_true, Bool.or_eq_true, Bool.not_eq_true', decide_eq_true_eq, bne_iff_ne, ne_eq] at hw hdo hf
  simp only [gtoks] at hm
  obtain ⟨⟨⟨⟨⟨⟨hw1, hw2⟩, hw3⟩, hw4⟩, hw5⟩, hw6⟩, hw7⟩ := hw
  obtain ⟨v, us, rfl, hv, hm⟩ := hm.cons_inv
  obtain ⟨ta, tb, rfl, hma, hmb⟩ := hm.append_inv
  have hv := VarTok.of (v := .loc x) hv
  have hv1 : v.type = .BareName := by cases hv; assumption
  simp only [List.length_append, List.length_cons] at hsz
  obtain ⟨g, rest', hgr, hg1, hg2, hg3⟩ := cmd_follow hmb hw5 hf rest
  obtain ⟨ns, h1, h2, h3, h4⟩ := bare_step h hw2 hma hw3 hw4 hg1 hg2 (d := d) (by omega) c (v :: pv) rest' ds qs ha.above (lhs_le _)
    (!noBlock x) (fun h => by
      have := hw7.resolve_left (by rw [hg3 h]; nofun)
      simp [this.2])
  obtain ⟨m, y, h5, h6, h7, h8, h9⟩ := blk_step hb hw6 hmb (d := d) (by omega) (n := .call v (.nil v) x ns) (.fcall h1 v x) rfl rfl rfl
    (fun hn => by
      have := hw7.resolve_left (by rw [hn]; nofun)
      exact ⟨by rw [noBlock_accepts, this.2]; rfl, no_pass (h2 this.1)⟩)
    ha.iter hdo c (ta.reverse ++ v :: pv) f rest ds p qs
  refine ⟨m, .of ?_ h5 h7 (by rw [h8]; rfl), nofun, fun r s' hr => ?_⟩
  · rw [← h6]
    cases b <;> simp only [gsx] <;> rfl
  · simp only [gram] at hr ⊢
    refine .first (fun _ => parseIdentifier) (fun R => hv.null R) (.of fun R => run_identifier hv.name _ _ _ _ _ _) ?_
    have hcall : (Node.identifier v (L.contains x)).isCallable = true := by
      simp [Node.isCallable, hv1, hw1]
    have h10 := h4 (.identifier v (L.contains x)) (.call v (.nil v) x []) r ia s'
      (fun s => by unfold toNodeWithArgs; psim [litOf_eq hv.name]; rfl) rfl hcall (noBlock_accepts _ _ _ _)
      (by rw [fold_call]; exact noBlock_accepts _ _ _ _)
    rw [fold_call, List.nil_append, ← hgr] at h10
    exact h10 (h9 r s' hr)

theorem sendC_ok (safe : Bool) (e : Ex .ex) (x : Str) (a : Ex .args) (b : Ex .blk) (he : ExOk e) (h : AOk a) (hb : BOk b) :
    ExOk (.sendC safe e x a b) := by
  intro L w ts hw hm c pv f rest d ds p qs ia ha
  have hab := ha.above
  have hsz := ha.size
  have hdo := ha.has
  have hf := ha.after
  simp only [gwf, gdo, gafter, Bool.and_eq_true, Bool.or_eq_true, Bool.not_eq_true', bne_iff_ne, ne_eq] at hw hdo hf
  simp only [gtoks] at hm
  obtain ⟨⟨⟨⟨⟨⟨⟨hw0, hw1⟩, hw2⟩, hw3⟩, hw4⟩, hw5⟩, hw6⟩, hw7⟩ := hw
  obtain ⟨tr, us, rfl, hm1, hm'⟩ := hm.append_inv
  obtain ⟨t, us, rfl, ht, hm'⟩ := hm'.cons_inv
  obtain ⟨v, us, rfl, hv, hm'⟩ := hm'.cons_inv
  obtain ⟨ta, tb, rfl, hma, hmb⟩ := hm'.append_inv
  obtain ⟨ht1, ht2⟩ := dot_type ht
  simp only [List.length_append, List.length_cons] at hsz
  obtain ⟨n, hg, -, hn⟩ := he L w tr hw0 hm1 c pv t (v :: (ta ++ (tb ++ f :: rest))) d ds p qs ia
    (ha.left (by simp only [glhs]; omega) (by rw [ht1]; exact hw1) (by simp) (fun h => absurd h ht2)
      (fun h => by simp only [gdo, h, Bool.true_or]))
  obtain ⟨xe, hx, hnx⟩ := hg.nsx
  obtain ⟨g, rest', hgr, hg1, hg2, hg3⟩ := cmd_follow hmb hw5 hf rest
  obtain ⟨ns, h1, h2, h3, h4⟩ := bare_step h hw2 hma hw3 hw4 hg1 hg2 (d := d) (by omega) c (v :: t :: (tr.reverse ++ pv)) rest' ds qs
    ha.above (lhs_le _) (!noBlock x) (fun h => by
      have := hw7.resolve_left (by rw [hg3 h]; nofun)
      simp [this.2])
  obtain ⟨m, y, h5, h6, h7, h8, h9⟩ := blk_step hb hw6 hmb (d := d) (by omega) (n := sendA safe t n x ns) (hnx.sendA h1 safe x) (by cases safe <;> rfl)
    (by cases safe <;> rfl) (by cases safe <;> rfl)
    (fun hn => by
      have := hw7.resolve_left (by rw [hn]; nofun)
      exact ⟨by rw [sendA_accepts, this.2]; rfl, sendA_pass _ _ _ _ (h2 this.1)⟩)
    ha.iter (fun h => hdo (.inr h)) c (ta.reverse ++ v :: t :: (tr.reverse ++ pv)) f rest ds p qs
  refine ⟨m, .of ?_ h5 h7 (by rw [h8]; rfl), nofun, fun r s' hr => ?_⟩
  · rw [← h6]
    cases b <;> simp only [gsx] <;> rw [hx] <;> rfl
  · have hp := dot_prec hg hab (lhs_le _) fun h => by simp only [glhs]; omega
    have h10 := h4 (sendN safe t n x) (sendN safe t n x) r ia s' (fun s => sendN_args _ _ _ _ _ _) (sendN_key _ _ _ _)
      (by cases safe <;> rfl) (sendA_accepts safe t n x []) (by rw [sendN_fold]; exact sendA_accepts _ _ _ _ _)
    rw [sendN_fold, ← hgr] at h10
    have := hn r s' (send_step ht hv hp (plain_key hg.plain) (h10 (h9 r s' (by simpa only [gram] using hr))))
    simpa only [gram] using this

/-! ### Assignments to attributes and elements -/

theorem attr_ok (safe : Bool) (r : Ex .ex) (m : Str) (e : Ex .ex) (hr : ExOk r) (h : ExOk e) : ExOk (.attr safe r m e) := by
  intro L w ts hw hm c pv f rest d ds p qs ia ha
  have hab := ha.above
  have hf := ha.after
  simp only [gwf, gafter, glhs, Bool.and_eq_true, lets_iff, decide_eq_true_eq] at hw hf hab
  simp only [gtoks] at hm
  obtain ⟨⟨⟨hw1, hw2⟩, hw3⟩, hw4⟩ := hw
  obtain ⟨tr, us, rfl, hm1, hm'⟩ := hm.append_inv
  obtain ⟨t, us, rfl, ht, hm'⟩ := hm'.cons_inv
  obtain ⟨v, us, rfl, hv, hm'⟩ := hm'.cons_inv
  obtain ⟨q, us, rfl, hq, hm'⟩ := hm'.cons_inv
  obtain ⟨ht1, ht2⟩ := dot_type ht
  have hq' : q.type = .Equal := hq.type
  obtain ⟨n, hg, -, hn⟩ := hr L w tr hw1 hm1 c pv t (v :: q :: (us ++ f :: rest)) d ds p qs ia
    (ha.left (by simp only [glhs]; omega) (by rw [ht1]; exact hw2) (by simp) (fun h => absurd h ht2)
      (fun h => by simp only [gdo, h, Bool.true_or]))
  obtain ⟨k, hg', hk⟩ := h.rhs (us := us) ha rfl hw3 hm' hf.1 hf.2 hw4 (.inl ⟨rfl, rfl⟩)
    (by simp only [List.length_cons, List.length_append]; omega)
    (fun h => by simp only [gdo, h, Bool.or_true]) c (q :: v :: t :: (tr.reverse ++ pv)) rest ds (p :: qs)
  obtain ⟨x, hx, hnx⟩ := hg.nsx
  obtain ⟨y, hy, hny⟩ := hg'.nsx
  refine ⟨.assignment q (sendN safe t n m) k, .of (by simp only [gsx]; rw [hx, hy]; rfl) (hnx.attrS hny safe m t) rfl rfl, nofun,
    fun b s' hb => ?_⟩
  have hp := dot_prec hg hab (by omega) fun h => by omega
  obtain ⟨u', us', rfl, -⟩ := hm'.first
  have := hn b s' (send_step ht hv hp (plain_key hg.plain) (assign_step hq' (above.mono hab (by omega)) (by cases safe <;> rfl)
    (sendN_key _ _ _ _) (by cases safe <;> rfl) hg'.plain (need_comma hf.1) hk (by simpa only [gram] using hb)))
  simpa only [gram] using this

theorem setIndex_ok (r : Ex .ex) (a : Ex .args) (e : Ex .ex) (hr : ExOk r) (h : AOk a) (he : ExOk e) : ExOk (.setIndex r a e) := by
  intro L w ts hw hm c pv f rest d ds p qs ia ha
  have hab := ha.above
  have hsz := ha.size
  have hdo := ha.has
  have hf := ha.after
  simp only [gwf, gdo, gafter, glhs, Bool.and_eq_true, Bool.or_eq_true, Bool.not_eq_true', lets_iff, decide_eq_true_eq] at hw hf hab hdo
  simp only [gtoks] at hm
  obtain ⟨⟨⟨⟨⟨⟨⟨hw1, hw2⟩, hw3⟩, hw4⟩, hw5⟩, hw6⟩, hw7⟩, hw8⟩ := hw
  obtain ⟨tr, us, rfl, hm1, hm'⟩ := hm.append_inv
  obtain ⟨t, us, rfl, ht, hm'⟩ := hm'.cons_inv
  obtain ⟨ta, us, rfl, hma, hm'⟩ := hm'.append_inv
  obtain ⟨u, us, rfl, hu, hm'⟩ := hm'.cons_inv
  obtain ⟨q, us, rfl, hq, hm'⟩ := hm'.cons_inv
  have ht' : t.type = .LBracket := ht.type
  have hq' : q.type = .Equal := hq.type
  simp only [List.length_append, List.length_cons] at hsz
  obtain ⟨n, hg, -, hn⟩ := hr L w tr hw1 hm1 c pv t (ta ++ u :: q :: (us ++ f :: rest)) d ds p qs ia
    (ha.left (by simp only [glhs]; omega) (by rw [ht']; exact hw2) (by simp) (fun h => absurd (ht'.symm.trans h) nofun)
      (fun h => by simp only [gdo, h, Bool.true_or]))
  obtain ⟨ns, h1, -, h3⟩ := ref_step h hw6 hw3 hma ht hu.type hw4 (d := d) (by omega) (fun h => (hdo (.inl (.inr h))).1) c (tr.reverse ++ pv)
    (q :: (us ++ f :: rest)) ds qs hab (by omega)
  obtain ⟨k, hg', hk⟩ := he.rhs (us := us) ha rfl hw7 hm' hf.1 hf.2 hw8 (.inl ⟨rfl, rfl⟩)
    (by simp only [List.length_cons, List.length_append]; omega)
    (fun h => by simp only [gdo, h, Bool.or_true]) c (q :: u :: (ta.reverse ++ t :: (tr.reverse ++ pv))) rest ds (p :: qs)
  obtain ⟨x, hx, hnx⟩ := hg.nsx
  obtain ⟨y, hy, hny⟩ := hg'.nsx
  refine ⟨.assignment q (.call t n (cs! "[]") ns) k, .of (by simp only [gsx]; rw [hx, hy]; rfl) (hnx.attr hny h1 (cs! "[]") t) rfl rfl, nofun,
    fun b s' hb => ?_⟩
  obtain ⟨u', us', rfl, -⟩ := hm'.first
  have := hn b s' (h3 n b ia s' (plain_key hg.plain) (assign_step hq' (above.mono hab (by omega)) rfl
    rfl rfl hg'.plain (need_comma hf.1) hk (by simpa only [gram] using hb)))
  simpa only [gram] using this

theorem opattr_ok (safe : Bool) (r : Ex .ex) (m : Str) (o : Aop) (e : Ex .ex) (hr : ExOk r) (h : ExOk e) : ExOk (.opattr safe r m o e) := by
  intro L w ts hw hm c pv f rest d ds p qs ia ha
  have hab := ha.above
  have hf := ha.after
  simp only [gwf, gafter, glhs, Bool.and_eq_true, lets_iff, decide_eq_true_eq, bne_iff_ne, ne_eq] at hw hf hab
  simp only [gtoks] at hm
  obtain ⟨⟨⟨⟨hw1, hw2⟩, hw3⟩, hw4⟩, hw5⟩ := hw
  obtain ⟨tr, us, rfl, hm1, hm'⟩ := hm.append_inv
  obtain ⟨t, us, rfl, ht, hm'⟩ := hm'.cons_inv
  obtain ⟨v, us, rfl, hv, hm'⟩ := hm'.cons_inv
  obtain ⟨q, us, rfl, hq, hm'⟩ := hm'.cons_inv
  obtain ⟨ht1, ht2⟩ := dot_type ht
  have hq' : q.type = o.type := hq.type
  obtain ⟨n, hg, -, hn⟩ := hr L w tr hw1 hm1 c pv t (v :: q :: (us ++ f :: rest)) d ds p qs ia
    (ha.left (by simp only [glhs]; omega) (by rw [ht1]; exact hw2) (by simp) (fun h => absurd h ht2)
      (fun h => by simp only [gdo, h, Bool.true_or]))
  obtain ⟨k, hg', hk⟩ := h.rhs (us := us) ha rfl hw3 hm' hf.1 hf.2 hw4 (.inr ⟨rfl, rfl⟩)
    (by simp only [List.length_cons, List.length_append]; omega)
    (fun h => by simp only [gdo, h, Bool.or_true]) c (q :: v :: t :: (tr.reverse ++ pv)) rest ds (p :: qs)
  obtain ⟨x, hx, hnx⟩ := hg.nsx
  obtain ⟨y, hy, hny⟩ := hg'.nsx
  obtain ⟨k', h1, h2⟩ : ∃ k', Good L (.opattr safe r m o e) k' ∧
      Evals (fun R => parseOpAssign R (sendN safe t n m)) c ⟨v :: t :: (tr.reverse ++ pv), q :: (us ++ f :: rest), d :: ds, p :: qs, out L r⟩ k'
        ⟨us.reverse ++ q :: v :: t :: (tr.reverse ++ pv), f :: rest, d :: ds, p :: qs, out (out L r) e⟩ := by
    have he : ∀ R, parseOpAssign R (sendN safe t n m) = parseOpAttrAssign R (sendN safe t n m) n m [] safe := by
      intro R
      cases safe <;> rfl
    cases o with
    | and =>
      refine ⟨.opAssignAnd q (sendN safe t n m) k, .of (by simp only [gsx]; rw [hx, hy]; rfl) (hnx.attrAnd hny safe m t) rfl rfl,
        hk.by1 fun R hR => ?_⟩
      rw [he]
      unfold parseOpAttrAssign
      psim [hR, hw5, hq', show Aop.type .and = .AmpersandAmpersandEqual from rfl]
    | or =>
      refine ⟨.opAssignOr q (sendN safe t n m) k, .of (by simp only [gsx]; rw [hx, hy]; rfl) (hnx.attrOr hny safe m t) rfl rfl,
        hk.by1 fun R hR => ?_⟩
      rw [he]
      unfold parseOpAttrAssign
      psim [hR, hw5, hq', show Aop.type .or = .PipePipeEqual from rfl]
    | _ =>
      refine ⟨.opAssignAccessor q _ n (m ++ ['=']) k [] safe, .of (by simp only [gsx]; rw [hx, hy]; rfl)
        (hnx.opAttr hny _ (m ++ ['=']) safe ?_) rfl rfl, hk.by1 fun R hR => ?_⟩
      · exact fun h => hw5 (List.append_cancel_right (bs := ['=']) (cs := cs! "[]") h)
      · rw [he]
        unfold parseOpAttrAssign
        psim [hR, hq', Aop.type]
        rfl
  refine ⟨k', h1, nofun, fun b s' hb => ?_⟩
  have hp := dot_prec hg hab (by omega) fun h => by omega
  have := hn b s' (send_step ht hv hp (plain_key hg.plain) (infix_step (fun R => parseOpAssign R (sendN safe t n m))
    (by rw [hq']; exact o.valid) (prec_op hq' _)
    (above.op hab (m := 5) (q := .OP_ASSIGNMENT_LHS) (by decide) (by omega)) nofun nofun (sendN_key _ _ _ _)
    (fun R => left_op hq' R _ _ _) h2 (by simpa only [gram] using hb)))
  simpa only [gram] using this

theorem opindex_ok (r : Ex .ex) (a : Ex .args) (o : Aop) (e : Ex .ex) (hr : ExOk r) (h : AOk a) (he : ExOk e) : ExOk (.opindex r a o e) := by
  intro L w ts hw hm c pv f rest d ds p qs ia ha
  have hab := ha.above
  have hsz := ha.size
  have hdo := ha.has
  have hf := ha.after
  simp only [gwf, gdo, gafter, glhs, Bool.and_eq_true, Bool.or_eq_true, Bool.not_eq_true', lets_iff, decide_eq_true_eq] at hw hf hab hdo
  simp only [gtoks] at hm
  obtain ⟨⟨⟨⟨⟨⟨⟨hw1, hw2⟩, hw3⟩, hw4⟩, hw5⟩, hw6⟩, hw7⟩, hw8⟩ := hw
  obtain ⟨tr, us, rfl, hm1, hm'⟩ := hm.append_inv
  obtain ⟨t, us, rfl, ht, hm'⟩ := hm'.cons_inv
  obtain ⟨ta, us, rfl, hma, hm'⟩ := hm'.append_inv
  obtain ⟨u, us, rfl, hu, hm'⟩ := hm'.cons_inv
  obtain ⟨q, us, rfl, hq, hm'⟩ := hm'.cons_inv
  have ht' : t.type = .LBracket := ht.type
  have hq' : q.type = o.type := hq.type
  simp only [List.length_append, List.length_cons] at hsz
  obtain ⟨n, hg, -, hn⟩ := hr L w tr hw1 hm1 c pv t (ta ++ u :: q :: (us ++ f :: rest)) d ds p qs ia
    (ha.left (by simp only [glhs]; omega) (by rw [ht']; exact hw2) (by simp) (fun h => absurd (ht'.symm.trans h) nofun)
      (fun h => by simp only [gdo, h, Bool.true_or]))
  obtain ⟨ns, h1, h0, h3⟩ := ref_step h hw6 hw3 hma ht hu.type hw4 (d := d) (by omega) (fun h => (hdo (.inl (.inr h))).1) c (tr.reverse ++ pv)
    (q :: (us ++ f :: rest)) ds qs hab (by omega)
  obtain ⟨k, hg', hk⟩ := he.rhs (us := us) ha rfl hw7 hm' hf.1 hf.2 hw8 (.inr ⟨rfl, rfl⟩)
    (by simp only [List.length_cons, List.length_append]; omega)
    (fun h => by simp only [gdo, h, Bool.or_true]) c (q :: u :: (ta.reverse ++ t :: (tr.reverse ++ pv))) rest ds (p :: qs)
  obtain ⟨x, hx, hnx⟩ := hg.nsx
  obtain ⟨y, hy, hny⟩ := hg'.nsx
  have h2 : Evals (fun R => parseOpAssign R (.call t n (cs! "[]") ns)) c
      ⟨u :: (ta.reverse ++ t :: (tr.reverse ++ pv)), q :: (us ++ f :: rest), d :: ds, p :: qs, out (out L r) a⟩
      (.opAssignAccessor q o.text n (cs! "[]=") k ns false)
      ⟨us.reverse ++ q :: u :: (ta.reverse ++ t :: (tr.reverse ++ pv)), f :: rest, d :: ds, p :: qs, out (out (out L r) a) e⟩ := by
    refine hk.by1 fun R hR => ?_
    unfold parseOpAssign parseOpAttrAssign
    psim [hR, hq', o.op]
  refine ⟨.opAssignAccessor q o.text n (cs! "[]=") k ns false, .of (by simp only [gsx]; rw [hx, hy]; rfl)
    (hnx.opIndex hny h1 h0 o.text) rfl rfl, nofun, fun b s' hb => ?_⟩
  have := hn b s' (h3 n b ia s' (plain_key hg.plain) (infix_step (fun R => parseOpAssign R (.call t n (cs! "[]") ns))
    (by rw [hq']; exact o.valid) (prec_op hq' _)
    (above.op hab (m := 5) (q := .OP_ASSIGNMENT_LHS) (by decide) (by omega)) nofun nofun rfl
    (fun R => left_op hq' R _ _ _) h2 (by simpa only [gram] using hb)))
  simpa only [gram] using this

end NP.Gram
