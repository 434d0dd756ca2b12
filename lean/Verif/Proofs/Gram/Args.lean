import Verif.Proofs.Gram.Elem

/-! Hashes and arguments. -/

namespace NP.Gram
open Spec

/-! ### Hashes -/

/-- Pairs whose first key has been read. -/
theorem hash_some {q : Prec} {cl : Ttype} {bare : Bool} {c : Cx} {key : Node} {kv ns : List Node} {t : Token} {s1 s2 s3 : PS}
    (h1 : cur c s1 = .ok t s1) (h3 : Evals (fun R => hashPair R q key) c s1 kv s2)
    (h5 : EvalsLoop (hashBody q cl) kv c s2 ns s3) :
    Evals (fun R => parseHashInner R q cl bare (some key)) c s1 (.hash t bare ns) s3 := by
  refine h3.by2 h5.evals fun R hR hR' => ?_
  rw [hashInner_some]
  psim [h1, hR, hR']

/-- The loop over pairs ends at a token. -/
theorem pairs_stop {q : Prec} {cl : Ttype} {ns : List Node} {c : Cx} {pv : List Token} {f : Token} {rest : List Token} {ds : List Nat}
    {ws : List Prec} {L : List Str} (hf : f.type ≠ .Comma) :
    EvalsLoop (hashBody q cl) ns c ⟨pv, f :: rest, ds, ws, L⟩ ns ⟨pv, f :: rest, ds, ws, L⟩ := by
  refine .done (.of fun R => ?_)
  unfold hashBody
  psim [hf]

/-- The loop over pairs ends before a block. -/
theorem pairs_amp {q : Prec} {cl : Ttype} {ns : List Node} {c : Cx} {pv : List Token} {f g : Token} {rest : List Token} {ds : List Nat}
    {ws : List Prec} {L : List Str} (hf : f.type = .Comma) (hg : g.type = .Ampersand) :
    EvalsLoop (hashBody q cl) ns c ⟨pv, f :: g :: rest, ds, ws, L⟩ ns ⟨f :: pv, g :: rest, ds, ws, L⟩ := by
  refine .done (.of fun R => ?_)
  unfold hashBody
  psim [hf, hg]

theorem hash_ok (ps : Ex .pairs) (h : POk ps) : ExOk (.hash ps) := by
  intro L w ts hw hm c pv f rest d ds p qs ia ha
  have hsz := ha.size
  have hdo := ha.has
  simp only [gwf, gdo, Bool.and_eq_true] at hw hdo
  simp only [gtoks] at hm
  obtain ⟨t, us, rfl, ht, hm⟩ := hm.cons_inv
  obtain ⟨us, u, rfl, hm, hu⟩ := hm.snoc_inv
  have ht' : t.type = .LCurlyBrace := ht.type
  have hu' : u.type = .RCurlyBrace := hu.type
  simp only [List.length_append, List.length_cons] at hsz
  by_cases hn : ps.isNil = true
  · cases pairs_nil hn
    cases hm.nil_inv
    refine Parsed.first (n := .hash t false []) (fun R => parseHash R) (fun R => by rw [ht']; rfl) (.of fun R => ?_)
      (.of rfl (.hash .nil false) rfl rfl) nofun
    unfold parseHash
    psim [ht', hu']
  · rw [Bool.not_eq_true] at hn
    obtain ⟨key, kv, ns, t1, r1, pv1, L1, s2, h1, -, -, h3, h4, h5⟩ := h.run hn 0 .HASH .HASH .RCurlyBrace L us c (t :: pv) u
      (f :: rest) d ds (p :: qs) (by decide) (by decide) (by decide) hw.1 hm (.zero hu' rfl nofun) (by rw [hu']; exact hw.2)
      (by omega) (fun h => (hdo h).1)
    have h6 := h5 [] _ _ (pairs_stop (by rw [hu']; nofun))
    obtain ⟨v, us', rfl, hv, -⟩ := hm.pairs hn
    have hv' := hv.rcurly
    refine Parsed.first (n := .hash v false (kv ++ ns)) (fun R => parseHash R) (fun R => by rw [ht']; rfl)
      (h1.by3 h3 h6.evals fun R hR hR' hR'' => ?_) (.of (by simp only [gsx]; rfl) (.hash h4 false) rfl rfl) nofun
    rw [List.cons_append] at hR
    rw [List.nil_append] at hR''
    unfold parseHash
    rw [hashInner_none]
    psim [ht', hu', hv', hR, hR', hR'']

/-! ### Arguments -/

/-- The parts of arguments are read. -/
inductive AOk : Ex .args → Prop where
  | nil : AOk .anil
  | cons {e : Ex .ex} {a : Ex .args} : ExOk e → AOk a → AOk (.acons e a)
  | splat {e : Ex .ex} {a : Ex .args} : ExOk e → AOk a → AOk (.asplat e a)
  | pairs {ps : Ex .pairs} {a : Ex .args} : POk ps → AOk a → AOk (.apairs ps a)
  | blk {e : Ex .ex} : ExOk e → AOk (.ablk e)

theorem Ms.args {a : Ex .args} {L : List Str} (hn : a.isNil = false) (hw : WF L a = true) {ts : List Token} (h : Ms (toks none a) ts) :
    ∃ t ts', ts = t :: ts' ∧ Begins t.type ∧ t.type = start a := by
  cases a with
  | anil => cases hn
  | acons e a =>
    simp only [gtoks] at h
    obtain ⟨t1, t2, rfl, h1, -⟩ := h.append_inv
    obtain ⟨p, ws, h3, -⟩ := toks_first e rfl
    obtain ⟨t, ts', rfl, ht, hs, -⟩ := h1.first
    refine ⟨t, _, rfl, (Opens.of ht).begins, ?_⟩
    rw [hs]
    unfold start
    simp only [gtoks, h3, List.cons_append]
    rfl
  | asplat e a =>
    simp only [gtoks] at h
    obtain ⟨t, ts', rfl, ht, -⟩ := h.cons_inv
    refine ⟨t, _, rfl, ?_, ht.type⟩
    rw [ht.type]
    constructor <;> first | rfl | nofun
  | ablk e =>
    simp only [gtoks] at h
    obtain ⟨t, ts', rfl, ht, -⟩ := h.cons_inv
    refine ⟨t, _, rfl, ?_, ht.type⟩
    rw [ht.type]
    constructor <;> first | rfl | nofun
  | apairs ps a =>
    simp only [gtoks] at h
    simp only [gwf, Bool.and_eq_true, Bool.not_eq_true'] at hw
    obtain ⟨t1, t2, rfl, h1, -⟩ := h.append_inv
    obtain ⟨t, ts', rfl, ht, -⟩ := h1.pairs hw.1.1.1.2
    refine ⟨t, _, rfl, ht, ?_⟩
    unfold start
    simp only [gtoks]
    cases ps with
    | pnil => exact absurd hw.1.1.1.2 nofun
    | pcons k v ps =>
      obtain ⟨p, ws, h3, hp⟩ := toks_first k rfl
      have hb := starts_broken hp
      simp only [gtoks, h3, List.cons_append] at h1 ⊢
      obtain ⟨_, _, h4, h5, -⟩ := h1.cons_inv hb
      cases h4
      exact h5.type hb
    | pkey x v ps =>
      simp only [gtoks, List.cons_append] at h1 ⊢
      obtain ⟨_, _, h4, h5, -⟩ := h1.cons_inv
      cases h4
      exact h5.type
    | psplat v ps =>
      simp only [gtoks, List.cons_append] at h1 ⊢
      obtain ⟨_, _, h4, h5, -⟩ := h1.cons_inv
      cases h4
      exact h5.type

/-- The precedence of arguments. -/
def argPrec (bare : Bool) : Prec := if bare then .BARE_CALL_ARG else .CALL_ARG

/-- The body of the loop over arguments. -/
def callBody (bare : Bool) (cl : Ttype) (R : Rec) (n : Node) : P (Loop Node Node) := do
  if (← curTy) = .Comma then
    advance
    if (← curTy) = cl then pure (Loop.done n)
    else
      let arg ← R.exp (argPrec bare)
      if startsHash arg (← curTy) then
        let h ← parseCallHashArgs R bare cl arg
        pure (Loop.done (n.addArg h))
      else pure (Loop.again (n.addArg arg))
  else pure (Loop.done n)

/-- The block at the end of arguments. -/
def callTail (R : Rec) (n : Node) : P Node := do
  if (← curTy) = .Ampersand then do
    let b ← parseBlockPass R
    pure (n.addArg b)
  else pure n

/-- The arguments but for the number of open calls. -/
def callArgs (R : Rec) (node : Node) (bare : Bool) (cl : Ttype) : P Node := do
  let arg ← R.exp (argPrec bare)
  let node' ←
    if startsHash arg (← curTy) then do
      let h ← parseCallHashArgs R bare cl arg
      pure (node.addArg h)
    else loop (callBody bare cl R) R.fuel (node.addArg arg)
  callTail R node'

/-- The tokens at which arguments end. -/
structure ArgEnd (d : Nat) (f : Token) : Prop where
  slot : Slot 5 d f
  comma : f.type ≠ .Comma
  rocket : f.type ≠ .HashRocket

theorem ArgEnd.amp {d : Nat} {f : Token} (h : ArgEnd d f) : f.type ≠ .Ampersand := by
  intro hf
  rcases h.slot.need with hn | hn
  · rw [hf] at hn
    exact absurd hn (by decide)
  · exact h.comma hn

theorem ArgEnd.star {d : Nat} {f : Token} (h : ArgEnd d f) : f.type ≠ .StarStar := by
  intro hf
  rcases h.slot.need with hn | hn
  · rw [hf] at hn
    exact absurd hn (by decide)
  · exact h.comma hn

/-- The parser reads the arguments: the first one, and then the others. -/
def ArgsRun (a : Ex .args) : Prop :=
  ∀ (bare : Bool) (cl : Ttype) (L : List Str) (ts : List Token) (c : Cx) (pv : List Token) (f : Token) (rest : List Token)
    (d : Nat) (ds : List Nat) (ws : List Prec), closer cl = true → WF L a = true →
    Ms (toks none a) ts → ArgEnd d f → Gram.after a f.type = true → d + ts.length < 4294967296 → (hasDo a = true → d = 0) →
    ∃ ns arg t1 r1 pv1 L1, Lsx ns (sx L a) ∧ (blockless a = true → ∀ n ∈ ns, n.isBlockPass = false) ∧ ns ≠ [] ∧
      Evals (fun R => R.expr (argPrec bare) .CURLY_AND_BLOCK) c ⟨pv, ts ++ f :: rest, d :: ds, ws, L⟩ arg
        ⟨pv1, t1 :: r1, d :: ds, ws, L1⟩ ∧
      ∀ node : Node, ∃ node2 s2,
        (startsHash arg t1.type = true ∧ (∃ h, node2 = node.addArg h ∧
          Evals (fun R => parseCallHashArgs R bare cl arg) c ⟨pv1, t1 :: r1, d :: ds, ws, L1⟩ h s2) ∨
        startsHash arg t1.type = false ∧ EvalsLoop (callBody bare cl) (node.addArg arg) c ⟨pv1, t1 :: r1, d :: ds, ws, L1⟩ node2 s2) ∧
        Evals (fun R => callTail R node2) c s2 (ns.foldl Node.addArg node)
          ⟨ts.reverse ++ pv, f :: rest, d :: ds, ws, out L a⟩

theorem startsHash_elem {n : Node} (h : Elem n) {ty : Ttype} (ht : ty ≠ .HashRocket) : startsHash n ty = false := by
  unfold startsHash
  rw [h.key, h.splat]
  simpa using ht

theorem tail_none {R : Rec} {n : Node} {c : Cx} {pv : List Token} {f : Token} {rest : List Token} {ds : List Nat}
    {ws : List Prec} {L : List Str} (hf : f.type ≠ .Ampersand) :
    callTail R n c ⟨pv, f :: rest, ds, ws, L⟩ = .ok n ⟨pv, f :: rest, ds, ws, L⟩ := by
  unfold callTail
  psim [hf]

/-- The arguments after the first one. -/
theorem args_rest {a : Ex .args} (h : a.isNil = false → ArgsRun a) {bare : Bool} {cl : Ttype} {L : List Str} {ts : List Token}
    (hcl : closer cl = true) (hw : WF L a = true) (hm : Ms (sep a (toks none a)) ts) {f : Token}
    {d : Nat} (hsl : ArgEnd d f) (hf : a.isNil = false → Gram.after a f.type = true) (hs : d + ts.length < 4294967296)
    (hh : hasDo a = true → d = 0) (c : Cx) (pv rest : List Token) (ds : List Nat) (ws : List Prec) :
    ∃ ns, Lsx ns (sx L a) ∧ (blockless a = true → ∀ n ∈ ns, n.isBlockPass = false) ∧
      ∀ node : Node, ∃ node2 s2, EvalsLoop (callBody bare cl) node c ⟨pv, ts ++ f :: rest, d :: ds, ws, L⟩ node2 s2 ∧
        Evals (fun R => callTail R node2) c s2 (ns.foldl Node.addArg node) ⟨ts.reverse ++ pv, f :: rest, d :: ds, ws, out L a⟩ := by
  rcases hm.sep_inv with ⟨hn, rfl⟩ | ⟨hn, t, us, rfl, ht, hm'⟩
  · cases args_nil hn
    refine ⟨[], by simp only [gsx]; exact .nil, fun _ => nofun, fun node => ⟨node, ⟨pv, f :: rest, d :: ds, ws, L⟩,
      .done (.of fun R => ?_), .of fun R => tail_none hsl.amp⟩⟩
    have hc := hsl.comma
    unfold callBody
    psim [hc]
  · obtain ⟨ns, arg, t1, r1, pv1, L1, h1, h2, -, h3, h4⟩ := h hn bare cl L us c (t :: pv) f rest d ds ws hcl hw
      hm' hsl (hf hn) (by simp only [List.length_cons] at hs; omega) hh
    refine ⟨ns, h1, h2, fun node => ?_⟩
    obtain ⟨u, us', rfl, hu, -⟩ := hm'.args hn hw
    have hc := hu.closer hcl
    rw [List.cons_append] at *
    obtain ⟨node2, s2, h5, h6⟩ := h4 node
    rcases h5 with ⟨h7, h, rfl, h8⟩ | ⟨h7, h8⟩
    · refine ⟨_, s2, .done (h3.by2 h8 fun R hR hR' => ?_), by simpa only [gram] using h6⟩
      unfold callBody
      psim [ht, hc, hR, h7, hR']
    · refine ⟨_, s2, .again (h3.by1 fun R hR => ?_) h8, by simpa only [gram] using h6⟩
      unfold callBody
      psim [ht, hc, hR, h7]

theorem argPrec_ok (bare : Bool) : pairPrec 5 (argPrec bare) = true := by cases bare <;> decide

theorem AOk.run {a : Ex .args} (h : AOk a) : a.isNil = false → ArgsRun a := by
  induction h with
  | nil => nofun
  | cons he ha ih =>
    rename_i e a
    intro _ bare cl L ts c pv f rest d ds ws hcl hw hm hsl hf hs hh
    have hq := argPrec_ok bare
    unfold pairPrec at hq
    simp only [gwf, gafter, gtoks, gdo, Bool.and_eq_true, Bool.or_eq_true, decide_eq_true_eq] at hw hm hf hh hq
    obtain ⟨⟨⟨hw1, hw2⟩, hw3⟩, hw4⟩ := hw
    obtain ⟨tv, tr, rfl, hmv, hmr⟩ := hm.append_inv
    simp only [List.length_append] at hs
    obtain ⟨g, rest', hgr, hsg, hag, hgf⟩ := sep_follow (e := e) hmr (by simpa using hf) hsl.slot rest
    obtain ⟨m, hg', hm'⟩ := he.elem (q := argPrec bare) (d := d) hw1 hmv hw3 hq.2 hsg hq.1 hag (by omega) (fun h => hh (.inl h)) c
      pv rest' ds ws
    obtain ⟨ns, hns, hb, hl⟩ := args_rest (bare := bare) (cl := cl) ih hcl hw2 hmr hsl
      (fun hn => by rw [if_neg (by rw [hn]; nofun), Bool.and_eq_true] at hf; exact hf.2) (by omega) (fun h => hh (.inr h)) c
      (tv.reverse ++ pv) rest ds ws
    obtain ⟨y, hy, hny⟩ := hg'.nsx
    have hel : startsHash m g.type = false := startsHash_elem (plain_elem hg'.plain) (by
      rcases hgf with ⟨-, rfl⟩ | hgf
      · exact hsl.rocket
      · rw [hgf]; nofun)
    refine ⟨m :: ns, m, g, rest', _, _, by simp only [gsx, hy]; exact .cons hny hns, fun h => ?_, nofun,
      by simpa [hgr] using hm', fun node => ?_⟩
    · intro n hn
      rcases List.mem_cons.1 hn with rfl | hn
      · exact plain_pass hg'.plain
      · exact hb h n hn
    · obtain ⟨node2, s2, h1, h2⟩ := hl (node.addArg m)
      rw [hgr] at h1
      exact ⟨node2, s2, .inr ⟨hel, h1⟩, by simpa only [gram, List.foldl_cons] using h2⟩
  | splat he ha ih =>
    rename_i e a
    intro _ bare cl L ts c pv f rest d ds ws hcl hw hm hsl hf hs hh
    have hq := argPrec_ok bare
    unfold pairPrec at hq
    simp only [gwf, gafter, gtoks, gdo, Bool.and_eq_true, Bool.or_eq_true, decide_eq_true_eq] at hw hm hf hh hq
    obtain ⟨⟨⟨hw1, hw2⟩, hw3⟩, hw4⟩ := hw
    obtain ⟨t, us, rfl, ht, hm⟩ := hm.cons_inv
    obtain ⟨tv, tr, rfl, hmv, hmr⟩ := hm.append_inv
    simp only [List.length_append, List.length_cons] at hs
    obtain ⟨g, rest', hgr, hsg, hag, hgf⟩ := sep_follow (e := e) hmr (by simpa using hf) hsl.slot rest
    obtain ⟨m, hg', hm'⟩ := splat_elem he (q := argPrec bare) (d := d) ht.type hw1 hmv hw3 hsg hq.1 hag (by omega)
      (fun h => hh (.inl h)) c pv rest' ds ws
    obtain ⟨ns, hns, hb, hl⟩ := args_rest (bare := bare) (cl := cl) ih hcl hw2 hmr hsl
      (fun hn => by rw [if_neg (by rw [hn]; nofun), Bool.and_eq_true] at hf; exact hf.2) (by omega) (fun h => hh (.inr h)) c
      (tv.reverse ++ t :: pv) rest ds ws
    obtain ⟨y, hy, hny⟩ := hg'.nsx
    have hel : startsHash (.splat t (some m)) g.type = false := startsHash_elem ⟨rfl, rfl⟩ (by
      rcases hgf with ⟨-, rfl⟩ | hgf
      · exact hsl.rocket
      · rw [hgf]; nofun)
    refine ⟨.splat t (some m) :: ns, _, g, rest', _, _, by simp only [gsx, hy]; exact .cons hny.splat hns, fun h => ?_, nofun,
      by simpa [hgr] using hm', fun node => ?_⟩
    · intro n hn
      rcases List.mem_cons.1 hn with rfl | hn
      · rfl
      · exact hb h n hn
    · obtain ⟨node2, s2, h1, h2⟩ := hl (node.addArg (.splat t (some m)))
      rw [hgr] at h1
      exact ⟨node2, s2, .inr ⟨hel, h1⟩, by simpa only [gram, List.foldl_cons] using h2⟩
  | pairs hps ha ih =>
    rename_i ps a
    intro _ bare cl L ts c pv f rest d ds ws hcl hw hm hsl hf hs hh
    have hq := argPrec_ok bare
    simp only [gwf, gafter, gtoks, gdo, Bool.and_eq_true, Bool.or_eq_true, Bool.not_eq_true'] at hw hm hf hh
    obtain ⟨⟨⟨⟨hw1, hw2⟩, hw3⟩, hw4⟩, hw5⟩ := hw
    obtain ⟨tv, tr, rfl, hmv, hmr⟩ := hm.append_inv
    simp only [List.length_append] at hs
    cases a with
    | anil =>
      cases hmr.nil_inv
      obtain ⟨key, kv, ns, t1, r1, pv1, L1, s2, h1, h2, -, h3, h4, h5⟩ := hps.run hw2 5 (argPrec bare) (argPrec bare) cl L tv c pv f
        rest d ds ws hq hq hcl hw1 hmv hsl.slot hf (by omega) (fun h => hh (.inl h))
      have h6 := hash_some (bare := true) (show cur c ⟨pv1, t1 :: r1, d :: ds, ws, L1⟩ = .ok t1 _ from rfl) h3
        (h5 [] _ _ (pairs_stop hsl.comma))
      have hst := hsl.star
      refine ⟨[.hash t1 true (kv ++ ns)], key, t1, r1, pv1, L1, by simp only [gsx]; exact .one (.hash h4 true), fun _ => ?_, nofun,
        by simpa using h1, fun node => ⟨node.addArg (.hash t1 true (kv ++ ns)), ⟨tv.reverse ++ pv, f :: rest, d :: ds, ws, out L ps⟩, .inl ⟨h2, _, rfl, h6.by1 fun R hR => ?_⟩,
          .of fun R => ?_⟩⟩
      · intro n hn
        cases List.mem_singleton.1 hn
        rfl
      · unfold parseCallHashArgs
        unfold argPrec at hR
        psim [hR, hst]
      · rw [tail_none hsl.amp]
        psim [List.foldl_cons, List.foldl_nil, List.append_nil]
    | ablk e =>
      cases ha with | blk he =>
      obtain ⟨t, us, rfl, ht, hm⟩ := hmr.cons_inv
      simp only [gtoks, gafter, gwf, gdo] at hm hf hw3 hh
      obtain ⟨u, us, rfl, hu, hm⟩ := hm.cons_inv
      have hf' : (Gram.after ps .Comma = true) ∧ (need f.type = 0 ∧ Gram.after e f.type = true) := by
        simpa [Ex.isNil, lets_iff] using hf
      simp only [List.length_cons] at hs
      obtain ⟨key, kv, ns, t1, r1, pv1, L1, s2, h1, h2, -, h3, h4, h5⟩ := hps.run hw2 5 (argPrec bare) (argPrec bare) cl L tv c pv t
        (u :: (us ++ f :: rest)) d ds ws hq hq hcl hw1 hmv (.comma ht.type) (by rw [ht.type]; exact hf'.1) (by omega) (fun h => hh (.inl h))
      have h6 := hash_some (bare := true) (show cur c ⟨pv1, t1 :: r1, d :: ds, ws, L1⟩ = .ok t1 _ from rfl) h3
        (h5 [] _ _ (pairs_amp ht.type hu.type))
      obtain ⟨n, hg, hn⟩ := pass_run (t := u) (f := f) (d := d) he hw3 hm hf'.2.1 hsl.slot.do_ hf'.2.2 (by omega) (fun h => hh (.inr h)) c
        (t :: (tv.reverse ++ pv)) rest ds ws
      obtain ⟨x, hx, hnx⟩ := hg.nsx
      have hu' : u.type = .Ampersand := hu.type
      refine ⟨[.hash t1 true (kv ++ ns), .blockPass u n], key, t1, r1, pv1, L1,
        by simp only [gsx, hx]; exact .cons (.hash h4 true) (.one hnx.blockPass), nofun, nofun,
        by simpa using h1, fun node => ⟨node.addArg (.hash t1 true (kv ++ ns)), ⟨t :: (tv.reverse ++ pv), u :: (us ++ f :: rest), d :: ds, ws, out L ps⟩,
          .inl ⟨h2, _, rfl, h6.by1 fun R hR => ?_⟩, hn.by1 fun R hR => ?_⟩⟩
      · unfold parseCallHashArgs
        unfold argPrec at hR
        psim [hR, hu']
      · unfold callTail
        psim [hu', hR, List.foldl_cons, List.foldl_nil]
    | _ => cases hw5
  | blk he =>
    rename_i e
    intro _ bare cl L ts c pv f rest d ds ws hcl hw hm hsl hf hs hh
    have hq := argPrec_ok bare
    unfold pairPrec at hq
    simp only [gwf, gafter, gtoks, gdo, Bool.and_eq_true, lets_iff, Nat.le_zero] at hw hm hf hh hq
    obtain ⟨t, us, rfl, ht, hm⟩ := hm.cons_inv
    simp only [List.length_cons] at hs
    obtain ⟨n, hg, hn⟩ := pass_elem (t := t) (f := f) (d := d) he ht.type hw hm hf.1 hsl.slot hq.1 hf.2 (by omega) hh c
      pv rest ds ws
    obtain ⟨x, hx, hnx⟩ := hg.nsx
    refine ⟨[.blockPass t n], _, f, rest, _, _, by simp only [gsx, hx]; exact .one hnx.blockPass, nofun, nofun,
        by simpa using hn, fun node => ⟨node.addArg (.blockPass t n), ⟨us.reverse ++ t :: pv, f :: rest, d :: ds, ws, out L e⟩, .inr ⟨startsHash_elem ⟨rfl, rfl⟩ hsl.rocket, .done (.of fun R => ?_)⟩, .of fun R => ?_⟩⟩
    · have hc := hsl.comma
      unfold callBody
      psim [hc]
    · rw [tail_none hsl.amp]
      psim [List.foldl_cons, List.foldl_nil, List.append_nil]
/-- All arguments. -/
theorem args_evals {a : Ex .args} (h : AOk a) (hn : a.isNil = false) {bare : Bool} {cl : Ttype} {L : List Str} {ts : List Token}
    (hcl : closer cl = true) (hw : WF L a = true) (hm : Ms (toks none a) ts) {f : Token}
    {d : Nat} (hsl : ArgEnd d f) (hf : Gram.after a f.type = true) (hs : d + ts.length < 4294967296)
    (hh : hasDo a = true → d = 0) (c : Cx) (pv rest : List Token) (ds : List Nat) (ws : List Prec) :
    ∃ ns, Lsx ns (sx L a) ∧ (blockless a = true → ∀ n ∈ ns, n.isBlockPass = false) ∧ ns ≠ [] ∧
      ∀ node : Node, Evals (fun R => callArgs R node bare cl) c ⟨pv, ts ++ f :: rest, d :: ds, ws, L⟩ (ns.foldl Node.addArg node)
        ⟨ts.reverse ++ pv, f :: rest, d :: ds, ws, out L a⟩ := by
  obtain ⟨ns, arg, t1, r1, pv1, L1, h1, h2, h0, h3, h4⟩ := h.run hn bare cl L ts c pv f rest d ds ws hcl hw hm hsl hf hs hh
  refine ⟨ns, h1, h2, h0, fun node => ?_⟩
  obtain ⟨node2, s2, h5, h6⟩ := h4 node
  rcases h5 with ⟨h7, h, rfl, h8⟩ | ⟨h7, h8⟩
  · refine h3.by3 h8 h6 fun R hR hR' hR'' => ?_
    unfold callArgs
    psim [hR, h7, hR', hR'']
  · refine h3.by3 h8.evals h6 fun R hR hR' hR'' => ?_
    unfold callArgs
    psim [hR, h7, hR', hR'']

theorem P.bind_assoc {α β γ : Type} (p : P α) (f : α → P β) (g : β → P γ) : ((p >>= f) >>= g) = p >>= fun a => f a >>= g := by
  funext c s
  simp only [run_bind]
  cases p c s <;> simp only [PRes.andThen, run_bind]

theorem P.pure_bind {α β : Type} (a : α) (f : α → P β) : (pure a : P α) >>= f = f a := by
  funext c s
  rw [run_bind, run_pure, PRes.andThen_ok]

theorem P.ite_bind {α β : Type} (p : Prop) [Decidable p] (a b : P α) (f : α → P β) :
    (if p then a else b) >>= f = if p then a >>= f else b >>= f := by split <;> rfl

theorem parseCallArgs_eq (R : Rec) (node : Node) (bare : Bool) (cl : Ttype) : parseCallArgs R node bare cl = (do
    if bare && node.canAcceptABlock then incDepth else pure ()
    let n ← callArgs R node bare cl
    if bare && n.canAcceptABlock then decDepth else pure ()
    pure n) := by
  unfold parseCallArgs callArgs callTail
  simp only [P.bind_assoc, P.pure_bind, P.ite_bind]
  rfl

theorem fold_call (t : Token) (r : Node) (m : Str) : ∀ (ns as' : List Node),
    ns.foldl Node.addArg (.call t r m as') = .call t r m (as' ++ ns)
  | [], _ => by rw [List.append_nil]; rfl
  | n :: ns, as' => by
    rw [List.foldl_cons, show (Node.call t r m as').addArg n = .call t r m (as' ++ [n]) from rfl, fold_call]
    simp

theorem fold_safe (t : Token) (r : Node) (m : Str) : ∀ (ns as' : List Node),
    ns.foldl Node.addArg (.safeCall t r m as') = .safeCall t r m (as' ++ ns)
  | [], _ => by rw [List.append_nil]; rfl
  | n :: ns, as' => by
    rw [List.foldl_cons, show (Node.safeCall t r m as').addArg n = .safeCall t r m (as' ++ [n]) from rfl, fold_safe]
    simp

theorem fold_super (t : Token) (b : Bool) : ∀ (ns as' : List Node),
    ns.foldl Node.addArg (.super t b as') = .super t b (as' ++ ns)
  | [], _ => by rw [List.append_nil]; rfl
  | n :: ns, as' => by
    rw [List.foldl_cons, show (Node.super t b as').addArg n = .super t b (as' ++ [n]) from rfl, fold_super]
    simp

theorem fold_yield (t : Token) : ∀ (ns as' : List Node),
    ns.foldl Node.addArg (.yield t as') = .yield t (as' ++ ns)
  | [], _ => by rw [List.append_nil]; rfl
  | n :: ns, as' => by
    rw [List.foldl_cons, show (Node.yield t as').addArg n = .yield t (as' ++ [n]) from rfl, fold_yield]
    simp

/-! ### Arrays -/

/-- The body of the loop over the elements of an array. -/
def arrayBody (R : Rec) (ns : List Node) : P (Loop (List Node) (List Node × Bool)) := do
  if (← curTy) = .Comma then
    advance
    let (ns, ended) ← arrayAddNode R ns
    if ended then pure (Loop.done (ns, true)) else pure (Loop.again ns)
  else pure (Loop.done (ns, false))

/-- The parser reads the elements of an array. -/
def ArrayRun (a : Ex .args) : Prop :=
  ∀ (L : List Str) (ts : List Token) (c : Cx) (pv : List Token) (f : Token) (rest : List Token)
    (ds : List Nat) (ws : List Prec), WF L a = true → blockless a = true → unsplat a = true →
    Ms (toks none a) ts → f.type = .RBracket → Gram.after a .RBracket = true → ts.length < 4294967296 →
    ∃ ns, Lsx ns (sx L a) ∧ ∀ acc, ∃ n1 b s1,
      Evals (fun R => arrayAddNode R acc) c ⟨pv, ts ++ f :: rest, 0 :: ds, ws, L⟩ (n1, b) s1 ∧
      (b = true ∧ n1 = acc ++ ns ∧ s1 = ⟨f :: (ts.reverse ++ pv), rest, 0 :: ds, ws, out L a⟩ ∨
       b = false ∧ (EvalsLoop arrayBody n1 c s1 (acc ++ ns, true) ⟨f :: (ts.reverse ++ pv), rest, 0 :: ds, ws, out L a⟩ ∨
         EvalsLoop arrayBody n1 c s1 (acc ++ ns, false) ⟨ts.reverse ++ pv, f :: rest, 0 :: ds, ws, out L a⟩))

/-- The elements after the first one. -/
theorem array_rest {a : Ex .args} (h : a.isNil = false → ArrayRun a) {L : List Str} {ts : List Token} (hw : WF L a = true)
    (hb : blockless a = true) (hu : unsplat a = true) (hm : Ms (sep a (toks none a)) ts) {f : Token} (hf : f.type = .RBracket)
    (hf' : a.isNil = false → Gram.after a .RBracket = true) (hs : ts.length < 4294967296) (c : Cx) (pv rest : List Token)
    (ds : List Nat) (ws : List Prec) :
    ∃ ns, Lsx ns (sx L a) ∧ ∀ acc,
      (EvalsLoop arrayBody acc c ⟨pv, ts ++ f :: rest, 0 :: ds, ws, L⟩ (acc ++ ns, true)
        ⟨f :: (ts.reverse ++ pv), rest, 0 :: ds, ws, out L a⟩ ∨
       EvalsLoop arrayBody acc c ⟨pv, ts ++ f :: rest, 0 :: ds, ws, L⟩ (acc ++ ns, false)
        ⟨ts.reverse ++ pv, f :: rest, 0 :: ds, ws, out L a⟩) := by
  rcases hm.sep_inv with ⟨hn, rfl⟩ | ⟨hn, t, us, rfl, ht, hm'⟩
  · cases args_nil hn
    refine ⟨[], by simp only [gsx]; exact .nil, fun acc => .inr (.done (.of fun R => ?_))⟩
    unfold arrayBody
    psim [hf, List.append_nil]
  · obtain ⟨ns, h1, h2⟩ := h hn L us c (t :: pv) f rest ds ws hw hb hu hm' hf (hf' hn) (by simp only [List.length_cons] at hs; omega)
    refine ⟨ns, h1, fun acc => ?_⟩
    obtain ⟨n1, b, s1, h3, h4⟩ := h2 acc
    rcases h4 with ⟨rfl, rfl, rfl⟩ | ⟨rfl, h4⟩
    · refine .inl (.done (h3.by1 fun R hR => ?_))
      unfold arrayBody
      psim [ht, hR]
    · have hstep : Evals (fun R => arrayBody R acc) c ⟨pv, t :: us ++ f :: rest, 0 :: ds, ws, L⟩ (.again n1) s1 := by
        refine h3.by1 fun R hR => ?_
        unfold arrayBody
        psim [ht, hR]
      rcases h4 with h4 | h4
      · exact .inl (.again hstep (by simpa only [gram] using h4))
      · exact .inr (.again hstep (by simpa only [gram] using h4))

theorem AOk.array {a : Ex .args} (h : AOk a) : a.isNil = false → ArrayRun a := by
  induction h with
  | nil => nofun
  | cons he ha ih =>
    rename_i e a
    intro _ L ts c pv f rest ds ws hw hb hu hm hf hf' hs
    simp only [gwf, gafter, gtoks, Bool.and_eq_true, Bool.or_eq_true, decide_eq_true_eq] at hw hm hf'
    obtain ⟨⟨⟨hw1, hw2⟩, hw3⟩, hw4⟩ := hw
    obtain ⟨tv, tr, rfl, hmv, hmr⟩ := hm.append_inv
    simp only [List.length_append] at hs
    obtain ⟨g, rest', hgr, hsg, hag, hgf⟩ := sep_follow (e := e) (j := 0) (d := 0) hmr (by rw [hf]; simpa using hf')
      (Slot.zero hf rfl nofun) rest
    obtain ⟨m, hg', hm'⟩ := he.elem (q := .ARRAY) (d := 0) hw1 hmv hw3 (by decide) hsg (by decide) hag (by omega) (fun _ => rfl) c
      pv rest' ds ws
    obtain ⟨ns, hns, hl⟩ := array_rest ih hw2 hb hu hmr hf
      (fun hn => by rw [if_neg (by rw [hn]; nofun), Bool.and_eq_true] at hf'; exact hf'.2) (by omega) c
      (tv.reverse ++ pv) rest ds ws
    obtain ⟨y, hy, hny⟩ := hg'.nsx
    have hgr' : g.type ≠ .HashRocket := by
      rcases hgf with ⟨-, rfl⟩ | hgf
      · rw [hf]; nofun
      · rw [hgf]; nofun
    obtain ⟨u, us', rfl, hu, -⟩ := hmv.first
    have hu1 := (Opens.of hu).rbracket
    have hu2 := (Opens.of hu).key
    refine ⟨m :: ns, by simp only [gsx, hy]; exact .cons hny hns, fun acc => ⟨acc ++ [m], false,
      ⟨(u :: us').reverse ++ pv, g :: rest', 0 :: ds, ws, out L e⟩, hm'.by1 fun R hR => ?_,
      .inr ⟨rfl, ?_⟩⟩⟩
    · rw [List.cons_append] at hR
      unfold arrayAddNode
      psim [hu1, hu2, hgr, hR, hgr']
    · have := hl (acc ++ [m])
      rw [hgr] at this
      simpa only [gram] using this
  | splat he ha ih =>
    rename_i e a
    intro _ L ts c pv f rest ds ws hw hb hu hm hf hf' hs
    simp only [gwf, gafter, gtoks, Bool.and_eq_true, Bool.or_eq_true, decide_eq_true_eq] at hw hm hf'
    obtain ⟨⟨⟨hw1, hw2⟩, hw3⟩, hw4⟩ := hw
    obtain ⟨t, us, rfl, ht, hm⟩ := hm.cons_inv
    have ht' : t.type = .Star := ht.type
    obtain ⟨tv, tr, rfl, hmv, hmr⟩ := hm.append_inv
    simp only [List.length_append, List.length_cons] at hs
    obtain ⟨g, rest', hgr, hsg, hag, hgf⟩ := sep_follow (e := e) (j := 0) (d := 0) hmr (by rw [hf]; simpa using hf')
      (Slot.zero hf rfl nofun) rest
    obtain ⟨m, hg', hm'⟩ := splat_elem he (q := .ARRAY) (d := 0) ht' hw1 hmv hw3 hsg (by decide) hag (by omega) (fun _ => rfl) c
      pv rest' ds ws
    obtain ⟨ns, hns, hl⟩ := array_rest ih hw2 hb hu hmr hf
      (fun hn => by rw [if_neg (by rw [hn]; nofun), Bool.and_eq_true] at hf'; exact hf'.2) (by omega) c
      (tv.reverse ++ t :: pv) rest ds ws
    obtain ⟨y, hy, hny⟩ := hg'.nsx
    have hgr' : g.type ≠ .HashRocket := by
      rcases hgf with ⟨-, rfl⟩ | hgf
      · rw [hf]; nofun
      · rw [hgf]; nofun
    refine ⟨.splat t (some m) :: ns, by simp only [gsx, hy]; exact .cons hny.splat hns,
      fun acc => ⟨acc ++ [.splat t (some m)], false,
        ⟨tv.reverse ++ t :: pv, g :: rest', 0 :: ds, ws, out L e⟩, hm'.by1 fun R hR => ?_, .inr ⟨rfl, ?_⟩⟩⟩
    · unfold arrayAddNode
      psim [ht', hgr, hR, hgr']
    · have := hl (acc ++ [.splat t (some m)])
      rw [hgr] at this
      simpa only [gram] using this
  | pairs hps ha ih =>
    rename_i ps a
    intro _ L ts c pv f rest ds ws hw hb hu hm hf hf' hs
    simp only [gwf, gafter, gtoks, Bool.and_eq_true, Bool.or_eq_true, Bool.not_eq_true'] at hw hm hf'
    obtain ⟨⟨⟨⟨hw1, hw2⟩, hw3⟩, hw4⟩, hw5⟩ := hw
    obtain ⟨tv, tr, rfl, hmv, hmr⟩ := hm.append_inv
    simp only [List.length_append] at hs
    cases a with
    | anil =>
      cases hmr.nil_inv
      have hfa : Gram.after ps f.type = true := by rw [hf]; exact hf'
      have run := fun q0 h0 => hps.run hw2 0 .HASH q0 .RBracket L tv c pv f rest 0 ds ws (by decide) h0 (by decide) hw1 hmv
        (.zero hf rfl nofun) hfa (by omega) (fun _ => rfl)
      cases ps with
      | pnil => cases hw2
      | psplat e ps => cases hu
      | pkey x v ps =>
        obtain ⟨key, kv, ns, t1, r1, pv1, L1, s2, h1, h2, -, h3, h4, h5⟩ := run .HASH (by decide)
        have h6 := h5 [] _ _ (pairs_stop (by rw [hf]; nofun))
        simp only [gtoks] at hmv
        obtain ⟨t, us, rfl, ht, hm⟩ := hmv.cons_inv
        have ht' : t.type = .SymbolKey := ht.type
        refine ⟨[.hash t true (kv ++ ns)], by simp only [gsx] at h4 ⊢; exact .one (.hash h4 true),
          fun acc => ⟨acc ++ [.hash t true (kv ++ ns)], true,
            ⟨f :: ((t :: us).reverse ++ pv), rest, 0 :: ds, ws, out L (.pkey x v ps)⟩,
            h1.by3 h3 h6.evals fun R hR hR' hR'' => ?_, .inl ⟨rfl, rfl, by simp only [gram, List.append_nil]⟩⟩⟩
        rw [List.cons_append] at hR
        rw [List.nil_append] at hR''
        unfold arrayAddNode
        rw [hashInner_none]
        psim [ht', hR, hR', hR'', hf, List.append_nil]
      | pcons k v ps =>
        obtain ⟨key, kv, ns, t1, r1, pv1, L1, s2, h1, h2, h0, h3, h4, h5⟩ := run .ARRAY (by decide)
        have h6 := hash_some (bare := true) (show cur c ⟨pv1, t1 :: r1, 0 :: ds, ws, L1⟩ = .ok t1 _ from rfl) h3
          (h5 [] _ _ (pairs_stop (by rw [hf]; nofun)))
        have ht1 := h0 ⟨_, _, _, rfl⟩
        simp only [gtoks] at hmv
        obtain ⟨tk, tu, rfl, hm1, -⟩ := hmv.append_inv
        obtain ⟨u, us', rfl, hu, -⟩ := hm1.first
        have hu1 := (Opens.of hu).rbracket
        have hu2 := (Opens.of hu).key
        refine ⟨[.hash t1 true (kv ++ ns)], by simp only [gsx] at h4 ⊢; exact .one (.hash h4 true),
          fun acc => ⟨acc ++ [.hash t1 true (kv ++ ns)], true,
            ⟨f :: ((u :: us' ++ tu).reverse ++ pv), rest, 0 :: ds, ws, out L (.pcons k v ps)⟩,
            h1.by2 h6 fun R hR hR' => ?_, .inl ⟨rfl, rfl, by simp only [gram, List.append_nil]⟩⟩⟩
        simp only [List.cons_append, List.append_assoc] at hR
        unfold arrayAddNode
        psim [hu1, hu2, hR, ht1, hR', hf, List.append_nil]
    | ablk e => cases hb
    | _ => cases hw5
  | blk he =>
    intro _ L ts c pv f rest ds ws hw hb
    cases hb

theorem parseArray_eq (R : Rec) : parseArray R = (do
    let t ← cur
    if t.type = .LBracketRBracket then
      advance
      pure (.array t [])
    else
      advance
      pushDepth
      let (ns, ended) ← arrayAddNode R []
      if ended then
        popDepth
        pure (.array t ns)
      else
        let (ns, ended) ← loop (arrayBody R) R.fuel ns
        if ended then
          popDepth
          pure (.array t ns)
        else
          expect .RBracket (cs! "array closing bracket")
          advance
          popDepth
          pure (.array t ns)) := rfl

theorem array_ok (a : Ex .args) (h : AOk a) : ExOk (.array a) := by
  intro L w ts hw hm c pv f rest d ds p qs ia ha
  have hsz := ha.size
  simp only [gwf, Bool.and_eq_true] at hw
  simp only [gtoks] at hm
  obtain ⟨⟨⟨hw1, hw2⟩, hw3⟩, hw4⟩ := hw
  by_cases hn : a.isNil = true
  · rw [if_pos hn] at hm
    obtain ⟨t, rfl, ht⟩ := hm.one_inv
    cases args_nil hn
    have ht' : t.type = .LBracketRBracket := ht.type
    refine Parsed.first (ts := []) (n := .array t []) (fun R => parseArray R) (fun R => by rw [ht']; rfl) (.of fun R => ?_)
      (.of rfl (.array .nil) rfl rfl) nofun
    rw [parseArray_eq]
    psim [ht']
  · rw [if_neg hn] at hm
    rw [Bool.not_eq_true] at hn
    obtain ⟨t, us, rfl, ht, hm⟩ := hm.cons_inv
    obtain ⟨us, u, rfl, hm, hu⟩ := hm.snoc_inv
    have ht' : t.type = .LBracket := ht.type
    have hu' : u.type = .RBracket := hu.type
    simp only [List.length_append, List.length_cons] at hsz
    obtain ⟨ns, h1, h2⟩ := h.array hn L us c (t :: pv) u (f :: rest) (d :: ds) (p :: qs) hw1 hw3 hw4 hm hu' hw2 (by omega)
    obtain ⟨n1, b, s1, h3, h4⟩ := h2 []
    refine Parsed.first (n := .array t ns) (fun R => parseArray R) (fun R => by rw [ht']; rfl) ?_
      (.of (by simp only [gsx]; rfl) (.array h1) rfl rfl) nofun
    rcases h4 with ⟨rfl, rfl, rfl⟩ | ⟨rfl, h4 | h4⟩
    · refine h3.by1 fun R hR => ?_
      rw [parseArray_eq]
      psim [ht', hR]
    · refine h3.by2 h4.evals fun R hR hR' => ?_
      rw [parseArray_eq]
      psim [ht', hR, hR']
    · refine h3.by2 h4.evals fun R hR hR' => ?_
      rw [parseArray_eq]
      psim [ht', hR, hR', hu']

/-! ### Lists without pairs -/

/-- The body of the loop over values. -/
def commaBody (q : Prec) (R : Rec) (acc : List Node) : P (Loop (List Node) (List Node)) := do
  if (← curTy) = .Comma then
    advance
    let x ← R.exp q
    pure (.again (acc ++ [x]))
  else pure (.done acc)

theorem commaLoop_eq (R : Rec) (q : Prec) (acc : List Node) : commaLoop R (R.exp q) acc = loop (commaBody q R) R.fuel acc := rfl

/-- The parser reads values separated by commas. -/
def SimpleRun (a : Ex .args) : Prop :=
  ∀ (j : Nat) (q : Prec) (L : List Str) (ts : List Token) (c : Cx) (pv : List Token) (f : Token) (rest : List Token)
    (d : Nat) (ds : List Nat) (ws : List Prec), pairPrec j q = true → WF L a = true → simple a = true →
    Ms (toks none a) ts → Slot j d f → f.type ≠ .Comma → Gram.after a f.type = true → d + ts.length < 4294967296 →
    (hasDo a = true → d = 0) →
    ∃ ns arg s1, Lsx ns (sx L a) ∧
      Evals (fun R => R.expr q .CURLY_AND_BLOCK) c ⟨pv, ts ++ f :: rest, d :: ds, ws, L⟩ arg s1 ∧
      ∀ acc, EvalsLoop (commaBody q) (acc ++ [arg]) c s1 (acc ++ ns) ⟨ts.reverse ++ pv, f :: rest, d :: ds, ws, out L a⟩

theorem simple_rest {a : Ex .args} (h : a.isNil = false → SimpleRun a) {j : Nat} {q : Prec} {L : List Str} {ts : List Token}
    (hq : pairPrec j q = true) (hw : WF L a = true) (hsi : simple a = true) (hm : Ms (sep a (toks none a)) ts) {f : Token}
    {d : Nat} (hsl : Slot j d f) (hc : f.type ≠ .Comma) (hf : a.isNil = false → Gram.after a f.type = true)
    (hs : d + ts.length < 4294967296) (hh : hasDo a = true → d = 0) (c : Cx) (pv rest : List Token) (ds : List Nat) (ws : List Prec) :
    ∃ ns, Lsx ns (sx L a) ∧ ∀ acc, EvalsLoop (commaBody q) acc c ⟨pv, ts ++ f :: rest, d :: ds, ws, L⟩ (acc ++ ns)
      ⟨ts.reverse ++ pv, f :: rest, d :: ds, ws, out L a⟩ := by
  rcases hm.sep_inv with ⟨hn, rfl⟩ | ⟨hn, t, us, rfl, ht, hm'⟩
  · cases args_nil hn
    refine ⟨[], by simp only [gsx]; exact .nil, fun acc => .done (.of fun R => ?_)⟩
    unfold commaBody
    psim [hc, List.append_nil]
  · obtain ⟨ns, arg, s1, h1, h2, h3⟩ := h hn j q L us c (t :: pv) f rest d ds ws hq hw hsi hm' hsl hc (hf hn)
      (by simp only [List.length_cons] at hs; omega) hh
    refine ⟨ns, h1, fun acc => .again (h2.by1 fun R hR => ?_) (by simpa only [gram] using h3 acc)⟩
    unfold commaBody
    psim [ht, hR]

theorem AOk.simple {a : Ex .args} (h : AOk a) : a.isNil = false → SimpleRun a := by
  induction h with
  | nil => nofun
  | cons he ha ih =>
    rename_i e a
    intro _ j q L ts c pv f rest d ds ws hq hw hsi hm hsl hc hf hs hh
    have hq' := hq
    unfold pairPrec at hq'
    simp only [gwf, gafter, gtoks, gdo, Bool.and_eq_true, Bool.or_eq_true, decide_eq_true_eq] at hw hm hf hh hq'
    obtain ⟨⟨⟨hw1, hw2⟩, hw3⟩, hw4⟩ := hw
    obtain ⟨tv, tr, rfl, hmv, hmr⟩ := hm.append_inv
    simp only [List.length_append] at hs
    obtain ⟨g, rest', hgr, hsg, hag, hgf⟩ := sep_follow (e := e) hmr (by simpa using hf) hsl rest
    obtain ⟨m, hg', hm'⟩ := he.elem (q := q) (d := d) hw1 hmv hw3 hq'.2 hsg hq'.1 hag (by omega) (fun h => hh (.inl h)) c
      pv rest' ds ws
    obtain ⟨ns, hns, hl⟩ := simple_rest ih hq hw2 hsi hmr hsl hc
      (fun hn => by rw [if_neg (by rw [hn]; nofun), Bool.and_eq_true] at hf; exact hf.2) (by omega) (fun h => hh (.inr h)) c
      (tv.reverse ++ pv) rest ds ws
    obtain ⟨y, hy, hny⟩ := hg'.nsx
    refine ⟨m :: ns, m, _, by simp only [gsx, hy]; exact .cons hny hns, by simpa [hgr] using hm', fun acc => ?_⟩
    have := hl (acc ++ [m])
    rw [hgr] at this
    simpa only [gram] using this
  | splat he ha ih =>
    rename_i e a
    intro _ j q L ts c pv f rest d ds ws hq hw hsi hm hsl hc hf hs hh
    have hq' := hq
    unfold pairPrec at hq'
    simp only [gwf, gafter, gtoks, gdo, Bool.and_eq_true, Bool.or_eq_true, decide_eq_true_eq] at hw hm hf hh hq'
    obtain ⟨⟨⟨hw1, hw2⟩, hw3⟩, hw4⟩ := hw
    obtain ⟨t, us, rfl, ht, hm⟩ := hm.cons_inv
    obtain ⟨tv, tr, rfl, hmv, hmr⟩ := hm.append_inv
    simp only [List.length_append, List.length_cons] at hs
    obtain ⟨g, rest', hgr, hsg, hag, hgf⟩ := sep_follow (e := e) hmr (by simpa using hf) hsl rest
    obtain ⟨m, hg', hm'⟩ := splat_elem he (q := q) (d := d) ht.type hw1 hmv hw3 hsg hq'.1 hag (by omega) (fun h => hh (.inl h)) c
      pv rest' ds ws
    obtain ⟨ns, hns, hl⟩ := simple_rest ih hq hw2 hsi hmr hsl hc
      (fun hn => by rw [if_neg (by rw [hn]; nofun), Bool.and_eq_true] at hf; exact hf.2) (by omega) (fun h => hh (.inr h)) c
      (tv.reverse ++ t :: pv) rest ds ws
    obtain ⟨y, hy, hny⟩ := hg'.nsx
    refine ⟨.splat t (some m) :: ns, _, _, by simp only [gsx, hy]; exact .cons hny.splat hns, by simpa [hgr] using hm', fun acc => ?_⟩
    have := hl (acc ++ [.splat t (some m)])
    rw [hgr] at this
    simpa only [gram] using this
  | pairs hps ha ih => intro _ j q L ts c pv f rest d ds ws hq hw hsi; cases hsi
  | blk he => intro _ j q L ts c pv f rest d ds ws hq hw hsi; cases hsi

end NP.Gram
