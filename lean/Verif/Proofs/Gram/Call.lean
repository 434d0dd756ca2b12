import Verif.Proofs.Gram.Iter

/-! Calls. -/

namespace NP.Gram
open Spec

theorem lhs_le {k : Kind} (e : Ex k) : lhs e ≤ 21 := by
  induction e <;> simp only [glhs] <;> first | omega | (split <;> omega)

/-! ### Steps -/

theorem numeric {L : List Str} {e : Ex .ex} {n : Node} (h : Good L e n) : n.isNumeric = (shape e).isInt := by
  have h1 := h.plain
  rw [← h.shape]
  cases n <;> first | rfl | cases h1

theorem dot_prec {L : List Str} {e : Ex .ex} {n : Node} (h : Good L e n) {p : Prec} {k : Nat} (hp : above p k = true)
    (hk : k ≤ 21) (hk' : (shape e).isInt = true → k ≤ 18) : (if n.isNumeric then Prec.NUMBER_DOT else .DOT).higher p = true := by
  rw [numeric h]
  split
  · exact above.op hp (m := 18) (by decide) (hk' ‹_›)
  · exact above.op hp (m := 21) (by decide) hk

/-- The name of a method after a dot. -/
theorem send_step {safe : Bool} {t u : Token} {m : Str} (ht : Bears (dot safe) t) {w : Option Bool} (hu : Bears ⟨w, .name m⟩ u) {n b : Node}
    {p : Prec} (hp : (if n.isNumeric then Prec.NUMBER_DOT else .DOT).higher p = true) (hk : n.isSymbolKey = false) {ia : IterAllow} {c : Cx}
    {pv rest : List Token} {d : Nat} {ds : List Nat} {qs : List Prec} {L : List Str} {s' : PS}
    (h : EvalsRest p ia (sendN safe t n m) c ⟨u :: t :: pv, rest, d :: ds, p :: qs, L⟩ b s') :
    EvalsRest p ia n c ⟨pv, t :: u :: rest, d :: ds, p :: qs, L⟩ b s' := by
  have hu' : u.type = .BareName := hu.type
  cases safe with
  | false =>
    have ht' : t.type = .Dot := ht.type
    refine infix_step (q := if n.isNumeric then Prec.NUMBER_DOT else .DOT) (fun _ => parseSend n) (by rw [ht']; rfl) ?_ hp ?_ ?_ hk
      (fun R => ?_) (.of fun R => ?_) h
    · unfold getPrec
      rw [ht']
    · split <;> nofun
    · split <;> nofun
    · unfold leftDenotation
      rw [ht']
      show (if u.type = .LParen then _ else _) = _
      rw [if_neg (by rw [hu']; nofun)]
    · unfold parseSend
      psim [hu', litOf_eq hu.lit]
      rfl
  | true =>
    have ht' : t.type = .SafeNavigation := ht.type
    refine infix_step (q := if n.isNumeric then Prec.NUMBER_DOT else .DOT) (fun _ => parseSafeSend n) (by rw [ht']; rfl) ?_ hp ?_ ?_ hk
      (fun R => ?_) (.of fun R => ?_) h
    · unfold getPrec
      rw [ht']
    · split <;> nofun
    · split <;> nofun
    · unfold leftDenotation
      rw [ht']
    · unfold parseSafeSend
      psim [hu', litOf_eq hu.lit]
      rfl

/-- Arguments between brackets. -/
theorem closed_args {a : Ex .args} (h : AOk a) (hn : a.isNil = false) {cl : Ttype} (hcl : cl = .RParen ∨ cl = .RBracket)
    {L : List Str} {ts : List Token} (hw : WF L a = true) (hm : Ms (toks none a) ts) {u : Token} (hu : u.type = cl)
    (hf : after a cl = true) {d : Nat} (hs : d + ts.length < 4294967296) (hh : hasDo a = true → d = 0) (c : Cx)
    (pv rest : List Token) (ds : List Nat) (qs : List Prec) :
    ∃ ns, Lsx ns (sx L a) ∧ (blockless a = true → ∀ n ∈ ns, n.isBlockPass = false) ∧ ns ≠ [] ∧ ∀ node : Node,
      Evals (fun R => parseCallArgs R node false cl) c ⟨pv, ts ++ u :: rest, d :: ds, qs, L⟩ (ns.foldl Node.addArg node)
        ⟨ts.reverse ++ pv, u :: rest, d :: ds, qs, out L a⟩ := by
  obtain ⟨ns, h1, h2, h3, h4⟩ := args_evals h hn (bare := false) (cl := cl) (f := u) (by rcases hcl with rfl | rfl <;> rfl) hw hm
    ⟨⟨.inl (by rw [hu]; rcases hcl with rfl | rfl <;> decide), by rw [hu]; rcases hcl with rfl | rfl <;> nofun⟩,
      by rw [hu]; rcases hcl with rfl | rfl <;> nofun, by rw [hu]; rcases hcl with rfl | rfl <;> nofun⟩
    (by rw [hu]; exact hf) hs hh c pv rest ds qs
  refine ⟨ns, h1, h2, h3, fun node => (h4 node).by1 fun R hR => ?_⟩
  rw [parseCallArgs_eq]
  psim [Bool.false_and, hR]

/-- Arguments in parentheses. -/
theorem paren_args {a : Ex .args} (h : AOk a) {L : List Str} {ts : List Token} (hw : WF L a = true) (hm : Ms (toks none a) ts)
    {t u : Token} (ht : Bears lparen t) (hu : Bears rparen u) (hf : after a .RParen = true) {d : Nat}
    (hs : d + ts.length < 4294967296) (hh : hasDo a = true → d = 0) (c : Cx) (pv rest : List Token) (ds : List Nat) (qs : List Prec) :
    ∃ ns, Lsx ns (sx L a) ∧ (blockless a = true → ∀ n ∈ ns, n.isBlockPass = false) ∧
      ∀ n n0 : Node, (∀ s, toNodeWithArgs n c s = .ok n0 s) →
        Evals (fun R => parseCallWithParens R n) c ⟨pv, t :: (ts ++ u :: rest), d :: ds, qs, L⟩ (ns.foldl Node.addArg n0)
          ⟨u :: (ts.reverse ++ t :: pv), rest, d :: ds, qs, out L a⟩ := by
  have ht' : t.type = .LParen := ht.type
  have hws : t.ws = false := ht.ws _ rfl
  have hu' : u.type = .RParen := hu.type
  by_cases hn : a.isNil = true
  · cases args_nil hn
    cases hm.nil_inv
    refine ⟨[], .nil, fun _ => nofun, fun n n0 h0 => .of fun R => ?_⟩
    unfold parseCallWithParens
    psim [h0, hu', hws]
    rfl
  · rw [Bool.not_eq_true] at hn
    obtain ⟨v, vs, hv, hb, -⟩ := Ms.args hn hw hm
    obtain ⟨ns, h1, h2, -, h3⟩ := closed_args h hn (.inl rfl) hw hm hu' hf hs hh c (t :: pv) rest ds qs
    refine ⟨ns, h1, h2, fun n n0 h0 => (h3 n0).by1 fun R hR => ?_⟩
    have hv' : v.type ≠ .RParen := hb.closer rfl
    rw [hv, List.cons_append] at hR
    unfold parseCallWithParens
    rw [hv]
    psim [h0, hv', hR, hu']

theorem paren_step {a : Ex .args} (h : AOk a) {L : List Str} {ts : List Token} (hw : WF L a = true) (hm : Ms (toks none a) ts)
    {t u : Token} (ht : Bears lparen t) (hu : Bears rparen u) (hf : after a .RParen = true) {d : Nat}
    (hs : d + ts.length < 4294967296) (hh : hasDo a = true → d = 0) (c : Cx) (pv rest : List Token) (ds : List Nat) (qs : List Prec)
    {p : Prec} {k : Nat} (hp : above p k = true) (hk : k ≤ 21) :
    ∃ ns, Lsx ns (sx L a) ∧ (blockless a = true → ∀ n ∈ ns, n.isBlockPass = false) ∧
      ∀ (n n0 b : Node) (ia : IterAllow) (s' : PS), (∀ s, toNodeWithArgs n c s = .ok n0 s) → n.isSymbolKey = false →
        EvalsRest p ia (ns.foldl Node.addArg n0) c ⟨u :: (ts.reverse ++ t :: pv), rest, d :: ds, p :: qs, out L a⟩ b s' →
        EvalsRest p ia n c ⟨pv, t :: (ts ++ u :: rest), d :: ds, p :: qs, L⟩ b s' := by
  have ht' : t.type = .LParen := ht.type
  have hws : t.ws = false := ht.ws _ rfl
  obtain ⟨ns, h1, h2, h3⟩ := paren_args h hw hm ht hu hf hs hh c pv rest ds (p :: qs)
  refine ⟨ns, h1, h2, fun n n0 b ia s' h0 hkey hr => ?_⟩
  refine infix_step (q := .CALL) (fun R => parseCallWithParens R n) (by rw [ht']; rfl) ?_
    (above.op hp (m := 21) (by decide) hk) nofun nofun hkey (fun R => ?_) (h3 n n0 h0) hr
  · unfold getPrec
    rw [ht']
  · unfold leftDenotation
    rw [ht']
    simp only [hws, Bool.not_false, if_true]

/-- Arguments in brackets. -/
theorem ref_step {a : Ex .args} (h : AOk a) (hn : a.isNil = false) {L : List Str} {ts : List Token} (hw : WF L a = true)
    (hm : Ms (toks none a) ts) {t u : Token} (ht : Bears (glued (cs! "[") .LBracket) t) (hu : u.type = .RBracket)
    (hf : after a .RBracket = true) {d : Nat}
    (hs : d + ts.length < 4294967296) (hh : hasDo a = true → d = 0) (c : Cx) (pv rest : List Token) (ds : List Nat) (qs : List Prec)
    {p : Prec} {k : Nat} (hp : above p k = true) (hk : k ≤ 21) :
    ∃ ns, Lsx ns (sx L a) ∧ ns ≠ [] ∧
      ∀ (n b : Node) (ia : IterAllow) (s' : PS), n.isSymbolKey = false →
        EvalsRest p ia (.call t n (cs! "[]") ns) c ⟨u :: (ts.reverse ++ t :: pv), rest, d :: ds, p :: qs, out L a⟩ b s' →
        EvalsRest p ia n c ⟨pv, t :: (ts ++ u :: rest), d :: ds, p :: qs, L⟩ b s' := by
  have ht' : t.type = .LBracket := ht.type
  have hws : t.ws = false := ht.ws _ rfl
  obtain ⟨v, vs, hv, hb, -⟩ := Ms.args hn hw hm
  have hv' : v.type ≠ .RBracket := hb.closer rfl
  obtain ⟨ns, h1, h2, h3, h4⟩ := closed_args h hn (.inr rfl) hw hm hu hf hs hh c (t :: pv) rest ds (p :: qs)
  refine ⟨ns, h1, h3, fun n b ia s' hkey hr => ?_⟩
  refine infix_step (q := .REF) (fun R => parseRef R n) (by rw [ht']; rfl) ?_
    (above.op hp (m := 21) (by decide) hk) nofun nofun hkey (fun R => ?_) ((h4 (.call t n (cs! "[]") [])).by1 fun R hR => ?_) hr
  · unfold getPrec
    rw [ht']
    simp only [bracketIsRef, hws, Bool.not_false, Bool.true_or, if_true]
  · unfold leftDenotation
    rw [ht']
    simp only [bracketIsRef, hws, Bool.not_false, Bool.true_or, if_true]
  · rw [fold_call, List.nil_append] at hR
    rw [hv, List.cons_append] at hR
    unfold parseRef
    rw [hv]
    psim [ht', hv', hR, hu]

/-! ### Calls with parentheses -/

theorem noBlock_accepts (t : Token) (r : Node) (m : Str) (as' : List Node) : (Node.call t r m as').canAcceptABlock = !noBlock m := by
  unfold Node.canAcceptABlock noBlock
  simp [beq_eq_decide, Bool.and_assoc]

theorem noBlock_safe (t : Token) (r : Node) (m : Str) (as' : List Node) : (Node.safeCall t r m as').canAcceptABlock = !noBlock m := by
  unfold Node.canAcceptABlock noBlock
  simp [beq_eq_decide, Bool.and_assoc]

theorem no_pass {ns : List Node} (h : ∀ n ∈ ns, n.isBlockPass = false) : (ns.getLast?.map Node.isBlockPass).getD false = false := by
  cases hl : ns.getLast? with
  | none => rfl
  | some n => exact h n (List.mem_of_getLast? hl)

theorem fcall_ok (x : Str) (a : Ex .args) (h : AOk a) : ExOk (.fcall x a) := by
  intro L w ts hw hm c pv f rest d ds p qs ia ha
  have hsz := ha.size
  have hdo := ha.has
  simp only [gwf, gdo, Bool.and_eq_true] at hw hdo
  simp only [gtoks] at hm
  obtain ⟨v, us, rfl, hv, hm⟩ := hm.cons_inv
  obtain ⟨t, us, rfl, ht, hm⟩ := hm.cons_inv
  obtain ⟨us, u, rfl, hm, hu⟩ := hm.snoc_inv
  have hv := VarTok.of (v := .loc x) hv
  simp only [List.length_append, List.length_cons] at hsz
  obtain ⟨ns, h1, h2, h3⟩ := paren_step h hw.1 hm ht hu hw.2 (d := d) (by omega) (fun h => (hdo h).1) c (v :: pv) (f :: rest) ds qs
    ha.above (lhs_le _)
  refine ⟨.call v (.nil v) x ns, .of (by simp only [gsx]; rfl) (.fcall h1 v x) rfl rfl, fun hc => ?_, fun b s' hr => ?_⟩
  · simp only [callee, Bool.and_eq_true] at hc
    refine ⟨rfl, by rw [noBlock_accepts]; exact hc.2, no_pass (h2 hc.1), fun _ => ?_⟩
    have : u.type = .RParen := hu.type
    simpa using this
  · simp only [gram] at hr ⊢
    refine .first (fun _ => parseIdentifier) (fun R => hv.null R) (.of fun R => run_identifier hv.name _ _ _ _ _ _) ?_
    have := h3 (.identifier v (L.contains x)) (.call v (.nil v) x []) b ia s'
      (fun s => by unfold toNodeWithArgs; psim [litOf_eq hv.name]; rfl) rfl
    rw [fold_call, List.nil_append] at this
    exact this hr

theorem superA_ok (a : Ex .args) (h : AOk a) : ExOk (.superA a) := by
  intro L w ts hw hm c pv f rest d ds p qs ia ha
  have hsz := ha.size
  have hdo := ha.has
  simp only [gwf, gdo, Bool.and_eq_true] at hw hdo
  simp only [gtoks] at hm
  obtain ⟨v, us, rfl, hv, hm⟩ := hm.cons_inv
  obtain ⟨t, us, rfl, ht, hm⟩ := hm.cons_inv
  obtain ⟨us, u, rfl, hm, hu⟩ := hm.snoc_inv
  have hv' : v.type = .SuperKeyword := hv.type
  have ht' : t.type = .LParen := ht.type
  simp only [List.length_append, List.length_cons] at hsz
  obtain ⟨ns, h1, h2, h3⟩ := paren_step h hw.1 hm ht hu hw.2 (d := d) (by omega) (fun h => (hdo h).1) c (v :: pv) (f :: rest) ds qs
    ha.above (lhs_le _)
  refine ⟨.super v true ns, .of (by simp only [gsx]; rfl) (.superA h1) rfl rfl, fun hc => ?_, fun b s' hr => ?_⟩
  · simp only [callee] at hc
    exact ⟨rfl, rfl, no_pass (h2 hc), nofun⟩
  · simp only [gram] at hr ⊢
    refine .first (l := .super v true []) (fun _ => parseSuper) (fun R => by show nullDenotation R v.type = _; rw [hv']; rfl)
      (.of fun R => by unfold parseSuper; psim [ht']; rfl) ?_
    have := h3 (.super v true []) (.super v true []) b ia s' (fun s => rfl) rfl
    rw [fold_super, List.nil_append] at this
    exact this hr

theorem yieldA_ok (a : Ex .args) (h : AOk a) : ExOk (.yieldA a) := by
  intro L w ts hw hm c pv f rest d ds p qs ia ha
  have hsz := ha.size
  have hdo := ha.has
  simp only [gwf, gdo, Bool.and_eq_true] at hw hdo
  simp only [gtoks] at hm
  obtain ⟨v, us, rfl, hv, hm⟩ := hm.cons_inv
  obtain ⟨t, us, rfl, ht, hm⟩ := hm.cons_inv
  obtain ⟨us, u, rfl, hm, hu⟩ := hm.snoc_inv
  have hv' : v.type = .YieldKeyword := hv.type
  simp only [List.length_append, List.length_cons] at hsz
  obtain ⟨ns, h1, h2, h3⟩ := paren_step h hw.1.1 hm ht hu hw.1.2 (d := d) (by omega) (fun h => (hdo h).1) c (v :: pv) (f :: rest) ds qs
    ha.above (lhs_le _)
  refine ⟨.yield v ns, .of (by simp only [gsx]; rfl) (.yield h1) rfl rfl, nofun, fun b s' hr => ?_⟩
  simp only [gram] at hr ⊢
  refine .first (l := .yield v []) (fun _ => parseOne fun t => .yield t []) (fun R => by show nullDenotation R v.type = _; rw [hv']; rfl)
    (.of fun R => rfl) ?_
  have := h3 (.yield v []) (.yield v []) b ia s' (fun s => rfl) rfl
  rw [fold_yield, List.nil_append] at this
  exact this hr

/-- The dot after an expression. -/
theorem dot_type {safe : Bool} {t : Token} (ht : Bears (dot safe) t) : t.type = (dot safe).p.type ∧ t.type ≠ .DoKeyword := by
  refine ⟨ht.type, ?_⟩
  rw [ht.type]
  cases safe <;> nofun

theorem send_ok (safe : Bool) (r : Ex .ex) (m : Str) (hr : ExOk r) : ExOk (.send safe r m) := by
  intro L w ts hw hm c pv f rest d ds p qs ia ha
  have hab := ha.above
  simp only [gwf, Bool.and_eq_true] at hw
  simp only [gtoks] at hm
  obtain ⟨tr, us, rfl, hm1, hm'⟩ := hm.append_inv
  obtain ⟨t, us, rfl, ht, hm'⟩ := hm'.cons_inv
  obtain ⟨u, rfl, hu⟩ := hm'.one_inv
  obtain ⟨ht1, ht2⟩ := dot_type ht
  obtain ⟨n, hg, -, hn⟩ := hr L w tr hw.1 hm1 c pv t (u :: f :: rest) d ds p qs ia
    (ha.left (by simp only [glhs]; split <;> omega) (by rw [ht1]; exact hw.2) (by simp) (fun h => absurd h ht2)
      (fun h => by simpa only [gdo] using h))
  obtain ⟨x, hx, hnx⟩ := hg.nsx
  refine ⟨sendN safe t n m, .of (by simp only [gsx]; rw [hx]; rfl) (hnx.send safe m) ?_ ?_, fun hc => ?_, fun b s' h => ?_⟩
  · cases safe <;> rfl
  · cases safe <;> rfl
  · simp only [callee] at hc
    cases safe
    · exact ⟨rfl, (noBlock_accepts _ _ _ _).trans hc, rfl, nofun⟩
    · exact ⟨rfl, (noBlock_safe _ _ _ _).trans hc, rfl, nofun⟩
  · have hp := dot_prec hg hab (lhs_le _) fun h => by simp only [glhs, h, if_true]; omega
    have := hn b s' (send_step ht hu hp (plain_key hg.plain) (by simpa only [gram] using h))
    simpa only [gram] using this

/-- A call with arguments in parentheses. -/
def sendA (safe : Bool) (u : Token) (a : Node) (m : Str) (ns : List Node) : Node := if safe then .safeCall u a m ns else .call u a m ns

theorem sendN_fold (safe : Bool) (u : Token) (a : Node) (m : Str) (ns : List Node) :
    ns.foldl Node.addArg (sendN safe u a m) = sendA safe u a m ns := by
  cases safe
  · exact fold_call _ _ _ _ _
  · exact fold_safe _ _ _ _ _

theorem Nsx.sendA {a : Node} {x : Sexp} {ns : List Node} {xs : List Sexp} {t : Token} (h : Nsx a x) (h' : Lsx ns xs) (safe : Bool) (m : Str) :
    Nsx (sendA safe t a m ns) (.node (Gram.call safe) (x :: .sym m :: xs)) := by
  cases safe
  · exact h.call h' m
  · exact h.safeCall h' m

theorem sendN_args (safe : Bool) (u : Token) (a : Node) (m : Str) (c : Cx) (s : PS) :
    toNodeWithArgs (sendN safe u a m) c s = .ok (sendN safe u a m) s := by
  cases safe <;> rfl

theorem sendN_key (safe : Bool) (u : Token) (a : Node) (m : Str) : (sendN safe u a m).isSymbolKey = false := by
  cases safe <;> rfl

theorem sendA_accepts (safe : Bool) (u : Token) (a : Node) (m : Str) (ns : List Node) :
    (sendA safe u a m ns).canAcceptABlock = !noBlock m := by
  cases safe
  · exact noBlock_accepts _ _ _ _
  · exact noBlock_safe _ _ _ _

theorem sendA_pass (safe : Bool) (u : Token) (a : Node) (m : Str) {ns : List Node} (h : ∀ n ∈ ns, n.isBlockPass = false) :
    (sendA safe u a m ns).hasBlockPass = false := by
  cases safe <;> exact no_pass h

theorem sendA_ok (safe : Bool) (r : Ex .ex) (m : Str) (a : Ex .args) (hr : ExOk r) (h : AOk a) : ExOk (.sendA safe r m a) := by
  intro L w ts hw hm c pv f rest d ds p qs ia ha
  have hab := ha.above
  have hsz := ha.size
  have hdo := ha.has
  simp only [gwf, gdo, Bool.and_eq_true, Bool.or_eq_true] at hw hdo
  simp only [gtoks] at hm
  obtain ⟨⟨⟨hw1, hw2⟩, hw3⟩, hw4⟩ := hw
  obtain ⟨tr, us, rfl, hm1, hm'⟩ := hm.append_inv
  obtain ⟨t, us, rfl, ht, hm'⟩ := hm'.cons_inv
  obtain ⟨v, us, rfl, hv, hm'⟩ := hm'.cons_inv
  obtain ⟨p1, us, rfl, hp1, hm'⟩ := hm'.cons_inv
  obtain ⟨us, p2, rfl, hm', hp2⟩ := hm'.snoc_inv
  obtain ⟨ht1, ht2⟩ := dot_type ht
  simp only [List.length_append, List.length_cons] at hsz
  obtain ⟨n, hg, -, hn⟩ := hr L w tr hw1 hm1 c pv t (v :: p1 :: (us ++ p2 :: f :: rest)) d ds p qs ia
    (ha.left (by simp only [glhs]; split <;> omega) (by rw [ht1]; exact hw2) (by simp) (fun h => absurd h ht2)
      (fun h => by simp only [gdo, h, Bool.true_or]))
  obtain ⟨x, hx, hnx⟩ := hg.nsx
  obtain ⟨ns, h1, h2, h3⟩ := paren_step h hw3 hm' hp1 hp2 hw4 (d := d) (by omega) (fun h => (hdo (.inr h)).1) c (v :: t :: (tr.reverse ++ pv))
    (f :: rest) ds qs hab (lhs_le _)
  refine ⟨sendA safe t n m ns, .of (by simp only [gsx]; rw [hx]; rfl) (hnx.sendA h1 safe m) ?_ ?_, fun hc => ?_, fun b s' h => ?_⟩
  · cases safe <;> rfl
  · cases safe <;> rfl
  · simp only [callee, Bool.and_eq_true] at hc
    refine ⟨by cases safe <;> rfl, (sendA_accepts _ _ _ _ _).trans hc.2, sendA_pass _ _ _ _ (h2 hc.1), fun _ => ?_⟩
    have : p2.type = .RParen := hp2.type
    simpa using this
  · have hp := dot_prec hg hab (lhs_le _) fun h => by simp only [glhs, h, if_true]; omega
    have h4 := h3 (sendN safe t n m) (sendN safe t n m) b ia s' (fun s => sendN_args _ _ _ _ _ _) (sendN_key _ _ _ _)
    rw [sendN_fold] at h4
    have := hn b s' (send_step ht hv hp (plain_key hg.plain) (h4 (by simpa only [gram] using h)))
    simpa only [gram] using this

theorem index_ok (r : Ex .ex) (a : Ex .args) (hr : ExOk r) (h : AOk a) : ExOk (.index r a) := by
  intro L w ts hw hm c pv f rest d ds p qs ia ha
  have hab := ha.above
  have hsz := ha.size
  have hdo := ha.has
  simp only [gwf, gdo, Bool.and_eq_true, Bool.or_eq_true, Bool.not_eq_true'] at hw hdo
  simp only [gtoks] at hm
  obtain ⟨⟨⟨⟨⟨hw1, hw2⟩, hw3⟩, hw4⟩, hw5⟩, hw6⟩ := hw
  obtain ⟨tr, us, rfl, hm1, hm'⟩ := hm.append_inv
  obtain ⟨t, us, rfl, ht, hm'⟩ := hm'.cons_inv
  obtain ⟨us, u, rfl, hm', hu⟩ := hm'.snoc_inv
  have ht' : t.type = .LBracket := ht.type
  simp only [List.length_append, List.length_cons] at hsz
  obtain ⟨n, hg, -, hn⟩ := hr L w tr hw1 hm1 c pv t (us ++ u :: f :: rest) d ds p qs ia
    (ha.left (by simp only [glhs]; omega) (by rw [ht']; exact hw2) (by simp) (fun h => absurd (ht'.symm.trans h) nofun)
      (fun h => by simp only [gdo, h, Bool.true_or]))
  obtain ⟨x, hx, hnx⟩ := hg.nsx
  obtain ⟨ns, h1, -, h3⟩ := ref_step h hw6 hw3 hm' ht hu.type hw4 (d := d) (by omega) (fun h => (hdo (.inr h)).1) c (tr.reverse ++ pv)
    (f :: rest) ds qs hab (lhs_le _)
  refine ⟨.call t n (cs! "[]") ns, .of (by simp only [gsx]; rw [hx]; rfl) (hnx.call h1 _) rfl rfl, nofun, fun b s' h => ?_⟩
  have := hn b s' (h3 n b ia s' (plain_key hg.plain) (by simpa only [gram] using h))
  simpa only [gram] using this

theorem colon2_ok (r : Ex .ex) (m : Str) (hr : ExOk r) : ExOk (.colon2 r m) := by
  intro L w ts hw hm c pv f rest d ds p qs ia ha
  have hab := ha.above
  simp only [gwf, Bool.and_eq_true] at hw
  simp only [gtoks] at hm
  obtain ⟨tr, us, rfl, hm1, hm'⟩ := hm.append_inv
  obtain ⟨t, us, rfl, ht, hm'⟩ := hm'.cons_inv
  obtain ⟨u, rfl, hu⟩ := hm'.one_inv
  have ht' : t.type = .ConstantResolution := ht.type
  have hws : t.ws = false := ht.ws _ rfl
  have hu' : u.type = .Constant := hu.type
  refine Parsed.infix (q := .CONSTANT_RESOLUTION) (w := w) hr hw.1 hm1
    (ha.left (by simp only [glhs]; omega) (by rw [ht']; exact hw.2) (by simp) (fun h => absurd (ht'.symm.trans h) nofun)
      (fun h => by simpa only [gdo] using h))
    (by rw [ht']; rfl) (fun n _ _ => by unfold getPrec; rw [ht']) (above.op hab (m := 21) (by decide) (lhs_le _)) nofun nofun
    fun n hg _ => ?_
  obtain ⟨x, hx, hnx⟩ := hg.nsx
  refine ⟨.colon2 u n m, .of (by simp only [gsx]; rw [hx]; rfl) (hnx.colon2 m) rfl rfl, nofun,
    fun R => parseConstantResolution R n, fun R => ?_, .of fun R => ?_⟩
  · unfold leftDenotation
    rw [ht']
    simp only [hws, Bool.false_eq_true, if_false]
  · unfold parseConstantResolution
    psim [hu', litOf_eq hu.lit]

end NP.Gram
