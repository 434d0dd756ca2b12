import Mathlib.Tactic.IntervalCases
import Verif.Proofs.Gram.Bin

/-! Elements of lists. -/

namespace NP.Gram
open Spec

/-! ### Where elements end -/

/-- An element of a list ends at the token. -/
structure Slot (j d : Nat) (f : Token) : Prop where
  need : Gram.need f.type ≤ j ∨ f.type = .Comma
  do_ : f.type = .DoKeyword → d ≠ 0

/-- Elements of lists are parsed at the precedence. -/
def slots (j : Nat) (q : Prec) : Bool := j ≤ 5 && ending j q && !Prec.higher .ARRAY q

theorem slots.splat {j : Nat} {q : Prec} (h : slots j q = true) : slots j .SPLAT = true := by
  unfold slots at h
  simp only [Bool.and_eq_true, decide_eq_true_eq] at h
  have := h.1.1
  interval_cases j <;> decide

theorem Slot.ends {j d : Nat} {f : Token} (h : Slot j d f) {q : Prec} (hq : slots j q = true) : Ends q d f := by
  unfold slots at hq
  simp only [Bool.and_eq_true, decide_eq_true_eq, Bool.not_eq_true'] at hq
  rcases h.need with hn | hn
  · exact ⟨by omega, ending.at hq.1.2 hn (by omega), h.do_⟩
  · exact ⟨by rw [hn]; decide, by rw [hn]; exact hq.2, h.do_⟩

theorem Slot.comma {j d : Nat} {f : Token} (h : f.type = .Comma) : Slot j d f := ⟨.inr h, fun h' => by rw [h] at h'; cases h'⟩

theorem Slot.zero {j d : Nat} {f : Token} {ty : Ttype} (h : f.type = ty) (hn : Gram.need ty = 0) (hd : ty ≠ .DoKeyword) : Slot j d f :=
  ⟨.inl (by rw [h, hn]; omega), fun h' => absurd (h.symm.trans h') hd⟩

/-- An element. -/
theorem ExOk.elem {e : Ex .ex} (h : ExOk e) {L : List Str} {w : Option Bool} {us : List Token} {f : Token} {d : Nat}
    {q : Prec} {j k : Nat} (hw : WF L e = true) (hm : Ms (toks w e) us) (hl : k ≤ lhs e) (hab : above q k = true)
    (hsl : Slot j d f) (hq : slots j q = true) (hf : Gram.after e f.type = true) (hs : d + us.length < 4294967296)
    (hh : hasDo e = true → d = 0) (c : Cx) (pv rest : List Token) (ds : List Nat) (ps : List Prec) :
    ∃ n, Good L e n ∧ Evals (fun R => R.expr q .CURLY_AND_BLOCK) c ⟨pv, us ++ f :: rest, d :: ds, ps, L⟩ n
      ⟨us.reverse ++ pv, f :: rest, d :: ds, ps, out L e⟩ :=
  h.nested (ia := .CURLY_AND_BLOCK) hw hm ⟨above.mono hab hl, hf, nofun, hs, fun h => .inl (hsl.do_ h), fun h => ⟨hh h, rfl⟩⟩ (hsl.ends hq) c pv rest ds ps

/-- An expression that is not one of the grammar. -/
theorem prefix_evals {q : Prec} {ia : IterAllow} {c : Cx} {t : Token} {n : Node} {pv ts pv' rest : List Token} {f : Token} {d : Nat}
    {ds : List Nat} {ps : List Prec} {L L' : List Str} (F : Rec → P Node) (hn : ∀ R, nullDenotation R t.type = some (F R))
    (hl : t.type.isEndOfLine = false)
    (hF : Evals F c ⟨pv, t :: ts, d :: ds, q :: ps, L⟩ n ⟨pv', f :: rest, d :: ds, q :: ps, L'⟩)
    (he : n.isSymbolKey = true ∨ n.isSymbolKey = false ∧ Ends q d f) :
    Evals (fun R => R.expr q ia) c ⟨pv, t :: ts, d :: ds, ps, L⟩ n ⟨pv', f :: rest, d :: ds, ps, L'⟩ := by
  refine (EvalsFrom.expression (s := ⟨pv, t :: ts, d :: ds, ps, L⟩) (s' := ⟨pv', f :: rest, d :: ds, q :: ps, L'⟩) rfl hl
    (.first F hn hF (.stop ?_)) rfl).expr
  rcases he with he | ⟨h1, h2⟩
  · show higherPrecedence f n q ia c _ = _
    unfold higherPrecedence
    simp only [he, if_true]
  · exact h2.stops h1 ia c _ _ _ _ _

/-- What is known of an element. -/
structure Elem (n : Node) : Prop where
  key : n.isSymbolKey = false
  splat : n.isKeywordSplat = false

theorem plain_elem {n : Node} (h : plain n = true) : Elem n := by
  constructor <;> cases n <;> first | rfl | cases h

theorem plain_pass {n : Node} (h : plain n = true) : n.isBlockPass = false := by
  cases n <;> first | rfl | cases h

/-- `*e` -/
theorem splat_elem {e : Ex .ex} (h : ExOk e) {L : List Str} {us : List Token} {f t : Token} {j d : Nat}
    {q : Prec} (ht : t.type = .Star) (hw : WF L e = true) (hm : Ms (toks none e) us) (hl : 11 ≤ lhs e)
    (hsl : Slot j d f) (hq : slots j q = true) (hf : Gram.after e f.type = true) (hs : d + us.length < 4294967296)
    (hh : hasDo e = true → d = 0) (c : Cx) (pv rest : List Token) (ds : List Nat) (ps : List Prec) :
    ∃ n, Good L e n ∧ Evals (fun R => R.expr q .CURLY_AND_BLOCK) c ⟨pv, t :: (us ++ f :: rest), d :: ds, ps, L⟩ (.splat t (some n))
      ⟨us.reverse ++ t :: pv, f :: rest, d :: ds, ps, out L e⟩ := by
  obtain ⟨n, hg, hn⟩ := h.elem (q := .SPLAT) hw hm hl (by decide) hsl (slots.splat hq) hf hs hh c (t :: pv) rest ds (q :: ps)
  refine ⟨n, hg, prefix_evals (fun R => parseSplat R) (fun R => by rw [ht]; rfl) (by rw [ht]; rfl) (hn.by1 fun R hR => ?_)
    (.inr ⟨rfl, hsl.ends hq⟩)⟩
  obtain ⟨u, us', rfl, hu, -⟩ := hm.first
  have h1 := (Opens.of hu).comma
  have h2 := (Opens.of hu).equal
  unfold parseSplat
  rw [List.cons_append] at *
  psim [hR, h1, h2]

/-- `**e` -/
theorem kwsplat_elem {e : Ex .ex} (h : ExOk e) {L : List Str} {us : List Token} {f t : Token} {j d : Nat}
    {q : Prec} (ht : t.type = .StarStar) (hw : WF L e = true) (hm : Ms (toks none e) us) (hl : 11 ≤ lhs e)
    (hsl : Slot j d f) (hq : slots j q = true) (hf : Gram.after e f.type = true) (hs : d + us.length < 4294967296)
    (hh : hasDo e = true → d = 0) (c : Cx) (pv rest : List Token) (ds : List Nat) (ps : List Prec) :
    ∃ n, Good L e n ∧ Evals (fun R => R.expr q .CURLY_AND_BLOCK) c ⟨pv, t :: (us ++ f :: rest), d :: ds, ps, L⟩ (.keywordSplat t n)
      ⟨us.reverse ++ t :: pv, f :: rest, d :: ds, ps, out L e⟩ := by
  obtain ⟨n, hg, hn⟩ := h.elem (q := .SPLAT) hw hm hl (by decide) hsl (slots.splat hq) hf hs hh c (t :: pv) rest ds (q :: ps)
  refine ⟨n, hg, prefix_evals (fun R => parseKeywordSplat R) (fun R => by rw [ht]; rfl) (by rw [ht]; rfl) (hn.by1 fun R hR => ?_)
    (.inr ⟨rfl, hsl.ends hq⟩)⟩
  unfold parseKeywordSplat
  psim [hR]

/-- `&e` -/
theorem pass_run {e : Ex .ex} (h : ExOk e) {L : List Str} {us : List Token} {f t : Token} {d : Nat}
    (hw : WF L e = true) (hm : Ms (toks none e) us)
    (hz : need f.type = 0) (hd : f.type = .DoKeyword → d ≠ 0) (hf : Gram.after e f.type = true) (hs : d + us.length < 4294967296)
    (hh : hasDo e = true → d = 0) (c : Cx) (pv rest : List Token) (ds : List Nat) (ps : List Prec) :
    ∃ n, Good L e n ∧ Evals (fun R => parseBlockPass R) c ⟨pv, t :: (us ++ f :: rest), d :: ds, ps, L⟩ (.blockPass t n)
      ⟨us.reverse ++ t :: pv, f :: rest, d :: ds, ps, out L e⟩ := by
  obtain ⟨n, hg, hn⟩ := h.nested (q := .LOWEST) (ia := .CURLY_AND_BLOCK) (f := f) (d := d) hw hm
    ⟨above.mono (show above .LOWEST 0 = true by decide) (by omega), hf, nofun, hs, fun h => .inl (hd h), fun h => ⟨hh h, rfl⟩⟩
    ⟨by omega, ending.at (n := 0) (by decide) (by omega) (by omega), hd⟩ c (t :: pv) rest ds ps
  refine ⟨n, hg, hn.by1 fun R hR => ?_⟩
  unfold parseBlockPass
  psim [hR]

theorem pass_elem {e : Ex .ex} (h : ExOk e) {L : List Str} {us : List Token} {f t : Token} {j d : Nat}
    {q : Prec} (ht : t.type = .Ampersand) (hw : WF L e = true) (hm : Ms (toks none e) us)
    (hz : need f.type = 0) (hsl : Slot j d f) (hq : slots j q = true) (hf : Gram.after e f.type = true) (hs : d + us.length < 4294967296)
    (hh : hasDo e = true → d = 0) (c : Cx) (pv rest : List Token) (ds : List Nat) (ps : List Prec) :
    ∃ n, Good L e n ∧ Evals (fun R => R.expr q .CURLY_AND_BLOCK) c ⟨pv, t :: (us ++ f :: rest), d :: ds, ps, L⟩ (.blockPass t n)
      ⟨us.reverse ++ t :: pv, f :: rest, d :: ds, ps, out L e⟩ := by
  obtain ⟨n, hg, hn⟩ := pass_run (t := t) h hw hm hz hsl.do_ hf hs hh c pv rest ds (q :: ps)
  exact ⟨n, hg, prefix_evals (fun R => parseBlockPass R) (fun R => by rw [ht]; rfl) (by rw [ht]; rfl) hn
    (.inr ⟨rfl, hsl.ends hq⟩)⟩

/-- `x:` -/
theorem key_elem {t : Token} {x : Str} {q : Prec} (ht : t.type = .SymbolKey) (hl : t.lit = some x) (c : Cx) (pv : List Token)
    (f : Token) (rest : List Token) (d : Nat) (ds : List Nat) (ps : List Prec) (L : List Str) :
    Evals (fun R => R.expr q .CURLY_AND_BLOCK) c ⟨pv, t :: f :: rest, d :: ds, ps, L⟩ (.symbolKey t x)
      ⟨t :: pv, f :: rest, d :: ds, ps, L⟩ := by
  refine prefix_evals (fun _ => parseSymbolKey) (fun R => by rw [ht]; rfl) (by rw [ht]; rfl) (.of fun R => ?_) (.inl rfl)
  unfold parseSymbolKey
  psim [litOf_eq hl]

/-! ### Pairs -/

/-- A value after its key. -/
def hashPair (R : Rec) (p : Prec) (key : Node) : P (List Node) := do
  if key.isSymbolKey then
    let v ← R.exp p
    pure [key, v]
  else if key.isKeywordSplat then pure [key]
  else
    expect .HashRocket (cs! "hash rocket")
    advance
    let v ← R.exp p
    pure [key, v]

/-- The body of the loop over pairs. -/
def hashBody (p : Prec) (closing : Ttype) (R : Rec) (ns : List Node) : P (Loop (List Node) (List Node)) := do
  if (← curTy) = .Comma then
    advance
    let ty ← curTy
    if ty = closing ∨ ty = .Ampersand then pure (Loop.done ns)
    else
      let key ← R.exp p
      let kv ← hashPair R p key
      pure (Loop.again (ns ++ kv))
  else pure (Loop.done ns)

theorem hashInner_none (R : Rec) (p : Prec) (closing : Ttype) (bare : Bool) :
    parseHashInner R p closing bare none = (do
      let t ← cur
      let key ← R.exp p
      let first ← hashPair R p key
      let ns ← loop (hashBody p closing R) R.fuel first
      pure (.hash t bare ns)) := rfl

theorem hashInner_some (R : Rec) (p : Prec) (closing : Ttype) (bare : Bool) (k : Node) :
    parseHashInner R p closing bare (some k) = (do
      let t ← cur
      let key ← (pure k : P Node)
      let first ← hashPair R p key
      let ns ← loop (hashBody p closing R) R.fuel first
      pure (.hash t bare ns)) := rfl

/-- The parts of pairs are read. -/
inductive POk : Ex .pairs → Prop where
  | nil : POk .pnil
  | cons {k v : Ex .ex} {ps : Ex .pairs} : ExOk k → ExOk v → POk ps → POk (.pcons k v ps)
  | key {x : Str} {v : Ex .ex} {ps : Ex .pairs} : ExOk v → POk ps → POk (.pkey x v ps)
  | splat {e : Ex .ex} {ps : Ex .pairs} : ExOk e → POk ps → POk (.psplat e ps)

/-- What is known of the first token of a list. -/
structure Begins (ty : Ttype) : Prop where
  line : ty.isEndOfLine = false
  valid : ty.isValid = true
  eof : ty ≠ .Eof
  rparen : ty ≠ .RParen
  rbracket : ty ≠ .RBracket
  rcurly : ty ≠ .RCurlyBrace
  rocket : ty ≠ .HashRocket

theorem Opens.begins {ty : Ttype} (h : Opens ty) : Begins ty := ⟨h.line, h.valid, h.eof, h.rparen, h.rbracket, h.rcurly, h.rocket⟩

theorem Ms.pairs {ps : Ex .pairs} (hn : ps.isNil = false) {ts : List Token} (h : Ms (toks none ps) ts) :
    ∃ t ts', ts = t :: ts' ∧ Begins t.type ∧ t.type ≠ .Ampersand := by
  cases ps with
  | pnil => cases hn
  | pcons k v ps =>
    simp only [gtoks] at h
    obtain ⟨t1, t2, rfl, h1, -⟩ := h.append_inv
    obtain ⟨t, ts', rfl, ht, -⟩ := h1.first
    exact ⟨t, _, rfl, (Opens.of ht).begins, (Opens.of ht).amp⟩
  | pkey x v ps =>
    simp only [gtoks] at h
    obtain ⟨t, ts', rfl, ht, -⟩ := h.cons_inv
    refine ⟨t, _, rfl, ?_⟩
    rw [ht.type]
    exact ⟨by constructor <;> first | rfl | nofun, nofun⟩
  | psplat e ps =>
    simp only [gtoks] at h
    obtain ⟨t, ts', rfl, ht, -⟩ := h.cons_inv
    refine ⟨t, _, rfl, ?_⟩
    rw [ht.type]
    exact ⟨by constructor <;> first | rfl | nofun, nofun⟩

/-- Tokens that close a list. -/
def closer (ty : Ttype) : Bool := ty == .RParen || ty == .RBracket || ty == .RCurlyBrace

theorem Begins.closer {ty cl : Ttype} (h : Begins ty) (hc : closer cl = true) : ty ≠ cl := by
  rintro rfl
  cases ty <;> first | (cases hc; done) | exact h.rparen rfl | exact h.rbracket rfl | exact h.rcurly rfl

/-- The separator before the rest of a list. -/
theorem Ms.sep_inv {k : Kind} {r : Ex k} {ts : List Token} (h : Ms (sep r (toks none r)) ts) :
    (r.isNil = true ∧ ts = []) ∨ (r.isNil = false ∧ ∃ t us, ts = t :: us ∧ t.type = .Comma ∧ Ms (toks none r) us) := by
  unfold sep at h
  by_cases hn : r.isNil = true
  · rw [if_pos hn] at h
    exact .inl ⟨hn, h.nil_inv⟩
  · rw [if_neg hn] at h
    obtain ⟨t, us, rfl, ht, hm⟩ := h.cons_inv
    exact .inr ⟨by simpa using hn, t, us, rfl, ht.type, hm⟩

theorem pairs_nil {ps : Ex .pairs} (h : ps.isNil = true) : ps = .pnil := by cases ps <;> first | rfl | cases h

theorem args_nil {a : Ex .args} (h : a.isNil = true) : a = .anil := by cases a <;> first | rfl | cases h

/-- Precedences at which pairs are parsed. -/
def pairPrec (j : Nat) (q : Prec) : Bool := slots j q && above q 7

/-- The token after an element. -/
theorem sep_follow {k : Kind} {r : Ex k} {e : Ex .ex} {ts : List Token} (h : Ms (sep r (toks none r)) ts) {j d : Nat} {f : Token}
    (ha : (if r.isNil then Gram.after e f.type else Gram.after e .Comma && Gram.after r f.type) = true) (hsl : Slot j d f)
    (rest : List Token) :
    ∃ g rest', ts ++ f :: rest = g :: rest' ∧ Slot j d g ∧ Gram.after e g.type = true ∧ (r.isNil = true ∧ g = f ∨ g.type = .Comma) := by
  rcases h.sep_inv with ⟨hn, rfl⟩ | ⟨hn, t, us, rfl, ht, -⟩
  · rw [if_pos hn] at ha
    exact ⟨f, rest, rfl, hsl, ha, .inl ⟨hn, rfl⟩⟩
  · rw [if_neg (by rw [hn]; nofun), Bool.and_eq_true] at ha
    exact ⟨t, us ++ f :: rest, rfl, .comma ht, by rw [ht]; exact ha.1, .inr ht⟩

/-- The parser reads the pairs: the first key (`q0` is the precedence at which it is parsed), the first value, and then the
others in the loop. -/
def PairsRun (ps : Ex .pairs) : Prop :=
  ∀ (j : Nat) (q q0 : Prec) (cl : Ttype) (L : List Str) (ts : List Token) (c : Cx) (pv : List Token) (f : Token) (rest : List Token)
    (d : Nat) (ds : List Nat) (ws : List Prec), pairPrec j q = true → pairPrec j q0 = true → closer cl = true → WF L ps = true →
    Ms (toks none ps) ts → Slot j d f → Gram.after ps f.type = true → d + ts.length < 4294967296 → (hasDo ps = true → d = 0) →
    ∃ key kv ns t1 r1 pv1 L1 s2,
      Evals (fun R => R.expr q0 .CURLY_AND_BLOCK) c ⟨pv, ts ++ f :: rest, d :: ds, ws, L⟩ key ⟨pv1, t1 :: r1, d :: ds, ws, L1⟩ ∧
      startsHash key t1.type = true ∧ ((∃ k v rs, ps = .pcons k v rs) → t1.type = .HashRocket) ∧
      Evals (fun R => hashPair R q key) c ⟨pv1, t1 :: r1, d :: ds, ws, L1⟩ kv s2 ∧ Lsx (kv ++ ns) (sx L ps) ∧
      ∀ acc r s', EvalsLoop (hashBody q cl) (acc ++ kv ++ ns) c ⟨ts.reverse ++ pv, f :: rest, d :: ds, ws, out L ps⟩ r s' →
        EvalsLoop (hashBody q cl) (acc ++ kv) c s2 r s'

/-- The pairs after the first. -/
theorem pairs_rest {rs : Ex .pairs} (h : rs.isNil = false → PairsRun rs) {j : Nat} {q : Prec} {cl : Ttype} {L : List Str} {ts : List Token}
    (hq : pairPrec j q = true) (hcl : closer cl = true) (hw : WF L rs = true) (hm : Ms (sep rs (toks none rs)) ts) {f : Token}
    {d : Nat} (hsl : Slot j d f) (hf : rs.isNil = false → Gram.after rs f.type = true) (hs : d + ts.length < 4294967296)
    (hh : hasDo rs = true → d = 0) (c : Cx) (pv rest : List Token) (ds : List Nat) (ws : List Prec) :
    ∃ ns, Lsx ns (sx L rs) ∧
      ∀ acc r s', EvalsLoop (hashBody q cl) (acc ++ ns) c ⟨ts.reverse ++ pv, f :: rest, d :: ds, ws, out L rs⟩ r s' →
        EvalsLoop (hashBody q cl) acc c ⟨pv, ts ++ f :: rest, d :: ds, ws, L⟩ r s' := by
  rcases hm.sep_inv with ⟨hn, rfl⟩ | ⟨hn, t, us, rfl, ht, hm'⟩
  · cases pairs_nil hn
    exact ⟨[], by simp only [gsx]; exact .nil, fun acc r s' hl => by simpa only [gram, List.append_nil] using hl⟩
  · obtain ⟨key, kv, ns, t1, r1, pv1, L1, s2, h1, h2, -, h3, h4, h5⟩ := h hn j q q cl L us c (t :: pv) f rest d ds ws hq hq hcl hw
      hm' hsl (hf hn) (by simp only [List.length_cons] at hs; omega) hh
    refine ⟨kv ++ ns, h4, fun acc r s' hl => .again (y := acc ++ kv) (s1 := s2) (h1.by2 h3 fun R hR hR' => ?_) (h5 acc r s' ?_)⟩
    · obtain ⟨u, us', rfl, hu, hu'⟩ := hm'.pairs hn
      have hc := hu.closer hcl
      rw [List.cons_append] at *
      unfold hashBody
      psim [ht, hc, hu', hR, hR']
    · simpa only [gram] using hl

theorem POk.run {ps : Ex .pairs} (h : POk ps) : ps.isNil = false → PairsRun ps := by
  induction h with
  | nil => nofun
  | cons hk hv hps ih =>
    rename_i k v ps
    intro _ j q q0 cl L ts c pv f rest d ds ws hq hq0 hcl hw hm hsl hf hs hh
    have hq' := hq
    have hq0' := hq0
    unfold pairPrec at hq' hq0'
    simp only [gwf, gafter, gtoks, gdo, Bool.and_eq_true, Bool.or_eq_true, decide_eq_true_eq] at hw hm hf hh hq' hq0'
    obtain ⟨⟨⟨⟨⟨⟨hw1, hw2⟩, hw3⟩, hw4⟩, hw5⟩, hw6⟩, hw7⟩ := hw
    obtain ⟨tk, t, us, rfl, hmk, ht, hm⟩ := hm.mid_inv
    obtain ⟨tv, tr, rfl, hmv, hmr⟩ := hm.append_inv
    have ht' : t.type = .HashRocket := ht.type
    simp only [List.length_append, List.length_cons] at hs
    obtain ⟨n, hg, hn⟩ := hk.elem (q := q0) (f := t) (d := d) hw1 hmk hw4 hq0'.2 (Slot.zero (j := j) ht' rfl nofun) hq0'.1 (by rw [ht']; exact hw5)
      (by omega) (fun h => hh (.inl (.inl h))) c pv (tv ++ tr ++ f :: rest) ds ws
    obtain ⟨g, rest', hgr, hsg, hag, -⟩ := sep_follow (e := v) hmr (by simpa using hf) hsl rest
    obtain ⟨m, hg', hm'⟩ := hv.elem (q := q) (d := d) hw2 hmv hw6 hq'.2 hsg hq'.1 hag (by omega) (fun h => hh (.inl (.inr h))) c
      (t :: (tk.reverse ++ pv)) rest' ds ws
    obtain ⟨ns, hns, hl⟩ := pairs_rest (q := q) (cl := cl) ih hq hcl hw3 hmr hsl
      (fun hn => by rw [if_neg (by rw [hn]; nofun), Bool.and_eq_true] at hf; exact hf.2) (by omega) (fun h => hh (.inr h)) c
      (tv.reverse ++ t :: (tk.reverse ++ pv)) rest ds ws
    obtain ⟨x, hx, hnx⟩ := hg.nsx
    obtain ⟨y, hy, hny⟩ := hg'.nsx
    refine ⟨n, [n, m], ns, t, tv ++ tr ++ f :: rest, _, _, ⟨tv.reverse ++ t :: (tk.reverse ++ pv), tr ++ f :: rest, d :: ds, ws,
      out (out L k) v⟩, by simpa using hn, by unfold startsHash; rw [ht']; rfl, fun _ => ht', hm'.by1 fun R hR => ?_, ?_, ?_⟩
    · have h1 := (plain_elem hg.plain).key
      have h2 := (plain_elem hg.plain).splat
      unfold hashPair
      psim [h1, h2, ht', hgr, hR]
    · simp only [gsx, hx, hy]
      exact .cons hnx (.cons hny hns)
    · intro acc r s' hl'
      exact hl _ _ _ (by simpa only [gram] using hl')
  | key hv hps ih =>
    rename_i x v ps
    intro _ j q q0 cl L ts c pv f rest d ds ws hq hq0 hcl hw hm hsl hf hs hh
    have hq' := hq
    unfold pairPrec at hq'
    simp only [gwf, gafter, gtoks, gdo, Bool.and_eq_true, Bool.or_eq_true, decide_eq_true_eq] at hw hm hf hh hq'
    obtain ⟨⟨⟨hw1, hw2⟩, hw3⟩, hw4⟩ := hw
    obtain ⟨t, us, rfl, ht, hm⟩ := hm.cons_inv
    obtain ⟨tv, tr, rfl, hmv, hmr⟩ := hm.append_inv
    have ht' : t.type = .SymbolKey := ht.type
    simp only [List.length_append, List.length_cons] at hs
    obtain ⟨u, us', hus, -⟩ := hmv.first
    have hn := key_elem (q := q0) ht' ht.lit c pv u (us' ++ tr ++ f :: rest) d ds ws L
    obtain ⟨g, rest', hgr, hsg, hag, -⟩ := sep_follow (e := v) hmr (by simpa using hf) hsl rest
    obtain ⟨m, hg', hm'⟩ := hv.elem (q := q) (d := d) hw1 hmv hw3 hq'.2 hsg hq'.1 hag (by omega) (fun h => hh (.inl h)) c
      (t :: pv) rest' ds ws
    obtain ⟨ns, hns, hl⟩ := pairs_rest (q := q) (cl := cl) ih hq hcl hw2 hmr hsl
      (fun hn => by rw [if_neg (by rw [hn]; nofun), Bool.and_eq_true] at hf; exact hf.2) (by omega) (fun h => hh (.inr h)) c
      (tv.reverse ++ t :: pv) rest ds ws
    obtain ⟨y, hy, hny⟩ := hg'.nsx
    subst hus
    refine ⟨_, [.symbolKey t x, m], ns, u, us' ++ tr ++ f :: rest, _, _, ⟨(u :: us').reverse ++ t :: pv, tr ++ f :: rest, d :: ds, ws,
      out L v⟩, by simpa using hn, by unfold startsHash; simp [Node.isSymbolKey], (by rintro ⟨_, _, _, h⟩; cases h),
      hm'.by1 fun R hR => ?_, ?_, ?_⟩
    · rw [List.cons_append] at hR
      unfold hashPair
      psim [show (Node.symbolKey t x).isSymbolKey = true from rfl, hgr, hR]
    · simp only [gsx, hy]
      exact .cons (.symbolKey _) (.cons hny hns)
    · intro acc r s' hl'
      exact hl _ _ _ (by simpa only [gram] using hl')
  | splat hv hps ih =>
    rename_i v ps
    intro _ j q q0 cl L ts c pv f rest d ds ws hq hq0 hcl hw hm hsl hf hs hh
    have hq' := hq0
    unfold pairPrec at hq'
    simp only [gwf, gafter, gtoks, gdo, Bool.and_eq_true, Bool.or_eq_true, decide_eq_true_eq] at hw hm hf hh hq'
    obtain ⟨⟨⟨hw1, hw2⟩, hw3⟩, hw4⟩ := hw
    obtain ⟨t, us, rfl, ht, hm⟩ := hm.cons_inv
    obtain ⟨tv, tr, rfl, hmv, hmr⟩ := hm.append_inv
    have ht' : t.type = .StarStar := ht.type
    simp only [List.length_append, List.length_cons] at hs
    obtain ⟨g, rest', hgr, hsg, hag, -⟩ := sep_follow (e := v) hmr (by simpa using hf) hsl rest
    obtain ⟨m, hg', hm'⟩ := kwsplat_elem hv (q := q0) (d := d) ht' hw1 hmv hw3 hsg hq'.1 hag (by omega) (fun h => hh (.inl h)) c
      pv rest' ds ws
    obtain ⟨ns, hns, hl⟩ := pairs_rest (q := q) (cl := cl) ih hq hcl hw2 hmr hsl
      (fun hn => by rw [if_neg (by rw [hn]; nofun), Bool.and_eq_true] at hf; exact hf.2) (by omega) (fun h => hh (.inr h)) c
      (tv.reverse ++ t :: pv) rest ds ws
    obtain ⟨y, hy, hny⟩ := hg'.nsx
    refine ⟨_, [.keywordSplat t m], ns, g, rest', _, _, ⟨tv.reverse ++ t :: pv, tr ++ f :: rest, d :: ds, ws,
      out L v⟩, by simpa [hgr] using hm', by unfold startsHash; simp [Node.isKeywordSplat], (by rintro ⟨_, _, _, h⟩; cases h),
      .of fun R => ?_, ?_, ?_⟩
    · unfold hashPair
      psim [show (Node.keywordSplat t m).isSymbolKey = false from rfl, show (Node.keywordSplat t m).isKeywordSplat = true from rfl, hgr]
    · simp only [gsx, hy]
      exact .cons hny.keywordSplat hns
    · intro acc r s' hl'
      exact hl _ _ _ (by simpa only [gram] using hl')

end NP.Gram
