import Verif.Proofs.Gram.Base

/-! Expressions without parts. -/

namespace NP.Gram
open Spec

/-- An expression that is parsed by the function of its first token. -/
theorem Parsed.first {e : Ex .ex} {L : List Str} {t : Token} {ts : List Token} {c : Cx} {pv : List Token} {f : Token}
    {rest : List Token} {d : Nat} {ds : List Nat} {p : Prec} {qs : List Prec} {ia : IterAllow} {n : Node} (F : Rec → P Node)
    (hn : ∀ R, nullDenotation R t.type = some (F R))
    (hF : Evals F c ⟨pv, t :: (ts ++ f :: rest), d :: ds, p :: qs, L⟩ n
      ⟨ts.reverse ++ t :: pv, f :: rest, d :: ds, p :: qs, out L e⟩)
    (hg : Good L e n) (hc : callee L e = true → Callee n (ts.reverse ++ t :: pv)) :
    Parsed e L (t :: ts) c pv f rest d ds p qs ia := by
  have he : (t :: ts).reverse ++ pv = ts.reverse ++ t :: pv := by simp
  refine ⟨n, hg, by rw [he]; exact hc, fun a s' h => ?_⟩
  rw [he] at h
  exact .first F hn hF h

/-- The same if it is one token. -/
theorem Parsed.one {e : Ex .ex} {L : List Str} {t : Token} {c : Cx} {pv : List Token} {f : Token}
    {rest : List Token} {d : Nat} {ds : List Nat} {p : Prec} {qs : List Prec} {ia : IterAllow} {n : Node} (F : Rec → P Node)
    (hn : ∀ R, nullDenotation R t.type = some (F R))
    (hF : ∀ R, F R c ⟨pv, t :: f :: rest, d :: ds, p :: qs, L⟩ = .ok n ⟨t :: pv, f :: rest, d :: ds, p :: qs, out L e⟩)
    (hg : Good L e n) (hc : callee L e = true → Callee n (t :: pv)) :
    Parsed e L [t] c pv f rest d ds p qs ia := Parsed.first F hn (.of hF) hg hc

theorem lets_iff {n : Nat} {ty : Ttype} : lets n ty = true ↔ need ty ≤ n := by
  unfold lets
  exact decide_eq_true_iff

theorem lets_lit {ty : Ttype} {n : Nat} (h : need ty ≤ n) (hn : n ≤ 21) :
    ty ≠ .Complex ∧ ty ≠ .Rational ∧ ty ≠ .RationalComplex ∧ ty ≠ .String ∧ ty ≠ .InterpolatedStringBegin ∧
      ty ≠ .InterpolatedStringSymbolKey := by
  have h : need ty ≤ 21 := by omega
  refine ⟨?_, ?_, ?_, ?_, ?_, ?_⟩ <;> (rintro rfl; revert h; decide)

theorem parseLit_fix {t u : Token} (us pv : List Token) {n : Int} (ht : t.type = .Fixnum) (hn : t.fix = n) {k : Nat}
    (hu : need u.type ≤ k) (hk : k ≤ 21) (c : Cx) (ds : List Nat) (ps : List Prec) (L : List Str) :
    parseLit c ⟨pv, t :: u :: us, ds, ps, L⟩ = .ok (.fixnum t n) ⟨t :: pv, u :: us, ds, ps, L⟩ := by
  obtain ⟨h1, h2, h3, -⟩ := lets_lit hu hk
  unfold parseLit
  psim [ht, hn, h1, h2, h3]

theorem int_ok (n : Int) : ExOk (.int n) := by
  intro L w ts hw hm c pv f rest d ds p qs ia ha
  have hf := ha.after
  simp only [gafter] at hf
  simp only [gtoks] at hm
  by_cases hn : n < 0
  · rw [if_pos hn] at hm hf
    obtain ⟨t, ts', rfl, ht, hm⟩ := hm.cons_inv
    obtain ⟨u, rfl, hu⟩ := hm.one_inv
    have ht' : t.type = .Minus := ht.type
    have hu' : u.type = .Fixnum := hu.type
    rw [lets_iff] at hf
    have hd : f.type = .DoKeyword → d ≠ 0 := fun h => (ha.do_ h).resolve_right nofun
    have he : Ends .UNARY_MINUS d f := ⟨by omega, ending.at (n := 18) (by decide) hf (by omega), hd⟩
    have hx : Evals (fun R => R.expr .UNARY_MINUS .CURLY_AND_BLOCK) c ⟨t :: pv, u :: f :: rest, d :: ds, p :: qs, L⟩
        (.fixnum u n.natAbs) ⟨u :: t :: pv, f :: rest, d :: ds, p :: qs, L⟩ := by
      refine (EvalsFrom.expression (s' := ⟨u :: t :: pv, f :: rest, d :: ds, .UNARY_MINUS :: p :: qs, L⟩) rfl
        (by rw [hu']; rfl) ?_ rfl).expr
      refine .first (fun _ => parseLit) (fun R => by rw [show PS.cur _ = u from rfl, hu']; rfl)
        (.of fun R => parseLit_fix _ _ hu' hu.fix hf (by omega) _ _ _ _) (.stop (he.stops rfl _ _ _ _ _ _ _))
    refine Parsed.first (n := .fixnum u n) (fun R => parseUnary R) (fun R => by rw [ht']; rfl) (hx.by1 fun R hR => ?_) ?_ nofun
    · unfold parseUnary
      have hg : ∀ x, getPrec t none x = .UNARY_MINUS := fun x => by unfold getPrec; rw [ht']; rfl
      have hs : signed .Minus (.fixnum u n.natAbs) = some (.fixnum u n) := by
        unfold signed
        simp only [if_true]
        rw [if_neg (by omega), show -(n.natAbs : Int) = n by omega]
      psim [hg, hR, ht', hs]
    · exact ⟨⟨_, rfl, rfl⟩, rfl, rfl⟩
  · rw [if_neg hn] at hm hf
    obtain ⟨t, rfl, ht⟩ := hm.one_inv
    have ht' : t.type = .Fixnum := ht.type
    rw [lets_iff] at hf
    have : t.fix = n := by rw [ht.fix]; show (n.natAbs : Int) = n; omega
    exact Parsed.one (fun _ => parseLit) (fun R => by rw [ht']; rfl)
      (fun R => parseLit_fix _ _ ht' this hf (by omega) _ _ _ _) ⟨⟨_, rfl, rfl⟩, rfl, rfl⟩ nofun

theorem finishString_stop {n : Node} {c : Cx} {pv rest : List Token} {f : Token} {ds : List Nat} {ps : List Prec} {L : List Str}
    (h1 : f.type ≠ .String) (h2 : f.type ≠ .InterpolatedStringBegin) (h3 : f.type ≠ .InterpolatedStringSymbolKey) :
    Evals (fun R => finishString R n) c ⟨pv, f :: rest, ds, ps, L⟩ n ⟨pv, f :: rest, ds, ps, L⟩ := by
  have hx : Evals (fun R => concatAdjacentStrings R n) c ⟨pv, f :: rest, ds, ps, L⟩ (n, false) ⟨pv, f :: rest, ds, ps, L⟩ := by
    unfold concatAdjacentStrings
    refine EvalsLoop.evals (.done (.of fun R => ?_))
    psim [h1, h2]
  refine hx.by1 fun R hR => ?_
  unfold finishString
  have h3' : (f.type == .InterpolatedStringSymbolKey) = false := by simp [h3]
  by_cases hp : ps.head? = some .WORD_ARRAY
  · psim [hp, h3, h3']
  · psim [hp, hR, h3, h3']

theorem str_ok (s : Str) : ExOk (.str s) := by
  intro L w ts hw hm c pv f rest d ds p qs ia ha
  obtain ⟨t, rfl, ht⟩ := hm.one_inv
  have ht' : t.type = .String := ht.type
  have hl : t.lit = some s := ht.lit
  have hf := ha.after
  simp only [gafter, Bool.and_eq_true, lets_iff] at hf
  obtain ⟨-, -, -, h1, h2, h3⟩ := lets_lit hf.1 (by omega)
  refine Parsed.first (n := .string t s) (fun R => parseString R) (fun R => by rw [ht']; rfl)
    ((finishString_stop (n := .string t s) (c := c) (pv := t :: pv) (rest := rest) (ds := d :: ds) (ps := p :: qs) (L := L)
      h1 h2 h3).by1 fun R hR => ?_) ⟨⟨_, rfl, rfl⟩, rfl, rfl⟩ nofun
  unfold parseString
  psim [litOf_eq hl]
  exact hR

theorem sym_ok (x : Str) : ExOk (.sym x) := by
  intro L w ts hw hm c pv f rest d ds p qs ia ha
  obtain ⟨t, rfl, ht⟩ := hm.one_inv
  have ht' : t.type = .Symbol := ht.type
  have hl : t.lit = some x := ht.lit
  exact Parsed.one (n := .symbol t x) (fun _ => parseSymbol) (fun R => by rw [ht']; rfl)
    (fun R => by unfold parseSymbol; psim [litOf_eq hl]) ⟨⟨_, rfl, rfl⟩, rfl, rfl⟩ nofun

theorem word_ok (x : Word) : ExOk (.word x) := by
  intro L w ts hw hm c pv f rest d ds p qs ia ha
  obtain ⟨t, rfl, ht⟩ := hm.one_inv
  have ht' : t.type = x.type := ht.type
  cases x
  · exact Parsed.one (fun _ => parseOne .nilSexp) (fun R => by rw [ht']; rfl) (fun R => rfl) ⟨⟨_, rfl, rfl⟩, rfl, rfl⟩ nofun
  · exact Parsed.one (fun _ => parseOne .true_) (fun R => by rw [ht']; rfl) (fun R => rfl) ⟨⟨_, rfl, rfl⟩, rfl, rfl⟩ nofun
  · exact Parsed.one (fun _ => parseOne .false_) (fun R => by rw [ht']; rfl) (fun R => rfl) ⟨⟨_, rfl, rfl⟩, rfl, rfl⟩ nofun
  · exact Parsed.one (fun _ => parseOne .self) (fun R => by rw [ht']; rfl) (fun R => rfl) ⟨⟨_, rfl, rfl⟩, rfl, rfl⟩ nofun
  · exact Parsed.one (fun _ => parseOne .redo) (fun R => by rw [ht']; rfl) (fun R => rfl) ⟨⟨_, rfl, rfl⟩, rfl, rfl⟩ nofun
  · exact Parsed.one (fun _ => parseOne .retry) (fun R => by rw [ht']; rfl) (fun R => rfl) ⟨⟨_, rfl, rfl⟩, rfl, rfl⟩ nofun

theorem Var.lit (v : Var) {t : Token} {w : Option Bool} (h : Bears ⟨w, v.piece⟩ t) : t.lit = some v.name := by
  cases v <;> exact h.lit

/-- The token of a variable. -/
inductive VarTok : Var → Token → Prop where
  | loc {x : Str} {t : Token} : t.type = .BareName → t.lit = some x → VarTok (.loc x) t
  | ivar {x : Str} {t : Token} : t.type = .InstanceVariable → t.lit = some ('@' :: x) → VarTok (.ivar x) t
  | cvar {x : Str} {t : Token} : t.type = .ClassVariable → t.lit = some ('@' :: '@' :: x) → VarTok (.cvar x) t
  | gvar {x : Str} {t : Token} : t.type = .GlobalVariable → t.lit = some ('$' :: x) → VarTok (.gvar x) t
  | const {x : Str} {t : Token} : t.type = .Constant → t.lit = some x → VarTok (.const x) t

theorem VarTok.of {v : Var} {t : Token} {w : Option Bool} (h : Bears ⟨w, v.piece⟩ t) : VarTok v t := by
  cases v
  · exact .loc h.type h.lit
  · exact .ivar h.type h.lit
  · exact .cvar h.type h.lit
  · exact .gvar h.type h.lit
  · exact .const h.type h.lit

theorem VarTok.name {v : Var} {t : Token} (h : VarTok v t) : t.lit = some v.name := by
  cases h <;> assumption

theorem VarTok.null {v : Var} {t : Token} (h : VarTok v t) (R : Rec) : nullDenotation R t.type = some parseIdentifier := by
  cases h with
  | loc h | ivar h | cvar h | gvar h | const h => rw [h]; rfl

theorem run_identifier {t : Token} {x : Str} (h : t.lit = some x) (c : Cx) (pv ts : List Token) (ds : List Nat) (ps : List Prec)
    (L : List Str) :
    parseIdentifier c ⟨pv, t :: ts, ds, ps, L⟩ = .ok (.identifier t (L.contains x)) ⟨t :: pv, ts, ds, ps, L⟩ :=
  identifier_eq rfl h

theorem var_ok (v : Var) : ExOk (.var v) := by
  intro L w ts hw hm c pv f rest d ds p qs ia ha
  obtain ⟨t, rfl, ht⟩ := hm.one_inv
  have ht := VarTok.of ht
  refine Parsed.one (n := .identifier t (L.contains v.name)) (fun _ => parseIdentifier) (fun R => ht.null R)
    (fun R => run_identifier ht.name _ _ _ _ _ _) ⟨?_, rfl, rfl⟩ ?_
  · cases ht with
    | loc h1 h2 =>
      rename_i x
      by_cases hx : x ∈ L
      · exact ⟨_, by simp only [gsx, if_pos hx]; rfl, by simp [tr, identSexp, h1, h2, Var.name, hx]⟩
      · exact ⟨_, by simp only [gsx, if_neg hx]; rfl, by simp [tr, identSexp, h1, h2, Var.name, hx]⟩
    | ivar h1 h2 | cvar h1 h2 | gvar h1 h2 | const h1 h2 => exact ⟨_, rfl, by simp [tr, identSexp, h1, h2, Var.get, Var.name]⟩
  · intro hc
    cases ht with
    | loc h1 h2 =>
      rename_i x
      have hx : x ∉ L := of_decide_eq_true hc
      exact ⟨by simp [Node.isCallable, h1, Var.name, hx], rfl, rfl, nofun⟩
    | _ => cases hc

theorem colon3_ok (x : Str) : ExOk (.colon3 x) := by
  intro L w ts hw hm c pv f rest d ds p qs ia ha
  obtain ⟨t, ts', rfl, ht, hm⟩ := hm.cons_inv
  obtain ⟨u, rfl, hu⟩ := hm.one_inv
  have ht' : t.type = .ConstantResolution := ht.type
  have hu' : u.type = .Constant := hu.type
  have hl : u.lit = some x := hu.lit
  refine Parsed.first (n := .colon3 t x) (fun R => parseTopLevelConstant) (fun R => by rw [ht']; rfl)
    (.of fun R => by unfold parseTopLevelConstant; psim [litOf_eq hl, hu', or_true]) ⟨⟨_, rfl, rfl⟩, rfl, rfl⟩ nofun

theorem super0_ok : ExOk .super0 := by
  intro L w ts hw hm c pv f rest d ds p qs ia ha
  obtain ⟨t, rfl, ht⟩ := hm.one_inv
  have ht' : t.type = .SuperKeyword := ht.type
  have hf := ha.after
  simp only [gafter, Bool.and_eq_true, lets_iff] at hf
  have hp : (f.type == .LParen) = false := by
    rw [beq_eq_false_iff_ne]
    intro h
    rw [h] at hf
    exact absurd hf.1 (by decide)
  refine Parsed.one (n := .super t false []) (fun _ => parseSuper) (fun R => by rw [ht']; rfl)
    (fun R => by unfold parseSuper; psim [hp]) ⟨⟨_, rfl, rfl⟩, rfl, rfl⟩ fun _ => ⟨rfl, rfl, rfl, nofun⟩

theorem yield0_ok : ExOk .yield0 := by
  intro L w ts hw hm c pv f rest d ds p qs ia ha
  obtain ⟨t, rfl, ht⟩ := hm.one_inv
  have ht' : t.type = .YieldKeyword := ht.type
  exact Parsed.one (n := .yield t []) (fun _ => parseOne fun t => .yield t []) (fun R => by rw [ht']; rfl) (fun R => rfl)
    ⟨⟨_, rfl, rfl⟩, rfl, rfl⟩ nofun

theorem ret0_ok : ExOk .ret0 := by
  intro L w ts hw hm c pv f rest d ds p qs ia ha
  obtain ⟨t, rfl, ht⟩ := hm.one_inv
  have ht' : t.type = .ReturnKeyword := ht.type
  have hf := ha.after
  simp only [gafter] at hf
  have h1 : f.type.isEndOfExpression = true ∧ f.type ≠ .HashRocket ∧ f.type ≠ .Comma := by
    generalize f.type = ty at hf
    cases ty <;> first | exact ⟨rfl, nofun, nofun⟩ | exact absurd hf (by decide)
  refine Parsed.one (n := .return_ t (.nil t)) (fun R => parseReturn R) (fun R => by rw [ht']; rfl)
    (fun R => by unfold parseReturn; psim [h1, show Node.isSymbolKey (.nil t) = false from rfl]) ⟨⟨_, rfl, rfl⟩, rfl, rfl⟩ nofun

theorem jump0_ok (j : Jump) : ExOk (.jump0 j) := by
  intro L w ts hw hm c pv f rest d ds p qs ia ha
  obtain ⟨t, rfl, ht⟩ := hm.one_inv
  have ht' : t.type = j.type := ht.type
  have hf := ha.after
  simp only [gafter, Bool.and_eq_true, lets_iff] at hf
  have h1 : f.type.canBeFirstArgOfImplicitCall = false ∧ f.type ≠ .LParen := by
    generalize f.type = ty at hf
    cases ty <;> first | exact ⟨rfl, nofun⟩ | exact absurd hf (by decide)
  have hx : ∀ R mk, parseBreakNext R mk c ⟨pv, t :: f :: rest, d :: ds, p :: qs, L⟩ =
      .ok (mk t none) ⟨t :: pv, f :: rest, d :: ds, p :: qs, L⟩ := fun R mk => by
    unfold parseBreakNext
    psim [h1, Bool.false_eq_true]
  cases j
  · exact Parsed.one (fun R => parseBreakNext R .break_) (fun R => by rw [ht']; rfl) (fun R => hx R _) ⟨⟨_, rfl, rfl⟩, rfl, rfl⟩
      nofun
  · exact Parsed.one (fun R => parseBreakNext R .next) (fun R => by rw [ht']; rfl) (fun R => hx R _) ⟨⟨_, rfl, rfl⟩, rfl, rfl⟩
      nofun

end NP.Gram
