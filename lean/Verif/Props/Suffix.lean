import Verif.Props.Number
import Verif.Props.Strings
import Verif.Proofs.Scope

/-! C52: the suffixes `i`, `r` and `ri` of numbers. -/

namespace NP
open Spec

namespace Spec

/-- `NumberText text v`: `text` is a number literal and `v` its number in an S-expression. The octal literals that the lexer
misreads (`C12_false`, `C13_false`) are left out. -/
inductive NumberText : Str → Sexp → Prop where
  | int (base : Nat) (text ds : Str) (h : IntLit base text ds) (hu : ¬ cs! "0_" <+: text) (hv : valueOf base ds < 2 ^ 62) :
      NumberText text (.int (valueOf base ds))
  | big (base : Nat) (text ds chars : Str) (h : IntLit base text ds) (hv : 2 ^ 62 ≤ valueOf base ds)
      (hoct : ∀ c, isOct c = true ∨ c = '_' → ¬ ['0', c] <+: text) (hzero : base = 10 → ds.head? ≠ some '0')
      (hc : rubyInteger chars = valueOf base ds) : NumberText text (.big chars)
  | float (text : Str) (h : FloatLit text) : NumberText text (.float false ((text.filter (· != '_')).map lowE))

/-- The suffixes and their tokens. -/
inductive Suffix : Str → Ttype → Prop where
  | i : Suffix (cs! "i") .Complex
  | r : Suffix (cs! "r") .Rational
  | ri : Suffix (cs! "ri") .RationalComplex

/-- The token of a number. -/
def NumTok (t : Token) (v : Sexp) : Prop :=
  (t.type = .Fixnum ∧ v = .int t.fix) ∨ (t.type = .Bignum ∧ ∃ s, t.lit = some s ∧ v = .big s) ∨
    (t.type = .Float ∧ v = .float false t.flt)

/-- The node of a number. -/
def NumNode (t : Token) (v : Sexp) (n : Node) : Prop :=
  (∃ k, v = .int k ∧ n = .fixnum t k) ∨ (∃ s, v = .big s ∧ n = .bignum t s) ∨ (∃ s, v = .float false s ∧ n = .float t false s)

end Spec

/-! ### The lexer -/

theorem NumberText.first {text : Str} {v : Sexp} (h : NumberText text v) (post : Str) : isDec ((text ++ post).ch 0) = true := by
  cases h with
  | int _ _ _ h => exact h.first post
  | big _ _ _ _ h => exact h.first post
  | float _ h => exact h.first post

theorem number_lex (l : Lx) (text post : Str) (v : Sexp) (hr : l.rest = text ++ post) (h : NumberText text v)
    (hend : NumberEnds post) :
    ∃ t w, NumberText text w ∧ NumTok t w ∧ l.lexNumber = { tok := t, lx := l.adv text.length } := by
  cases h with
  | int base _ ds h hu hv =>
    obtain ⟨chars, hn, -⟩ := numeric_int h (not_under hu) hend
    rw [if_pos hv] at hn
    refine ⟨{ l.tk .Fixnum with fix := valueOf base ds }, _, .int base text ds h hu hv, .inl ⟨rfl, rfl⟩, ?_⟩
    unfold Lx.lexNumber
    rw [hr, hn]
  | big base _ ds _ h hv hoct hzero _ =>
    obtain ⟨chars, hn, hc⟩ := numeric_int h (not_under (hoct _ (.inr rfl))) hend
    rw [if_neg (by omega)] at hn
    refine ⟨l.tkLit .Bignum chars, _, .big base text ds chars h hv hoct hzero (hc ?_ ?_), .inr (.inl ⟨rfl, _, rfl, rfl⟩), ?_⟩
    · rintro ⟨a, b⟩
      refine hoct _ (.inl b) ?_
      cases text with
      | nil => exact absurd a (by decide)
      | cons x t =>
        cases t with
        | nil => exact absurd (show isOct NUL = true from b) (by decide)
        | cons y t => have : x = '0' := a; subst this; exact ⟨t, rfl⟩
    · intro hb he
      apply hzero hb
      cases ds with
      | nil => exact absurd he (by decide)
      | cons x t => exact congrArg some he
    · unfold Lx.lexNumber
      rw [hr, hn]
  | float _ h =>
    refine ⟨{ l.tk .Float with flt := (text.filter (· != '_')).map lowE }, _, .float text h, .inr (.inr ⟨rfl, rfl⟩), ?_⟩
    unfold Lx.lexNumber
    rw [hr, numeric_float h hend]

theorem alnum_nameByte (c : Char) (h : nameByte c = false) : isAlnum c = false := by
  simp only [nameByte, isAlnum, isAlpha, isDigit, between_eq, Bool.or_eq_false_iff] at h ⊢
  simp_all

/-- A suffix behind a number, in front of no name byte, is its token. -/
theorem suffix_dispatch (l : Lx) (x post : Str) (ty : Ttype) (hr : l.rest = x ++ post) (hx : Suffix x ty)
    (hl : l.lastType.canBeComplexOrRational = true) (hp : ∀ c r, post = c :: r → nameByte c = false) :
    l.dispatch = .ok (l.op x.length ty) := by
  have hpost : isAlnum (post.ch 0) = false := by
    cases post with
    | nil => decide
    | cons c r => exact alnum_nameByte c (hp c r rfl)
  cases hx with
  | i =>
    have h0 : l.ch 0 = 'i' := by unfold Lx.ch; rw [hr]; rfl
    have h1 : isAlnum (l.ch 1) = false := by unfold Lx.ch; rw [hr]; exact hpost
    have hd : l.dispatch = .ok l.lexI := by simp [Lx.dispatch, h0, isDigit, between]
    rw [hd, Lx.lexI, if_pos ⟨hl, by simp [h1]⟩]
    rfl
  | r =>
    have h0 : l.ch 0 = 'r' := by unfold Lx.ch; rw [hr]; rfl
    have h1 : isAlnum (l.ch 1) = false := by unfold Lx.ch; rw [hr]; exact hpost
    have hi : l.ch 1 ≠ 'i' := by intro h; rw [h] at h1; exact absurd h1 (by decide)
    have hd : l.dispatch = .ok l.lexR := by simp [Lx.dispatch, h0, isDigit, between]
    rw [hd, Lx.lexR, if_pos hl, if_neg hi, if_pos (by simp [h1])]
    rfl
  | ri =>
    have h0 : l.ch 0 = 'r' := by unfold Lx.ch; rw [hr]; rfl
    have h1 : l.ch 1 = 'i' := by unfold Lx.ch; rw [hr]; rfl
    have hd : l.dispatch = .ok l.lexR := by simp [Lx.dispatch, h0, isDigit, between]
    rw [hd, Lx.lexR, if_pos hl, if_pos h1]
    rfl

/-- C52: a number literal with a suffix, behind which there is no name byte, is the token of the number and the token of the
suffix. `_partial`: at program level only; in an interpolation it is false (`C52_interpolation_false`). -/
theorem C52_partial (l : Lx) (hk : l.kind = .base) (hst : l.stopChar = NUL) (hsc : l.startChar = NUL)
    (pre text x post : Str) (v : Sexp) (ty : Ttype) (hr : l.rest = pre ++ (text ++ x ++ post)) (hb : Spec.Blank pre)
    (h : NumberText text v) (hx : Suffix x ty) (hp : ∀ c r, post = c :: r → nameByte c = false) :
    ∃ t u w l', NumberText text w ∧ NumTok t w ∧ u.type = ty ∧ Emits [l] [t, u] (setLast ty [l']) ∧
      Continues l l' (pre.length + (text.length + x.length)) := by
  have hf : isDec ((text ++ x ++ post).ch 0) = true := by rw [List.append_assoc]; exact NumberText.first h _
  have hc : ∀ d : Char, isDec d = false → (text ++ x ++ post).ch 0 ≠ d := by
    intro d hd he
    rw [he, hd] at hf
    cases hf
  obtain ⟨h1, h2, h3, h4⟩ := base_start' l hk (.inl hst) _ (by rw [hsc]; exact (hc _ (by decide)).symm) pre _ hr hb rfl
    ⟨hc _ (by decide), hc _ (by decide), hc _ (by decide), hc _ (by decide), hc _ (by decide), hc _ (by decide)⟩
  rw [dispatch_digit l.start (by rw [h4]; exact hf)] at h1
  obtain ⟨t, w, g1, g2, g3⟩ := number_lex l.start text (x ++ post) v (by rw [h2, List.append_assoc]) h (by
    intro c r he
    cases hx <;> cases he <;> exact ⟨by simp, fun h => absurd h (by decide)⟩)
  rw [g3] at h1
  have hnum : t.type.canBeComplexOrRational = true ∧ plainType t.type = true := by
    rcases g2 with ⟨g, -⟩ | ⟨g, -⟩ | ⟨g, -⟩ <;> rw [g] <;> decide
  obtain ⟨l', e1, e2⟩ := one_emits l [] pre.length _ _ h3 h1 hnum.2
  have hr' : ({ l' with lastType := t.type } : Lx).rest = [] ++ (x ++ post) := by
    show l'.rest = _
    rw [e2.rest, hr]
    simp
  have hne : ∃ c, (x ++ post).ch 0 = c ∧ (c = 'i' ∨ c = 'r') := by
    cases hx
    · exact ⟨_, rfl, .inl rfl⟩
    · exact ⟨_, rfl, .inr rfl⟩
    · exact ⟨_, rfl, .inr rfl⟩
  obtain ⟨c, hc0, hc1⟩ := hne
  obtain ⟨k1, k2, k3, k4⟩ := base_start' { l' with lastType := t.type } (e2.kind.trans hk) (.inl (e2.stop.trans hst)) c
    (by show l'.startChar ≠ c; rw [e2.start, hsc]; rcases hc1 with rfl | rfl <;> decide) [] _ hr' .nil hc0
    (by rcases hc1 with rfl | rfl <;> decide)
  rw [suffix_dispatch _ x post ty k2 hx (by simpa using hnum.1) hp] at k1
  obtain ⟨l'', f1, f2⟩ := one_emits _ [] 0 _ _ k3 k1 (by cases hx <;> rfl)
  refine ⟨t, _, w, l'', g1, g2, rfl, Emits.trans e1 f1, f2.input.trans e2.input, ?_, f2.kind.trans e2.kind,
    f2.stop.trans e2.stop, f2.start.trans e2.start, f2.depth.trans e2.depth, f2.heredocs.trans e2.heredocs,
    f2.ternary.trans e2.ternary⟩
  rw [f2.cur]
  show l'.cur.nextN l'.input _ = _
  rw [e2.cur, e2.input, ← Cursor.nextN_add, Nat.zero_add, Nat.add_assoc]

/-! ### The parser -/

/-- C52 for the parser: in every state, a number token with a suffix token behind it is parsed to the number with the
suffix, and exactly the two tokens are read. -/
theorem C52_parser (t u : Token) (us : List Token) (v : Sexp) (ht : NumTok t v) (c : Cx) (s : PS) (hr : s.rest = t :: u :: us) :
    ∃ n, NumNode t v n ∧
      (u.type = .Complex → parseLit c s = .ok (.complex t n) { s with prev := u :: t :: s.prev, rest := us }) ∧
      (u.type = .Rational → parseLit c s = .ok (.rational t n) { s with prev := u :: t :: s.prev, rest := us }) ∧
      (u.type = .RationalComplex →
        parseLit c s = .ok (.complex t (.rational t n)) { s with prev := u :: t :: s.prev, rest := us }) := by
  obtain ⟨prev, rest, depth, precs, locals⟩ := s
  subst hr
  rcases ht with ⟨ht, rfl⟩ | ⟨ht, x, hx, rfl⟩ | ⟨ht, rfl⟩
  · refine ⟨_, .inl ⟨_, rfl, rfl⟩, ?_, ?_, ?_⟩ <;>
    · intro hu
      unfold parseLit
      rw [P.bind_eq (show cur c _ = .ok t _ from rfl), ht]
      show (match u.type with
        | .Complex => _
        | .Rational => _
        | .RationalComplex => _
        | _ => _ : P Node) c _ = _
      rw [hu]
      rfl
  · refine ⟨_, .inr (.inl ⟨_, rfl, rfl⟩), ?_, ?_, ?_⟩ <;>
    · intro hu
      unfold parseLit
      rw [P.bind_eq (show cur c _ = .ok t _ from rfl), ht]
      show (litOf t >>= _ : P Node) c ⟨t :: prev, u :: us, depth, precs, locals⟩ = _
      rw [P.bind_eq (litOf_eq hx)]
      show (match u.type with
        | .Complex => _
        | .Rational => _
        | .RationalComplex => _
        | _ => _ : P Node) c _ = _
      rw [hu]
      rfl
  · refine ⟨_, .inr (.inr ⟨_, rfl, rfl⟩), ?_, ?_, ?_⟩ <;>
    · intro hu
      unfold parseLit
      rw [P.bind_eq (show cur c _ = .ok t _ from rfl), ht]
      show (match u.type with
        | .Complex => _
        | .Rational => _
        | .RationalComplex => _
        | _ => _ : P Node) c _ = _
      rw [hu]
      rfl

/-- The parser on the tokens of a number with a suffix. -/
theorem parse_suffix {x : Str} (c : Cx) (t u z : Token) (v : Sexp) (ht : NumTok t v) (hu : Suffix x u.type) (hz : z.type = .Eof)
    (hv : VectorOk [t, u, z]) : ∃ n m s, NumNode t v n ∧ parseToks c [t, u, z] = .ok m s ∧
      (u.type = .Complex → m = .complex t n) ∧ (u.type = .Rational → m = .rational t n) ∧
      (u.type = .RationalComplex → m = .complex t (.rational t n)) := by
  obtain ⟨n, hn, h1, h2, h3⟩ := C52_parser t u [z] v ht c { rest := [t, u, z], precs := [.LOWEST] } rfl
  have key : ∀ m : Node, m.isSymbolKey = false →
      parseLit c { rest := [t, u, z], precs := [.LOWEST] } = .ok m { prev := [u, t], rest := [z], precs := [.LOWEST] } →
      ∃ s, parseToks c [t, u, z] = .ok m s := by
    intro m hm h
    refine ⟨_, Evals.parseToks hv (EvalsFrom.tree (s' := { prev := [u, t], rest := [z], precs := [.LOWEST] })
      rfl ?_ ?_ ?_ ?_ rfl rfl hz)⟩
    · rcases ht with ⟨ht, -⟩ | ⟨ht, -⟩ | ⟨ht, -⟩ <;> (rw [ht]; rfl)
    · rcases ht with ⟨ht, -⟩ | ⟨ht, -⟩ | ⟨ht, -⟩ <;> (rw [ht]; decide)
    · rcases ht with ⟨ht, -⟩ | ⟨ht, -⟩ | ⟨ht, -⟩ <;> (rw [ht]; rfl)
    · refine .first (fun _ => parseLit) (fun R => ?_) (.of fun _ => h) (.stop (prec_eof z hz _ hm _ _ _ _ rfl))
      show nullDenotation R t.type = _
      rcases ht with ⟨ht, -⟩ | ⟨ht, -⟩ | ⟨ht, -⟩ <;> (rw [ht]; rfl)
  have hty : u.type = .Complex ∨ u.type = .Rational ∨ u.type = .RationalComplex := by
    generalize u.type = ty at hu
    cases hu
    · exact .inl rfl
    · exact .inr (.inl rfl)
    · exact .inr (.inr rfl)
  clear hu
  rcases hty with hty | hty | hty
  · obtain ⟨s, hs⟩ := key _ rfl (h1 hty)
    refine ⟨n, _, s, hn, hs, fun _ => rfl, fun h => ?_, fun h => ?_⟩ <;> (rw [hty] at h; exact absurd h (by decide))
  · obtain ⟨s, hs⟩ := key _ rfl (h2 hty)
    refine ⟨n, _, s, hn, hs, fun h => ?_, fun _ => rfl, fun h => ?_⟩ <;> (rw [hty] at h; exact absurd h (by decide))
  · obtain ⟨s, hs⟩ := key _ rfl (h3 hty)
    refine ⟨n, _, s, hn, hs, fun h => ?_, fun h => ?_, fun _ => rfl⟩ <;> (rw [hty] at h; exact absurd h (by decide))

/-- C52 for the tree: a source that is a number with the suffix `i` is the complex number with this imaginary part; with the
suffix `r`, the rational number; with the suffix `ri`, the tree has the complex number of the rational number, but the
S-expression has lost the rational number: it is the one of the suffix `i`. -/
theorem C52_tree_partial (pre text x tail file : Str) (v : Sexp) (ty : Ttype) (h : NumberText text v) (hx : Suffix x ty)
    (hb : Spec.Blank pre) (ht : Spec.Blank tail) (hp : ∀ c r, tail = c :: r → nameByte c = false) :
    ∃ n m w t s, NumberText text w ∧ NumNode t w n ∧ Parses (pre ++ (text ++ x ++ tail)) file (.ok m s) ∧
      (ty = .Complex → m = .complex t n ∧ m.toSexp = some (.node (cs! "lit") [.complex w])) ∧
      (ty = .Rational → m = .rational t n ∧ m.toSexp = some (.node (cs! "lit") [.rational w])) ∧
      (ty = .RationalComplex → m = .complex t (.rational t n) ∧ m.toSexp = some (.node (cs! "lit") [.complex w])) := by
  obtain ⟨t, u, w, l', h1, h2, h3, h4, h5⟩ := C52_partial (Lx.init (pre ++ (text ++ x ++ tail))) rfl rfl rfl pre text x tail
    v ty rfl hb h hx hp
  obtain ⟨e, hl, he⟩ := Emits.source h4 h5 (by simp) ht
  obtain ⟨n, m, s, g1, g2, g3, g4, g5⟩ := parse_suffix (x := x) ⟨pre ++ (text ++ x ++ tail), file⟩ t u e w h2 (h3 ▸ hx) he
    hl.vectorOk
  have hpar : Parses (pre ++ (text ++ x ++ tail)) file (.ok m s) := g2 ▸ .tokens _ hl
  refine ⟨n, m, w, t, s, h1, g1, hpar, ?_, ?_, ?_⟩
  · intro hy
    cases g3 (h3.trans hy)
    refine ⟨rfl, ?_⟩
    rcases g1 with ⟨_, rfl, rfl⟩ | ⟨_, rfl, rfl⟩ | ⟨_, rfl, rfl⟩ <;> simp [Node.toSexp, tr, mk, numSexp]
  · intro hy
    cases g4 (h3.trans hy)
    refine ⟨rfl, ?_⟩
    rcases g1 with ⟨_, rfl, rfl⟩ | ⟨_, rfl, rfl⟩ | ⟨_, rfl, rfl⟩ <;> simp [Node.toSexp, tr, mk, numSexp]
  · intro hy
    cases g5 (h3.trans hy)
    refine ⟨rfl, ?_⟩
    rcases g1 with ⟨_, rfl, rfl⟩ | ⟨_, rfl, rfl⟩ | ⟨_, rfl, rfl⟩ <;> simp [Node.toSexp, tr, mk, numSexp]

/-- C52 is false of the code for `ri` with every number: Ruby's `3ri` is `Complex(0, (3/1))`, the S-expression of the code has
no rational number in the complex number. -/
theorem C52_rational_false (text file : Str) (v : Sexp) (h : NumberText text v) :
    ∃ n s, Parses (text ++ cs! "ri") file (.ok n s) ∧ ∀ w, n.toSexp ≠ some (.node (cs! "lit") [.complex (.rational w)]) := by
  obtain ⟨n, m, w, t, s, h1, h2, h3, -, -, h4⟩ := C52_tree_partial [] text (cs! "ri") [] file v _ h .ri .nil .nil nofun
  refine ⟨m, s, by simpa using h3, fun w' he => ?_⟩
  rw [(h4 rfl).2] at he
  simp only [Option.some.injEq, Sexp.node.injEq, true_and, List.cons.injEq, and_true, Sexp.complex.injEq] at he
  subst he
  cases h1

/-- C52 is false of the code in an interpolation, where the suffix is read as a name: the lexer of the interpolation does not
know its last token. -/
theorem C52_interpolation_false :
    (tokensFuel 40 (cs! "\"#{3i}\"")).types = [.InterpolatedStringBegin, .EvaluateToStringBegin, .Fixnum, .BareName,
      .EvaluateToStringEnd, .InterpolatedStringEnd, .Eof] ∧
    (tokensFuel 40 (cs! "3i")).types = [.Fixnum, .Complex, .Eof] := by decide +kernel

/-! ### Non-vacuity -/

example : NumberText (cs! "3") (.int 3) ∧ NumberText (cs! "1.5") (.float false (cs! "1.5")) ∧
    NumberText (cs! "4611686018427387904") (.big (cs! "4611686018427387904")) := by
  refine ⟨.int 10 _ (cs! "3") (.decimal '3' [] _ (by decide) (.one _ (by decide))) (by decide) (by decide),
    .float _ ⟨cs! "1", cs! "1", cs! ".5", [], rfl, .one _ (by decide), .inr (by decide), .some _ _ (.one _ (by decide)),
      .none, by simp⟩, .big 10 _ (cs! "4611686018427387904") _ (.decimal _ _ _ (by decide) ?_) (by decide) ?_ (by decide)
      (by decide)⟩
  · repeat first | exact .one _ (by decide) | refine .cons _ _ _ (by decide) ?_
  · rintro c - ⟨r, h⟩
    cases h

example : (tokensFuel 60 (cs! "[3i, 1.5r, 0x1Fri] if 3if x")).types = [.LBracket, .Fixnum, .Complex, .Comma, .Float, .Rational,
    .Comma, .Fixnum, .RationalComplex, .RBracket, .IfKeyword, .Fixnum, .IfKeyword, .BareName, .Eof] := by decide +kernel

end NP
