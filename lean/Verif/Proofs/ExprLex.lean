import Verif.Proofs.Expr
import Verif.Proofs.Quoted
import Verif.Props.Number

/-! The tokens of an expression of integers and binary operators, from its text. -/

namespace NP
open Spec

/-! ### Decimal numbers -/

theorem Spec.Digits.snoc {p : Char → Bool} {t ds : Str} (h : Digits p t ds) {c : Char} (hc : p c = true) :
    Digits p (t ++ [c]) (ds ++ [c]) := by
  induction h with
  | one c' h => exact .cons _ _ _ h (.one c hc)
  | cons c' t ds h _ ih => exact .cons _ _ _ h ih
  | under c' t ds h _ ih => exact .under _ _ _ h ih

theorem valueOf_snoc (b : Nat) (ds : Str) (c : Char) : valueOf b (ds ++ [c]) = valueOf b ds * b + digitOf c := by
  induction ds with
  | nil => simp [valueOf]
  | cons d ds ih =>
    show digitOf d * b ^ (ds ++ [c]).length + valueOf b (ds ++ [c]) = _
    rw [ih]
    show _ = (digitOf d * b ^ ds.length + valueOf b ds) * b + digitOf c
    rw [List.length_append, List.length_singleton, pow_succ]
    ring

theorem digitChar_dec : ∀ n < 10, isDec n.digitChar = true ∧ digitOf n.digitChar = n ∧ (n ≠ 0 → n.digitChar ≠ '0') := by
  decide

theorem toDigits_facts (n : Nat) : Digits isDec (Nat.toDigits 10 n) (Nat.toDigits 10 n) ∧
    valueOf 10 (Nat.toDigits 10 n) = n ∧ (n ≠ 0 → (Nat.toDigits 10 n).head? ≠ some '0') := by
  induction n using Nat.strongRecOn with
  | _ n ih =>
    rw [Nat.toDigits_eq_if (by omega)]
    split
    · rename_i h
      obtain ⟨h1, h2, h3⟩ := digitChar_dec n h
      refine ⟨.one _ h1, ?_, fun hn => ?_⟩
      · simp [valueOf, h2]
      · simpa using h3 hn
    · rename_i h
      obtain ⟨h1, h2, -⟩ := digitChar_dec (n % 10) (by omega)
      obtain ⟨i1, i2, i3⟩ := ih (n / 10) (by omega)
      refine ⟨i1.snoc h1, ?_, fun _ => ?_⟩
      · rw [valueOf_snoc, i2, h2]; omega
      · have h4 := i3 (by omega)
        generalize hg : Nat.toDigits 10 (n / 10) = ds at h4 ⊢
        cases ds with
        | nil => exact absurd hg Nat.toDigits_ne_nil
        | cons c t => exact h4

theorem toDigits_intLit (n : Nat) : IntLit 10 (Nat.toDigits 10 n) (Nat.toDigits 10 n) := by
  by_cases h : n = 0
  · subst h; rw [Nat.toDigits_zero]; exact .zero
  · obtain ⟨h1, -, h3⟩ := toDigits_facts n
    have h3 := h3 h
    generalize Nat.toDigits 10 n = ds at h1 h3
    cases ds with
    | nil => cases h1
    | cons c t => exact .decimal c t _ (fun hc => h3 (by rw [hc]; rfl)) h1

/-! ### One token -/

/-- A lexer object at the outermost level that does not expect a method name. -/
structure Plain (l : Lx) : Prop where
  kind : l.kind = .base
  stop : l.stopChar = NUL
  start : l.startChar = NUL
  sep : l.sep = .Invalid
  remaining : l.remaining = 0

/-- The tokens after which a method name is expected. -/
def nameBefore : Ttype → Bool
  | .AliasKeyword | .ConstantResolution | .DefKeyword | .Dot | .UndefKeyword => true
  | _ => false

theorem Plain.post {l : Lx} (h : Plain l) (t : Ttype) (ht : nameBefore t = false) : Plain (l.post t) := by
  obtain ⟨h1, h2, h3, h4, h5⟩ := h
  have : l.post t = { l with allowAssign := false } := by
    cases t <;> first | (cases ht; done) | simp [Lx.post, h4, h5]
  rw [this]
  exact ⟨h1, h2, h3, h4, h5⟩

theorem Plain.begin {l : Lx} (h : Plain l) : Plain l.start := by
  obtain ⟨h1, h2, h3, h4, h5⟩ := h
  exact ⟨h1, h2, h3, h4, h5⟩

/-- One token without a nested lexer. -/
theorem plain_emits (l : Lx) (hl : Plain l) (c : Char) (pre s : Str) (hr : l.rest = pre ++ s) (hb : Spec.Blank pre)
    (h0 : s.ch 0 = c) (hc : c ≠ ' ' ∧ c ≠ '\t' ∧ c ≠ '\\' ∧ c ≠ '\xEF' ∧ c ≠ '}' ∧ c ≠ NUL) (n : Nat) (t : Token)
    (hd : l.start.dispatch = .ok { tok := t, lx := l.start.adv n }) (hp : plainType t.type = true)
    (hn : nameBefore t.type = false) :
    ∃ l', Emits [l] [t] [l'] ∧ Plain l' ∧ l'.rest = s.drop n ∧ l'.lastType = t.type := by
  obtain ⟨h1, h2, h3, h4⟩ := base_start' l hl.kind (.inl hl.stop) c (by rw [hl.start]; exact hc.2.2.2.2.2.symm) pre s hr hb
    h0 hc
  have h5 := Emits.one (next_step l [] _ (step_of_build l _ (h1.trans hd)) (plain_facts hp).2.2.2.1) hp
  refine ⟨{ (l.start.adv n).post t.type with lastType := t.type }, h5, ?_, ?_, rfl⟩
  · have : Plain (l.start.adv n) := by
      obtain ⟨a, b, c, d, e⟩ := hl.begin
      exact ⟨a, b, c, d, e⟩
    obtain ⟨a, b, c, d, e⟩ := this.post t.type hn
    exact ⟨a, b, c, d, e⟩
  · have e1 : ((l.start.adv n).post t.type).input = l.start.input := by simp [Lx.adv]
    have e2 : ((l.start.adv n).post t.type).cur = l.start.cur.nextN l.start.input n := by simp [Lx.adv]
    show List.drop ((l.start.adv n).post t.type).cur.index ((l.start.adv n).post t.type).input = _
    rw [e1, e2, Cursor.nextN_index, ← h2, Lx.rest, List.drop_drop]

/-- The operator tokens. -/
theorem dispatch_op (o : Op) (l : Lx) (post : Str) (hr : l.rest = o.text ++ ' ' :: post) (hrem : l.remaining = 0)
    (hlast : l.lastType = .Fixnum ∨ l.lastType = .RParen) :
    l.dispatch = .ok { tok := l.tk o.tok, lx := l.adv o.text.length } := by
  have hch : ∀ k, l.ch k = (o.text ++ ' ' :: post).ch k := fun k => by unfold Lx.ch; rw [hr]
  have hlast' : l.lastType.isValid = true ∧ Lx.slashAfter l.lastType = false ∧
      l.lastType.isKeyword = false ∧ l.lastType.canPrecedeHeredoc = false ∧ l.firstOnLine = false := by
    unfold Lx.firstOnLine
    rcases hlast with h | h <;> (rw [h]; decide)
  obtain ⟨v1, v2, v3, v4, v5⟩ := hlast'
  cases o
  case pow =>
    have h0 : l.ch 0 = '*' := hch 0
    have h1 : l.ch 1 = '*' := hch 1
    have h2 : l.ch 2 = ' ' := hch 2
    simp [Lx.dispatch, h0, h1, h2, Lx.lexStar, Op.tok, Op.text, Lx.op]
  case mul =>
    have h0 : l.ch 0 = '*' := hch 0
    have h1 : l.ch 1 = ' ' := hch 1
    simp [Lx.dispatch, h0, h1, Lx.lexStar, Op.tok, Op.text, Lx.op]
  case div =>
    have h0 : l.ch 0 = '/' := hch 0
    have h1 : l.ch 1 = ' ' := hch 1
    simp [Lx.dispatch, h0, h1, Lx.lexSlash, v1, v2, v3, hrem, Op.tok, Op.text, Lx.op]
  case mod =>
    have h0 : l.ch 0 = '%' := hch 0
    have h1 : l.ch 1 = ' ' := hch 1
    simp [Lx.dispatch, h0, h1, Lx.lexPercent, Lx.percentString, hrem, show canDelimit ' ' = false from by decide, Op.tok, Op.text, Lx.op]
  case add =>
    have h0 : l.ch 0 = '+' := hch 0
    have h1 : l.ch 1 = ' ' := hch 1
    simp [Lx.dispatch, h0, h1, Lx.lexPlus, Op.tok, Op.text, Lx.op]
  case sub =>
    have h0 : l.ch 0 = '-' := hch 0
    have h1 : l.ch 1 = ' ' := hch 1
    simp [Lx.dispatch, h0, h1, Lx.lexMinus, Op.tok, Op.text, Lx.op]
  case shl =>
    have h0 : l.ch 0 = '<' := hch 0
    have h1 : l.ch 1 = '<' := hch 1
    have h2 : l.ch 2 = ' ' := hch 2
    simp [Lx.dispatch, h0, h1, h2, Lx.lexLess, v4, v5, show Lx.heredocStart ' ' = false from by decide, Op.tok, Op.text, Lx.op]
  case shr =>
    have h0 : l.ch 0 = '>' := hch 0
    have h1 : l.ch 1 = '>' := hch 1
    have h2 : l.ch 2 = ' ' := hch 2
    simp [Lx.dispatch, h0, h1, h2, Lx.lexGreater, Op.tok, Op.text, Lx.op]
  case band =>
    have h0 : l.ch 0 = '&' := hch 0
    have h1 : l.ch 1 = ' ' := hch 1
    simp [Lx.dispatch, h0, h1, Lx.lexAmpersand, Op.tok, Op.text, Lx.op]
  case bor =>
    have h0 : l.ch 0 = '|' := hch 0
    have h1 : l.ch 1 = ' ' := hch 1
    simp [Lx.dispatch, h0, h1, Lx.lexPipe, Op.tok, Op.text, Lx.op]
  case bxor =>
    have h0 : l.ch 0 = '^' := hch 0
    have h1 : l.ch 1 = ' ' := hch 1
    simp [Lx.dispatch, h0, h1, Lx.lexCaret, Op.tok, Op.text, Lx.op]
  case lt =>
    have h0 : l.ch 0 = '<' := hch 0
    have h1 : l.ch 1 = ' ' := hch 1
    simp [Lx.dispatch, h0, h1, Lx.lexLess, Op.tok, Op.text, Lx.op]
  case le =>
    have h0 : l.ch 0 = '<' := hch 0
    have h1 : l.ch 1 = '=' := hch 1
    have h2 : l.ch 2 = ' ' := hch 2
    simp [Lx.dispatch, h0, h1, h2, Lx.lexLess, Op.tok, Op.text, Lx.op]
  case gt =>
    have h0 : l.ch 0 = '>' := hch 0
    have h1 : l.ch 1 = ' ' := hch 1
    simp [Lx.dispatch, h0, h1, Lx.lexGreater, Op.tok, Op.text, Lx.op]
  case ge =>
    have h0 : l.ch 0 = '>' := hch 0
    have h1 : l.ch 1 = '=' := hch 1
    simp [Lx.dispatch, h0, h1, Lx.lexGreater, Op.tok, Op.text, Lx.op]
  case cmp =>
    have h0 : l.ch 0 = '<' := hch 0
    have h1 : l.ch 1 = '=' := hch 1
    have h2 : l.ch 2 = '>' := hch 2
    simp [Lx.dispatch, h0, h1, h2, Lx.lexLess, Op.tok, Op.text, Lx.op]
  case eq =>
    have h0 : l.ch 0 = '=' := hch 0
    have h1 : l.ch 1 = '=' := hch 1
    have h2 : l.ch 2 = ' ' := hch 2
    simp [Lx.dispatch, h0, h1, h2, Lx.lexEqual, Op.tok, Op.text, Lx.op]
  case eqq =>
    have h0 : l.ch 0 = '=' := hch 0
    have h1 : l.ch 1 = '=' := hch 1
    have h2 : l.ch 2 = '=' := hch 2
    simp [Lx.dispatch, h0, h1, h2, Lx.lexEqual, Op.tok, Op.text, Lx.op]
  case neq =>
    have h0 : l.ch 0 = '!' := hch 0
    have h1 : l.ch 1 = '=' := hch 1
    simp [Lx.dispatch, h0, h1, Lx.lexBang, Op.tok, Op.text, Lx.op]
  case and =>
    have h0 : l.ch 0 = '&' := hch 0
    have h1 : l.ch 1 = '&' := hch 1
    have h2 : l.ch 2 = ' ' := hch 2
    simp [Lx.dispatch, h0, h1, h2, Lx.lexAmpersand, Op.tok, Op.text, Lx.op]
  case or =>
    have h0 : l.ch 0 = '|' := hch 0
    have h1 : l.ch 1 = '|' := hch 1
    have h2 : l.ch 2 = ' ' := hch 2
    simp [Lx.dispatch, h0, h1, h2, Lx.lexPipe, Op.tok, Op.text, Lx.op]
  case dot2 =>
    have h0 : l.ch 0 = '.' := hch 0
    have h1 : l.ch 1 = '.' := hch 1
    have h2 : l.ch 2 = ' ' := hch 2
    simp [Lx.dispatch, h0, h1, h2, Lx.lexDot, Op.tok, Op.text, Lx.op]
  case dot3 =>
    have h0 : l.ch 0 = '.' := hch 0
    have h1 : l.ch 1 = '.' := hch 1
    have h2 : l.ch 2 = '.' := hch 2
    simp [Lx.dispatch, h0, h1, h2, Lx.lexDot, Op.tok, Op.text, Lx.op]

/-! ### The tokens of an expression -/

/-- What may follow a number in the text of an expression. -/
def AfterNum (post : Str) : Prop := post = [] ∨ (∃ r, post = ' ' :: r) ∨ (∃ r, post = ')' :: r)

theorem AfterNum.ends {post : Str} (h : AfterNum post) : NumberEnds post := by
  intro c r he
  rcases h with rfl | ⟨r', rfl⟩ | ⟨r', rfl⟩
  · cases he
  · cases he; exact ⟨.inl (by decide), fun h => absurd h (by decide)⟩
  · cases he; exact ⟨.inl (by decide), fun h => absurd h (by decide)⟩

theorem int_emits (T : Table) (n : Nat) (hn : n < 2 ^ 62) (l : Lx) (hl : Plain l) (pre post : Str) (hb : Spec.Blank pre)
    (hr : l.rest = pre ++ (Nat.toDigits 10 n ++ post)) (hp : AfterNum post) :
    ∃ ts l', Emits [l] ts [l'] ∧ Toks T false (.int n) ts ∧ Plain l' ∧ l'.rest = post ∧ l'.lastType = .Fixnum := by
  obtain ⟨h1, h2, h3⟩ := toDigits_facts n
  have hlit := toDigits_intLit n
  have hdec := hlit.first post
  have hne : ∀ c : Char, isDec c = true → c ≠ ' ' ∧ c ≠ '\t' ∧ c ≠ '\\' ∧ c ≠ '\xEF' ∧ c ≠ '}' ∧ c ≠ NUL := by
    intro c hc
    refine ⟨?_, ?_, ?_, ?_, ?_, ?_⟩ <;> (rintro rfl; exact absurd hc (by decide))
  obtain ⟨-, hs, -, hc0⟩ := base_start' l hl.kind (.inl hl.stop) _ (by rw [hl.start]; exact (hne _ hdec).2.2.2.2.2.symm) pre
    _ hr hb rfl (hne _ hdec)
  have hu : (Nat.toDigits 10 n).ch 1 ≠ '_' ∨ (Nat.toDigits 10 n).ch 0 ≠ '0' := by
    left
    intro h
    refine Nat.underscore_not_in_toDigits (n := n) ?_
    rw [← h]
    generalize Nat.toDigits 10 n = ds at h
    match ds, h with
    | [], h => exact absurd h (by decide)
    | [_], h => exact absurd (show NUL = '_' from h) (by decide)
    | _ :: _ :: _, h => exact List.mem_cons_of_mem _ List.mem_cons_self
  obtain ⟨chars, hnum, -⟩ := numeric_int hlit hu hp.ends
  rw [h2, if_pos hn] at hnum
  obtain ⟨l', e1, e2, e3, e4⟩ := plain_emits l hl _ pre _ hr hb rfl (hne _ hdec) (Nat.toDigits 10 n).length
    { l.start.tk .Fixnum with fix := n } (by
      rw [dispatch_digit l.start (by rw [hc0]; exact hdec)]
      unfold Lx.lexNumber
      rw [hs, hnum]) rfl rfl
  exact ⟨_, l', e1, .int _ n rfl rfl, e2, by rw [e3, List.drop_left], e4⟩

theorem paren_emits {T : Table} {e : Exp} {body : Str}
    (ih : ∀ (l : Lx) (pre post : Str), Plain l → Spec.Blank pre → l.rest = pre ++ (body ++ post) → AfterNum post →
      ∃ ts l', Emits [l] ts [l'] ∧ Toks T false e ts ∧ Plain l' ∧ l'.rest = post ∧
        (l'.lastType = .Fixnum ∨ l'.lastType = .RParen))
    (b : Bool) (l : Lx) (pre post : Str) (hl : Plain l) (hb : Spec.Blank pre)
    (hr : l.rest = pre ++ (Exp.paren b body ++ post)) (hp : AfterNum post) :
    ∃ ts l', Emits [l] ts [l'] ∧ Toks T b e ts ∧ Plain l' ∧ l'.rest = post ∧
      (l'.lastType = .Fixnum ∨ l'.lastType = .RParen) := by
  cases b with
  | false => exact ih l pre post hl hb hr hp
  | true =>
    have hr1 : l.rest = pre ++ ('(' :: (body ++ ')' :: post)) := by rw [hr]; simp [Exp.paren]
    have d1 : l.start.dispatch = .ok (l.start.op 1 .LParen) := by
      obtain ⟨-, -, -, hc0⟩ := base_start' l hl.kind (.inl hl.stop) '(' (by rw [hl.start]; decide) pre _ hr1 hb rfl
        (by decide)
      simp [Lx.dispatch, hc0]
    obtain ⟨l1, e1, p1, r1, t1⟩ := plain_emits l hl '(' pre _ hr1 hb rfl (by decide) 1 (l.start.tk .LParen) d1 rfl rfl
    obtain ⟨ts, l2, e2, k2, p2, r2, t2⟩ := ih l1 [] (')' :: post) p1 .nil r1 (.inr (.inr ⟨_, rfl⟩))
    have d3 : l2.start.dispatch = .ok (l2.start.op 1 .RParen) := by
      obtain ⟨-, -, -, hc0⟩ := base_start' l2 p2.kind (.inl p2.stop) ')' (by rw [p2.start]; decide) [] _ r2 .nil rfl
        (by decide)
      simp [Lx.dispatch, hc0]
    obtain ⟨l3, e3, p3, r3, t3⟩ := plain_emits l2 p2 ')' [] _ r2 .nil rfl (by decide) 1 (l2.start.tk .RParen) d3 rfl rfl
    exact ⟨_, l3, (e1.trans e2).trans e3, .paren _ _ _ _ rfl rfl k2, p3, r3, .inr t3⟩

theorem op_head (o : Op) (y : Char) (hy : o.text.head? = some y) :
    y ≠ ' ' ∧ y ≠ '\t' ∧ y ≠ '\\' ∧ y ≠ '\xEF' ∧ y ≠ '}' ∧ y ≠ NUL := by
  cases o <;> cases hy <;> decide

theorem show_emits (T : Table) (e : Exp) : e.Small → ∀ (l : Lx) (pre post : Str), Plain l → Spec.Blank pre →
    l.rest = pre ++ (e.show_ T ++ post) → AfterNum post →
    ∃ ts l', Emits [l] ts [l'] ∧ Toks T false e ts ∧ Plain l' ∧ l'.rest = post ∧
      (l'.lastType = .Fixnum ∨ l'.lastType = .RParen) := by
  induction e with
  | int n =>
    intro hs l pre post hl hb hr hp
    have : (Exp.int n).show_ T = Nat.toDigits 10 n := by
      show (toString n).toList = _
      exact Nat.toList_repr
    rw [this] at hr
    obtain ⟨ts, l', e1, e2, e3, e4, e5⟩ := int_emits T n hs l hl pre post hb hr hp
    exact ⟨ts, l', e1, e2, e3, e4, .inl e5⟩
  | bin o a b iha ihb =>
    intro hs l pre post hl hb hr hp
    have hr1 : l.rest = pre ++ (Exp.paren (a.needL T o) (a.show_ T) ++
        (' ' :: (o.text ++ ' ' :: (Exp.paren (b.needR T o) (b.show_ T) ++ post)))) := by
      rw [hr]; simp [Exp.show_]
    obtain ⟨ts, l1, e1, k1, p1, r1, t1⟩ := paren_emits (iha hs.1) (a.needL T o) l pre _ hl hb hr1 (.inr (.inl ⟨_, rfl⟩))
    have hc : ∀ c, c = (o.text ++ ' ' :: (Exp.paren (b.needR T o) (b.show_ T) ++ post)).ch 0 →
        c ≠ ' ' ∧ c ≠ '\t' ∧ c ≠ '\\' ∧ c ≠ '\xEF' ∧ c ≠ '}' ∧ c ≠ NUL := by
      rintro c rfl
      refine op_head o _ ?_
      cases o <;> rfl
    obtain ⟨-, hst, -, -⟩ := base_start' l1 p1.kind (.inl p1.stop) _ (by rw [p1.start]; exact (hc _ rfl).2.2.2.2.2.symm)
      [' '] _ r1 (.space _ .nil) rfl (hc _ rfl)
    have d2 := dispatch_op o l1.start _ hst p1.remaining t1
    obtain ⟨l2, e2, p2, r2, -⟩ := plain_emits l1 p1 _ [' '] _ r1 (.space _ .nil) rfl (hc _ rfl) o.text.length
      (l1.start.tk o.tok) d2 (by cases o <;> rfl) (by cases o <;> rfl)
    replace r2 := r2.trans (List.drop_left (l₁ := o.text))
    obtain ⟨us, l3, e3, k3, p3, r3, t3⟩ := paren_emits (ihb hs.2) (b.needR T o) l2 [' '] post p2 (.space _ .nil) r2 hp
    refine ⟨_, l3, (e1.trans e2).trans e3, ?_, p3, r3, t3⟩
    rw [List.append_assoc]
    exact .bin o a b _ _ _ rfl k1 k3

/-- The tokens of the text of an expression. -/
theorem show_lexes (T : Table) (e : Exp) (hs : e.Small) : ∃ ts z, z.type = .Eof ∧ Toks T false e ts ∧ Lexes (e.show_ T) (ts ++ [z]) := by
  obtain ⟨ts, l, h1, h2, h3, h4, -⟩ := show_emits T e hs (Lx.init (e.show_ T)) [] [] ⟨rfl, rfl, rfl, rfl, rfl⟩ .nil
    (by show List.drop 0 (e.show_ T) = _; simp) (.inl rfl)
  obtain ⟨z, hz, hl⟩ := h1.lexes h3.kind (by rw [h4]; exact .nil)
  exact ⟨ts, z, hz, h2, hl⟩

end NP
