import Verif.Proofs.Scope
import Verif.Proofs.ExprLex
import Verif.Proofs.HeredocOut
import Verif.Proofs.Keyword

/-! The tokens of a program of statements and scopes, from its text. -/

namespace NP
open Spec

/-! ### Words -/

/-- What follows a name in these programs. -/
def AfterWord (post : Str) : Prop := ∃ c r, post = c :: r ∧ c ∈ cs! " ;(,)|"

theorem AfterWord.facts {post : Str} (h : AfterWord post) :
    NameEnds post ∧ (∀ n, addSuffix n post = n) ∧ post.ch 0 ≠ '?' ∧ post.ch 0 ≠ '!' ∧ post.ch 0 ≠ '=' ∧ post.ch 0 ≠ ':' ∧
      post.ch 0 ≠ '.' := by
  obtain ⟨c, r, rfl, hc⟩ := h
  simp only [List.mem_cons, List.not_mem_nil, or_false] at hc
  rcases hc with rfl | rfl | rfl | rfl | rfl | rfl <;>
    exact ⟨fun a b e => by cases e; decide, fun n => rfl, by simp, by simp, by simp, by simp, by simp⟩

/-- A byte that may start a word. -/
theorem lower_facts (c : Char) (h : ('a' ≤ c ∧ c ≤ 'z') ∨ c = '_') :
    isNameStart c = true ∧ isPunct c = false ∧ isDigit c = false ∧ nameByte c = true ∧
      (c ≠ ' ' ∧ c ≠ '\t' ∧ c ≠ '\\' ∧ c ≠ '\xEF' ∧ c ≠ '}' ∧ c ≠ NUL) := by
  rcases h with ⟨h1, h2⟩ | rfl
  · rw [char_le] at h1 h2
    have tab : ∀ k < 123, 97 ≤ k → isNameStart (Char.ofNat k) = true ∧ isPunct (Char.ofNat k) = false ∧
        isDigit (Char.ofNat k) = false ∧ nameByte (Char.ofNat k) = true ∧
        (Char.ofNat k ≠ ' ' ∧ Char.ofNat k ≠ '\t' ∧ Char.ofNat k ≠ '\\' ∧ Char.ofNat k ≠ '\xEF' ∧ Char.ofNat k ≠ '}' ∧
          Char.ofNat k ≠ NUL) := by decide +kernel
    have := tab c.toNat (Nat.lt_succ_of_le h2) h1
    rwa [Char.ofNat_toNat] at this
  · decide

theorem upper_facts (c : Char) (h : 'A' ≤ c ∧ c ≤ 'Z') :
    isNameStart c = false ∧ between 'A' 'Z' c = true ∧ isPunct c = false ∧ isDigit c = false ∧ nameByte c = true ∧
      (c ≠ ' ' ∧ c ≠ '\t' ∧ c ≠ '\\' ∧ c ≠ '\xEF' ∧ c ≠ '}' ∧ c ≠ NUL) ∧ c ≠ 'i' ∧ c ≠ 'r' := by
  obtain ⟨h1, h2⟩ := h
  rw [char_le] at h1 h2
  have tab : ∀ k < 91, 65 ≤ k → isNameStart (Char.ofNat k) = false ∧ between 'A' 'Z' (Char.ofNat k) = true ∧
      isPunct (Char.ofNat k) = false ∧ isDigit (Char.ofNat k) = false ∧ nameByte (Char.ofNat k) = true ∧
      (Char.ofNat k ≠ ' ' ∧ Char.ofNat k ≠ '\t' ∧ Char.ofNat k ≠ '\\' ∧ Char.ofNat k ≠ '\xEF' ∧ Char.ofNat k ≠ '}' ∧
        Char.ofNat k ≠ NUL) := by decide +kernel
  have tab2 : ∀ k < 91, 65 ≤ k → Char.ofNat k ≠ 'i' ∧ Char.ofNat k ≠ 'r' := by decide +kernel
  have h3 := tab c.toNat (Nat.lt_succ_of_le h2) h1
  have h4 := tab2 c.toNat (Nat.lt_succ_of_le h2) h1
  rw [Char.ofNat_toNat] at h3 h4
  exact ⟨h3.1, h3.2.1, h3.2.2.1, h3.2.2.2.1, h3.2.2.2.2.1, h3.2.2.2.2.2, h4⟩

/-- No keyword at a word that is not one. -/
theorem keywordAt_none (l : Lx) (x post : Str) (hr : l.rest = x ++ post) (hn : x.all nameByte = true) (hp : AfterWord post)
    (hk : ∀ t, (x, t) ∉ keywordTable) : l.keywordAt = none := by
  obtain ⟨h1, h2, -⟩ := hp.facts
  have hw : wordOf l.rest = x := by rw [hr, wordOf_append x post hn h1, h2]
  have hm : ∀ w t, (w, t) ∈ Lx.keywords → matchWord l.rest w = false := by
    intro w t hw'
    cases hm : matchWord l.rest w with
    | false => rfl
    | true =>
      have h3 := ((matchWord_iff l.rest w t hw').1 hm).1
      rw [hw] at h3
      subst h3
      exact absurd ((keywords_mem _ _).1 hw') (hk t)
  unfold Lx.keywordAt
  rw [if_neg (by rw [hm (cs! "self") .SelfKeyword (by decide)]; simp)]
  split
  · rw [List.find?_eq_none.2 (fun k hk' => by rw [hm k.1 k.2 hk']; simp)]
    rfl
  · rfl

theorem word_bare (l : Lx) (ty : Ttype) (c : Char) (n post : Str) (hr : l.rest = c :: n ++ post)
    (hn : ∀ b ∈ n, nameByte b = true) (hp : AfterWord post) :
    l.bareName ty = l.opLit (c :: n).length ty (c :: n) := by
  obtain ⟨h1, h2, h3, h4, h5, h6, -⟩ := hp.facts
  have hch : l.ch (n.length + 1) = post.ch 0 := by
    unfold Lx.ch
    rw [hr]
    simp [List.ch, List.getElem?_append_right]
  unfold Lx.bareName
  rw [hr, List.cons_append, consumeWord_name c n post hn h1]
  simp only [hch]
  rw [if_neg (by simp [h3, h4]), if_neg h5, if_neg (by simp [h6])]
  rfl

theorem name_dispatch (l : Lx) (x post : Str) (hr : l.rest = x ++ post) (hx : IsName x) (hp : AfterWord post)
    (hl : l.lastType.canBeComplexOrRational = false) : l.dispatch = .ok (l.opLit x.length .BareName x) := by
  obtain ⟨c, n, rfl, hc, hn, hk⟩ := hx
  have h0 : l.ch 0 = c := by unfold Lx.ch; rw [hr]; rfl
  have hs := lower_facts c hc
  have h1 : l.lexWord = l.opLit (c :: n).length .BareName (c :: n) := by
    unfold Lx.lexWord
    rw [keywordAt_none l _ post hr (by simpa using ⟨hs.2.2.2.1, hn⟩) hp hk]
    simp only [h0, hs.1, if_true]
    exact word_bare l _ c n post hr hn hp
  have hd := dispatch_disp l
  generalize hr : l.dispatch = r at hd
  cases hd
  case word => rw [h1]
  case i h => unfold Lx.lexI; rw [if_neg (by rw [hl]; simp), h1]
  case r h => unfold Lx.lexR; rw [if_neg (by rw [hl]; simp), h1]
  case digit h => rw [h0, hs.2.2.1] at h; cases h
  all_goals (rename_i h; rw [← h0, h] at hs; cases hs.2.1)

theorem const_dispatch (l : Lx) (x post : Str) (hr : l.rest = x ++ post) (hx : IsConst x) (hp : AfterWord post) :
    l.dispatch = .ok (l.opLit x.length .Constant x) := by
  obtain ⟨c, n, rfl, hc, hn, hk⟩ := hx
  have h0 : l.ch 0 = c := by unfold Lx.ch; rw [hr]; rfl
  have hs := upper_facts c hc
  have h1 : l.lexWord = l.opLit (c :: n).length .Constant (c :: n) := by
    unfold Lx.lexWord
    rw [keywordAt_none l _ post hr (by simpa using ⟨hs.2.2.2.2.1, hn⟩) hp hk]
    simp only [h0, hs.1, hs.2.1, if_true]
    exact word_bare l _ c n post hr hn hp
  have hd := dispatch_disp l
  generalize hr : l.dispatch = r at hd
  cases hd
  case word => rw [h1]
  case i h => exact absurd (h0.symm.trans h) hs.2.2.2.2.2.2.1
  case r h => exact absurd (h0.symm.trans h) hs.2.2.2.2.2.2.2
  case digit h => rw [h0, hs.2.2.2.1] at h; cases h
  all_goals (rename_i h; rw [← h0, h] at hs; cases hs.2.2.1)

theorem keyword_dispatch (l : Lx) (w post : Str) (t : Ttype) (hr : l.rest = w ++ post) (hw : (w, t) ∈ Lx.keywords)
    (hn : w.all nameByte = true) (hp : AfterWord post) (hrem : l.remaining = 0) : l.dispatch = .ok (l.op w.length t) := by
  obtain ⟨h1, h2, h3, h4, h5, h6, -⟩ := hp.facts
  rw [dispatch_keyword l w t hw ⟨post, hr.symm⟩]
  have h7 : l.keywordAt = some (t, w.length) := by
    refine (keywordAt_iff l hrem w t hw).2 ⟨by rw [hr, wordOf_append w post hn h1, h2], ?_⟩
    rintro rfl
    exact absurd hn (by decide)
  unfold Lx.lexWord
  have hch : l.ch w.length = post.ch 0 := by
    unfold Lx.ch
    rw [hr]
    simp [List.ch, List.getElem?_append_right]
  simp only [h7, hch]
  rw [if_neg (by simp [h6])]

/-! ### Lexer objects -/

/-- A lexer object at the outermost level that expects `k` method names and is not behind a number. -/
structure Outer (k : Nat) (l : Lx) : Prop where
  kind : l.kind = .base
  stop : l.stopChar = NUL
  start : l.startChar = NUL
  sep : l.sep = .Invalid
  remaining : l.remaining = k
  last : l.lastType.canBeComplexOrRational = false

theorem Outer.plain {l : Lx} (h : Outer 0 l) : Plain l := ⟨h.kind, h.stop, h.start, h.sep, h.remaining⟩

theorem Outer.of {l : Lx} (h : Plain l) (t : Ttype) (ht : l.lastType = t) (hc : t.canBeComplexOrRational = false) :
    Outer 0 l := ⟨h.kind, h.stop, h.start, h.sep, h.remaining, by rw [ht]; exact hc⟩

/-- The number of method names expected after a token. -/
def namesAfter (k : Nat) : Ttype → Nat
  | .DefKeyword => 1
  | _ => k - 1

theorem post_outer (m : Lx) (k : Nat) (hs : m.sep = .Invalid) (hm : m.remaining = k) (t : Ttype)
    (hn : nameBefore t = false ∨ t = .DefKeyword) :
    (m.post t).kind = m.kind ∧ (m.post t).stopChar = m.stopChar ∧ (m.post t).startChar = m.startChar ∧
      (m.post t).sep = .Invalid ∧ (m.post t).remaining = namesAfter k t := by
  rcases hn with hn | rfl
  · have e : m.post t = if m.remaining > 0 then { m with remaining := m.remaining - 1 } else { m with allowAssign := false } := by
      cases t <;> first | (cases hn; done) | simp [Lx.post, hs]
    have e2 : namesAfter k t = k - 1 := by cases t <;> first | (cases hn; done) | rfl
    rw [e, e2]
    split
    · exact ⟨rfl, rfl, rfl, hs, by simp [hm]⟩
    · exact ⟨rfl, rfl, rfl, hs, by simp only; omega⟩
  · exact ⟨rfl, rfl, rfl, hs, rfl⟩

/-- One token without a nested lexer. -/
theorem outer_emits {k : Nat} (l : Lx) (hl : Outer k l) (c : Char) (pre s : Str) (hr : l.rest = pre ++ s) (hb : Spec.Blank pre)
    (h0 : s.ch 0 = c) (hc : c ≠ ' ' ∧ c ≠ '\t' ∧ c ≠ '\\' ∧ c ≠ '\xEF' ∧ c ≠ '}' ∧ c ≠ NUL) (n : Nat) (t : Token)
    (hd : l.start.dispatch = .ok { tok := t, lx := l.start.adv n }) (hp : plainType t.type = true)
    (hn : nameBefore t.type = false ∨ t.type = .DefKeyword) (ht : t.type.canBeComplexOrRational = false) :
    ∃ l', Emits [l] [t] [l'] ∧ Outer (namesAfter k t.type) l' ∧ l'.rest = s.drop n := by
  obtain ⟨h1, h2, h3, h4⟩ := base_start' l hl.kind (.inl hl.stop) c (by rw [hl.start]; exact hc.2.2.2.2.2.symm) pre s hr hb
    h0 hc
  have h5 := Emits.one (next_step l [] _ (step_of_build l _ (h1.trans hd)) (plain_facts hp).2.2.2.1) hp
  refine ⟨{ (l.start.adv n).post t.type with lastType := t.type }, h5, ?_, ?_⟩
  · obtain ⟨a, b, c, d, e, f⟩ := hl
    obtain ⟨p1, p2, p3, p4, p5⟩ := post_outer (l.start.adv n) k d e t.type hn
    exact ⟨p1.trans a, p2.trans b, p3.trans c, p4, p5, ht⟩
  · have e1 : ((l.start.adv n).post t.type).input = l.start.input := by simp [Lx.adv]
    have e2 : ((l.start.adv n).post t.type).cur = l.start.cur.nextN l.start.input n := by simp [Lx.adv]
    show List.drop ((l.start.adv n).post t.type).cur.index ((l.start.adv n).post t.type).input = _
    rw [e1, e2, Cursor.nextN_index, ← h2, Lx.rest, List.drop_drop]

/-! ### Pieces of text -/

/-- In front of a text that satisfies `E`, the text `txt` gives tokens that satisfy `Q`. -/
def Gives (E : Str → Prop) (txt : Str) (Q : List Token → Prop) : Prop :=
  ∀ (l : Lx) (pre post : Str), Outer 0 l → Spec.Blank pre → l.rest = pre ++ (txt ++ post) → E post →
    ∃ ts l' pre', Emits [l] ts [l'] ∧ Q ts ∧ Outer 0 l' ∧ Spec.Blank pre' ∧ l'.rest = pre' ++ post

def Any : Str → Prop := fun _ => True

/-- The types of tokens. -/
def Tys (tys : List Ttype) (ts : List Token) : Prop := ts.map (·.type) = tys

theorem Spec.Blank.append {a b : Str} (ha : Spec.Blank a) (hb : Spec.Blank b) : Spec.Blank (a ++ b) := by
  induction ha with
  | nil => exact hb
  | space s _ ih => exact .space _ ih
  | tab s _ ih => exact .tab _ ih
  | line s _ ih => exact .line _ ih

theorem Gives.seq {E F : Str → Prop} {a b : Str} {P Q : List Token → Prop} (ha : Gives E a P) (hb : Gives F b Q)
    (h : ∀ post, F post → E (b ++ post)) : Gives F (a ++ b) (fun ts => ∃ us vs, ts = us ++ vs ∧ P us ∧ Q vs) := by
  intro l pre post hl hp hr hf
  obtain ⟨us, l1, p1, e1, q1, o1, b1, r1⟩ := ha l pre (b ++ post) hl hp (by rw [hr, List.append_assoc]) (h post hf)
  obtain ⟨vs, l2, p2, e2, q2, o2, b2, r2⟩ := hb l1 p1 post o1 b1 r1 hf
  exact ⟨_, l2, p2, e1.trans e2, ⟨us, vs, rfl, q1, q2⟩, o2, b2, r2⟩

theorem Gives.mono {E : Str → Prop} {a : Str} {P Q : List Token → Prop} (ha : Gives E a P) (h : ∀ ts, P ts → Q ts) :
    Gives E a Q := by
  intro l pre post hl hp hr hf
  obtain ⟨us, l1, p1, e1, q1, o1, b1, r1⟩ := ha l pre post hl hp hr hf
  exact ⟨us, l1, p1, e1, h _ q1, o1, b1, r1⟩

theorem Gives.types {E F : Str → Prop} {a b : Str} {xs ys : List Ttype} (ha : Gives E a (Tys xs)) (hb : Gives F b (Tys ys))
    (h : ∀ post, F post → E (b ++ post)) : Gives F (a ++ b) (Tys (xs ++ ys)) :=
  (ha.seq hb h).mono fun ts ⟨us, vs, h1, h2, h3⟩ => by
    subst h1; unfold Tys at h2 h3 ⊢; rw [List.map_append, h2, h3]

theorem gives_blank : Gives Any [' '] (Tys []) := by
  intro l pre post hl hp hr hf
  exact ⟨[], l, pre ++ [' '], .done _, rfl, hl, hp.append (.space _ .nil), by rw [hr, List.append_assoc]⟩

theorem gives_token {E : Str → Prop} {c : Char} {w : Str} {Q : List Token → Prop}
    (hc : c ≠ ' ' ∧ c ≠ '\t' ∧ c ≠ '\\' ∧ c ≠ '\xEF' ∧ c ≠ '}' ∧ c ≠ NUL)
    (h : ∀ (l : Lx) post, Outer 0 l → l.rest = c :: w ++ post → E post →
      ∃ t, l.dispatch = .ok { tok := t, lx := l.adv (c :: w).length } ∧ plainType t.type = true ∧ nameBefore t.type = false ∧
        t.type.canBeComplexOrRational = false ∧ Q [t]) : Gives E (c :: w) Q := by
  intro l pre post hl hp hr hf
  obtain ⟨h1, h2, h3, h4⟩ := base_start' l hl.kind (.inl hl.stop) c (by rw [hl.start]; exact hc.2.2.2.2.2.symm) pre
    (c :: w ++ post) hr hp rfl hc
  obtain ⟨a1, a2, a3, a4, a5, a6⟩ := hl
  obtain ⟨t, d1, d2, d3, d4, d5⟩ := h l.start post ⟨a1, a2, a3, a4, a5, a6⟩ h2 hf
  obtain ⟨l', e1, e2, e3⟩ := outer_emits l ⟨a1, a2, a3, a4, a5, a6⟩ c pre _ hr hp rfl hc _ t d1 d2 (.inl d3) d4
  refine ⟨[t], l', [], e1, d5, ?_, .nil, by rw [e3, List.drop_left]; rfl⟩
  have : namesAfter 0 t.type = 0 := by generalize t.type = ty at d3; cases ty <;> first | (cases d3; done) | rfl
  rw [this] at e2
  exact e2

theorem gives_name {x : Str} (hx : IsName x) : Gives AfterWord x (fun ts => ∃ t, ts = [t] ∧ Nm t x) := by
  obtain ⟨c, n, rfl, hc, -⟩ := id hx
  refine gives_token (lower_facts c hc).2.2.2.2 fun l post hl hr hp => ?_
  exact ⟨_, name_dispatch l _ post hr hx hp hl.last, rfl, rfl, rfl, _, rfl, rfl, rfl⟩

theorem gives_const {x : Str} (hx : IsConst x) : Gives AfterWord x (fun ts => ∃ t, ts = [t] ∧ Cn t x) := by
  obtain ⟨c, n, rfl, hc, -⟩ := id hx
  refine gives_token (upper_facts c hc).2.2.2.2.2.1 fun l post hl hr hp => ?_
  exact ⟨_, const_dispatch l _ post hr hx hp, rfl, rfl, rfl, _, rfl, rfl, rfl⟩

theorem gives_keyword (w : Str) (t : Ttype) (hw : (w, t) ∈ Lx.keywords) (hn : w.all nameByte = true)
    (ht : plainType t = true ∧ nameBefore t = false ∧ t.canBeComplexOrRational = false) : Gives AfterWord w (Tys [t]) := by
  have tab : ∀ p ∈ Lx.keywords, p.1 ≠ [] ∧ (let c := p.1.ch 0; c ≠ ' ' ∧ c ≠ '\t' ∧ c ≠ '\\' ∧ c ≠ '\xEF' ∧ c ≠ '}' ∧ c ≠ NUL) := by
    decide +kernel
  obtain ⟨h1, h2⟩ := tab _ hw
  cases w with
  | nil => exact absurd rfl h1
  | cons c w =>
    refine gives_token h2 fun l post hl hr hp => ?_
    exact ⟨_, keyword_dispatch l _ post t hr hw hn hp hl.remaining, ht.1, ht.2.1, ht.2.2, rfl⟩

theorem gives_char (c : Char) (t : Ttype) (hc : c ≠ ' ' ∧ c ≠ '\t' ∧ c ≠ '\\' ∧ c ≠ '\xEF' ∧ c ≠ '}' ∧ c ≠ NUL)
    (hd : ∀ l : Lx, l.ch 0 = c → l.dispatch = .ok (l.op 1 t))
    (ht : plainType t = true ∧ nameBefore t = false ∧ t.canBeComplexOrRational = false) : Gives Any [c] (Tys [t]) := by
  refine gives_token hc fun l post hl hr _ => ?_
  exact ⟨l.tk t, hd l (by unfold Lx.ch; rw [hr]; rfl), ht.1, ht.2.1, ht.2.2, rfl⟩

theorem gives_punct (c : Char) (t : Ttype) (h : (c, t) ∈ [('(', Ttype.LParen), (')', .RParen), (';', .Semicolon), (',', .Comma)]) :
    Gives Any [c] (Tys [t]) := by
  simp only [List.mem_cons, Prod.mk.injEq, List.not_mem_nil, or_false] at h
  rcases h with ⟨rfl, rfl⟩ | ⟨rfl, rfl⟩ | ⟨rfl, rfl⟩ | ⟨rfl, rfl⟩ <;>
    exact gives_char _ _ (by decide) (fun l h0 => by unfold Lx.dispatch; rw [h0]; rfl) (by decide)

/-- A blank follows. -/
def Sp (post : Str) : Prop := ∃ r, post = ' ' :: r

theorem gives_equal : Gives Sp (cs! "=") (Tys [.Equal]) := by
  refine gives_token (by decide) fun l post hl hr ⟨r, hp⟩ => ?_
  subst hp
  have h0 : l.ch 0 = '=' := by unfold Lx.ch; rw [hr]; rfl
  have h1 : l.ch 1 = ' ' := by unfold Lx.ch; rw [hr]; rfl
  refine ⟨l.tk _, ?_, rfl, rfl, rfl, rfl⟩
  simp [Lx.dispatch, h0, Lx.lexEqual, h1, hr, matchWord, Lx.op]

theorem gives_less : Gives Sp (cs! "<") (Tys [.LessThan]) := by
  refine gives_token (by decide) fun l post hl hr ⟨r, hp⟩ => ?_
  subst hp
  have h0 : l.ch 0 = '<' := by unfold Lx.ch; rw [hr]; rfl
  have h1 : l.ch 1 = ' ' := by unfold Lx.ch; rw [hr]; rfl
  refine ⟨l.tk _, ?_, rfl, rfl, rfl, rfl⟩
  simp [Lx.dispatch, h0, Lx.lexLess, h1, Lx.op]

theorem gives_arrow : Gives Any (cs! "->") (Tys [.Arrow]) := by
  refine gives_token (by decide) fun l post hl hr _ => ?_
  have h0 : l.ch 0 = '-' := by unfold Lx.ch; rw [hr]; rfl
  have h1 : l.ch 1 = '>' := by unfold Lx.ch; rw [hr]; rfl
  refine ⟨l.tk _, ?_, rfl, rfl, rfl, rfl⟩
  simp [Lx.dispatch, h0, Lx.lexMinus, h1, Lx.op]

/-- Neither `|` nor `=` follows. -/
def NoPipe (post : Str) : Prop := post.ch 0 ≠ '|' ∧ post.ch 0 ≠ '='

theorem gives_pipe : Gives NoPipe (cs! "|") (Tys [.Pipe]) := by
  refine gives_token (by decide) fun l post hl hr hp => ?_
  have h0 : l.ch 0 = '|' := by unfold Lx.ch; rw [hr]; rfl
  have h1 : l.ch 1 = post.ch 0 := by unfold Lx.ch; rw [hr]; rfl
  refine ⟨l.tk _, ?_, rfl, rfl, rfl, rfl⟩
  simp [Lx.dispatch, h0, Lx.lexPipe, h1, hp.1, hp.2, Lx.op]

/-- `<<` between blanks. -/
theorem gives_shift : Gives Sp (cs! " <<") (Tys [.LeftShift]) := by
  intro l pre post hl hp hr ⟨r, hf⟩
  subst hf
  have hr' : l.rest = (pre ++ [' ']) ++ (cs! "<< " ++ r) := by rw [hr]; simp
  obtain ⟨h1, h2, h3, h4⟩ := base_start' l hl.kind (.inl hl.stop) '<' (by rw [hl.start]; decide) _ _ hr'
    (hp.append (.space _ .nil)) rfl (by decide)
  have hw : l.start.ws = true := by
    show (l.skipped != 0) = true
    rw [h3]; simp
  have c1 : l.start.ch 1 = '<' := by unfold Lx.ch; rw [h2]; rfl
  have c2 : l.start.ch 2 = ' ' := by unfold Lx.ch; rw [h2]; rfl
  obtain ⟨l', e1, e2, e3⟩ := outer_emits l hl '<' _ _ hr' (hp.append (.space _ .nil)) rfl (by decide) 2 (l.start.tk .LeftShift)
    (by simp [Lx.dispatch, h4, Lx.lexLess, c1, c2, hw, show Lx.heredocStart ' ' = false from by decide, Lx.op]) rfl (.inl rfl) rfl
  exact ⟨_, l', [], e1, rfl, e2, .nil, by rw [e3]; rfl⟩

/-- `1;` -/
theorem gives_one : Gives Any (cs! "1;") (fun ts => ∃ w e, ts = [w, e] ∧ VTok .one w ∧ e.type = .Semicolon) := by
  intro l pre post hl hp hr _
  have hr1 : l.rest = pre ++ (Nat.toDigits 10 1 ++ ';' :: post) := hr
  obtain ⟨-, hs, -, hc0⟩ := base_start' l hl.kind (.inl hl.stop) '1' (by rw [hl.start]; decide) pre _ hr1 hp rfl (by decide)
  have he : NumberEnds (';' :: post) := by
    intro c r he
    cases he
    exact ⟨.inl (by decide), fun h => absurd h (by decide)⟩
  obtain ⟨chars, hnum, -⟩ := numeric_int (toDigits_intLit 1) (.inl (by decide)) he
  rw [(toDigits_facts 1).2.1, if_pos (by norm_num)] at hnum
  obtain ⟨l1, e1, e2, e3, -⟩ := plain_emits l hl.plain '1' pre _ hr1 hp rfl (by decide) (Nat.toDigits 10 1).length
    { l.start.tk .Fixnum with fix := 1 } (by
      rw [dispatch_digit l.start (by rw [hc0]; decide)]
      unfold Lx.lexNumber
      rw [hs, hnum]
      rfl) rfl rfl
  rw [List.drop_left] at e3
  obtain ⟨-, -, -, hc1⟩ := base_start' l1 e2.kind (.inl e2.stop) ';' (by rw [e2.start]; decide) [] _ e3 .nil rfl (by decide)
  obtain ⟨l2, f1, f2, f3, f4⟩ := plain_emits l1 e2 ';' [] _ e3 .nil rfl (by decide) 1 (l1.start.tk .Semicolon)
    (by unfold Lx.dispatch; rw [hc1]; rfl) rfl rfl
  exact ⟨_, l2, [], e1.trans f1, ⟨_, _, rfl, .one _ rfl rfl, rfl⟩, .of f2 _ f4 rfl, .nil, f3⟩

/-- `def f` -/
theorem gives_def {x : Str} (hx : IsName x) :
    Gives AfterWord (cs! "def " ++ x) (fun ts => ∃ d t, ts = [d, t] ∧ d.type = .DefKeyword ∧ Nm t x) := by
  intro l pre post hl hp hr hf
  obtain ⟨h1, h2, h3, h4⟩ := base_start' l hl.kind (.inl hl.stop) 'd' (by rw [hl.start]; decide) pre
    (cs! "def" ++ (' ' :: (x ++ post))) (by rw [hr]; simp) hp rfl (by decide)
  obtain ⟨l1, e1, e2, e3⟩ := outer_emits l hl 'd' pre (cs! "def" ++ (' ' :: (x ++ post))) (by rw [hr]; simp) hp rfl
    (by decide) 3 (l.start.tk .DefKeyword) (keyword_dispatch l.start (cs! "def") (' ' :: (x ++ post)) .DefKeyword h2 (by decide)
      (by decide) ⟨_, _, rfl, by decide⟩ hl.remaining) rfl (.inr rfl) rfl
  replace e3 : l1.rest = [' '] ++ (x ++ post) := e3
  obtain ⟨c, n, hcn, hc, -⟩ := id hx
  have hs := (lower_facts c hc).2.2.2.2
  have h0 : (x ++ post).ch 0 = c := by rw [hcn]; rfl
  obtain ⟨i1, i2, i3, i4⟩ := base_start' l1 e2.kind (.inl e2.stop) c (by rw [e2.start]; exact hs.2.2.2.2.2.symm) [' ']
    (x ++ post) e3 (.space _ .nil) h0 hs
  obtain ⟨l2, f1, f2, f3⟩ := outer_emits l1 e2 c [' '] _ e3 (.space _ .nil) h0 hs x.length (l1.start.tkLit .BareName x)
    (name_dispatch l1.start x post i2 hx hf e2.last) rfl (.inl rfl) rfl
  refine ⟨_, l2, [], e1.trans f1, ⟨_, _, rfl, rfl, rfl, rfl⟩, f2, .nil, ?_⟩
  rw [f3, List.drop_left]
  rfl

/-! ### Programs -/

theorem Gives.then_ {E F : Str → Prop} {a b : Str} {P Q R : List Token → Prop} (ha : Gives E a P) (hb : Gives F b Q)
    (h : ∀ post, F post → E (b ++ post)) (hR : ∀ us vs, P us → Q vs → R (us ++ vs)) : Gives F (a ++ b) R :=
  (ha.seq hb h).mono fun _ ⟨us, vs, h1, h2, h3⟩ => h1 ▸ hR us vs h2 h3

theorem gives_semi : Gives Any (cs! "; ") (Tys [.Semicolon]) :=
  (gives_punct ';' .Semicolon (by decide)).types gives_blank fun _ _ => trivial

theorem gives_end : Gives Any (cs! "end; ") (Tys [.EndKeyword, .Semicolon]) :=
  (gives_keyword (cs! "end") .EndKeyword (by decide) (by decide) (by decide)).types gives_semi
    fun _ _ => ⟨_, _, rfl, by decide⟩

theorem gives_do : Gives Any (cs! " do; ") (Tys [.DoKeyword, .Semicolon]) :=
  gives_blank.types ((gives_keyword (cs! "do") .DoKeyword (by decide) (by decide) (by decide)).types gives_semi
    fun _ _ => ⟨_, _, rfl, by decide⟩) fun _ _ => trivial

theorem gives_while : Gives Any (cs! "while ") (Tys [.WhileKeyword]) :=
  (gives_keyword (cs! "while") .WhileKeyword (by decide) (by decide) (by decide)).types gives_blank
    fun _ _ => ⟨_, _, rfl, by decide⟩

theorem gives_class : Gives Any (cs! "class ") (Tys [.ClassKeyword]) :=
  (gives_keyword (cs! "class") .ClassKeyword (by decide) (by decide) (by decide)).types gives_blank
    fun _ _ => ⟨_, _, rfl, by decide⟩

theorem gives_module : Gives Any (cs! "module ") (Tys [.ModuleKeyword]) :=
  (gives_keyword (cs! "module") .ModuleKeyword (by decide) (by decide) (by decide)).types gives_blank
    fun _ _ => ⟨_, _, rfl, by decide⟩

theorem gives_meta : Gives Any (cs! "class << self; ") (Tys [.ClassKeyword, .LeftShift, .SelfKeyword, .Semicolon]) :=
  (gives_keyword (cs! "class") .ClassKeyword (by decide) (by decide) (by decide)).types
    (gives_shift.types (gives_blank.types ((gives_keyword (cs! "self") .SelfKeyword (by decide) (by decide) (by decide)).types
      gives_semi fun _ _ => ⟨_, _, rfl, by decide⟩) fun _ _ => trivial) fun _ _ => ⟨_, rfl⟩)
    fun _ _ => ⟨_, _, rfl, by decide⟩

theorem gives_set : Gives Any (cs! " = ") (Tys [.Equal]) :=
  gives_blank.types (gives_equal.types gives_blank fun _ _ => ⟨_, rfl⟩) fun _ _ => trivial

theorem gives_sub : Gives Any (cs! " < ") (Tys [.LessThan]) :=
  gives_blank.types (gives_less.types gives_blank fun _ _ => ⟨_, rfl⟩) fun _ _ => trivial

theorem gives_close : Gives Any (cs! "); ") (Tys [.RParen, .Semicolon]) :=
  (gives_punct ')' .RParen (by decide)).types gives_semi fun _ _ => trivial

theorem gives_comma : Gives Any (cs! ", ") (Tys [.Comma]) :=
  (gives_punct ',' .Comma (by decide)).types gives_blank fun _ _ => trivial

theorem gives_bars : Gives NoPipe (cs! " do |") (Tys [.DoKeyword, .Pipe]) :=
  gives_blank.types ((gives_keyword (cs! "do") .DoKeyword (by decide) (by decide) (by decide)).types
    (gives_blank.types gives_pipe fun _ _ => trivial) fun _ _ => ⟨_, _, rfl, by decide⟩) fun _ _ => trivial

theorem gives_bar : Gives Any (cs! "|; ") (Tys [.Pipe, .Semicolon]) :=
  gives_pipe.types gives_semi fun _ _ => ⟨by simp, by simp⟩

theorem gives_lambda : Gives Any (cs! "->(") (Tys [.Arrow, .LParen]) :=
  gives_arrow.types (gives_punct '(' .LParen (by decide)) fun _ _ => trivial

theorem gives_lambdaDo : Gives Any (cs! ") do; ") (Tys [.RParen, .DoKeyword, .Semicolon]) :=
  (gives_punct ')' .RParen (by decide)).types gives_do fun _ _ => trivial

theorem Tys.one {t : Ttype} {ts : List Token} (h : Tys [t] ts) : ∃ a, ts = [a] ∧ a.type = t := by
  match ts, h with
  | [a], h => exact ⟨a, rfl, by simpa [Tys] using h⟩

theorem Tys.two {t u : Ttype} {ts : List Token} (h : Tys [t, u] ts) : ∃ a b, ts = [a, b] ∧ a.type = t ∧ b.type = u := by
  match ts, h with
  | [a, b], h => exact ⟨a, b, rfl, by simpa [Tys] using h⟩

theorem Tys.three {t u v : Ttype} {ts : List Token} (h : Tys [t, u, v] ts) :
    ∃ a b c, ts = [a, b, c] ∧ a.type = t ∧ b.type = u ∧ c.type = v := by
  rcases ts with _ | ⟨a, _ | ⟨b, _ | ⟨c, _ | ⟨d, ts⟩⟩⟩⟩ <;> first | (cases h; done) | skip
  exact ⟨a, b, c, rfl, by simpa [Tys] using h⟩

theorem Tys.four {t u v w : Ttype} {ts : List Token} (h : Tys [t, u, v, w] ts) :
    ∃ a b c d, ts = [a, b, c, d] ∧ a.type = t ∧ b.type = u ∧ c.type = v ∧ d.type = w := by
  rcases ts with _ | ⟨a, _ | ⟨b, _ | ⟨c, _ | ⟨d, _ | ⟨e, ts⟩⟩⟩⟩⟩ <;> first | (cases h; done) | skip
  exact ⟨a, b, c, d, rfl, by simpa [Tys] using h⟩

theorem gives_params {E : Str → Prop} (hE : ∀ post, E post → AfterWord post) (ps : List Str) (h : ∀ p ∈ ps, IsName p) :
    Gives E (Prog.params ps) (NToks ps) := by
  induction ps with
  | nil =>
    intro l pre post hl hp hr hf
    exact ⟨[], l, pre, .done _, .nil, hl, hp, hr⟩
  | cons p ps ih =>
    have h1 := gives_name (h p List.mem_cons_self)
    cases ps with
    | nil =>
      intro l pre post hl hp hr hf
      obtain ⟨ts, l', p', e1, ⟨t, rfl, e2⟩, e3⟩ := h1 l pre post hl hp hr (hE _ hf)
      exact ⟨_, l', p', e1, .one _ _ e2.1 e2.2, e3⟩
    | cons q ps =>
      refine h1.then_ (gives_comma.then_ (ih fun r hr => h r (List.mem_cons_of_mem _ hr)) (fun _ _ => trivial)
        (R := fun ts => ∃ c vs', ts = c :: vs' ∧ c.type = .Comma ∧ NToks (q :: ps) vs') (fun us vs h1 h2 => ?_))
        (fun _ _ => ⟨_, _, rfl, by decide⟩) ?_
      · obtain ⟨c, rfl, hc⟩ := h1.one
        exact ⟨c, vs, rfl, hc, h2⟩
      · rintro us vs ⟨t, rfl, ht⟩ ⟨c, vs', rfl, hc, hv⟩
        exact .cons _ _ _ _ _ _ ht.1 ht.2 hc hv

theorem gives_rest {b k : Prog} (hb : Gives Any b.show_ (PToks b)) (hk : Gives Any k.show_ (PToks k)) :
    Gives Any (b.show_ ++ (cs! "end; " ++ k.show_)) (fun ts => ∃ bs n f ks, ts = bs ++ n :: f :: ks ∧ PToks b bs ∧
      Ty n .EndKeyword ∧ Ty f .Semicolon ∧ PToks k ks) :=
  hb.then_ (gives_end.seq hk fun _ _ => trivial) (fun _ _ => trivial) fun us vs h1 ⟨xs, ys, h2, h3, h4⟩ => by
    obtain ⟨n, f, rfl, hn, hf⟩ := h3.two
    subst h2
    exact ⟨us, n, f, ys, by simp, h1, hn, hf, h4⟩

/-- A semicolon and what follows it. -/
theorem gives_line {s : Str} {Q : List Token → Prop} (h : Gives Any s Q) :
    Gives Any (cs! "; " ++ s) (fun ts => ∃ e ys, ts = e :: ys ∧ Ty e .Semicolon ∧ Q ys) :=
  gives_semi.then_ h (fun _ _ => trivial) fun us vs h1 h2 => by
    obtain ⟨e, rfl, he⟩ := h1.one
    exact ⟨e, vs, rfl, he, h2⟩

/-- Text that begins with a byte that ends a word. -/
theorem after_word {s : Str} {c : Char} (hc : c ∈ cs! " ;(,)|") (h : s.head? = some c) (post : Str) : AfterWord (s ++ post) := by
  cases s with
  | nil => cases h
  | cons a r => cases h; exact ⟨_, _, rfl, hc⟩

/-- A name and a semicolon. -/
theorem gives_nameLine {x s : Str} {Q : List Token → Prop} (hx : IsName x) (h : Gives Any s Q) :
    Gives Any (x ++ (cs! "; " ++ s)) (fun ts => ∃ t e ys, ts = t :: e :: ys ∧ Nm t x ∧ Ty e .Semicolon ∧ Q ys) :=
  (gives_name hx).then_ (gives_line h) (fun _ _ => ⟨_, _, rfl, by decide⟩)
    fun us vs ⟨t, h1, ht⟩ ⟨e, ys, h2, he, hq⟩ => by subst h1 h2; exact ⟨t, e, ys, rfl, ht, he, hq⟩

theorem gives_constLine {x s : Str} {Q : List Token → Prop} (hx : IsConst x) (h : Gives Any s Q) :
    Gives Any (x ++ (cs! "; " ++ s)) (fun ts => ∃ t e ys, ts = t :: e :: ys ∧ Cn t x ∧ Ty e .Semicolon ∧ Q ys) :=
  (gives_const hx).then_ (gives_line h) (fun _ _ => ⟨_, _, rfl, by decide⟩)
    fun us vs ⟨t, h1, ht⟩ ⟨e, ys, h2, he, hq⟩ => by subst h1 h2; exact ⟨t, e, ys, rfl, ht, he, hq⟩

/-- A name, then text that cannot continue it. -/
theorem gives_nameThen {x s : Str} {Q : List Token → Prop} (hx : IsName x) (h : Gives Any s Q) (c : Char)
    (hc : c ∈ cs! " ;(,)|") (hs : s.head? = some c) : Gives Any (x ++ s) (fun ts => ∃ t ys, ts = t :: ys ∧ Nm t x ∧ Q ys) :=
  (gives_name hx).then_ h (fun _ _ => after_word hc hs _)
    fun us vs ⟨t, h1, ht⟩ hq => by subst h1; exact ⟨t, vs, rfl, ht, hq⟩

/-- Text that gives fixed tokens, then other text. -/
theorem gives_then {E : Str → Prop} {a s : Str} {tys : List Ttype} {Q : List Token → Prop} (ha : Gives E a (Tys tys))
    (h : Gives Any s Q) (hE : ∀ post, E (s ++ post)) : Gives Any (a ++ s) (fun ts => ∃ us ys, ts = us ++ ys ∧ Tys tys us ∧ Q ys) :=
  (ha.seq h fun _ _ => hE _)

theorem prog_gives (p : Prog) (hp : p.Named) : Gives Any p.show_ (PToks p) := by
  induction p with
  | nil =>
    intro l pre post hl hp hr hf
    exact ⟨[], l, pre, .done _, .nil, hl, hp, hr⟩
  | use x k ih =>
    refine (gives_nameLine hp.1 (ih hp.2)).mono ?_
    rintro ts ⟨t, e, ys, rfl, ht, he, hk⟩
    exact .use _ _ _ _ _ ht he hk
  | set x v k ih =>
    cases v with
    | one =>
      refine (gives_nameThen hp.1 (gives_set.seq (gives_one.seq (gives_blank.seq (ih hp.2) fun _ _ => trivial)
        fun _ _ => trivial) fun _ _ => trivial) ' ' (by decide) rfl).mono ?_
      rintro ts ⟨t, _, rfl, ht, us, _, rfl, hq, _, _, rfl, ⟨w, e, rfl, hw, he⟩, vs, ks, rfl, hv, hk⟩
      obtain ⟨q, rfl, hq'⟩ := hq.one
      obtain rfl : vs = [] := by simpa [Tys] using hv
      exact .set _ _ _ _ _ _ _ _ ht hq' hw he hk
    | name y =>
      refine (gives_nameThen hp.1 (gives_then gives_set (gives_nameLine hp.2.1 (ih hp.2.2)) fun _ => trivial)
        ' ' (by decide) rfl).mono ?_
      rintro ts ⟨t, _, rfl, ht, us, _, rfl, hq, w, e, ys, rfl, hw, he, hk⟩
      obtain ⟨q, rfl, hq'⟩ := hq.one
      exact .set _ _ _ _ _ _ _ _ ht hq' (.name _ _ hw.1 hw.2) he hk
  | while_ x b k ihb ih =>
    refine (gives_then gives_while (gives_nameLine hp.1 (gives_rest (ihb hp.2.1) (ih hp.2.2))) fun _ => trivial).mono ?_
    rintro ts ⟨us, _, rfl, hw, t, e, _, rfl, ht, he, bs, n, f, ks, rfl, hb, hn, hf, hk⟩
    obtain ⟨w, rfl, hw'⟩ := hw.one
    exact .while_ _ _ _ _ _ _ _ _ _ _ hw' ht he hb hn hf hk
  | def_ f ps b k ihb ih =>
    have h1 := (gives_def hp.1).seq ((gives_punct '(' .LParen (by decide)).seq ((gives_params (E := AfterWord) (fun _ h => h) ps
      hp.2.1).seq (gives_close.seq (gives_rest (ihb hp.2.2.1) (ih hp.2.2.2)) fun _ _ => trivial)
        fun _ _ => ⟨_, _, rfl, by decide⟩) fun _ _ => trivial) fun _ _ => ⟨_, _, rfl, by decide⟩
    refine Gives.mono (P := _) h1 ?_
    rintro ts ⟨_, _, rfl, ⟨d, t, rfl, hd, ht⟩, us, _, rfl, hl, qs, _, rfl, ha, vs, _, rfl, hc, bs, n, f, ks, rfl, hb, hn, hf, hk⟩
    obtain ⟨l, rfl, hl'⟩ := hl.one
    obtain ⟨r, e, rfl, hr, he⟩ := hc.two
    exact .def_ _ _ _ _ _ _ _ _ _ _ _ _ _ _ hd ht hl' ha hr he hb hn hf hk
  | class_ c b k ihb ih =>
    refine (gives_then gives_class (gives_constLine hp.1 (gives_rest (ihb hp.2.1) (ih hp.2.2))) fun _ => trivial).mono ?_
    rintro ts ⟨us, _, rfl, hw, t, e, _, rfl, ht, he, bs, n, f, ks, rfl, hb, hn, hf, hk⟩
    obtain ⟨w, rfl, hw'⟩ := hw.one
    exact .class_ _ _ _ _ _ _ _ _ _ _ hw' ht he hb hn hf hk
  | sub c x b k ihb ih =>
    refine (gives_then gives_class ((gives_const hp.1).seq (gives_then gives_sub (gives_nameLine hp.2.1
      (gives_rest (ihb hp.2.2.1) (ih hp.2.2.2))) fun _ => trivial) (fun _ _ => after_word (c := ' ') (by decide) rfl _))
      fun _ => trivial).mono ?_
    rintro ts ⟨us, _, rfl, hw, _, _, rfl, ⟨t, rfl, ht⟩, vs, _, rfl, hl, u, e, _, rfl, hu, he, bs, n, f, ks, rfl, hb, hn, hf, hk⟩
    obtain ⟨w, rfl, hw'⟩ := hw.one
    obtain ⟨l, rfl, hl'⟩ := hl.one
    exact .sub _ _ _ _ _ _ _ _ _ _ _ _ _ hw' ht hl' hu he hb hn hf hk
  | meta_ b k ihb ih =>
    refine (gives_then gives_meta (gives_rest (ihb hp.1) (ih hp.2)) fun _ => trivial).mono ?_
    rintro ts ⟨us, _, rfl, hw, bs, n, f, ks, rfl, hb, hn, hf, hk⟩
    obtain ⟨w, l, s, e, rfl, hw1, hw2, hw3, hw4⟩ := hw.four
    exact .meta_ _ _ _ _ _ _ _ _ _ _ hw1 hw2 hw3 hw4 hb hn hf hk
  | module_ c b k ihb ih =>
    refine (gives_then gives_module (gives_constLine hp.1 (gives_rest (ihb hp.2.1) (ih hp.2.2))) fun _ => trivial).mono ?_
    rintro ts ⟨us, _, rfl, hw, t, e, _, rfl, ht, he, bs, n, f, ks, rfl, hb, hn, hf, hk⟩
    obtain ⟨w, rfl, hw'⟩ := hw.one
    exact .module_ _ _ _ _ _ _ _ _ _ _ hw' ht he hb hn hf hk
  | block f ps b k ihb ih =>
    cases ps with
    | nil =>
      refine (gives_nameThen hp.1 (gives_do.seq (gives_rest (ihb hp.2.2.1) (ih hp.2.2.2)) fun _ _ => trivial) ' ' (by decide)
        rfl).mono ?_
      rintro ts ⟨t, _, rfl, ht, us, _, rfl, hu, bs, n, f, ks, rfl, hb, hn, hf, hk⟩
      obtain ⟨d, e, rfl, hd, he⟩ := hu.two
      exact .block _ _ _ _ _ _ _ _ _ [] _ _ ht hd .nil he hb hn hf hk
    | cons p ps =>
      have hnp : ∀ post, NoPipe ((Prog.params (p :: ps) ++ (cs! "|; " ++ (b.show_ ++ (cs! "end; " ++ k.show_)))) ++ post) := by
        intro post
        obtain ⟨c, n, hcn, hc, -⟩ := hp.2.1 p List.mem_cons_self
        have h0 : ((Prog.params (p :: ps) ++ (cs! "|; " ++ (b.show_ ++ (cs! "end; " ++ k.show_)))) ++ post).ch 0 = c := by
          cases ps <;> (rw [Prog.params, hcn]; rfl)
        have h1 := (lower_facts c hc).2.1
        unfold NoPipe
        rw [h0]
        constructor <;> (rintro rfl; exact absurd h1 (by decide))
      refine (gives_nameThen hp.1 (gives_bars.seq ((gives_params (E := AfterWord) (fun _ h => h) (p :: ps) hp.2.1).seq
        (gives_bar.seq (gives_rest (ihb hp.2.2.1) (ih hp.2.2.2)) fun _ _ => trivial) fun _ _ => ⟨_, _, rfl, by decide⟩)
        fun post _ => hnp post) ' ' (by decide) rfl).mono ?_
      rintro ts ⟨t, _, rfl, ht, us, _, rfl, hu, qs, _, rfl, ha, vs, _, rfl, hv, bs, n, f, ks, rfl, hb, hn, hf, hk⟩
      obtain ⟨d, a, rfl, hd, ha'⟩ := hu.two
      obtain ⟨z, e, rfl, hz, he⟩ := hv.two
      have := PToks.block _ _ _ _ _ _ _ _ _ _ _ _ ht hd (.some p ps a z qs ha' hz ha) he hb hn hf hk
      simpa using this
  | lam ps b k ihb ih =>
    refine (gives_lambda.seq ((gives_params (E := AfterWord) (fun _ h => h) ps hp.1).seq (gives_lambdaDo.seq
      (gives_rest (ihb hp.2.1) (ih hp.2.2)) fun _ _ => trivial) fun _ _ => ⟨_, _, rfl, by decide⟩) fun _ _ => trivial).mono ?_
    rintro ts ⟨us, _, rfl, hu, qs, _, rfl, ha, vs, _, rfl, hv, bs, n, f, ks, rfl, hb, hn, hf, hk⟩
    obtain ⟨a, l, rfl, ha', hl⟩ := hu.two
    obtain ⟨r, d, e, rfl, hv1, hv2, hv3⟩ := hv.three
    exact .lam _ _ _ _ _ _ _ _ _ _ _ _ _ ha' hl ha hv1 hv2 hv3 hb hn hf hk

/-- The tokens of the text of a program. -/
theorem prog_lexes (p : Prog) (hp : p.Named) : ∃ ts z, z.type = .Eof ∧ PToks p ts ∧ Lexes p.show_ (ts ++ [z]) := by
  obtain ⟨ts, l, pre, h1, h2, h3, h4, h5⟩ := prog_gives p hp (Lx.init p.show_) [] [] ⟨rfl, rfl, rfl, rfl, rfl, rfl⟩ .nil
    (by show List.drop 0 p.show_ = _; simp) trivial
  obtain ⟨z, hz, hl⟩ := h1.lexes h3.kind (by rw [h5, List.append_nil]; exact h4)
  exact ⟨ts, z, hz, h2, hl⟩

end NP
