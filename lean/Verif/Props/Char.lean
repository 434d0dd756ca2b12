import Verif.Props.Quoted
import Verif.Props.Strings

/-! C51: character literals `?x`. -/

namespace NP
open Spec

/-- `CharText x bs post`: behind a question mark and in front of `post`, `x` is a character: a visible byte of ASCII, or an
escape as in double-quoted strings. -/
inductive Spec.CharText : Str → Str → Str → Prop where
  | plain (c : Char) (post : Str) (h : '!' ≤ c ∧ c ≤ '~') (hc : c ≠ '\\') : CharText [c] [c] post
  | escape (e bs post : Str) (h : Escape e bs post) (he : e ≠ ['\n']) : CharText ('\\' :: e) bs post

theorem visible_facts : ∀ c : Char, '!' ≤ c ∧ c ≤ '~' → isSpace c = false ∧ c ≠ NUL := by
  intro c h
  have h1 : 33 ≤ c.toNat := h.1
  have hs : isSpace c = false := by
    cases hq : isSpace c with
    | false => rfl
    | true =>
      simp only [isSpace, between, Bool.or_eq_true, Bool.and_eq_true, beq_iff_eq, decide_eq_true_eq] at hq
      rcases hq with rfl | ⟨_, h2⟩
      · exact absurd h1 (by decide)
      · have h2 : c.toNat ≤ 13 := h2
        omega
  exact ⟨hs, by rintro rfl; exact absurd h1 (by decide)⟩

/-- The switch of the lexer on a character literal. -/
theorem char_dispatch (l : Lx) (x bs post : Str) (hr : l.rest = '?' :: x ++ post) (hx : CharText x bs post) :
    l.dispatch = .ok (l.opLit (x.length + 1) .String bs) := by
  have h0 : l.ch 0 = '?' := by unfold Lx.ch; rw [hr]; rfl
  have hd : l.dispatch = l.lexQuestion := by simp [Lx.dispatch, h0]
  rw [hd]
  cases hx with
  | plain c _ h hc =>
    have h1 : l.ch 1 = c := by unfold Lx.ch; rw [hr]; rfl
    obtain ⟨f1, f2⟩ := visible_facts c h
    simp [Lx.lexQuestion, h1, f1, f2, hc]
  | escape e _ _ h he =>
    have h1 : l.ch 1 = '\\' := by unfold Lx.ch; rw [hr]; rfl
    have h2 : l.rest.drop 2 = e ++ post := by rw [hr]; rfl
    simp only [Lx.lexQuestion, h1, h2, escapedByte_spec h]
    rw [if_neg (by decide), if_pos trivial]
    simp only [List.length_cons]
    congr 2
    omega

/-- C51: a question mark with a character directly behind it is one string token with this character, at program level or in
an interpolation; the lexer goes on directly behind it. `_partial`: characters of more than one byte are left out. -/
theorem C51_partial (l : Lx) (ps : List Lx) (hk : l.kind = .base) (hst : l.stopChar = NUL ∨ l.stopChar = '}')
    (hsc : l.startChar ≠ '?') (pre x bs post : Str) (hr : l.rest = pre ++ ('?' :: x ++ post)) (hb : Spec.Blank pre)
    (hx : CharText x bs post) :
    ∃ t l', t.key = (.String, some bs) ∧ Emits (l :: ps) [t] (setLast .String (l' :: ps)) ∧
      Continues l l' (pre.length + (x.length + 1)) := by
  obtain ⟨h1, h2, h3, h4⟩ := base_start' l hk hst '?' hsc pre _ hr hb rfl (by decide)
  rw [char_dispatch l.start x bs post h2 hx] at h1
  obtain ⟨l', e1, e2⟩ := one_emits l ps pre.length _ _ h3 h1 rfl
  exact ⟨_, l', rfl, e1, e2⟩

/-- C51: a question mark in front of white space or the end of the source is the operator, and a `:` is awaited. -/
theorem C51_operator (l : Lx) (hk : l.kind = .base) (hst : l.stopChar = NUL ∨ l.stopChar = '}')
    (hsc : l.startChar ≠ '?') (pre post : Str) (hr : l.rest = pre ++ ('?' :: post)) (hb : Spec.Blank pre)
    (hp : post = [] ∨ ∃ c r, post = c :: r ∧ isSpace c = true) :
    ∃ o, l.step = .ok o ∧ o.tok.type = .TernaryQuestion ∧ o.lx.openTernary = true ∧ o.child = none ∧
      o.lx.rest = post := by
  obtain ⟨h1, h2, h3, h4⟩ := base_start' l hk hst '?' hsc pre _ hr hb rfl (by decide)
  have hd : l.start.dispatch = l.start.lexQuestion := by simp [Lx.dispatch, h4]
  have hc : isSpace (l.start.ch 1) = true ∨ l.start.ch 1 = NUL := by
    unfold Lx.ch
    rw [h2]
    rcases hp with rfl | ⟨c, r, rfl, hc⟩
    · exact .inr rfl
    · exact .inl hc
  rw [hd, Lx.lexQuestion, if_pos hc] at h1
  refine ⟨_, step_of_build l _ h1, rfl, ?_, rfl, ?_⟩
  · simp only []; rw [Lx.post_eq]
  · have h5 : l.start.rest.drop 1 = post := by rw [h2]; rfl
    rw [← h5]
    simp only [Lx.rest, Lx.post_cur, Lx.post_input, Lx.adv, Cursor.nextN_index, List.drop_drop]

/-- C51 for the tree: a source that is a character literal is parsed to a string with this character, like the string
`"x"`. -/
theorem C51_tree (x bs pre tail file : Str) (hx : CharText x bs tail) (hb : Spec.Blank pre) (ht : Spec.Blank tail) :
    ∃ n s, Parses (pre ++ ('?' :: x ++ tail)) file (.ok n s) ∧ n.toSexp = some (.node (cs! "str") [.str bs]) := by
  obtain ⟨t, l', h1, h2, h3⟩ := C51_partial (Lx.init (pre ++ ('?' :: x ++ tail))) [] rfl (.inl rfl)
    (show NUL ≠ '?' by decide) pre x bs tail rfl hb hx
  obtain ⟨e, hl, he⟩ := Emits.source h2 h3 (by simp) ht
  have h4 : t.type = .String := congrArg Prod.fst h1
  have h5 : t.lit = some bs := congrArg Prod.snd h1
  obtain ⟨u, s, hs⟩ := parse_run_vector ⟨pre ++ ('?' :: x ++ tail), file⟩ [t] [bs] (.cons [t] [] bs [] (.plain t bs h4 h5) .nil) (by simp) e he hl.vectorOk
  have hq : parseToks ⟨pre ++ ('?' :: x ++ tail), file⟩ ([t] ++ [e]) = .ok (.string u bs) s := by simpa using hs
  have hp : Parses (pre ++ ('?' :: x ++ tail)) file (.ok (.string u bs) s) := hq ▸ .tokens _ hl
  exact ⟨_, s, hp, by simp [Node.toSexp, tr, mk]⟩

/-- C51 is false of the code for characters of several bytes (`?é` is the string of its first byte, and a name), for an escaped
line end (the string is empty), and the code takes `?a` of `x ?ab : c` for a character, where Ruby sees a condition. -/
theorem C51_false :
    (tokensFuel 40 (cs! "?\xc3\xa9")).lits = [(.String, some (cs! "\xc3")), (.BareName, some (cs! "\xa9")), (.Eof, none)] ∧
    (tokensFuel 40 (cs! "?\\\n")).lits = [(.String, some []), (.Eof, none)] ∧
    (tokensFuel 40 (cs! "x ?ab : c")).lits = [(.BareName, some (cs! "x")), (.String, some (cs! "a")), (.BareName, some (cs! "b")),
      (.TernaryColon, none), (.BareName, some (cs! "c")), (.Eof, none)] := by decide +kernel

/-! ### Non-vacuity -/

example : CharText (cs! "a") (cs! "a") (cs! ", 1") ∧ CharText (cs! "\\n") (cs! "\n") (cs! ")") ∧
    CharText (cs! "\\C-a") (cs! "\x01") [] :=
  ⟨.plain _ _ (by decide) (by decide), .escape _ _ _ (.letter _ _ _ (by decide)) (by decide),
    .escape _ _ _ (.control 'a' [] (by decide) (by decide)) (by decide)⟩

example : (tokensFuel 40 (cs! "f(?a, ?\\n) ? 1 : ?\\C-a")).lits = [(.BareName, some (cs! "f")), (.LParen, none),
    (.String, some (cs! "a")), (.Comma, none), (.String, some (cs! "\n")), (.RParen, none), (.TernaryQuestion, none),
    (.Fixnum, none), (.TernaryColon, none), (.String, some (cs! "\x01")), (.Eof, none)] := by decide +kernel

end NP
