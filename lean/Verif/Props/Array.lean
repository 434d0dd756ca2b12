import Verif.Proofs.Array
import Verif.Props.Quoted

/-! C21, C22: regexp literals and word arrays. See Verif/Props/Quoted.lean for the notation. -/

namespace NP

open Spec

/-! ### C21 -/

/-- Where `/` starts a regexp: at the beginning, after certain tokens, and behind a blank unless a space or `=` follows. -/
def SlashRegexp (l : Lx) (pre text : Str) : Prop :=
  l.lastType.isValid = false ∨ (l.remaining = 0 ∧ (l.lastType ∈ regexpAfter ∨
    (pre ≠ [] ∧ text.head? ≠ some ' ' ∧ text.head? ≠ some '=')))

/-- C21 for `/.../`. -/
theorem C21_slash (l : Lx) (ps : List Lx) (hk : l.kind = .base) (hst : l.stopChar = NUL ∨ l.stopChar = '}')
    (hsc : l.startChar ≠ '/') (hd : l.pairDepth = 0) (pre text bs o post : Str)
    (hr : l.rest = pre ++ ('/' :: text ++ '/' :: (o ++ post))) (hb : Blank pre) (hctx : SlashRegexp l pre (text ++ ['/']))
    (h : Pattern NUL '/' text bs ('/' :: (o ++ post))) (ho : ∀ x ∈ o, x ∈ optionLetters)
    (hp : ∀ x r, post = x :: r → x ∉ optionLetters) :
    ∃ ts l', ts.map Token.key = [(.InterpolatedRegexpBegin, some ['/']), (.String, some bs),
        (.InterpolatedRegexpEnd, if o = [] then none else some o)] ∧
      Emits (l :: ps) ts (setLast .InterpolatedRegexpEnd (l' :: ps)) ∧
      Continues l l' (pre.length + (text.length + 2 + o.length)) := by
  obtain ⟨h1, h2, h3, h4⟩ := base_start' l hk hst '/' hsc pre _ hr hb rfl (by decide)
  have h5 : l.start.dispatch = .ok (l.start.regexp 1 '/' '/') := by
    unfold Lx.dispatch
    rw [h4]
    show Res.ok l.start.lexSlash = _
    unfold Lx.lexSlash
    have e1 : l.start.lastType = l.lastType := rfl
    have e2 : l.start.remaining = l.remaining := rfl
    rw [e1, e2]
    rcases hctx with hc | ⟨hc0, hc⟩
    · rw [hc]; rfl
    · by_cases hv : l.lastType.isValid = true
      · rw [hv, if_neg (by decide), if_neg (by omega)]
        rcases hc with hc | ⟨hpre, c1, c2⟩
        · rw [if_pos]
          simp only [regexpAfter, List.mem_cons, List.not_mem_nil, or_false] at hc
          rcases hc with hc | hc | hc | hc | hc | hc | hc | hc | hc | hc <;> (rw [hc]; rfl)
        · have hch : ∀ x : Char, (text ++ ['/']).head? ≠ some x → x ≠ NUL → l.start.ch 1 ≠ x := by
            intro x hx hx0 he
            apply hx
            unfold Lx.ch at he
            rw [h2] at he
            have : List.ch ('/' :: text ++ '/' :: (o ++ post)) 1 = (text ++ ['/']).ch 0 := by
              cases text <;> rfl
            rw [this] at he
            obtain ⟨r, hr⟩ := List.ch_zero_cons _ x he hx0
            rw [hr]; rfl
          have hws : l.start.ws = true := by
            show (l.skipped != 0) = true
            rw [h3]
            cases pre with
            | nil => exact absurd rfl hpre
            | cons c t => rfl
          rw [if_neg (hch ' ' c1 (by decide)), if_neg (hch '=' c2 (by decide)), hws, if_pos rfl, ite_self]
      · rw [Bool.not_eq_true] at hv
        rw [hv]; rfl
  rw [h5] at h1
  obtain ⟨ts, l', t1, t2, t3⟩ := regexp_emits l ps pre.length 1 '/' '/' h3 h1 text bs o post (by rw [h2]; rfl) h hd
    (by decide) (by intro h; exact absurd h (by decide)) ho hp
  exact ⟨ts, l', t1, t2,
    by rwa [show pre.length + (text.length + 2 + o.length) = pre.length + 1 + (text.length + 1 + o.length) by omega]⟩

/-- C21 for `%r` with any delimiters. -/
theorem C21_percent (l : Lx) (ps : List Lx) (hk : l.kind = .base) (hst : l.stopChar = NUL ∨ l.stopChar = '}')
    (hsc : l.startChar ≠ '%') (hd : l.pairDepth = 0) (hrem : l.remaining = 0) (a b : Char) (hab : Delims a b)
    (pre text bs o post : Str) (hr : l.rest = pre ++ ('%' :: 'r' :: a :: text ++ b :: (o ++ post))) (hb : Blank pre)
    (h : Pattern (if a = b then NUL else a) b text bs (b :: (o ++ post))) (hh : b = '#' → (o ++ post).head? ≠ some '{')
    (ho : ∀ x ∈ o, x ∈ optionLetters) (hp : ∀ x r, post = x :: r → x ∉ optionLetters) :
    ∃ ts l', ts.map Token.key = [(.InterpolatedRegexpBegin, some [a]), (.String, some bs),
        (.InterpolatedRegexpEnd, if o = [] then none else some o)] ∧
      Emits (l :: ps) ts (setLast .InterpolatedRegexpEnd (l' :: ps)) ∧
      Continues l l' (pre.length + (text.length + 4 + o.length)) := by
  obtain ⟨h1, h2, h3, h4⟩ := base_start' l hk hst '%' hsc pre _ hr hb rfl (by decide)
  have e2 := percentString_delims l.start 3 .r a b hrem (by unfold Lx.ch; rw [h2]; rfl) hab
  have e3 : l.start.lexPercent = l.start.percentString 3 .r := by
    unfold Lx.lexPercent
    rw [show l.start.ch 1 = 'r' by unfold Lx.ch; rw [h2]; rfl]
    rfl
  rw [dispatch_percent _ h4, e3, e2, Lx.percentConsumer] at h1
  obtain ⟨ts, l', t1, t2, t3⟩ := regexp_emits l ps pre.length 3 a b h3 h1 text bs o post (by rw [h2]; rfl) h hd
    (delims_facts hab).2.1 hh ho hp
  exact ⟨ts, l', t1, t2,
    by rwa [show pre.length + (text.length + 4 + o.length) = pre.length + 3 + (text.length + 1 + o.length) by omega]⟩

/-- C21 for a whole source. -/
theorem C21_source (text bs o tail : Str) (ho : ∀ x ∈ o, x ∈ optionLetters) (ht : Blank tail)
    (h : Pattern NUL '/' text bs ('/' :: (o ++ tail))) :
    ∃ ts e, Lexes ('/' :: text ++ '/' :: (o ++ tail)) (ts ++ [e]) ∧ e.type = .Eof ∧
      ts.map Token.key = [(.InterpolatedRegexpBegin, some ['/']), (.String, some bs),
        (.InterpolatedRegexpEnd, if o = [] then none else some o)] := by
  obtain ⟨ts, l', h1, h2, h3⟩ := C21_slash (Lx.init ('/' :: text ++ '/' :: (o ++ tail))) [] rfl
    (.inl rfl) (show NUL ≠ '/' by decide) rfl [] text bs o tail rfl .nil (.inl rfl) h ho
    (by intro x r he; subst he; cases ht <;> decide)
  have e1 : '/' :: text ++ '/' :: (o ++ tail) = [] ++ (('/' :: text ++ '/' :: o) ++ tail) := by simp
  rw [e1] at h2 h3 ⊢
  obtain ⟨e, hl, he⟩ := h2.source h3 (by simp; omega) ht
  exact ⟨ts, e, hl, he, h1⟩

/-- Non-vacuity for C21. -/
example : Pattern NUL '/' (cs! "a\\/\\d#") (cs! "a/\\d#") (cs! "/mi") :=
  .plain _ _ _ _ (by decide) (by decide) (by decide) (by decide) (by decide)
    (.escaped _ _ _ _ (by decide) (.inl rfl) (.kept _ _ _ _ (by decide) (by decide)
      (.plain _ _ _ _ (by decide) (by decide) (by decide) (by decide) (by decide) (.nil _))))

example : (tokensFuel 40 (cs! "/a\\/\\d#/mi")).lits = [(.InterpolatedRegexpBegin, some (cs! "/")),
      (.String, some (cs! "a/\\d#")), (.InterpolatedRegexpEnd, some (cs! "mi")), (.Eof, none)] ∧
    (tokensFuel 40 (cs! "x = %r{a{2}\\}/} ")).lits = [(.BareName, some (cs! "x")), (.Equal, none),
      (.InterpolatedRegexpBegin, some (cs! "{")), (.String, some (cs! "a{2}}/")), (.InterpolatedRegexpEnd, none),
      (.Eof, none)] := by decide +kernel

/-! ### C22 -/

/-- The letters of word arrays, whether they interpolate, and the types of their begin tokens. -/
def arrayLetters : List (Char × Bool × Ttype) := [
  ('w', false, .PercentLowerW), ('W', true, .PercentUpperW), ('i', false, .PercentLowerI), ('I', true, .PercentUpperI)]

/-- C22: word arrays split at whitespace. Escapes and pairs of delimiters inside the words are covered as well. -/
theorem C22_words (l : Lx) (ps : List Lx) (hk : l.kind = .base) (hst : l.stopChar = NUL ∨ l.stopChar = '}')
    (hsc : l.startChar ≠ '%') (hrem : l.remaining = 0) (q : Char) (interp : Bool) (tt : Ttype)
    (hq : (q, interp, tt) ∈ arrayLetters) (a b : Char) (hab : Delims a b) (hh : interp = true → b ≠ '#')
    (pre text : Str) (ws : List Str) (post : Str) (hr : l.rest = pre ++ ('%' :: q :: a :: text ++ b :: post))
    (hb : Blank pre) (h : Words interp a b text ws) :
    ∃ ts l', ts.map Token.key = (tt, some [a]) :: ws.map (fun w => (.String, some w)) ++ [(.RBracket, none)] ∧
      Emits (l :: ps) ts (setLast .RBracket (l' :: ps)) ∧ Continues l l' (pre.length + (text.length + 4)) := by
  obtain ⟨h1, h2, h3, h4⟩ := base_start' l hk hst '%' hsc pre _ hr hb rfl (by decide)
  have hbw : isWs b = false := by
    cases hab with
    | same c hmem =>
      cases hw : isWs a with
      | false => rfl
      | true =>
        simp only [isWs, Bool.or_eq_true, beq_iff_eq] at hw
        rcases hw with ((((h2 | h2) | h2) | h2) | h2) | h2 <;> (subst h2; exact absurd hmem (by decide))
    | _ => decide
  have hc1 : l.start.ch 1 = q := by unfold Lx.ch; rw [h2]; rfl
  have hc2 : l.start.ch (3 - 1) = a := by unfold Lx.ch; rw [h2]; rfl
  have hd : l.start.lexPercent = l.start.wordArray 3 a b interp tt ∧ plainType tt = true := by
    simp only [arrayLetters, List.mem_cons, List.not_mem_nil, or_false, Prod.mk.injEq] at hq
    rcases hq with ⟨rfl, rfl, rfl⟩ | ⟨rfl, rfl, rfl⟩ | ⟨rfl, rfl, rfl⟩ | ⟨rfl, rfl, rfl⟩
    · have e2 := percentString_delims l.start 3 .w a b hrem hc2 hab
      unfold Lx.lexPercent
      rw [hc1]
      exact ⟨e2, rfl⟩
    · have e2 := percentString_delims l.start 3 .W a b hrem hc2 hab
      unfold Lx.lexPercent
      rw [hc1]
      exact ⟨e2, rfl⟩
    · have e2 := percentString_delims l.start 3 .i a b hrem hc2 hab
      unfold Lx.lexPercent
      rw [hc1]
      exact ⟨e2, rfl⟩
    · have e2 := percentString_delims l.start 3 .I a b hrem hc2 hab
      unfold Lx.lexPercent
      rw [hc1]
      exact ⟨e2, rfl⟩
  rw [dispatch_percent _ h4, hd.1] at h1
  obtain ⟨ts, l', t1, t2, t3⟩ := words_emits l ps pre.length 3 a b interp tt hd.2 h3 h1 text ws post
    (by rw [h2]; rfl) h (delims_facts hab).2.1 hbw hh
  exact ⟨ts, l', t1, t2, by rwa [show pre.length + (text.length + 4) = pre.length + 3 + (text.length + 1) by omega]⟩

/-- C22 for a whole source. -/
theorem C22_source (q : Char) (interp : Bool) (tt : Ttype) (hq : (q, interp, tt) ∈ arrayLetters) (a b : Char)
    (hab : Delims a b) (hh : interp = true → b ≠ '#') (text : Str) (ws : List Str) (tail : Str) (ht : Blank tail)
    (h : Words interp a b text ws) :
    ∃ ts e, Lexes ('%' :: q :: a :: text ++ b :: tail) (ts ++ [e]) ∧ e.type = .Eof ∧
      ts.map Token.key = (tt, some [a]) :: ws.map (fun w => (.String, some w)) ++ [(.RBracket, none)] := by
  obtain ⟨ts, l', h1, h2, h3⟩ := C22_words (Lx.init ('%' :: q :: a :: text ++ b :: tail)) [] rfl (.inl rfl)
    (show NUL ≠ '%' by decide) rfl q interp tt hq a b hab hh [] text ws tail rfl .nil h
  have e1 : '%' :: q :: a :: text ++ b :: tail = [] ++ (('%' :: q :: a :: text ++ [b]) ++ tail) := by simp
  rw [e1] at h2 h3 ⊢
  obtain ⟨e, hl, he⟩ := h2.source h3 (by simp) ht
  exact ⟨ts, e, hl, he, h1⟩

/-- Non-vacuity for C22. -/
example : Words false '[' ']' (cs! " a[b]\n\tc\\ d ") [cs! "a[b]", cs! "c d"] :=
  .cons (cs! " ") (cs! "a[b]") _ _ _ _ (by decide)
    (.plain _ _ _ (by decide) (by decide) (by decide) (by decide) (by decide) (by decide)
      (.pair (cs! "b") _ [] _ (by decide) (by decide) (by decide) (by decide) (by decide)
        (.plain _ _ _ (by decide) (by decide) (by decide) (by decide) (by decide) (by decide) .nil) .nil))
    (by decide) (by decide)
    (.cons (cs! "\t") (cs! "c\\ d") _ _ [] _ (by decide)
      (.plain _ _ _ (by decide) (by decide) (by decide) (by decide) (by decide) (by decide)
        (.space _ _ _ (by decide) (by decide)
          (.plain _ _ _ (by decide) (by decide) (by decide) (by decide) (by decide) (by decide) .nil)))
      (by decide) (by decide) (.none [] (by decide)))

example : (tokensFuel 40 (cs! "%w[ a[b]\n\tc\\ d ]")).lits = [(.PercentLowerW, some (cs! "[")),
    (.String, some (cs! "a[b]")), (.String, some (cs! "c d")), (.RBracket, none), (.Eof, none)] := by decide +kernel

end NP
