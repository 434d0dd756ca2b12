import Verif.Proofs.Trace

/-!
C08-C11, C26: the text of tokens, keywords, operators and the whitespace flag.

The theorems named `_step` are about one step (`Lx.step`, one call of `Lexer::next_token` on one object) of an
arbitrary plain lexer object (`kind = .base`: the program level and the inside of `#{...}`), whatever its state.
`_stream` lifts them to the raw token stream of a source. Spec: Verif/Spec/Lexeme.lean.
-/

namespace NP

open Spec

/-- Reachable plain lexers end at the end of the text or at `}`. -/
theorem Reach.stop {src : Str} {l : Lx} (h : Reach src l) : l.kind = .base → l.stopChar = NUL ∨ l.stopChar = '}' := by
  have kind_base : ∀ k k', KStep k k' → k' = .base → k = .base := by
    intro k k' h h2; subst h2; cases h; rfl
  induction h with
  | init => intro _; exact .inl rfl
  | step hl hs ih =>
    intro hk
    have s := hl.shape hs
    rw [s.stop]
    exact ih (kind_base _ _ s.kind hk)
  | child hl hs hc ih =>
    intro hk
    obtain ⟨t, b, hb, hch⟩ := (hl.shape hs).child _ hc
    cases hch with
    | istr => cases hk
    | regexp => cases hk
    | words => cases hk
    | heredoc => cases hk
    | eval => exact .inr rfl
    | regexpEval => exact .inr rfl
  | last t hl ih => exact ih
  | sync hp hc h ih1 ih2 =>
    intro hk
    rename_i p c
    have e1 : (p.sync c).kind = p.kind := by unfold Lx.sync; split <;> rfl
    have e2 : (p.sync c).stopChar = p.stopChar := by unfold Lx.sync; split <;> rfl
    rw [e2]; exact ih1 (by rw [← e1]; exact hk)

/-- A step of a plain lexer in front of `s`. -/
theorem base_at (l : Lx) (o : Out) (hk : l.kind = .base) (h : l.step = .ok o) (pre s : Str)
    (hr : l.rest = pre ++ s) (hb : Blank pre) (hs : NoBlank s) (hbom : l.cur.index ≠ 0 ∨ s.ch 0 ≠ '\xEF') :
    (o.tok.type = .Eof ∧ (s = [] ∨ (l.stopChar ≠ NUL ∧ s.ch 0 = l.stopChar))) ∨
    ∃ l' o', Ready l pre l' ∧ l'.rest = s ∧ l'.dispatch = .ok o' ∧ o.tok = o'.tok ∧
      o.lx = o'.lx.post o'.tok.type ∧ o.child = o'.child := by
  rcases base_step l o hk h with ⟨h1, -, h3⟩ | ⟨pre', l', o', hR, h1, h2, h3, h4⟩
  · left
    have : l.rest.drop l.skipped = s := by
      rw [show l.skipped = skipWs l.rest by rw [Lx.skipped, hk], hr, blank_skipWs hb s hs, List.drop_left]
    rw [this] at h3
    exact ⟨h1, h3⟩
  · obtain ⟨rfl, h5⟩ := hR.unique pre s hr hb hs hbom
    exact .inr ⟨l', o', hR, h5, h1, h2, h3, h4⟩

/-! ### C08 -/

/-- C08: the token of a step of a plain lexer that has a fixed spelling `w`: behind what is skipped there is `w`, and the
step consumes just that. (A newline token may consume the bodies of heredocs as well.) -/
theorem C08_step (l : Lx) (o : Out) (hk : l.kind = .base) (h : l.step = .ok o) (w : Str)
    (hw : (w, o.tok.type) ∈ fixedSpelling) :
    ∃ pre post, l.rest = pre ++ w ++ post ∧ Skipped (l.cur.index == 0) pre (w ++ post) ∧
      (o.tok.type ≠ .Newline → o.lx.cur.index = l.cur.index + pre.length + w.length) := by
  rcases base_step l o hk h with ⟨h1, -⟩ | ⟨pre, l', o', hR, h1, h2, h3, h4⟩
  · rw [h1] at hw; exact absurd hw (not_fixed rfl)
  · rw [h2] at hw ⊢
    obtain ⟨⟨post, hp⟩, -, h7⟩ := Spelled.dispatch l' o' h1 w hw
    refine ⟨pre, post, ?_, ?_, ?_⟩
    · rw [hR.rest, ← hp, List.append_assoc]
    · rw [hp]; exact hR.skip
    · intro hn
      rw [h3, Lx.post_cur, h7 hn, hR.index]

/-- The tokens of the other classes. -/
theorem nonbase_step {src : Str} {l : Lx} {o : Out} (hl : Reach src l) (hk : l.kind ≠ .base) (h : l.step = .ok o) :
    nestedType o.tok.type = true ∨ o.tok.type = .RBracket := by
  obtain ⟨b, hb, rfl⟩ := l.step_eq o h
  exact nonbase_loose l.start b hl.wf hk hb

/-- C08: a token with fixed spelling, not from a heredoc body, carries the position of an offset of the source at which
it is written (behind a byte order mark, at the beginning of the source). `]` also closes word arrays, whatever their
delimiter, and is left out. -/
theorem C08_stream (src : Str) (fuel : Nat) (u : Token × Bool) (hu : u ∈ rawMarked fuel (Lx.init src) [] {})
    (hm : u.2 = false) (w : Str) (hw : (w, u.1.type) ∈ fixedSpelling) (hne : u.1.type ≠ .RBracket) :
    ∃ i b post, TokenAt src i u.1 ∧ src.drop i = b ++ w ++ post ∧ (b = [] ∨ (i = 0 ∧ Bom b)) := by
  obtain ⟨l, o, hl, hs, ht, hin⟩ := raw_from src fuel u hu
  rw [ht] at hw hne ⊢
  by_cases hk : l.kind = .base
  · rcases base_step l o hk hs with ⟨h1, -⟩ | ⟨pre, l', o', hR, h1, h2, -, -⟩
    · rw [h1] at hw; exact absurd hw (not_fixed rfl)
    · rw [h2] at hw ⊢
      obtain ⟨⟨post, hp⟩, -⟩ := Spelled.dispatch l' o' h1 w hw
      obtain ⟨i, b, h5, h6, h7, h8⟩ := hR.tokenAt hk src (hin hm).1 (hin hm).2
      refine ⟨i, b, post, ?_, by rw [h7, ← hp, List.append_assoc], h8⟩
      have hsh := Shape.dispatch l' o' h1
      rcases hsh.pos with ⟨a, b⟩ | ⟨a, -⟩
      · exact ⟨a.trans h5, b.trans h6⟩
      · rw [a] at hw; exact absurd hw (not_fixed rfl)
  · rcases nonbase_step hl hk hs with h1 | h1
    · simp only [nestedType, Bool.and_eq_true] at h1
      exact absurd hw (not_fixed h1.1)
    · exact absurd h1 hne

/-- Hypotheses of `C08_step` and `C08_stream` are met: ` a **= 2`, at the operator. -/
example : ∃ o, ({ Lx.init (cs! "a  **= 2") with cur := ⟨1, 0, 1⟩, lastType := .BareName } : Lx).step = .ok o ∧
    (cs! "**=", o.tok.type) ∈ fixedSpelling := ⟨_, rfl, by decide +kernel⟩

example : ∃ u ∈ rawMarked 9 (Lx.init (cs! "a\n  **= 2")) [] {}, u.2 = false ∧ (cs! "**=", u.1.type) ∈ fixedSpelling ∧
    u.1.line = 1 ∧ u.1.col = 2 := by decide +kernel

/-! ### C09 -/

/-- C09: the literal of a name token is the text of the name: `NameText` says that it is a complete name; it ends in `=`
only where names of assignment methods are allowed. `_partial`: a `$-` at the very end of the source is excluded
(`C09_false`). -/
theorem C09_step_partial (l : Lx) (o : Out) (hk : l.kind = .base) (h : l.step = .ok o)
    (hn : isNameType o.tok.type = true)
    (hg : o.tok.type = .GlobalVariable → ¬ cs! "$-" <:+ l.rest) :
    ∃ pre w post, o.tok.lit = some w ∧ l.rest = pre ++ w ++ post ∧ Skipped (l.cur.index == 0) pre (w ++ post) ∧
      o.lx.cur.index = l.cur.index + pre.length + w.length ∧ NameText o.tok.type w post ∧
      (w.getLast? = some '=' → o.tok.type ≠ .GlobalVariable →
        l.allowAssign = true ∨ (l.lastType ≠ .Dot ∧ l.remaining > 0)) := by
  rcases base_step l o hk h with ⟨h1, -⟩ | ⟨pre, l', o', hR, h1, h2, h3, h4⟩
  · rw [h1] at hn; cases hn
  · rw [h2] at hn hg ⊢
    obtain ⟨w, post, e1, e2, e3, e4, e5⟩ := Named.dispatch l' o' h1 hn (by
      intro ht he
      exact hg ht ⟨pre, by rw [hR.rest, he]⟩)
    refine ⟨pre, w, post, e1, ?_, ?_, ?_, e4, ?_⟩
    · rw [hR.rest, e2, List.append_assoc]
    · rw [← e2]; exact hR.skip
    · rw [h3, Lx.post_cur, e3, hR.index]
    · rw [hR.assign, hR.last, hR.remaining] at e5; exact e5

/-- C09 for the raw stream. `_partial` as above. -/
theorem C09_stream_partial (src : Str) (fuel : Nat) (u : Token × Bool)
    (hu : u ∈ rawMarked fuel (Lx.init src) [] {}) (hm : u.2 = false) (hn : isNameType u.1.type = true)
    (hg : ¬ cs! "$-" <:+ src) :
    ∃ i b w post, TokenAt src i u.1 ∧ u.1.lit = some w ∧ src.drop i = b ++ w ++ post ∧ (b = [] ∨ (i = 0 ∧ Bom b)) ∧
      NameText u.1.type w post := by
  obtain ⟨l, o, hl, hs, ht, hin⟩ := raw_from src fuel u hu
  rw [ht] at hn ⊢
  by_cases hk : l.kind = .base
  · rcases base_step l o hk hs with ⟨h1, -⟩ | ⟨pre, l', o', hR, h1, h2, -, -⟩
    · rw [h1] at hn; cases hn
    · rw [h2] at hn ⊢
      obtain ⟨i, b, h5, h6, h7, h8⟩ := hR.tokenAt hk src (hin hm).1 (hin hm).2
      obtain ⟨w, post, e1, e2, e3, e4, e5⟩ := Named.dispatch l' o' h1 hn (by
        intro _ he
        apply hg
        rw [he] at h7
        exact ⟨src.take i ++ b, by rw [List.append_assoc, ← h7, List.take_append_drop]⟩)
      refine ⟨i, b, w, post, ?_, e1, by rw [h7, e2, List.append_assoc], h8, e4⟩
      have hsh := Shape.dispatch l' o' h1
      rcases hsh.pos with ⟨a, b⟩ | ⟨a, -⟩
      · exact ⟨a.trans h5, b.trans h6⟩
      · rw [a] at hn; cases hn
  · rcases nonbase_step hl hk hs with h1 | h1
    · simp only [nestedType, Bool.and_eq_true, Bool.not_eq_true'] at h1
      rw [h1.2] at hn; cases hn
    · rw [h1] at hn; cases hn

/-- C09 is false of the code as it is: for the source `$-` the literal is `$-` and a NUL byte. -/
theorem C09_false : ¬ ∀ (src : Str) (ts : List Token), tokensFuel 9 src = .ok ts → ∀ t ∈ ts,
    isNameType t.type = true → ∃ w, t.lit = some w ∧ w <:+: src := by
  intro h
  have h1 : ∃ ts, tokensFuel 9 (cs! "$-") = .ok ts ∧ ∃ t ∈ ts, t.type = .GlobalVariable ∧ t.lit = some (cs! "$-" ++ [NUL]) := by
    refine ⟨_, rfl, ?_⟩
    decide +kernel
  obtain ⟨ts, h2, t, h3, h4, h5⟩ := h1
  obtain ⟨w, h6, h7⟩ := h _ ts h2 t h3 (by rw [h4]; rfl)
  rw [h5] at h6
  cases h6
  exact absurd h7.length_le (by decide)

example : ∃ u ∈ rawMarked 9 (Lx.init (cs! "  foo_bar! @x")) [] {}, u.2 = false ∧ isNameType u.1.type = true ∧
    u.1.lit = some (cs! "foo_bar!") ∧ u.1.col = 2 := by decide +kernel

example : ∃ o, ({ Lx.init (cs! "def x=(y)") with cur := ⟨3, 0, 3⟩, lastType := .DefKeyword, remaining := 1, allowAssign := true } : Lx).step = .ok o ∧
    isNameType o.tok.type = true ∧ o.tok.lit = some (cs! "x=") := ⟨_, rfl, by decide +kernel⟩

/-! ### C10 -/

theorem keywordTable_keywords : ∀ p ∈ keywordTable, p ∈ Lx.keywords := by decide +kernel

theorem keyword_facts : ∀ p ∈ keywordTable, 2 ≤ p.1.length ∧ nameByte (p.1.ch 0) = true ∧ p.1.ch 0 ≠ '\xEF' ∧
    p.1.ch 0 ≠ '}' ∧ p.2 ≠ .Eof ∧ (p.1, p.2) ∈ fixedSpelling := by decide +kernel

theorem wordOf_prefix (s : Str) : wordOf s <+: s := by
  obtain ⟨n, post, rfl, hn, he⟩ := split_name s
  rw [wordOf_append n post hn he]
  unfold addSuffix
  split
  · rename_i r; exact ⟨r, by simp⟩
  · rename_i r; exact ⟨r, by simp⟩
  · exact ⟨_, rfl⟩

theorem noBlank_of_nameByte (s : Str) (h : nameByte (s.ch 0) = true) : NoBlank s := by
  intro b r hb he
  cases hb with
  | nil => rfl
  | space b _ => subst he; exact absurd (show nameByte ' ' = true from h) (by decide)
  | tab b _ => subst he; exact absurd (show nameByte '\t' = true from h) (by decide)
  | line b _ => subst he; exact absurd (show nameByte '\\' = true from h) (by decide)

/-- The word is directly followed by a single colon, outside a ternary: a hash key. -/
def KeyColon (l : Lx) (w s : Str) : Prop := s.ch w.length = ':' ∧ s.ch (w.length + 1) ≠ ':' ∧ l.openTernary = false

instance (l : Lx) (w s : Str) : Decidable (KeyColon l w s) := inferInstanceAs (Decidable (_ ∧ _))

/-- C10: in front of the text `s` (behind blanks) a plain lexer that does not expect a method name produces the keyword
`w` iff `w` is the whole word at the beginning of `s` (including a `?` or `!`) and no single colon makes it a hash key.
`_partial`: for `defined?` it is required in addition that no name byte follows (`C10_false`). -/
theorem C10_keyword_partial (l : Lx) (o : Out) (hk : l.kind = .base) (hst : l.stopChar = NUL ∨ l.stopChar = '}')
    (hrem : l.remaining = 0) (h : l.step = .ok o) (pre s : Str) (hr : l.rest = pre ++ s) (hb : Blank pre)
    (hs : NoBlank s) (hbom : l.cur.index ≠ 0 ∨ s.ch 0 ≠ '\xEF')
    (w : Str) (t : Ttype) (hw : (w, t) ∈ keywordTable) (hdef : w = cs! "defined?" → nameByte (s.ch 8) = false ∧ s.ch 8 ≠ '?' ∧ s.ch 8 ≠ '!') :
    o.tok.type = t ↔ wordOf s = w ∧ ¬ KeyColon l w s := by
  have hkw := keywordTable_keywords _ hw
  obtain ⟨f1, f2, f3, f4, f5, f6⟩ := keyword_facts _ hw
  simp only at f1 f2 f3 f4 f5 f6
  have hdef' : w = cs! "defined?" → isIdentOrSuffix (s.ch 8) = false := by
    intro he
    obtain ⟨a, b, c⟩ := hdef he
    rw [nameByte_eq] at a
    simp [isIdentOrSuffix, a, isSuffix, b, c]
  rcases base_at l o hk h pre s hr hb hs hbom with ⟨h1, h2⟩ | ⟨l', o', hR, h1, h2, h3, -, -⟩
  · rw [h1]
    refine ⟨fun h => absurd h.symm f5, ?_⟩
    rintro ⟨h3, -⟩
    exfalso
    have hp := wordOf_prefix s
    rw [h3] at hp
    have e0 := prefix_ch hp 0 (by omega)
    rcases h2 with rfl | ⟨h2, h4⟩
    · rw [← e0] at f2; exact absurd f2 (by decide)
    · rcases hst with h5 | h5
      · exact h2 h5
      · rw [h5, e0] at h4; exact f4 h4
  · rw [h3]
    have hrem' : l'.remaining = 0 := by rw [hR.remaining, hrem]
    have hiff := keywordAt_iff l' hrem' w t hkw
    rw [h1] at hiff
    have hch : l'.ch 8 = s.ch 8 := by unfold Lx.ch; rw [h1]
    have hiff : l'.keywordAt = some (t, w.length) ↔ wordOf s = w := by
      rw [hiff, hch]; exact ⟨fun h => h.1, fun h => ⟨h, hdef'⟩⟩
    have lexw : l'.keywordAt = some (t, w.length) → (l'.lexWord.tok.type = t ↔ ¬ KeyColon l w s) := by
      intro hka
      unfold Lx.lexWord
      rw [hka]
      simp only
      unfold Lx.ch KeyColon
      rw [h1, hR.ternary]
      have hne : t ≠ .SymbolKey := by
        intro he; subst he
        exact absurd f6 (not_fixed rfl)
      split
      · rename_i hc
        simp only [Bool.not_eq_true'] at hc
        exact ⟨fun h => absurd h.symm hne, fun h => absurd hc h⟩
      · rename_i hc
        simp only [Bool.not_eq_true'] at hc
        exact ⟨fun _ => hc, fun _ => rfl⟩
    constructor
    · intro ht
      have hp : w <+: l'.rest := (Spelled.dispatch l' o' h2 w (by rw [ht]; exact f6)).1
      have hd := dispatch_keyword l' w t hkw hp
      rw [hd] at h2
      cases h2
      have hka : l'.keywordAt = some (t, w.length) := by
        revert ht
        unfold Lx.lexWord
        split
        · rename_i t' n hka
          split
          · intro ht
            have : Ttype.SymbolKey = t := ht
            rw [← this] at f6
            exact absurd f6 (not_fixed rfl)
          · intro ht
            have : t' = t := ht
            subst this
            obtain ⟨w', g1, g2, g3⟩ := Spelled.keywordAt_spec l' t' n hka
            have e1 := Spelled.keywords_value _ g1
            have e2 := Spelled.keywords_value _ hkw
            simp only at e1 e2
            rw [e1] at e2
            cases e2
            rw [hka, g3]
        · intro ht
          exfalso
          have hloose : looseType t = true := by
            rw [← ht]
            dsimp only
            split_ifs
            · rcases Spelled.bareName_type l' .BareName with h | h <;> rw [h] <;> rfl
            · rcases Spelled.bareName_type l' .Constant with h | h <;> rw [h] <;> rfl
            · rfl
          exact absurd f6 (not_fixed hloose)
      exact ⟨hiff.1 hka, (lexw hka).1 ht⟩
    · rintro ⟨h4, h5⟩
      have hka := hiff.2 h4
      have hp := wordOf_prefix s
      rw [h4, ← h1] at hp
      have hd := dispatch_keyword l' w t hkw hp
      rw [hd] at h2
      cases h2
      exact (lexw hka).2 h5

/-- C10: a keyword directly followed by a single colon is a hash key with the keyword as text. -/
theorem C10_key (l : Lx) (o : Out) (hk : l.kind = .base) (hst : l.stopChar = NUL ∨ l.stopChar = '}')
    (hrem : l.remaining = 0) (h : l.step = .ok o) (pre s : Str) (hr : l.rest = pre ++ s) (hb : Blank pre)
    (w : Str) (t : Ttype) (hw : (w, t) ∈ keywordTable) (hword : wordOf s = w) (hcol : KeyColon l w s) :
    o.tok.type = .SymbolKey ∧ o.tok.lit = some w ∧ o.lx.cur.index = l.cur.index + pre.length + w.length + 1 := by
  have hkw := keywordTable_keywords _ hw
  obtain ⟨f1, f2, f3, f4, f5, f6⟩ := keyword_facts _ hw
  simp only at f1 f2 f3 f4 f5 f6
  have hp := wordOf_prefix s
  rw [hword] at hp
  have e0 := prefix_ch hp 0 (by omega)
  have hs : NoBlank s := noBlank_of_nameByte s (by rw [e0]; exact f2)
  rcases base_at l o hk h pre s hr hb hs (.inr (by rw [e0]; exact f3)) with ⟨h1, h2⟩ | ⟨l', o', hR, h1, h2, h3, h4, -⟩
  · exfalso
    rcases h2 with rfl | ⟨h2, h4⟩
    · rw [← e0] at f2; exact absurd f2 (by decide)
    · rcases hst with h5 | h5
      · exact h2 h5
      · rw [h5, e0] at h4; exact f4 h4
  · have hrem' : l'.remaining = 0 := by rw [hR.remaining, hrem]
    have hd := dispatch_keyword l' w t hkw (by rw [h1]; exact hp)
    rw [hd] at h2
    cases h2
    have hka : l'.keywordAt = some (t, w.length) := by
      rw [keywordAt_iff l' hrem' w t hkw, h1]
      refine ⟨hword, ?_⟩
      rintro rfl
      have : l'.ch 8 = ':' := by unfold Lx.ch; rw [h1]; exact hcol.1
      rw [this]; decide
    have hlw : l'.lexWord = l'.opLit (w.length + 1) .SymbolKey (t.value.getD []) := by
      unfold Lx.lexWord
      rw [hka]
      simp only
      rw [if_pos]
      unfold Lx.ch
      rw [h1, hR.ternary]
      exact ⟨hcol.1, hcol.2.1, by rw [hcol.2.2]; rfl⟩
    have hv : t.value = some w := fixed_value _ f6
    rw [hlw] at h3 h4
    refine ⟨by rw [h3]; rfl, ?_, ?_⟩
    · rw [h3]
      show some (t.value.getD []) = some w
      rw [hv]; rfl
    · rw [h4, Lx.post_cur]
      show (l'.adv (w.length + 1)).cur.index = _
      rw [Lx.adv_index, hR.index]; omega

/-- C10: a word that is no keyword gives no keyword token, but a name or a hash key; here for words that begin with a
small letter or underscore and no number in front of it. -/
theorem C10_name (l : Lx) (o : Out) (hk : l.kind = .base) (hst : l.stopChar = NUL ∨ l.stopChar = '}')
    (hrem : l.remaining = 0) (h : l.step = .ok o) (pre s : Str) (hr : l.rest = pre ++ s) (hb : Blank pre)
    (hc : ('a' ≤ s.ch 0 ∧ s.ch 0 ≤ 'z') ∨ s.ch 0 = '_') (hnum : l.lastType.canBeComplexOrRational = false)
    (hword : ∀ p ∈ keywordTable, wordOf s ≠ p.1) : o.tok.type = .BareName ∨ o.tok.type = .SymbolKey := by
  have hnb : nameByte (s.ch 0) = true := by
    unfold nameByte
    rcases hc with h | h
    · simp [h.1, h.2]
    · rw [h]; decide
  have hs : NoBlank s := noBlank_of_nameByte s hnb
  have hz : (s.ch 0) ≤ 'z' := by
    rcases hc with h | h
    · exact h.2
    · rw [h]; decide
  have hEF : s.ch 0 ≠ '\xEF' := by intro he; rw [he] at hz; exact absurd hz (by decide)
  have hbr : s.ch 0 ≠ '}' := by intro he; rw [he] at hz; exact absurd hz (by decide)
  have hnul : s.ch 0 ≠ NUL := by intro he; rw [he] at hnb; exact absurd hnb (by decide)
  rcases base_at l o hk h pre s hr hb hs (.inr hEF) with ⟨h1, h2⟩ | ⟨l', o', hR, h1, h2, h3, h4, -⟩
  · exfalso
    rcases h2 with rfl | ⟨h2, h4⟩
    · exact hnul rfl
    · rcases hst with h5 | h5
      · exact h2 h5
      · rw [h5] at h4; exact hbr h4
  · rw [h3]
    have hrem' : l'.remaining = 0 := by rw [hR.remaining, hrem]
    have hch : l'.ch 0 = s.ch 0 := by unfold Lx.ch; rw [h1]
    have hka : l'.keywordAt = none := by
      cases hka : l'.keywordAt with
      | none => rfl
      | some p =>
        obtain ⟨t, n⟩ := p
        exfalso
        obtain ⟨w, g1, g2, g3⟩ := Spelled.keywordAt_spec l' t n hka
        subst g3
        have := (keywordAt_iff l' hrem' w t g1).1 hka
        rw [h1] at this
        have hm : ∀ p ∈ Lx.keywords, p ∈ keywordTable := by decide +kernel
        exact hword _ (hm _ g1) this.1
    have hstart : isNameStart (l'.ch 0) = true := by
      rw [hch]
      unfold isNameStart
      rcases hc with h | h
      · simp only [between, bne_iff_ne, ne_eq, Bool.and_eq_true, hnul, not_false_eq_true, true_and, Bool.or_eq_true,
          decide_eq_true_eq]
        exact .inl (.inl ⟨h.1, h.2⟩)
      · rw [h]; decide
    have hlw : l'.lexWord.tok.type = .BareName ∨ l'.lexWord.tok.type = .SymbolKey := by
      unfold Lx.lexWord
      rw [hka]
      simp only
      rw [if_pos hstart]
      exact Spelled.bareName_type l' .BareName
    have hdisp : l'.dispatch = .ok l'.lexWord := by
      have hd := dispatch_disp l'
      generalize hr : l'.dispatch = r at hd
      cases hd
      case word => rfl
      case i h => unfold Lx.lexI; rw [hR.last, hnum]; simp
      case r h => unfold Lx.lexR; rw [hR.last, hnum]; simp
      case digit h =>
        exfalso
        rw [hch] at h
        rcases hc with h5 | h5
        · simp only [isDigit, between, Bool.and_eq_true, decide_eq_true_eq] at h
          exact absurd (Char.le_trans h5.1 h.2) (by decide)
        · rw [h5] at h; exact absurd h (by decide)
      all_goals (rename_i h; rw [hch] at h; rw [h] at hc; exact absurd hc (by decide))
    rw [hdisp] at h2
    cases h2
    exact hlw

/-- C10 without the condition on `defined?` is false of the code as it is: `defined?` is the whole word of `defined?x`,
but the token is a name. -/
theorem C10_false : wordOf (cs! "defined?x") = cs! "defined?" ∧
    ∃ o, (Lx.init (cs! "defined?x")).step = .ok o ∧ o.tok.type = .BareName ∧ o.tok.lit = some (cs! "defined?") :=
  ⟨by decide, _, rfl, by decide +kernel⟩

/-- Hypotheses of `C10_keyword_partial` are met: keyword, name that begins with a keyword, hash key. -/
example : (cs! "end", Ttype.EndKeyword) ∈ keywordTable ∧ Blank (cs! " \t") ∧ NoBlank (cs! "end.x") ∧
    wordOf (cs! "end.x") = cs! "end" ∧ ¬ KeyColon (Lx.init (cs! " \tend.x")) (cs! "end") (cs! "end.x") ∧
    wordOf (cs! "end!.x") = cs! "end!" ∧ wordOf (cs! "ending") = cs! "ending" ∧
    KeyColon (Lx.init (cs! "end: 1")) (cs! "end") (cs! "end: 1") ∧
    (∃ o, (Lx.init (cs! " \tend.x")).step = .ok o ∧ o.tok.type = .EndKeyword) ∧
    (∃ o, (Lx.init (cs! "ending")).step = .ok o ∧ o.tok.type = .BareName) ∧
    (∃ o, (Lx.init (cs! "end: 1")).step = .ok o ∧ o.tok.type = .SymbolKey) := by
  refine ⟨by decide, .space _ (.tab _ .nil), noBlank_of_nameByte _ (by decide), by decide, by decide, by decide,
    by decide, by decide, ⟨_, rfl, by decide +kernel⟩, ⟨_, rfl, by decide +kernel⟩, ⟨_, rfl, by decide +kernel⟩⟩

/-! ### C11 -/

/-- C11: the longest operator of the table at the beginning of the text is the token, and just it is consumed. Not
covered: `=begin` (a documentation comment at the beginning of a line), `<<` (shift or heredoc, by context; `<<=` is
covered) and objects that expect a method name (`def`, `alias`, `undef`), where `+@` and others are names. -/
theorem C11_step (l : Lx) (o : Out) (hk : l.kind = .base) (h : l.step = .ok o) (hrem : l.remaining = 0) (pre s : Str)
    (hr : l.rest = pre ++ s) (hb : Blank pre) (hs : NoBlank s) (heof : o.tok.type ≠ .Eof)
    (w : Str) (t : Ttype) (hw : (w, t) ∈ operatorTable) (hl : LongestOperator w s)
    (hbegin : ¬ (w = cs! "=" ∧ cs! "=begin" <+: s)) (hshift : ¬ (w = cs! "<" ∧ cs! "<<" <+: s)) :
    o.tok.type = t ∧ (t ≠ .Newline → o.lx.cur.index = l.cur.index + pre.length + w.length) := by
  have tab : ∀ p ∈ operatorTable, 0 < p.1.length ∧ p.1.ch 0 ≠ '\xEF' := by decide +kernel
  have e0 := prefix_ch hl.1 0 (tab _ hw).1
  rcases base_at l o hk h pre s hr hb hs (.inr (by rw [e0]; exact (tab _ hw).2)) with
    ⟨h1, -⟩ | ⟨l', o', hR, h1, h2, h3, h4, -⟩
  · exact absurd h1 heof
  · have hm := Munch.dispatch l' o' h2 w t hw (by rw [h1]; exact hl) (by rw [hR.remaining, hrem])
      (by rw [h1]; exact hbegin) (by rw [h1]; exact hshift)
    refine ⟨by rw [h3, hm], fun hn => ?_⟩
    have hf : (w, o'.tok.type) ∈ fixedSpelling := by
      rw [hm]
      unfold fixedSpelling
      simp [hw]
    rw [h4, Lx.post_cur, (Spelled.dispatch l' o' h2 w hf).2.2 (by rw [hm]; exact hn), hR.index]

example : (cs! "**=", Ttype.StarStarEqual) ∈ operatorTable ∧ LongestOperator (cs! "**=") (cs! "**=2") ∧
    LongestOperator (cs! "**") (cs! "**2") ∧ LongestOperator (cs! "<=>") (cs! "<=>b") ∧
    (∃ o, ({ Lx.init (cs! "a **=2") with cur := ⟨1, 0, 1⟩, lastType := .BareName } : Lx).step = .ok o ∧
      o.tok.type ≠ .Eof) := by
  refine ⟨by decide, ?_, ?_, ?_, _, rfl, by decide +kernel⟩ <;> (unfold LongestOperator; decide +kernel)

/-! ### C26 -/

/-- C26: the token of a plain lexer is marked as preceded by whitespace iff blanks, tabs or escaped line ends stand
directly before it. -/
theorem C26_step (l : Lx) (o : Out) (hk : l.kind = .base) (h : l.step = .ok o) (pre s : Str)
    (hr : l.rest = pre ++ s) (hb : Blank pre) (hs : NoBlank s) : o.tok.ws = true ↔ pre ≠ [] := by
  have hws := (step_shape l o (by rw [hk]; trivial) h).ws
  rw [hws, show l.skipped = skipWs l.rest by rw [Lx.skipped, hk], hr, blank_skipWs hb s hs]
  simp

/-- Every text splits as required. -/
theorem C26_split (s : Str) : ∃ pre t, s = pre ++ t ∧ Blank pre ∧ NoBlank t :=
  ⟨s.take (skipWs s), s.drop (skipWs s), (List.take_append_drop _ _).symm, skipWs_blank s, skipWs_max s⟩

example : ∃ o, ({ Lx.init (cs! "a \\\n\t+") with cur := ⟨1, 0, 1⟩ } : Lx).step = .ok o ∧ o.tok.ws = true ∧
    o.tok.type = .Plus := ⟨_, rfl, by decide +kernel⟩

end NP
