import Verif.Proofs.Spelling

/-! Names, keywords, operators. -/

namespace NP

open Spec Lx

theorem char_le (a c : Char) : (a ≤ c) ↔ a.toNat ≤ c.toNat := by
  rw [Char.le_def, UInt32.le_iff_toNat_le]; rfl

theorem nameByte_eq (c : Char) : nameByte c = isIdent c := by
  by_cases h0 : c = NUL
  · subst h0; decide
  simp only [nameByte, isIdent, isAlnum, isAlpha, isDigit, between, char_le]
  have hb : (c != NUL) = true := by simpa using h0
  rw [hb, Bool.true_and]
  have h128 : ('\x80' : Char).toNat = 128 := rfl
  rw [h128]

theorem takeWhile_nameByte (s : Str) : s.takeWhile nameByte = s.takeWhile isIdent := by
  congr 1; funext c; exact nameByte_eq c

theorem nameEnds_iff (s : Str) : NameEnds s ↔ isIdent (s.ch 0) = false := by
  cases s with
  | nil => simp [NameEnds, List.ch_nil]; decide
  | cons c r => simp [NameEnds, nameByte_eq]

/-- What `consume_word` reads of a non-empty text. -/
theorem consumeWord_spec (c : Char) (s : Str) :
    ∃ n post, s = n ++ post ∧ consumeWord (c :: s) = (c :: n, n.length + 1) ∧ (∀ b ∈ n, nameByte b = true) ∧
      NameEnds post := by
  refine ⟨s.takeWhile isIdent, s.dropWhile isIdent, List.takeWhile_append_dropWhile.symm, rfl, ?_, ?_⟩
  · intro b hb
    rw [nameByte_eq]
    exact (List.all_eq_true.1 List.all_takeWhile) b hb
  · intro d r hr
    rw [nameByte_eq]
    have := List.head?_dropWhile_not isIdent s
    rw [hr] at this
    simpa using this

/-- A token for a name, at the current position. -/
def Named (l : Lx) (o : Out) : Prop :=
  isNameType o.tok.type = true → (o.tok.type = .GlobalVariable → l.rest ≠ cs! "$-") →
    ∃ w post, o.tok.lit = some w ∧ l.rest = w ++ post ∧ o.lx.cur.index = l.cur.index + w.length ∧
      NameText o.tok.type w post ∧
      (w.getLast? = some '=' → o.tok.type ≠ .GlobalVariable →
        l.allowAssign = true ∨ (l.lastType ≠ .Dot ∧ l.remaining > 0))

namespace Named

theorem none (l : Lx) (o : Out) (h : isNameType o.tok.type = false) : Named l o := by
  intro h'; rw [h] at h'; cases h'

/-- Closes the goal for a token that is not a name. -/
syntax "named_leaf" : tactic
macro_rules
  | `(tactic| named_leaf) => `(tactic| exact none _ _ rfl)

theorem opLit (l : Lx) (n : Nat) (t : Ttype) (w post : Str) (hr : l.rest = w ++ post) (hn : n = w.length)
    (ht : NameText t w post)
    (ha : w.getLast? = some '=' → t ≠ .GlobalVariable → l.allowAssign = true ∨ (l.lastType ≠ .Dot ∧ l.remaining > 0)) :
    Named l (l.opLit n t w) := by
  intro _ _
  exact ⟨w, post, rfl, hr, by rw [hn]; exact l.adv_index _, ht, ha⟩

theorem notEq_of_name (c : Char) (n : Str) (hc : nameByte c = true) (hn : ∀ b ∈ n, nameByte b = true) :
    (c :: n).getLast? ≠ some '=' := by
  intro h
  have hm := List.mem_of_getLast? h
  have : nameByte '=' = true := by
    rcases List.mem_cons.1 hm with h | h
    · rw [h]; exact hc
    · exact hn _ h
  exact absurd this (by decide)

theorem notEq_of_sigil (c : Char) (n : Str) (hc : c ≠ '=') (hn : ∀ b ∈ n, nameByte b = true) :
    (c :: n).getLast? ≠ some '=' := by
  intro h
  have hm := List.mem_of_getLast? h
  rcases List.mem_cons.1 hm with h | h
  · exact hc h.symm
  · exact absurd (hn _ h) (by decide)

theorem bareName (l : Lx) (t : Ttype) (hc : isIdent (l.ch 0) = true)
    (ht : (t = .Constant ∧ 'A' ≤ l.ch 0 ∧ l.ch 0 ≤ 'Z') ∨
      (t = .BareName ∧ ¬ ('A' ≤ l.ch 0 ∧ l.ch 0 ≤ 'Z') ∧ ¬ ('0' ≤ l.ch 0 ∧ l.ch 0 ≤ '9'))) :
    Named l (l.bareName t) := by
  have hnul : l.rest.ch 0 ≠ NUL := by
    intro h
    have : l.ch 0 = NUL := h
    rw [this] at hc; exact absurd hc (by decide)
  obtain ⟨s, hs⟩ := l.rest.ch_zero_cons (l.ch 0) rfl hnul
  obtain ⟨n, post, rfl, hw, hn, he⟩ := consumeWord_spec (l.ch 0) s
  have hc' : nameByte (l.ch 0) = true := by rw [nameByte_eq]; exact hc
  have hch : ∀ k, l.ch (n.length + 1 + k) = post.ch k := by
    intro k
    show l.rest.ch _ = _
    rw [hs, show n.length + 1 + k = (n.length + k) + 1 by omega, List.ch_cons_succ, ← List.ch_drop]
    simp
  have h0 := hch 0
  have hnone : ¬ (l.ch (n.length + 1) = '?' ∨ l.ch (n.length + 1) = '!') →
      NameText t (l.ch 0 :: n ++ []) post := by
    intro h
    refine .name _ _ _ _ _ hc' hn ht (.inl rfl) (fun _ => ⟨he, fun r => ⟨?_, ?_⟩⟩)
    · rintro rfl; exact h (.inl h0)
    · rintro rfl; exact h (.inr h0)
  have hsuf : ∀ c, (c = '?' ∨ c = '!' ∨ c = '=') → l.ch (n.length + 1) = c →
      ∃ post', post = c :: post' ∧ NameText t (l.ch 0 :: n ++ [c]) post' := by
    intro c hc3 hcc
    rw [show l.ch (n.length + 1) = post.ch 0 from h0] at hcc
    obtain ⟨post', rfl⟩ := post.ch_zero_cons c hcc (by rcases hc3 with rfl | rfl | rfl <;> decide)
    refine ⟨post', rfl, .name _ _ _ _ _ hc' hn ht ?_ (by simp)⟩
    rcases hc3 with rfl | rfl | rfl <;> simp [isNameSuffix]
  have hlast : ∀ c : Char, c ≠ '=' → (l.ch 0 :: n ++ [c]).getLast? ≠ some '=' := by
    intro c hc h
    rw [List.getLast?_concat] at h
    exact hc (Option.some.inj h)
  have plain : ¬ (l.ch (n.length + 1) = '?' ∨ l.ch (n.length + 1) = '!') →
      Named l (l.opLit (n.length + 1) t (l.ch 0 :: n)) := by
    intro h
    have := hnone h
    rw [List.append_nil] at this
    exact opLit l _ t _ post (by rw [hs]; rfl) rfl this (fun h _ => absurd h (notEq_of_name _ _ hc' hn))
  unfold Lx.bareName
  rw [hs, hw]
  dsimp only
  by_cases c1 : l.ch (n.length + 1) = '?' ∨ l.ch (n.length + 1) = '!'
  · rw [if_pos c1]
    split
    · named_leaf
    · obtain ⟨post', hp, ht'⟩ := hsuf (l.ch (n.length + 1)) (by rcases c1 with h | h <;> simp [h]) rfl
      refine opLit l _ t _ post' (by rw [hs, hp]; simp) (by simp) ht' (fun h _ => absurd h (hlast _ ?_))
      rcases c1 with h | h <;> (rw [h]; decide)
  rw [if_neg c1]
  by_cases c2 : l.ch (n.length + 1) = '='
  · rw [if_pos c2]
    split
    · rename_i hal
      obtain ⟨post', hp, ht'⟩ := hsuf (l.ch (n.length + 1)) (by simp [c2]) rfl
      exact opLit l _ t _ post' (by rw [hs, hp]; simp) (by simp) ht' (fun _ _ => hal)
    · exact plain c1
  rw [if_neg c2]
  split
  · named_leaf
  · exact plain c1

theorem lexWord (l : Lx) : Named l l.lexWord := by
  unfold Lx.lexWord
  split
  · rename_i t n hk
    split
    · named_leaf
    · obtain ⟨w, h1, -⟩ := Spelled.keywordAt_spec l t n hk
      refine none _ _ ?_
      have : ∀ p ∈ keywords, isNameType p.2 = false := by decide +kernel
      exact this _ h1
  · extract_lets c r
    have hAZ : between 'A' 'Z' c = true ↔ ('A' ≤ c ∧ c ≤ 'Z') := by
      simp [between, char_le]
    have h09 : isDigit c = true ↔ ('0' ≤ c ∧ c ≤ '9') := by
      simp [isDigit, between, char_le]
    split
    · rename_i hc
      simp only [isNameStart, between, Bool.and_eq_true, Bool.or_eq_true, decide_eq_true_eq, bne_iff_ne, ne_eq,
        beq_iff_eq] at hc
      have hid : isIdent (l.ch 0) = true := by
        show isIdent c = true
        simp only [isIdent, isAlnum, isAlpha, between, Bool.and_eq_true, Bool.or_eq_true, decide_eq_true_eq,
          bne_iff_ne, ne_eq, beq_iff_eq]
        refine ⟨hc.1, ?_⟩
        rcases hc.2 with (h | h) | h
        · left; left; left; left; exact h
        · left; right; exact h
        · right; exact h
      refine bareName l _ hid (.inr ⟨rfl, ?_, ?_⟩)
      · rw [char_le, char_le]
        show ¬ (65 ≤ c.toNat ∧ c.toNat ≤ 90)
        have e1 : 'a'.toNat = 97 := rfl
        rcases hc.2 with (h | h) | h
        · omega
        · rw [h]; decide
        · omega
      · rw [char_le, char_le]
        show ¬ (48 ≤ c.toNat ∧ c.toNat ≤ 57)
        have e1 : 'a'.toNat = 97 := rfl
        rcases hc.2 with (h | h) | h
        · omega
        · rw [h]; decide
        · omega
    split
    · rename_i hc
      refine bareName l _ ?_ (.inl ⟨rfl, hAZ.1 hc⟩)
      show isIdent c = true
      simp only [between, Bool.and_eq_true, decide_eq_true_eq] at hc
      simp only [isIdent, isAlnum, isAlpha, between, Bool.and_eq_true, Bool.or_eq_true, decide_eq_true_eq,
          bne_iff_ne, ne_eq, beq_iff_eq]
      refine ⟨?_, .inl (.inl (.inl (.inr hc)))⟩
      intro h0
      rw [h0] at hc
      exact absurd hc.1 (by decide)
    · named_leaf

theorem singleQuotedString (l : Lx) (n : Nat) (a b : Char) : Named l (l.singleQuotedString n a b) := by
  unfold Lx.singleQuotedString
  split
  · split <;> named_leaf
  · named_leaf

theorem percentString (l : Lx) (n : Nat) (k : PKind) : Named l (l.percentString n k) := by
  have hc : ∀ a b, Named l (l.percentConsumer n k a b) := by
    intro a b
    unfold Lx.percentConsumer
    cases k
    case q => exact singleQuotedString _ _ _ _
    all_goals named_leaf
  unfold Lx.percentString
  extract_lets c
  repeat' split
  all_goals first
    | exact hc _ _
    | named_leaf

attribute [local irreducible] Lx.heredoc in
theorem lexLess (l : Lx) : Named l l.lexLess := by
  have hd : Named l (l.adv 2).heredoc := by
    have := heredoc_out (l.adv 2)
    generalize (l.adv 2).heredoc = o at this
    cases this with
    | bad => named_leaf
    | raw => named_leaf
    | interp n start k doc b e hn hd hs hbe => rcases hbe with ⟨rfl, _⟩ | ⟨rfl, _⟩ <;> named_leaf
  unfold Lx.lexLess
  repeat' split
  all_goals first
    | exact hd
    | named_leaf

theorem isPunctGlobal_eq (c : Char) : isPunctGlobal c = true ↔ c ∈ specialGlobals := by
  simp only [isPunctGlobal, specialGlobals, Bool.or_eq_true, beq_iff_eq, List.mem_cons, List.not_mem_nil, or_false,
    or_assoc]

theorem globalVariable (l : Lx) (h : l.ch 0 = '$') : Named l l.globalVariable := by
  obtain ⟨s, hs⟩ := l.rest.ch_zero_cons '$' h (by decide)
  have hch : ∀ k, l.ch (k + 1) = s.ch k := by intro k; show l.rest.ch _ = _; rw [hs, List.ch_cons_succ]
  unfold Lx.globalVariable
  split
  · rename_i hp
    have hm := (isPunctGlobal_eq _).1 hp
    have hnul : s.ch 0 ≠ NUL := by
      rw [← hch 0]; intro h0; rw [h0] at hm; exact absurd hm (by decide)
    obtain ⟨s', hs'⟩ := s.ch_zero_cons _ (hch 0).symm (by rw [hch 0]; exact hnul)
    have h01 : l.ch (0 + 1) = l.ch 1 := rfl
    rw [h01] at hs'
    exact opLit l 2 _ _ s' (by rw [hs, hs']; simp) rfl (.special _ _ hm) (fun _ h => absurd rfl h)
  split
  · rename_i h1
    intro _ hne
    have h1' : s.ch 0 = '-' := by rw [← hch 0]; exact h1
    obtain ⟨s', rfl⟩ := s.ch_zero_cons '-' h1' (by decide)
    have hne' : s' ≠ [] := by
      rintro rfl; exact hne rfl hs
    obtain ⟨c, s'', rfl⟩ := List.exists_cons_of_ne_nil hne'
    have h2 : l.ch 2 = c := by rw [show (2 : Nat) = 1 + 1 from rfl, hch 1]; rfl
    rw [h2]
    exact ⟨['$', '-', c], s'', rfl, by rw [hs]; rfl, l.adv_index 3, .dash _ _, fun _ h => absurd rfl h⟩
  · obtain ⟨n, post, rfl, hw, hn, he⟩ := consumeWord_spec '$' s
    extract_lets r
    have hr : r = ('$' :: n, n.length + 1) := by rw [← hw, ← hs]
    rw [hr]
    exact opLit l _ _ _ post (by rw [hs]; rfl) rfl (.gvar _ _ hn he) (fun _ h => absurd rfl h)

theorem lexAt (l : Lx) (h : l.ch 0 = '@') : Named l l.lexAt := by
  obtain ⟨s, hs⟩ := l.rest.ch_zero_cons '@' h (by decide)
  have hch : ∀ k, l.ch (k + 1) = s.ch k := by intro k; show l.rest.ch _ = _; rw [hs, List.ch_cons_succ]
  unfold Lx.lexAt
  split
  · rename_i h1
    have h1' : s.ch 0 = '@' := by rw [← hch 0]; exact h1
    obtain ⟨s', rfl⟩ := s.ch_zero_cons '@' h1' (by decide)
    obtain ⟨n, post, rfl, hw, hn, he⟩ := consumeWord_spec '@' s'
    rw [hs]
    extract_lets r
    have hr : r = ('@' :: n, n.length + 1) := by rw [← hw]; rfl
    rw [hr]
    exact opLit l _ _ _ post (by rw [hs]; rfl) rfl (.cvar _ _ hn he)
      (fun h _ => absurd h (by
        rw [List.getLast?_cons_cons]; exact notEq_of_sigil _ _ (by decide) hn))
  · obtain ⟨n, post, rfl, hw, hn, he⟩ := consumeWord_spec '@' s
    rw [hs]
    extract_lets r
    have hr : r = ('@' :: n, n.length + 1) := by rw [← hw]
    rw [hr]
    exact opLit l _ _ _ post (by rw [hs]; rfl) rfl (.ivar _ _ hn he)
      (fun h _ => absurd h (notEq_of_sigil _ _ (by decide) hn))

theorem dispatch (l : Lx) (o : Out) (h : l.dispatch = .ok o) : Named l o := by
  have hd := dispatch_disp l
  rw [h] at hd
  generalize hr : Res.ok o = r at hd
  cases hd
  case question hc =>
    unfold Lx.lexQuestion at hr
    dsimp only at hr
    replace hr := hr.symm
    ite_at hr as c1
    · cases hr; named_leaf
    ite_at hr as c2
    · cases he : escapedByte (l.rest.drop 2) with
      | ok bytes n => rw [he] at hr; cases hr; named_leaf
      | bad t n =>
        rw [he] at hr; cases hr
        rcases escapedByte_bad _ _ _ he with rfl | rfl <;> named_leaf
      | abort => rw [he] at hr; cases hr
      | fuel => rw [he] at hr; cases hr
    · cases hr; named_leaf
  case dollar hc =>
    unfold Lx.lexDollar at hr
    dsimp only at hr
    replace hr := hr.symm
    ite_at hr as c1
    · cases hr; named_leaf
    ite_at hr as c2
    · split at hr <;> cases hr
      named_leaf
    · cases hr
      exact globalVariable l hc
  all_goals (obtain rfl : o = _ := by simpa using hr)
  case less hc => exact lexLess l
  case word => exact lexWord l
  case squote => exact singleQuotedString _ _ _ _
  case «at» hc => exact lexAt l hc
  case newline hc => unfold Lx.lexNewline; split <;> named_leaf
  case colon hc => unfold Lx.lexColon; extract_lets c o; repeat' split
                   all_goals named_leaf
  case digit => unfold Lx.lexNumber; extract_lets r l'; split <;> named_leaf
  case i hc => unfold Lx.lexI; split
               · named_leaf
               · exact lexWord l
  case r hc =>
    unfold Lx.lexR
    repeat' split
    all_goals first
      | exact lexWord l
      | named_leaf
  case percent hc =>
    unfold Lx.lexPercent
    extract_lets c
    split
    · named_leaf
    repeat' split
    all_goals exact percentString _ _ _
  case slash hc => unfold Lx.lexSlash; repeat' split
                   all_goals named_leaf
  case equal hc => unfold Lx.lexEqual; repeat' split
                   all_goals named_leaf
  case plus hc => unfold Lx.lexPlus; repeat' split
                  all_goals named_leaf
  case minus hc => unfold Lx.lexMinus; repeat' split
                   all_goals named_leaf
  case star hc => unfold Lx.lexStar; repeat' split
                  all_goals named_leaf
  case bang hc => unfold Lx.lexBang; repeat' split
                  all_goals named_leaf
  case greater hc => unfold Lx.lexGreater; repeat' split
                     all_goals named_leaf
  case ampersand hc => unfold Lx.lexAmpersand; repeat' split
                       all_goals named_leaf
  case pipe hc => unfold Lx.lexPipe; repeat' split
                  all_goals named_leaf
  case caret hc => unfold Lx.lexCaret; repeat' split
                   all_goals named_leaf
  case tilde hc => unfold Lx.lexTilde; repeat' split
                   all_goals named_leaf
  case dot hc => unfold Lx.lexDot; repeat' split
                 all_goals named_leaf
  case lbracket hc => unfold Lx.lexLBracket; repeat' split
                      all_goals named_leaf
  case backtick hc => unfold Lx.lexBacktick; repeat' split
                      all_goals named_leaf
  case hash hc => unfold Lx.lexHash; repeat' split
                  all_goals named_leaf
  all_goals named_leaf

end Named

end NP
