import Verif.Proofs.BaseStep

/-! Tokens with a fixed spelling. -/

namespace NP

open Spec Lx

theorem fixed_value : ∀ p ∈ fixedSpelling, p.2.value = some p.1 := by decide +kernel

/-- Types without fixed spelling. -/
def looseType : Ttype → Bool
  | .Invalid | .InvalidCharacterEscape | .InvalidUnicodeEscape | .BackRef | .BareName | .Bignum | .ClassVariable
  | .Comment | .Complex | .Constant | .Doc | .Eof | .EvaluateToStringBegin | .EvaluateToStringEnd | .Fixnum | .Float
  | .GlobalVariable | .InstanceVariable | .InterpolatedRegexpBegin | .InterpolatedRegexpEnd | .InterpolatedShellBegin
  | .InterpolatedShellEnd | .InterpolatedStringBegin | .InterpolatedStringEnd | .InterpolatedSymbolBegin
  | .InterpolatedSymbolEnd | .InterpolatedStringSymbolKey | .NthRef | .OperatorName | .PercentLowerI | .PercentLowerW
  | .PercentUpperI | .PercentUpperW | .Rational | .RationalComplex | .String | .Symbol | .SymbolKey
  | .UnterminatedRegexp | .UnterminatedString | .UnterminatedWordArray => true
  | _ => false

theorem not_fixed {w : Str} {t : Ttype} (h : looseType t = true) : (w, t) ∉ fixedSpelling := by
  intro hw
  have : ∀ p ∈ fixedSpelling, looseType p.2 = false := by decide +kernel
  rw [this _ hw] at h
  cases h

theorem prefix1 {s : Str} {a : Char} (h : s.ch 0 = a) (ha : a ≠ NUL) : [a] <+: s := by
  obtain ⟨r, rfl⟩ := s.ch_zero_cons a h ha
  exact ⟨r, rfl⟩

theorem prefix_cons {s : Str} {a : Char} {w : Str} (h : s.ch 0 = a) (ha : a ≠ NUL) (hw : w <+: s.drop 1) : a :: w <+: s := by
  obtain ⟨r, rfl⟩ := s.ch_zero_cons a h ha
  obtain ⟨r', h'⟩ := hw
  exact ⟨r', by simpa using h'⟩

theorem prefix2 {s : Str} {a b : Char} (h : s.ch 0 = a) (hb : s.ch 1 = b) (ha : a ≠ NUL) (hb' : b ≠ NUL) :
    [a, b] <+: s :=
  prefix_cons h ha (prefix1 (by rw [List.ch_drop]; exact hb) hb')

theorem prefix3 {s : Str} {a b c : Char} (h : s.ch 0 = a) (hb : s.ch 1 = b) (hc : s.ch 2 = c) (ha : a ≠ NUL)
    (hb' : b ≠ NUL) (hc' : c ≠ NUL) : [a, b, c] <+: s :=
  prefix_cons h ha (prefix2 (by rw [List.ch_drop]; exact hb) (by rw [List.ch_drop]; exact hc) hb' hc')

/-- The token is spelled `w` in the source and the cursor is behind it. -/
def Spelled (l : Lx) (o : Out) : Prop :=
  ∀ w, (w, o.tok.type) ∈ fixedSpelling → w <+: l.rest ∧ l.cur.index + w.length ≤ o.lx.cur.index ∧
    (o.tok.type ≠ .Newline → o.lx.cur.index = l.cur.index + w.length)

namespace Spelled

theorem mk (l : Lx) (o : Out) (n : Nat) (t : Ttype) (ho : o.tok.type = t) (hc : o.lx.cur.index = l.cur.index + n)
    (v : Str) (hv : t.value = some v) (hn : v.length = n) (hp : v <+: l.rest) : Spelled l o := by
  intro w hw
  have := fixed_value _ hw
  rw [ho] at this
  simp only at this
  rw [hv] at this
  cases this
  exact ⟨hp, by omega, fun _ => by omega⟩

theorem op (l : Lx) (n : Nat) (t : Ttype) (v : Str) (hv : t.value = some v) (hn : v.length = n) (hp : v <+: l.rest) :
    Spelled l (l.op n t) := mk l _ n t rfl (l.adv_index n) v hv hn hp

theorem none (l : Lx) (o : Out) (h : looseType o.tok.type = true) : Spelled l o :=
  fun _ hw => absurd hw (not_fixed h)

/-- Closes the goal for a leaf of a `lex…` function. -/
syntax "spelled_leaf" : tactic
macro_rules
  | `(tactic| spelled_leaf) => `(tactic| first
    | exact none _ _ rfl
    | exact op _ _ _ _ rfl rfl (prefix3 (by assumption) (by assumption) (by assumption) (by decide) (by decide) (by decide))
    | exact op _ _ _ _ rfl rfl (prefix2 (by assumption) (by assumption) (by decide) (by decide))
    | exact op _ _ _ _ rfl rfl (prefix1 (by assumption) (by decide)))

theorem singleQuotedString (l : Lx) (n : Nat) (a b : Char) : Spelled l (l.singleQuotedString n a b) := by
  unfold Lx.singleQuotedString
  split
  · split <;> spelled_leaf
  · spelled_leaf

theorem percentConsumer (l : Lx) (n : Nat) (k : PKind) (a b : Char) : Spelled l (l.percentConsumer n k a b) := by
  unfold Lx.percentConsumer
  cases k
  case q => exact singleQuotedString _ _ _ _
  all_goals spelled_leaf

theorem percentString (l : Lx) (n : Nat) (k : PKind) (h : l.ch 0 = '%') : Spelled l (l.percentString n k) := by
  unfold Lx.percentString
  extract_lets c
  repeat' split
  all_goals first
    | exact percentConsumer _ _ _ _ _
    | spelled_leaf

theorem keywordAt_spec (l : Lx) (t : Ttype) (n : Nat) (h : l.keywordAt = some (t, n)) :
    ∃ w, (w, t) ∈ keywords ∧ matchWord l.rest w = true ∧ n = w.length := by
  unfold Lx.keywordAt at h
  split at h
  · rename_i hc
    cases h
    exact ⟨_, by decide, hc.2.2.1, rfl⟩
  · split at h
    · simp only [Option.map_eq_some_iff] at h
      obtain ⟨⟨w, t'⟩, h1, h2⟩ := h
      cases h2
      exact ⟨w, List.mem_of_find?_eq_some h1, (by simpa using List.find?_some h1), rfl⟩
    · cases h

theorem keywords_value : ∀ p ∈ keywords, p.2.value = some p.1 := by decide +kernel

theorem bareName_type (l : Lx) (t : Ttype) : (l.bareName t).tok.type = t ∨ (l.bareName t).tok.type = .SymbolKey := by
  unfold Lx.bareName
  extract_lets r c d
  split
  · split
    · exact .inr rfl
    · exact .inl rfl
  split
  · split
    · exact .inl rfl
    · exact .inl rfl
  split
  · exact .inr rfl
  · exact .inl rfl

theorem bareName (l : Lx) (t : Ttype) (ht : looseType t = true) : Spelled l (l.bareName t) := by
  refine none _ _ ?_
  rcases bareName_type l t with h | h
  · rw [h]; exact ht
  · rw [h]; rfl

theorem lexWord (l : Lx) : Spelled l l.lexWord := by
  unfold Lx.lexWord
  split
  · rename_i t n hk
    split
    · spelled_leaf
    · obtain ⟨w, h1, h2, h3⟩ := keywordAt_spec l t n hk
      refine op _ _ _ w (keywords_value _ h1) h3.symm ?_
      simp only [matchWord, Bool.and_eq_true] at h2
      exact List.isPrefixOf_iff_prefix.1 h2.1
  · extract_lets c r
    split
    · exact bareName _ _ rfl
    split
    · exact bareName _ _ rfl
    · spelled_leaf

attribute [local irreducible] Lx.heredoc in
theorem lexLess (l : Lx) (h : l.ch 0 = '<') : Spelled l l.lexLess := by
  have hd : Spelled l (l.adv 2).heredoc := by
    have := heredoc_out (l.adv 2)
    generalize (l.adv 2).heredoc = o at this
    cases this with
    | bad => spelled_leaf
    | raw => spelled_leaf
    | interp n start k doc b e hn hd hs hbe => rcases hbe with ⟨rfl, _⟩ | ⟨rfl, _⟩ <;> spelled_leaf
  unfold Lx.lexLess
  repeat' split
  all_goals first
    | exact hd
    | spelled_leaf

theorem dispatch (l : Lx) (o : Out) (h : l.dispatch = .ok o) : Spelled l o := by
  have hd := dispatch_disp l
  rw [h] at hd
  generalize hr : Res.ok o = r at hd
  cases hd
  case question hc =>
    unfold Lx.lexQuestion at hr
    dsimp only at hr
    replace hr := hr.symm
    ite_at hr as c1
    · cases hr; exact mk l _ 1 .TernaryQuestion rfl (l.adv_index 1) _ rfl rfl (prefix1 hc (by decide))
    ite_at hr as c2
    · cases he : escapedByte (l.rest.drop 2) with
      | ok bytes n => rw [he] at hr; cases hr; spelled_leaf
      | bad t n =>
        rw [he] at hr; cases hr
        rcases escapedByte_bad _ _ _ he with rfl | rfl <;> spelled_leaf
      | abort => rw [he] at hr; cases hr
      | fuel => rw [he] at hr; cases hr
    · cases hr; spelled_leaf
  case dollar hc =>
    unfold Lx.lexDollar Lx.globalVariable at hr
    dsimp only at hr
    replace hr := hr.symm
    ite_at hr as c1
    · cases hr; spelled_leaf
    ite_at hr as c2
    · split at hr <;> cases hr
      spelled_leaf
    · cases hr
      repeat' split
      all_goals spelled_leaf
  all_goals (obtain rfl : o = _ := by simpa using hr)
  case less hc => exact lexLess l hc
  case word => exact lexWord l
  case squote => exact singleQuotedString _ _ _ _
  case dquote => spelled_leaf
  case newline hc =>
    unfold Lx.lexNewline
    split
    · exact mk l _ 1 .Newline rfl (l.adv_index 1) _ rfl rfl (prefix1 hc (by decide))
    · intro w hw
      have := fixed_value _ hw
      cases this
      refine ⟨prefix1 hc (by decide), ?_, fun h => absurd rfl h⟩
      simp only [Lx.adv_index]
      show l.cur.index + 1 ≤ _
      omega
  case colon hc =>
    unfold Lx.lexColon
    extract_lets c o
    repeat' split
    all_goals spelled_leaf
  case digit =>
    unfold Lx.lexNumber
    extract_lets r l'
    split <;> spelled_leaf
  case i hc =>
    unfold Lx.lexI
    split
    · spelled_leaf
    · exact lexWord l
  case r hc =>
    unfold Lx.lexR
    repeat' split
    all_goals first
      | exact lexWord l
      | spelled_leaf
  case percent hc =>
    unfold Lx.lexPercent
    extract_lets c
    split
    · exact op _ _ _ _ rfl rfl (prefix2 hc (by assumption) (by decide) (by decide))
    repeat' split
    all_goals exact percentString _ _ _ hc
  case slash hc =>
    unfold Lx.lexSlash
    repeat' split
    all_goals spelled_leaf
  case equal hc =>
    unfold Lx.lexEqual
    repeat' split
    all_goals spelled_leaf
  case plus hc => unfold Lx.lexPlus; repeat' split
                  all_goals spelled_leaf
  case minus hc => unfold Lx.lexMinus; repeat' split
                   all_goals spelled_leaf
  case star hc => unfold Lx.lexStar; repeat' split
                  all_goals spelled_leaf
  case bang hc => unfold Lx.lexBang; repeat' split
                  all_goals spelled_leaf
  case greater hc => unfold Lx.lexGreater; repeat' split
                     all_goals spelled_leaf
  case ampersand hc => unfold Lx.lexAmpersand; repeat' split
                       all_goals spelled_leaf
  case pipe hc => unfold Lx.lexPipe; repeat' split
                  all_goals spelled_leaf
  case caret hc => unfold Lx.lexCaret; repeat' split
                   all_goals spelled_leaf
  case tilde hc => unfold Lx.lexTilde; repeat' split
                   all_goals spelled_leaf
  case «at» hc => unfold Lx.lexAt; repeat' split
                  all_goals spelled_leaf
  case dot hc => unfold Lx.lexDot; repeat' split
                 all_goals spelled_leaf
  case lbracket hc => unfold Lx.lexLBracket; repeat' split
                      all_goals spelled_leaf
  case backtick hc => unfold Lx.lexBacktick; repeat' split
                      all_goals spelled_leaf
  case hash hc => unfold Lx.lexHash; repeat' split
                  all_goals spelled_leaf
  all_goals spelled_leaf

end Spelled

/-- Types without fixed spelling that are not names either. -/
def nestedType (t : Ttype) : Bool := looseType t && !isNameType t

/-- The tokens of the other lexer classes: only the end of a word array has a fixed spelling. -/
theorem nonbase_loose (l : Lx) (o : Out) (hw : l.kind.WF) (hk : l.kind ≠ .base) (h : l.build = .ok o) :
    nestedType o.tok.type = true ∨ o.tok.type = .RBracket := by
  have hend : ∀ e, EndType e → nestedType e = true := by rintro e (rfl | rfl | rfl) <;> rfl
  unfold Lx.build at h
  split at h
  · contradiction
  · rename_i st e a hkk
    rw [hkk] at hw
    left
    unfold Lx.buildIstr Lx.istrConsume at h
    split at h
    · split at h
      · dsimp only at h; ite_at h as c <;> (cases h; rfl)
      · dsimp only at h; ite_at h as c
        · cases h; exact hend e hw
        · cases h; rfl
      · dsimp only at h; ite_at h as c <;> (cases h; rfl)
      · rename_i t d n he
        cases h
        have := interpLoop_ends l.startChar l.stopChar (l.rest.length + 1) l.pairDepth [] 0 l.rest
        rw [he] at this
        rcases this.2 with rfl | rfl <;> rfl
      · cases h
      · cases h
    · cases h; rfl
    · cases h; rfl
    · cases h; exact hend e hw
    · cases h; rfl
  · left
    unfold Lx.buildRegexp Lx.regexpConsume at h
    split at h
    · split at h <;> cases h <;> rfl
    · cases h; rfl
    · dsimp only at h; ite_at h as c <;> (cases h; rfl)
    · cases h; rfl
    · cases h; rfl
  · unfold Lx.buildWords Lx.wordsConsume at h
    split at h
    · dsimp only at h
      split at h
      · split at h <;> (cases h; first | (left; rfl) | (unfold Lx.wordsDynFinish; split <;> (left; rfl)))
      · cases h; left; rfl
      · split at h
        · cases h; unfold Lx.wordsDynFinish; split <;> (left; rfl)
        · cases h; unfold Lx.wordsFinish; dsimp only; split
          · left; rfl
          · right; rfl
      · cases h; left; rfl
      · cases h
    · dsimp only at h
      split at h
      · split at h <;> (cases h; first | (left; rfl) | (unfold Lx.wordsDynFinish; split <;> (left; rfl)))
      · cases h; left; rfl
      · split at h
        · cases h; unfold Lx.wordsDynFinish; split <;> (left; rfl)
        · cases h; unfold Lx.wordsFinish; dsimp only; split
          · left; rfl
          · right; rfl
      · cases h; left; rfl
      · cases h
    · cases h; left; rfl
    · split at h <;> (cases h; left; rfl)
    · cases h; left; rfl
    · cases h; left; rfl
    · cases h; right; rfl
    · cases h; left; rfl

end NP
