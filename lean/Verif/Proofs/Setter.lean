import Mathlib.Data.List.TakeWhile
import Verif.Spec.Setter
import Verif.Proofs.Nesting
import Verif.Proofs.Names

/-! The state of the lexer that decides whether `name=` is one token. -/

namespace NP
open Spec

/-- The condition of src/lexer.cpp:986. -/
def Lx.CanAssign (l : Lx) : Prop := l.allowAssign = true ∨ (l.lastType ≠ .Dot ∧ l.remaining > 0)

/-- Heredocs that are to be skipped at the end of the line stay so, more can be added. -/
def Pending (l : Lx) (o : Out) : Prop :=
  o.lx.heredocStack = l.heredocStack ∨ o.tok.type = .Newline ∨
    (o.tok.type = .String ∨ o.tok.type = .InterpolatedStringBegin ∨ o.tok.type = .InterpolatedShellBegin) ∧
      ∃ k, o.lx.heredocStack = k :: l.heredocStack

/-- `build_next_token` leaves the state alone, and gives setter names only in the right states. -/
structure Mode (l : Lx) (o : Out) : Prop where
  allow : o.lx.allowAssign = l.allowAssign
  remaining : o.lx.remaining = l.remaining
  sep : o.lx.sep = l.sep
  name : o.lx.lastName = l.lastName
  stack : Pending l o
  setter : SetterName o.tok → l.CanAssign

/-- Not a name. -/
def notName (t : Ttype) : Bool := t != .BareName && t != .Constant

theorem notName_setter {t : Token} (h : notName t.type = true) : ¬SetterName t := by
  rintro ⟨h1 | h1, _⟩ <;> rw [h1] at h <;> cases h

namespace Mode

theorem op (l : Lx) (n : Nat) (t : Ttype) (h : notName t = true) : Mode l (l.op n t) :=
  ⟨rfl, rfl, rfl, rfl, .inl rfl, fun hs => absurd hs (notName_setter h)⟩

theorem opLit (l : Lx) (n : Nat) (t : Ttype) (s : Str) (h : notName t = true) : Mode l (l.opLit n t s) :=
  ⟨rfl, rfl, rfl, rfl, .inl rfl, fun hs => absurd hs (notName_setter h)⟩

theorem doubleQuoted (l : Lx) (n : Nat) (a b : Char) (t e : Ttype) (h : notName t = true) :
    Mode l (l.doubleQuoted n a b t e) := ⟨rfl, rfl, rfl, rfl, .inl rfl, fun hs => absurd hs (notName_setter h)⟩

theorem regexp (l : Lx) (n : Nat) (a b : Char) : Mode l (l.regexp n a b) :=
  ⟨rfl, rfl, rfl, rfl, .inl rfl, fun hs => absurd hs (notName_setter rfl)⟩

theorem wordArray (l : Lx) (n : Nat) (a b : Char) (i : Bool) (t : Ttype) (h : notName t = true) :
    Mode l (l.wordArray n a b i t) := ⟨rfl, rfl, rfl, rfl, .inl rfl, fun hs => absurd hs (notName_setter h)⟩

theorem singleQuotedString (l : Lx) (n : Nat) (a b : Char) : Mode l (l.singleQuotedString n a b) := by
  unfold Lx.singleQuotedString
  split
  · split <;> exact opLit _ _ _ _ rfl
  · exact opLit _ _ _ _ rfl

theorem _root_.NP.singleQuoted_stack (l : Lx) (n : Nat) (a b : Char) :
    (l.singleQuotedString n a b).lx.heredocStack = l.heredocStack := by
  unfold Lx.singleQuotedString
  split
  · split <;> rfl
  · rfl

theorem setTok {l : Lx} {o : Out} (h : Mode l o) (t : Token) (ht : notName t.type = true)
    (hs : o.lx.heredocStack = l.heredocStack) : Mode l { o with tok := t } :=
  ⟨h.allow, h.remaining, h.sep, h.name, .inl hs, fun hs => absurd hs (notName_setter ht)⟩

theorem percentConsumer (l : Lx) (n : Nat) (k : Lx.PKind) (a b : Char) : Mode l (l.percentConsumer n k a b) := by
  cases k <;> simp only [Lx.percentConsumer]
  · exact singleQuotedString _ _ _ _
  · exact doubleQuoted _ _ _ _ _ _ rfl
  · exact regexp _ _ _ _
  · exact (singleQuotedString _ _ _ _).setTok _ rfl (singleQuoted_stack _ _ _ _)
  · exact doubleQuoted _ _ _ _ _ _ rfl
  · exact wordArray _ _ _ _ _ _ rfl
  · exact wordArray _ _ _ _ _ _ rfl
  · exact wordArray _ _ _ _ _ _ rfl
  · exact wordArray _ _ _ _ _ _ rfl

theorem percentString (l : Lx) (n : Nat) (k : Lx.PKind) : Mode l (l.percentString n k) := by
  unfold Lx.percentString
  split
  · exact op _ _ _ rfl
  · extract_lets c
    repeat' split
    all_goals first
      | exact op _ _ _ rfl
      | exact percentConsumer _ _ _ _ _

theorem heredoc {l : Lx} {o : Out} (h : HeredocOut (l.adv 2) o) : Mode l o := by
  cases h with
  | bad n s => exact ⟨rfl, rfl, rfl, rfl, .inl rfl, fun hs => absurd hs (notName_setter rfl)⟩
  | raw n start k doc hn hd hs => exact ⟨rfl, rfl, rfl, rfl, .inr (.inr ⟨.inl rfl, _, rfl⟩), fun hs => absurd hs (notName_setter rfl)⟩
  | interp n start k doc b e hn hd hs hbe =>
    refine ⟨rfl, rfl, rfl, rfl, .inr (.inr ⟨?_, _, rfl⟩), fun hs => absurd hs (notName_setter ?_)⟩
    · rcases hbe with ⟨rfl, rfl⟩ | ⟨rfl, rfl⟩
      · exact .inr (.inr rfl)
      · exact .inr (.inl rfl)
    · rcases hbe with ⟨rfl, rfl⟩ | ⟨rfl, rfl⟩ <;> rfl

theorem _root_.NP.append_single_inj {n m : Str} {a b : Char} (h : n ++ [a] = m ++ [b]) : a = b := by
  have := congrArg List.getLast? h
  simpa using this

theorem bareName (l : Lx) (t : Ttype) (hc : isIdent (l.ch 0) = true) : Mode l (l.bareName t) := by
  have hw : ∀ n, (consumeWord l.rest).1 ≠ n ++ ['='] := by
    intro n h
    have hm : '=' ∈ (consumeWord l.rest).1 := by rw [h]; simp
    unfold consumeWord at hm
    rcases List.mem_cons.1 hm with h | h
    · unfold Lx.ch at hc; rw [← h] at hc; exact absurd hc (by decide)
    · exact absurd (List.mem_takeWhile_imp h) (by decide)
  unfold Lx.bareName
  extract_lets r c d
  have plain : ∀ n, Mode l (l.opLit n t r.1) := fun n =>
    ⟨rfl, rfl, rfl, rfl, .inl rfl, fun ⟨_, m, hs⟩ => absurd (by simpa [Lx.opLit, Lx.tkLit] using hs) (hw m)⟩
  split
  · rename_i hq
    split
    · exact opLit _ _ _ _ rfl
    · refine ⟨rfl, rfl, rfl, rfl, .inl rfl, fun ⟨_, m, hs⟩ => ?_⟩
      have hs' : r.1 ++ [c] = m ++ ['='] := by simpa [Lx.opLit, Lx.tkLit] using hs
      have := append_single_inj hs'
      rcases hq with h | h <;> rw [h] at this <;> exact absurd this (by decide)
  split
  · split
    · rename_i h
      exact ⟨rfl, rfl, rfl, rfl, .inl rfl, fun _ => h⟩
    · exact plain _
  split
  · exact opLit _ _ _ _ rfl
  · exact plain _

theorem _root_.NP.keyword_notName : ∀ t : Ttype, t.isKeyword = true → notName t = true := by
  intro t; cases t <;> decide

theorem _root_.NP.isNameStart_ident (c : Char) (h : isNameStart c = true ∨ between 'A' 'Z' c = true) : isIdent c = true := by
  unfold isNameStart at h
  unfold isIdent isAlnum isAlpha
  revert h
  simp only [between, Bool.and_eq_true, Bool.or_eq_true, decide_eq_true_eq, bne_iff_ne, beq_iff_eq, ne_eq]
  rintro (⟨h1, h2⟩ | h)
  · refine ⟨h1, ?_⟩
    tauto
  · refine ⟨?_, ?_⟩
    · rintro rfl; revert h; decide
    · tauto

theorem lexWord (l : Lx) : Mode l l.lexWord := by
  unfold Lx.lexWord
  split
  · rename_i t n hk
    obtain ⟨_, hkw, _⟩ := keywordAt_pos l t n hk
    split
    · exact opLit _ _ _ _ rfl
    · exact op _ _ _ (keyword_notName t hkw)
  · extract_lets c r
    split
    · exact bareName _ _ (isNameStart_ident _ (.inl (by assumption)))
    split
    · exact bareName _ _ (isNameStart_ident _ (.inr (by assumption)))
    · exact opLit _ _ _ _ rfl

attribute [local irreducible] Lx.heredoc in
theorem lexLess (l : Lx) : Mode l l.lexLess := by
  unfold Lx.lexLess
  repeat' split
  all_goals first
    | exact op _ _ _ rfl
    | exact heredoc (heredoc_out _)

theorem dispatch (l : Lx) (o : Out) (h : l.dispatch = .ok o) : Mode l o := by
  have hd := dispatch_disp l
  rw [h] at hd
  generalize hr : Res.ok o = r at hd
  cases hd
  case question =>
    unfold Lx.lexQuestion at hr
    replace hr := hr.symm
    extract_lets c at hr
    split at hr
    · cases hr; exact ⟨rfl, rfl, rfl, rfl, .inl rfl, fun hs => absurd hs (notName_setter rfl)⟩
    split at hr
    · split at hr <;> cases hr
      · exact opLit _ _ _ _ rfl
      · rename_i t n he
        exact opLit _ _ _ _ (by rcases escapedByte_bad _ _ _ he with rfl | rfl <;> rfl)
    · cases hr; exact opLit _ _ _ _ rfl
  case dollar =>
    unfold Lx.lexDollar at hr
    replace hr := hr.symm
    split at hr
    · cases hr; exact opLit _ _ _ _ rfl
    split at hr
    · extract_lets ds at hr
      split at hr
      · cases hr; exact ⟨rfl, rfl, rfl, rfl, .inl rfl, fun hs => absurd hs (notName_setter rfl)⟩
      · cases hr
    · cases hr
      unfold Lx.globalVariable
      repeat' split
      all_goals exact opLit _ _ _ _ rfl
  all_goals (obtain rfl : o = _ := by simpa using hr)
  case less hc => exact lexLess l
  case colon =>
    unfold Lx.lexColon
    extract_lets c o
    split
    · exact op _ _ _ rfl
    split
    · exact op _ _ _ rfl
    split
    · exact doubleQuoted _ _ _ _ _ _ rfl
    split
    · exact (singleQuotedString _ _ _ _).setTok _ rfl (singleQuoted_stack _ _ _ _)
    split
    · exact ⟨rfl, rfl, rfl, rfl, .inl rfl, fun hs => absurd hs (notName_setter rfl)⟩
    split
    · exact opLit _ _ _ _ rfl
    · exact opLit _ _ _ _ rfl
  case newline =>
    unfold Lx.lexNewline
    extract_lets l1
    split <;> exact ⟨rfl, rfl, rfl, rfl, .inr (.inl rfl), fun hs => absurd hs (notName_setter rfl)⟩
  case digit hc =>
    unfold Lx.lexNumber
    extract_lets r l'
    split <;> exact ⟨rfl, rfl, rfl, rfl, .inl rfl, fun hs => absurd hs (notName_setter rfl)⟩
  case word => exact lexWord l
  case squote => exact singleQuotedString _ _ _ _
  case dquote => exact doubleQuoted _ _ _ _ _ _ rfl
  case hash hc =>
    unfold Lx.lexHash
    split
    · exact opLit _ _ _ _ rfl
    · exact op _ _ _ rfl
  case percent =>
    unfold Lx.lexPercent
    extract_lets c
    repeat' split
    all_goals first
      | exact op _ _ _ rfl
      | exact percentString _ _ _
  case i =>
    unfold Lx.lexI
    split
    · exact op _ _ _ rfl
    · exact lexWord l
  case r =>
    unfold Lx.lexR
    repeat' split
    all_goals first
      | exact op _ _ _ rfl
      | exact lexWord l
  case slash =>
    unfold Lx.lexSlash
    repeat' split
    all_goals first
      | exact op _ _ _ rfl
      | exact regexp _ _ _ _
  case backtick =>
    unfold Lx.lexBacktick
    split
    · exact opLit _ _ _ _ rfl
    · exact doubleQuoted _ _ _ _ _ _ rfl
  all_goals
    try unfold Lx.lexAt
    try unfold Lx.lexEqual
    try unfold Lx.lexPlus
    try unfold Lx.lexMinus
    try unfold Lx.lexStar
    try unfold Lx.lexBang
    try unfold Lx.lexGreater
    try unfold Lx.lexAmpersand
    try unfold Lx.lexPipe
    try unfold Lx.lexCaret
    try unfold Lx.lexTilde
    try unfold Lx.lexDot
    try unfold Lx.lexLBracket
    repeat' split
    all_goals first
      | exact op _ _ _ rfl
      | exact opLit _ _ _ _ rfl

theorem buildBase (l : Lx) (o : Out) (h : l.buildBase = .ok o) : Mode l o := by
  unfold Lx.buildBase at h
  ite_at h as c0
  · cases h; exact ⟨rfl, rfl, rfl, rfl, .inl rfl, fun hs => absurd hs (notName_setter rfl)⟩
  have lift : ∀ l' : Lx, l'.dispatch = .ok o → l'.allowAssign = l.allowAssign → l'.remaining = l.remaining → l'.sep = l.sep →
      l'.lastName = l.lastName → l'.lastType = l.lastType → l'.heredocStack = l.heredocStack → Mode l o := by
    intro l' h h1 h2 h3 h4 h5 h6
    have m := dispatch l' o h
    refine ⟨m.allow.trans h1, m.remaining.trans h2, m.sep.trans h3, m.name.trans h4, ?_, fun hs => ?_⟩
    · have := m.stack
      unfold Pending at this ⊢
      rwa [h6] at this
    have := m.setter hs
    unfold Lx.CanAssign at this ⊢
    rwa [h1, h2, h5] at this
  ite_at h as c1
  · exact lift _ h rfl rfl rfl rfl rfl rfl
  ite_at h as c2
  · ite_at h as c3
    · cases h; exact ⟨rfl, rfl, rfl, rfl, .inl rfl, fun hs => absurd hs (notName_setter rfl)⟩
    · exact lift _ h rfl rfl rfl rfl rfl rfl
  ite_at h as c4
  · exact lift _ h rfl rfl rfl rfl rfl rfl
  · exact lift _ h rfl rfl rfl rfl rfl rfl

end Mode

/-- The types of the tokens of literals. -/
def litType (t : Ttype) : Bool := (inNames t && t != .Dot && t != .Comma) || t == .Eof || !t.isValid

theorem litType_end {e : Ttype} (h : EndType e) : litType e = true := by
  rcases h with rfl | rfl | rfl <;> rfl

/-- What a lexer of a literal can give: tokens of literals, and nested lexers only for interpolated sections. -/
def LitOut (o : Out) : Prop := litType o.tok.type = true ∧ ∀ c, o.child = some c → o.tok.type = .EvaluateToStringBegin

/-- Closes the branches of `build_lit`. -/
macro "lit_done" : tactic => `(tactic| first | exact ⟨rfl, fun _ _ => rfl⟩ | exact ⟨rfl, fun _ h => (by cases h)⟩)

theorem build_lit (l : Lx) (o : Out) (hw : l.kind.WF) (hk : l.kind ≠ .base) (h : l.build = .ok o) :
    LitOut o := by
  unfold Lx.build at h
  split at h
  · exact absurd (by assumption) hk
  · rename_i e _ hkind
    have he : litType e = true := by rw [hkind] at hw; exact litType_end hw
    unfold Lx.buildIstr at h
    split at h
    · unfold Lx.istrConsume at h
      split at h
      · dsimp only at h; ite_at h as c <;> cases h <;> lit_done
      · dsimp only at h; ite_at h as c
        · cases h; exact ⟨he, fun _ h => (by cases h)⟩
        · cases h; lit_done
      · dsimp only at h; ite_at h as c <;> cases h <;> lit_done
      · rename_i hq
        have := interpLoop_ends l.startChar l.stopChar (l.rest.length + 1) l.pairDepth [] 0 l.rest
        rw [hq] at this
        cases h
        rcases this.2 with h | h <;> subst h <;> lit_done
      · cases h
      · cases h
    · cases h; lit_done
    · cases h; lit_done
    · cases h; exact ⟨he, fun _ h => (by cases h)⟩
    · cases h; lit_done
  · unfold Lx.buildRegexp at h
    split at h
    · unfold Lx.regexpConsume at h
      split at h <;> cases h <;> lit_done
    · cases h; lit_done
    · dsimp only at h; ite_at h as c <;> cases h <;> lit_done
    · cases h; lit_done
    · cases h; lit_done
  · unfold Lx.buildWords at h
    have hf : ∀ (l : Lx) i s d b, LitOut (l.wordsDynFinish i s d b) := by
      intro l i s d b; unfold Lx.wordsDynFinish; split <;> lit_done
    have hg : ∀ (l : Lx) i s d b, LitOut (l.wordsFinish i s d b) := by
      intro l i s d b; unfold Lx.wordsFinish; dsimp only; split <;> lit_done
    have hc : ∀ st i s d, l.wordsConsume st i s d = .ok o → LitOut o := by
      intro st i s d h
      unfold Lx.wordsConsume at h
      dsimp only at h
      split at h
      · ite_at h as c
        · cases h; exact hf _ _ _ _ _
        · cases h; lit_done
      · cases h; lit_done
      · ite_at h as c
        · cases h; exact hf _ _ _ _ _
        · cases h; exact hg _ _ _ _ _
      · cases h; lit_done
      · cases h
    split at h
    · exact hc _ _ _ _ h
    · exact hc _ _ _ _ h
    · cases h; lit_done
    · ite_at h as c <;> cases h <;> lit_done
    all_goals (cases h; lit_done)

/-! ### The countdown -/

/-- How many more tokens the state survives. -/
def Lx.togo (l : Lx) : Nat :=
  (if l.sep = .Invalid then l.remaining else if l.lastName then 1 else 2) + (if l.allowAssign then 1 else 0)

/-- Possible states. -/
def Lx.Bounded (l : Lx) : Prop := (l.sep = .Invalid ∧ l.remaining ≤ 2) ∨ l.sep = .Comma

theorem Lx.Bounded.togo {l : Lx} (h : l.Bounded) : l.togo ≤ 3 := by
  unfold Lx.togo
  rcases h with ⟨h, h'⟩ | h
  · rw [if_pos h]; split <;> omega
  · rw [if_neg (by rw [h]; decide)]; split <;> split <;> omega

theorem Lx.Bounded.post {l : Lx} (h : l.Bounded) (t : Ttype) : (l.post t).Bounded := by
  unfold Lx.post
  split
  · rcases h with ⟨h, h'⟩ | h
    · exact .inl ⟨h, by simp⟩
    · exact .inr h
  · rcases h with ⟨h, h'⟩ | h
    · exact .inl ⟨h, by simp⟩
    · exact .inr h
  · rcases h with ⟨h, h'⟩ | h
    · exact .inl ⟨h, by simp⟩
    · exact .inr h
  · rcases h with ⟨h, h'⟩ | h
    · exact .inl ⟨h, by simp⟩
    · exact .inr h
  · exact .inr rfl
  · rcases h with ⟨h, h'⟩ | h
    · rw [if_neg (by simp [h])]
      split
      · exact .inl ⟨h, by simp; omega⟩
      · exact .inl ⟨h, h'⟩
    · rw [if_pos (by rw [h]; decide)]
      split
      · split
        · exact .inl ⟨rfl, by simp⟩
        · exact .inr h
      · exact .inr h

theorem post_other (l : Lx) (t : Ttype) (h1 : expectsName t = false) (h2 : t ≠ .Dot) : l.post t =
    if l.sep ≠ .Invalid then
      if l.lastName then
        if t ≠ l.sep then { l with lastName := false, remaining := 0, sep := .Invalid }
        else { l with lastName := false }
      else { l with lastName := t.isValid }
    else if l.remaining > 0 then { l with remaining := l.remaining - 1 }
    else { l with allowAssign := false } := by
  unfold Lx.post
  split
  · cases h1
  · cases h1
  · cases h1
  · exact absurd rfl h2
  · cases h1
  · rfl

theorem togo_other (l : Lx) (hb : l.Bounded) (t : Ttype) (h1 : expectsName t = false) (h2 : t ≠ .Dot) (h3 : t ≠ .Comma)
    (hv : t.isValid = true) : (l.post t).togo ≤ l.togo - 1 := by
  rw [post_other l t h1 h2]
  rcases hb with ⟨h, h'⟩ | h
  · rw [if_neg (not_not_intro h)]
    by_cases hr : l.remaining > 0
    · rw [if_pos hr]
      simp only [Lx.togo, if_pos h]
      omega
    · rw [if_neg hr]
      simp only [Lx.togo, if_pos h, Bool.false_eq_true, if_false]
      omega
  · have hne : l.sep ≠ .Invalid := by rw [h]; decide
    rw [if_pos hne]
    by_cases hn : l.lastName = true
    · rw [if_pos hn, if_pos (by rw [h]; exact h3)]
      simp only [Lx.togo, if_neg hne, if_pos hn, if_true]
      omega
    · rw [if_neg hn]
      simp only [Lx.togo, if_neg hne, if_neg hn, if_pos hv]
      omega

/-- The state after a list of tokens (last first) with reach `r`; `top`: the object is the innermost. -/
def NameState (l : Lx) (r : Option Nat) (top : Bool) : Prop :=
  l.Bounded ∧ (l.togo = 0 ∨
    (top = true ∧ l.sep = .Invalid ∧ l.allowAssign = false ∧ l.remaining ≤ 1 ∧ l.lastType = .Dot) ∨
    ∃ j, r = some j ∧ l.togo + j ≤ 3)

theorem NameState.canAssign {l : Lx} {r : Option Nat} {top : Bool} (h : NameState l r top) (hc : l.CanAssign) :
    r ≠ none := by
  obtain ⟨hb, h | ⟨-, h1, h2, h3, h4⟩ | ⟨j, h, _⟩⟩ := h
  · exfalso
    unfold Lx.togo at h
    rcases hc with hc | ⟨_, hc⟩
    · rw [hc] at h; simp at h
    · split at h
      · omega
      · split at h <;> omega
  · exfalso
    rcases hc with hc | hc
    · rw [hc] at h2; cases h2
    · exact hc.1 h4
  · rw [h]; simp

/-- A token of the object itself is dropped by `tokens()`. -/
theorem NameState.dropped {l : Lx} {r : Option Nat} {top : Bool} (h : NameState l r top) (t : Ttype)
    (h1 : expectsName t = false) (h2 : t ≠ .Dot) (h3 : t ≠ .Comma) (hv : t.isValid = true) :
    NameState (l.post t) r false := by
  have hg := togo_other l h.1 t h1 h2 h3 hv
  obtain ⟨hb, h | ⟨-, h4, h5, h6, h7⟩ | ⟨j, h, h'⟩⟩ := h
  · exact ⟨hb.post t, .inl (by omega)⟩
  · refine ⟨hb.post t, .inl ?_⟩
    have : l.togo ≤ 1 := by unfold Lx.togo; rw [if_pos h4, h5]; simpa using h6
    omega
  · exact ⟨hb.post t, .inr (.inr ⟨j, h, by omega⟩)⟩

/-- The reach after a token of a list of names or of a literal. -/
theorem reach_in {t : Ttype} (h1 : expectsName t = false) (h2 : inNames t = true) (r : Option Nat) :
    reach r t = r.map fun _ => 0 := by
  unfold reach; rw [h1, h2]; simp

/-- A token of the object itself is appended by `tokens()`. -/
theorem NameState.pushed {l : Lx} {r : Option Nat} {top : Bool} (h : NameState l r top) (t : Ttype)
    (hv : t.isValid = true) : NameState { l.post t with lastType := t } (reach r t) (t == .Dot) := by
  have hsame : ∀ m : Lx, ({ m with lastType := t } : Lx).togo = m.togo := fun _ => rfl
  have hbd : ({ l.post t with lastType := t } : Lx).Bounded := h.1.post t
  by_cases h1 : expectsName t = true
  · exact ⟨hbd, .inr (.inr ⟨0, by unfold reach; rw [if_pos h1], hbd.togo⟩)⟩
  replace h1 : expectsName t = false := by simpa using h1
  by_cases h2 : t = .Dot
  · subst h2
    have hp : l.post .Dot = { l with remaining := 1 } := rfl
    rw [reach_in rfl rfl]
    obtain ⟨hb, h | ⟨-, h4, h5, h6, h7⟩ | ⟨j, h, h'⟩⟩ := h
    · refine ⟨hbd, .inr (.inl ⟨rfl, ?_⟩)⟩
      rw [hp]
      unfold Lx.togo at h
      refine ⟨?_, ?_, Nat.le_refl _, rfl⟩
      · by_contra hs
        have hs : l.sep ≠ .Invalid := hs
        rw [if_neg hs] at h
        split at h <;> omega
      · show l.allowAssign = false
        cases ha : l.allowAssign with
        | false => rfl
        | true => rw [ha] at h; simp at h
    · refine ⟨hbd, .inr (.inl ⟨rfl, ?_⟩)⟩
      rw [hp]
      exact ⟨h4, h5, Nat.le_refl _, rfl⟩
    · exact ⟨hbd, .inr (.inr ⟨0, by rw [h]; rfl, hbd.togo⟩)⟩
  by_cases h3 : t = .Comma
  · subst h3
    rw [reach_in rfl rfl]
    obtain ⟨hb, h | ⟨-, h4, h5, h6, h7⟩ | ⟨j, h, h'⟩⟩ := h
    · refine ⟨hbd, .inl ?_⟩
      rw [hsame, post_other _ _ h1 h2]
      unfold Lx.togo at h
      by_cases hs : l.sep = .Invalid
      · rw [if_pos hs] at h
        rw [if_neg (not_not_intro hs), if_neg (by omega)]
        simp only [Lx.togo, if_pos hs, Bool.false_eq_true, if_false]
        omega
      · rw [if_neg hs] at h; split at h <;> omega
    · refine ⟨hbd, .inl ?_⟩
      rw [hsame, post_other _ _ h1 h2, if_neg (not_not_intro h4)]
      split
      · simp only [Lx.togo, if_pos h4, h5, Bool.false_eq_true, if_false]
        omega
      · simp only [Lx.togo, if_pos h4, Bool.false_eq_true, if_false]
        omega
    · exact ⟨hbd, .inr (.inr ⟨0, by rw [h]; rfl, hbd.togo⟩)⟩
  have hg := togo_other l h.1 t h1 h2 h3 hv
  refine ⟨hbd, ?_⟩
  obtain ⟨hb, h | ⟨-, h4, h5, h6, h7⟩ | ⟨j, h, h'⟩⟩ := h
  · exact .inl (by rw [hsame]; omega)
  · have : l.togo ≤ 1 := by unfold Lx.togo; rw [if_pos h4, h5]; simpa using h6
    exact .inl (by rw [hsame]; omega)
  · by_cases h0 : (l.post t).togo = 0
    · exact .inl h0
    refine .inr (.inr ?_)
    subst h
    by_cases hin : inNames t = true
    · exact ⟨0, by rw [reach_in h1 hin]; rfl, by rw [hsame]; omega⟩
    · match j, h' with
      | 0, h' => exact ⟨1, by simp [reach, h1, hin], by rw [hsame]; omega⟩
      | 1, h' => exact ⟨2, by simp [reach, h1, hin], by rw [hsame]; omega⟩
      | j + 2, h' => omega

theorem NameState.mono {l : Lx} {r : Option Nat} (h : NameState l r false) : NameState l r true := by
  obtain ⟨hb, h | ⟨h, _⟩ | h⟩ := h
  · exact ⟨hb, .inl h⟩
  · cases h
  · exact ⟨hb, .inr (.inr h)⟩

/-- A token of a nested lexer is appended. -/
theorem NameState.inner {l : Lx} {r : Option Nat} (h : NameState l r false) (t : Ttype) (h1 : expectsName t = false)
    (h2 : inNames t = true) : NameState { l with lastType := t } (reach r t) false := by
  rw [reach_in h1 h2]
  obtain ⟨hb, h | ⟨h, _⟩ | ⟨j, h, h'⟩⟩ := h
  · exact ⟨hb, .inl h⟩
  · cases h
  · refine ⟨hb, .inr (.inr ⟨0, by rw [h]; rfl, ?_⟩)⟩
    show l.togo + 0 ≤ 3
    omega

/-- The reach after the tokens of the vector (last first). -/
def reachOf (out : List Token) : Option Nat := out.foldr (fun t r => reach r t.type) none

theorem NameState.popped {l : Lx} {out : List Token} {top : Bool} (h : NameState l (reachOf out) top) :
    NameState l (reachOf (popNewlines out)) top := by
  unfold popNewlines
  induction out with
  | nil => exact h
  | cons t out ih =>
    rw [List.dropWhile_cons]
    split
    · rename_i ht
      have ht : t.type = .Newline := by simpa using ht
      refine ih ?_
      obtain ⟨hb, h | h | ⟨j, h, h'⟩⟩ := h
      · exact ⟨hb, .inl h⟩
      · exact ⟨hb, .inr (.inl h)⟩
      · refine ⟨hb, .inr (.inr ?_)⟩
        have hr : reachOf (t :: out) = match reachOf out with
          | some 0 => some 1
          | some 1 => some 2
          | _ => none := by
          show reach (reachOf out) t.type = _
          rw [ht]; rfl
        rw [hr] at h
        split at h
        · rename_i hq; cases h; exact ⟨0, hq, by omega⟩
        · rename_i hq; cases h; exact ⟨1, hq, by omega⟩
        · cases h
    · exact h

/-! ### The loop -/

/-- An interpolated section has begun. -/
def HasEval (out : List Token) : Prop := ∃ t ∈ out, t.type = .EvaluateToStringBegin

/-- Every setter name of the vector (last token first) is within reach. -/
def AllOk : List Token → Prop
  | [] => True
  | t :: out => (SetterName t → HasEval out ∨ reachOf out ≠ none) ∧ AllOk out

theorem AllOk.popped {out : List Token} (h : AllOk out) : AllOk (popNewlines out) := by
  unfold popNewlines
  induction out with
  | nil => exact h
  | cons t out ih =>
    rw [List.dropWhile_cons]
    split
    · exact ih h.2
    · exact h

theorem HasEval.popped {out : List Token} (h : HasEval out) : HasEval (popNewlines out) := by
  unfold popNewlines
  induction out with
  | nil => exact h
  | cons t out ih =>
    rw [List.dropWhile_cons]
    split
    · rename_i ht
      obtain ⟨u, hu, he⟩ := h
      rcases List.mem_cons.1 hu with rfl | hu
      · rw [he] at ht; exact absurd ht (by decide)
      · exact ih ⟨u, hu, he⟩
    · exact h

/-- The stack and the vector. -/
def NameInv (st : List Lx) (out : List Token) : Prop :=
  HasEval out ∨ (∃ l, st = [l] ∧ l.kind = .base ∧ NameState l (reachOf out) true) ∨
    ∃ c l, st = [c, l] ∧ c.kind ≠ .base ∧ l.kind = .base ∧ NameState l (reachOf out) false

/-- One iteration of `tokens()`: what `Filt.step` does. -/
theorem Filt.step_cases (f : Filt) (t : Token) :
    (∃ f', f.step t = (f', none) ∧ f'.out = f.out ∧ (t.type = .Comment ∨ t.type = .Doc ∨ t.type = .Newline)) ∨
    ∃ f' t' out, f.step t = (f', some t') ∧ f'.out = t' :: out ∧ t'.type = t.type ∧ t'.lit = t.lit ∧
      (out = f.out ∨ out = popNewlines f.out) := by
  unfold Filt.step
  split
  · exact .inl ⟨_, rfl, rfl, .inl (by assumption)⟩
  split
  · split
    · exact .inl ⟨_, rfl, rfl, .inr (.inl (by assumption))⟩
    · exact .inl ⟨_, rfl, rfl, .inr (.inl (by assumption))⟩
  split
  · rename_i h
    exact .inl ⟨_, rfl, rfl, .inr (.inr h.2)⟩
  · right
    have ho : (if t.type.canFollowCollapsibleNewline then popNewlines f.out else f.out) = f.out ∨
        (if t.type.canFollowCollapsibleNewline then popNewlines f.out else f.out) = popNewlines f.out := by
      split <;> simp
    dsimp only
    split
    · split
      · exact ⟨_, _, _, rfl, rfl, rfl, rfl, ho⟩
      split
      · exact ⟨_, _, _, rfl, rfl, rfl, rfl, ho⟩
      · exact ⟨_, _, _, rfl, rfl, rfl, rfl, ho⟩
    · exact ⟨_, _, _, rfl, rfl, rfl, rfl, ho⟩

theorem NameState.congr {l m : Lx} {r : Option Nat} {top : Bool} (h : NameState l r top) (h1 : m.allowAssign = l.allowAssign)
    (h2 : m.remaining = l.remaining) (h3 : m.sep = l.sep) (h4 : m.lastName = l.lastName) (h5 : m.lastType = l.lastType) :
    NameState m r top := by
  unfold NameState Lx.Bounded Lx.togo at h ⊢
  rwa [h1, h2, h3, h4, h5]

theorem NameState.ofPopped {l : Lx} {f : Filt} {out : List Token} {top : Bool} (h : NameState l (reachOf f.out) top)
    (ho : out = f.out ∨ out = popNewlines f.out) : NameState l (reachOf out) top := by
  rcases ho with rfl | rfl
  · exact h
  · exact h.popped

theorem HasEval.ofPopped {f : Filt} {out : List Token} (h : HasEval f.out)
    (ho : out = f.out ∨ out = popNewlines f.out) : HasEval out := by
  rcases ho with rfl | rfl
  · exact h
  · exact h.popped

theorem AllOk.ofPopped {f : Filt} {out : List Token} (h : AllOk f.out)
    (ho : out = f.out ∨ out = popNewlines f.out) : AllOk out := by
  rcases ho with rfl | rfl
  · exact h
  · exact h.popped

theorem setter_congr {t u : Token} (h1 : t.type = u.type) (h2 : t.lit = u.lit) : SetterName t ↔ SetterName u := by
  unfold SetterName; rw [h1, h2]

theorem dropped_facts {t : Ttype} (h : t = .Comment ∨ t = .Doc ∨ t = .Newline) : expectsName t = false ∧ t ≠ .Dot ∧
    t ≠ .Comma ∧ t.isValid = true ∧ litType t = false := by
  rcases h with rfl | rfl | rfl <;> decide

/-- What is to be shown about one iteration. -/
def NameNext (f : Filt) (t : Token) (st : List Lx) : Prop :=
  AllOk (f.step t).1.out ∧
    match f.step t with
    | (f', none) => NameInv st f'.out
    | (f', some t') => t'.type ≠ .Eof ∧ t'.type.isValid = true → NameInv (setLast t'.type st) f'.out

/-- One iteration with a token of the outermost object. -/
theorem nameNext_base {src : Str} {l : Lx} {o : Out} {f : Filt} (hl : Reach src l) (hk : l.kind = .base)
    (hs : NameState l (reachOf f.out) true) (ha : AllOk f.out) (h : l.step = .ok o) :
    NameNext f o.tok (o.child.toList ++ [o.lx]) := by
  have ns := step_nstep l o hl.wf h
  have hk' : o.lx.kind = .base := (Kind.base_iff (hl.shape h).kind).2 hk
  obtain ⟨b, hb, rfl⟩ := l.step_eq o h
  have hbb : l.start.buildBase = .ok b := by
    unfold Lx.build at hb
    rw [Lx.start_kind, hk] at hb
    exact hb
  have m := Mode.buildBase _ _ hbb
  have hlast := (buildBase_shape _ _ hbb).last
  have hbal := buildBase_bal _ _ hbb
  dsimp only at *
  have hs' : ∀ {r top}, NameState l r top → NameState b.lx r top :=
    fun h => h.congr m.allow m.remaining m.sep m.name hlast
  have hchild : ∀ c, b.child = some c → c.kind ≠ .base ∧ b.tok.type ≠ .Dot := by
    intro c hc
    rcases ns.child c hc with ⟨_, h2, _⟩ | ⟨h1, _⟩
    · refine ⟨h2, ?_⟩
      rcases hbal with ⟨h3, _⟩ | ⟨_, e, _, h4, _⟩
      · rw [hc] at h3; cases h3
      · intro h5; rw [h5] at h4; cases h4
    · exact absurd hk h1
  unfold NameNext
  rcases f.step_cases b.tok with ⟨f', hf, ho, ht⟩ | ⟨f', t', out, hf, ho, htt, htl, hout⟩
  · rw [hf]
    obtain ⟨d1, d2, d3, d4, _⟩ := dropped_facts ht
    have hd := (hs' hs).dropped b.tok.type d1 d2 d3 d4
    refine ⟨by rw [ho]; exact ha, ?_⟩
    dsimp only
    rw [ho]
    cases hc : b.child with
    | none => exact .inr (.inl ⟨_, rfl, hk', hd.mono⟩)
    | some c => exact .inr (.inr ⟨_, _, rfl, (hchild c hc).1, hk', hd⟩)
  · rw [hf]
    have hp := hs.ofPopped hout
    refine ⟨?_, ?_⟩
    · rw [ho]
      refine ⟨fun hset => .inr ?_, ha.ofPopped hout⟩
      refine hp.canAssign ?_
      exact m.setter ((setter_congr htt htl).1 hset)
    · rintro ⟨he, hv⟩
      rw [htt] at hv ⊢
      have hn := (hs' hp).pushed b.tok.type hv
      rw [ho]
      have hr : reachOf (t' :: out) = reach (reachOf out) b.tok.type := by
        show reach (reachOf out) t'.type = _
        rw [htt]
      cases hc : b.child with
      | none =>
        refine .inr (.inl ⟨_, rfl, hk', ?_⟩)
        rw [hr]
        cases hdot : (b.tok.type == .Dot) with
        | true => rw [hdot] at hn; exact hn
        | false => rw [hdot] at hn; exact hn.mono
      | some c =>
        refine .inr (.inr ⟨_, _, rfl, (hchild c hc).1, hk', ?_⟩)
        rw [hr]
        have : (b.tok.type == .Dot) = false := by simpa using (hchild c hc).2
        rw [this] at hn
        exact hn

/-- One iteration with a token of a literal. -/
theorem nameNext_lit {src : Str} {c l : Lx} {o : Out} {f : Filt} (hc : Reach src c) (hk : c.kind ≠ .base)
    (hkl : l.kind = .base) (hs : NameState l (reachOf f.out) false) (ha : AllOk f.out) (h : c.step = .ok o)
    (he : o.tok.type ≠ .Eof) : NameNext f o.tok (o.child.toList ++ [o.lx, l]) := by
  have hk' : o.lx.kind ≠ .base := fun h' => hk ((Kind.base_iff (hc.shape h).kind).1 h')
  have hlit : LitOut o := by
    obtain ⟨b, hb, rfl⟩ := c.step_eq o h
    exact build_lit c.start b hc.wf hk hb
  unfold NameNext
  rcases f.step_cases o.tok with ⟨f', hf, ho, ht⟩ | ⟨f', t', out, hf, ho, htt, htl, hout⟩
  · have := (dropped_facts ht).2.2.2.2
    rw [hlit.1] at this
    cases this
  · rw [hf]
    refine ⟨?_, ?_⟩
    · rw [ho]
      refine ⟨fun hset => ?_, ha.ofPopped hout⟩
      exfalso
      have h1 := hlit.1
      rw [← htt] at h1
      rcases hset.1 with h2 | h2 <;> rw [h2] at h1 <;> cases h1
    · rintro ⟨_, hv⟩
      rw [htt] at hv ⊢
      by_cases hev : o.tok.type = .EvaluateToStringBegin
      · exact .inl ⟨t', by rw [ho]; simp, by rw [htt]; exact hev⟩
      have hcn : o.child = none := by
        cases hcc : o.child with
        | none => rfl
        | some d => exact absurd (hlit.2 d hcc) hev
      rw [hcn, ho]
      refine .inr (.inr ⟨_, _, rfl, hk', hkl, ?_⟩)
      have hr : reachOf (t' :: out) = reach (reachOf out) o.tok.type := by
        show reach (reachOf out) t'.type = _
        rw [htt]
      rw [hr]
      have hl := hlit.1
      unfold litType at hl
      have h2 : inNames o.tok.type = true := by
        simp only [Bool.or_eq_true, Bool.and_eq_true, hv, Bool.not_true, Bool.false_eq_true, or_false, beq_iff_eq, he] at hl
        exact hl.1.1
      have h1 : expectsName o.tok.type = false := by
        revert h2
        cases o.tok.type <;> decide
      exact (hs.ofPopped hout).inner _ h1 h2

/-- One iteration inside or after an interpolated section. -/
theorem nameNext_eval {f : Filt} (he : HasEval f.out) (ha : AllOk f.out) (t : Token) (st : List Lx) : NameNext f t st := by
  unfold NameNext
  rcases f.step_cases t with ⟨f', hf, ho, ht⟩ | ⟨f', t', out, hf, ho, htt, htl, hout⟩
  · rw [hf]
    exact ⟨by rw [ho]; exact ha, .inl (by rw [ho]; exact he)⟩
  · rw [hf]
    obtain ⟨u, hu, hue⟩ := he.ofPopped hout
    refine ⟨by rw [ho]; exact ⟨fun _ => .inl ⟨u, hu, hue⟩, ha.ofPopped hout⟩, fun _ => .inl ?_⟩
    exact ⟨u, by rw [ho]; exact List.mem_cons_of_mem _ hu, hue⟩

theorem nameNext {src : Str} {l : Lx} {ps : List Lx} {f : Filt} {t : Token} {st : List Lx} (hst : StackOk src (l :: ps))
    (hi : NameInv (l :: ps) f.out) (ha : AllOk f.out) (h : nextToken l ps = .ok (t, st)) : NameNext f t st := by
  rcases hi with he | ⟨l', e, hk, hs⟩ | ⟨c, l', e, hk, hkl, hs⟩
  · exact nameNext_eval he ha t st
  · cases e
    unfold nextToken at h
    cases ho : l.step with
    | ok o => rw [ho] at h; cases h; exact nameNext_base hst.head hk hs ha ho
    | abort => rw [ho] at h; cases h
    | ub => rw [ho] at h; cases h
    | fuel => rw [ho] at h; cases h
  · cases e
    unfold nextToken at h
    cases ho : l.step with
    | ok o =>
      rw [ho] at h
      simp only at h
      by_cases he : o.tok.type = .Eof
      · rw [if_pos he] at h
        have hst2 := hst.step ho
        rw [((hst.head.shape ho).eof he).1] at hst2
        have hst3 := hst2.pop
        unfold nextToken at h
        cases ho' : (l'.sync o.lx).step with
        | ok o' =>
          rw [ho'] at h
          cases h
          refine nameNext_base hst3.head ?_ ?_ ha ho'
          · unfold Lx.sync; split <;> exact hkl
          · refine hs.mono.congr ?_ ?_ ?_ ?_ ?_ <;> (unfold Lx.sync; split <;> rfl)
        | abort => rw [ho'] at h; cases h
        | ub => rw [ho'] at h; cases h
        | fuel => rw [ho'] at h; cases h
      · rw [if_neg he] at h
        cases h
        exact nameNext_lit hst.head hk hkl hs ha ho he
    | abort => rw [ho] at h; cases h
    | ub => rw [ho] at h; cases h
    | fuel => rw [ho] at h; cases h

theorem tokensLoop_setter {src : Str} (fuel : Nat) : ∀ (l : Lx) (ps : List Lx) (f : Filt) (ts : List Token),
    StackOk src (l :: ps) → NameInv (l :: ps) f.out → AllOk f.out → tokensLoop fuel l ps f = .ok ts →
    AllOk ts.reverse := by
  induction fuel with
  | zero => intro l ps f ts _ _ _ h; cases h
  | succ fuel ih =>
    intro l ps f ts hst hi ha h
    unfold tokensLoop at h
    cases hn : nextToken l ps with
    | abort => rw [hn] at h; cases h
    | ub => rw [hn] at h; cases h
    | fuel => rw [hn] at h; cases h
    | ok r =>
      obtain ⟨t, st⟩ := r
      rw [hn] at h
      have hst' := (nextToken_ok ps l t st hst hn).2
      have key := nameNext hst hi ha hn
      unfold NameNext at key
      simp only at h
      cases hf : f.step t with
      | mk f' o =>
        rw [hf] at h key
        obtain ⟨k1, k2⟩ := key
        cases o with
        | none =>
          cases st with
          | nil => exact hst'.elim
          | cons l' ps' => exact ih _ _ _ _ hst' k2 k1 h
        | some t' =>
          simp only at h
          ite_at h as he
          · cases h
            rw [List.reverse_reverse]
            exact k1
          · have h4 := hst'.setLast t'.type
            have h5 := k2 (by simpa [not_or] using he)
            cases hl : setLast t'.type st with
            | nil => rw [hl] at h4; exact h4.elim
            | cons l' ps' =>
              rw [hl] at h h4 h5
              exact ih _ _ _ _ h4 h5 k1 h

end NP
