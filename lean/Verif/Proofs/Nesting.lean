import Verif.Spec.Nesting
import Verif.Proofs.Filter

/-! The begin and end tokens of literals mirror the stack of lexer objects. -/

namespace NP

open Spec

/-! ### The objects and what they have opened -/

/-- What an object has opened and not yet closed, innermost first. -/
def Kind.opens : Kind → List Ttype
  | .base => []
  | .istr st e _ =>
    match st with
    | .InProgress | .EvaluateBegin | .EndToken => [e]
    | .EvaluateEnd => [.EvaluateToStringEnd, e]
    | .Done => []
  | .regexp st _ =>
    match st with
    | .InProgress | .EvaluateBegin | .EndToken => [.InterpolatedRegexpEnd]
    | .EvaluateEnd => [.EvaluateToStringEnd, .InterpolatedRegexpEnd]
    | .Done => []
  | .words st _ _ _ _ =>
    match st with
    | .InProgress | .EndToken => [.RBracket]
    | .DynamicStringBegin | .DynamicStringInProgress | .DynamicStringEnd | .EvaluateBegin =>
      [.InterpolatedStringEnd, .RBracket]
    | .EvaluateEnd => [.EvaluateToStringEnd, .InterpolatedStringEnd, .RBracket]
    | .Done => []

/-- The object waits for the code of an interpolation. -/
def Kind.waits : Kind → Bool
  | .istr .EvaluateEnd _ _ | .regexp .EvaluateEnd _ | .words .EvaluateEnd _ _ _ _ => true
  | _ => false

/-- The word array lexer is behind an interpolation within a word. -/
def Kind.dyn : Kind → Bool
  | .words .DynamicStringInProgress _ _ _ _ => true
  | _ => false

/-- Neither opens nor closes. -/
def plain (t : Ttype) : Bool := (closer t).isNone && !isCloser t

/-- The result of `dispatch`: a token that opens a literal together with its lexer, or a token that opens and closes
nothing. -/
def Bal (o : Out) : Prop :=
  (o.child = none ∧ plain o.tok.type = true) ∨
  ∃ c e, o.child = some c ∧ closer o.tok.type = some e ∧ c.kind.opens = [e] ∧ c.kind ≠ .base ∧ c.kind.dyn = false

theorem Bal.plain {t : Token} {lx : Lx} (h : plain t.type = true) : Bal { tok := t, lx := lx } := .inl ⟨rfl, h⟩

namespace Bal

theorem op (l : Lx) (n : Nat) (t : Ttype) (h : NP.plain t = true) : Bal (l.op n t) := .plain h
theorem opLit (l : Lx) (n : Nat) (t : Ttype) (s : Str) (h : NP.plain t = true) : Bal (l.opLit n t s) := .plain h

theorem doubleQuoted (l : Lx) (n : Nat) (a b : Char) (t e : Ttype) (h : closer t = some e) :
    Bal (l.doubleQuoted n a b t e) := .inr ⟨_, e, rfl, h, rfl, nofun, rfl⟩

theorem regexp (l : Lx) (n : Nat) (a b : Char) : Bal (l.regexp n a b) := .inr ⟨_, _, rfl, rfl, rfl, nofun, rfl⟩

theorem wordArray (l : Lx) (n : Nat) (a b : Char) (i : Bool) (t : Ttype) (h : closer t = some .RBracket) :
    Bal (l.wordArray n a b i t) := .inr ⟨_, _, rfl, h, rfl, nofun, rfl⟩

theorem single_child (l : Lx) (n : Nat) (a b : Char) : (l.singleQuotedString n a b).child = none := by
  unfold Lx.singleQuotedString
  split
  · split <;> rfl
  · rfl

theorem singleQuotedString (l : Lx) (n : Nat) (a b : Char) : Bal (l.singleQuotedString n a b) := by
  unfold Lx.singleQuotedString
  split
  · split <;> exact opLit _ _ _ _ rfl
  · exact opLit _ _ _ _ rfl

theorem percentConsumer (l : Lx) (n : Nat) (k : Lx.PKind) (a b : Char) : Bal (l.percentConsumer n k a b) := by
  cases k <;> simp only [Lx.percentConsumer]
  · exact singleQuotedString _ _ _ _
  · exact doubleQuoted _ _ _ _ _ _ rfl
  · exact regexp _ _ _ _
  · exact .inl ⟨single_child _ _ _ _, rfl⟩
  · exact doubleQuoted _ _ _ _ _ _ rfl
  · exact wordArray _ _ _ _ _ _ rfl
  · exact wordArray _ _ _ _ _ _ rfl
  · exact wordArray _ _ _ _ _ _ rfl
  · exact wordArray _ _ _ _ _ _ rfl

theorem percentString (l : Lx) (n : Nat) (k : Lx.PKind) : Bal (l.percentString n k) := by
  unfold Lx.percentString
  split
  · exact op _ _ _ rfl
  · extract_lets c
    repeat' split
    all_goals first
      | exact op _ _ _ rfl
      | exact percentConsumer _ _ _ _ _

theorem heredoc {l : Lx} {o : Out} (h : HeredocOut l o) : Bal o := by
  cases h with
  | bad n s => exact .plain rfl
  | raw n start k doc hn hd hs => exact .plain rfl
  | interp n start k doc b e hn hd hs hbe =>
    refine .inr ⟨_, e, rfl, ?_, rfl, nofun, rfl⟩
    rcases hbe with ⟨rfl, rfl⟩ | ⟨rfl, rfl⟩ <;> rfl

theorem bareName (l : Lx) (t : Ttype) (h : NP.plain t = true) : Bal (l.bareName t) := by
  unfold Lx.bareName
  extract_lets r c d
  repeat' split
  all_goals exact opLit _ _ _ _ (by first | exact h | rfl)

theorem _root_.NP.keyword_plain : ∀ t : Ttype, t.isKeyword = true → NP.plain t = true := by
  intro t; cases t <;> decide

theorem lexWord (l : Lx) : Bal l.lexWord := by
  unfold Lx.lexWord
  split
  · rename_i t n hk
    obtain ⟨_, hkw, _⟩ := keywordAt_pos l t n hk
    split
    · exact opLit _ _ _ _ rfl
    · exact op _ _ _ (keyword_plain t hkw)
  · extract_lets c r
    repeat' split
    · exact bareName _ _ rfl
    · exact bareName _ _ rfl
    · exact opLit _ _ _ _ rfl

theorem lexColon (l : Lx) : Bal l.lexColon := by
  unfold Lx.lexColon
  extract_lets c o
  split
  · exact op _ _ _ rfl
  split
  · exact op _ _ _ rfl
  split
  · exact doubleQuoted _ _ _ _ _ _ rfl
  split
  · exact .inl ⟨single_child _ _ _ _, rfl⟩
  split
  · exact .plain rfl
  split
  · exact opLit _ _ _ _ rfl
  · exact opLit _ _ _ _ rfl

attribute [local irreducible] Lx.heredoc in
theorem lexLess (l : Lx) : Bal l.lexLess := by
  unfold Lx.lexLess
  repeat' split
  all_goals first
    | exact op _ _ _ rfl
    | exact heredoc (heredoc_out _)

theorem lexNumber (l : Lx) : Bal l.lexNumber := by
  unfold Lx.lexNumber
  extract_lets r l'
  split <;> exact .plain rfl

theorem lexDollar (l : Lx) (o : Out) (h : l.lexDollar = .ok o) : Bal o := by
  unfold Lx.lexDollar at h
  split at h
  · cases h; exact opLit _ _ _ _ rfl
  split at h
  · extract_lets ds at h
    split at h
    · cases h; exact .plain rfl
    · simp at h
  · cases h
    unfold Lx.globalVariable
    repeat' split
    all_goals exact opLit _ _ _ _ rfl

theorem lexQuestion (l : Lx) (o : Out) (h : l.lexQuestion = .ok o) : Bal o := by
  unfold Lx.lexQuestion at h
  extract_lets c at h
  split at h
  · cases h; exact .plain rfl
  split at h
  · split at h <;> cases h
    · exact opLit _ _ _ _ rfl
    · rename_i t n he
      exact opLit _ _ _ _ (by rcases escapedByte_bad _ _ _ he with rfl | rfl <;> rfl)
  · cases h; exact opLit _ _ _ _ rfl

theorem lexNewline (l : Lx) : Bal l.lexNewline := by
  unfold Lx.lexNewline
  extract_lets l1
  split <;> exact .plain rfl

theorem dispatch (l : Lx) (o : Out) (h : l.dispatch = .ok o) : Bal o := by
  have hd := dispatch_disp l
  rw [h] at hd
  generalize hr : Res.ok o = r at hd
  cases hd
  case question => exact lexQuestion l o hr.symm
  case dollar => exact lexDollar l o hr.symm
  all_goals (obtain rfl : o = _ := by simpa using hr)
  case less hc => exact lexLess l
  case colon => exact lexColon l
  case newline => exact lexNewline l
  case digit hc => exact lexNumber l
  case word => exact lexWord l
  case squote => exact singleQuotedString _ _ _ _
  case dquote => exact doubleQuoted _ _ _ _ _ _ rfl
  case percent =>
    unfold Lx.lexPercent
    extract_lets c
    repeat' split
    all_goals first
      | exact op _ _ _ rfl
      | exact percentString _ _ _
  case i =>
    unfold Lx.lexI
    split
    · exact op _ _ _ rfl
    · exact lexWord l
  case r =>
    unfold Lx.lexR
    repeat' split
    all_goals first
      | exact op _ _ _ rfl
      | exact lexWord l
  case slash =>
    unfold Lx.lexSlash
    repeat' split
    all_goals first
      | exact op _ _ _ rfl
      | exact regexp _ _ _ _
  case backtick =>
    unfold Lx.lexBacktick
    split
    · exact opLit _ _ _ _ rfl
    · exact doubleQuoted _ _ _ _ _ _ rfl
  all_goals
    try unfold Lx.lexHash
    try unfold Lx.lexAt
    try unfold Lx.lexEqual
    try unfold Lx.lexPlus
    try unfold Lx.lexMinus
    try unfold Lx.lexStar
    try unfold Lx.lexBang
    try unfold Lx.lexGreater
    try unfold Lx.lexAmpersand
    try unfold Lx.lexPipe
    try unfold Lx.lexCaret
    try unfold Lx.lexTilde
    try unfold Lx.lexDot
    try unfold Lx.lexLBracket
    repeat' split
    all_goals first
      | exact op _ _ _ rfl
      | exact opLit _ _ _ _ rfl

end Bal

theorem buildBase_bal (l : Lx) (o : Out) (h : l.buildBase = .ok o) : Bal o := by
  unfold Lx.buildBase at h
  ite_at h as c0
  · cases h; exact .plain rfl
  ite_at h as c1
  · exact Bal.dispatch _ o h
  ite_at h as c2
  · ite_at h as c3
    · cases h; exact .plain rfl
    · exact Bal.dispatch _ o h
  ite_at h as c4
  · exact Bal.dispatch _ o h
  · exact Bal.dispatch _ o h

/-! ### One step -/

/-- Every member closes something. -/
def Closers (os : List Ttype) : Prop := ∀ x ∈ os, isCloser x = true ∨ x = .RBracket

/-- What is open after a step of an object of kind `k`. -/
structure NStep (k : Kind) (o : Out) : Prop where
  eof : o.tok.type = .Eof → k.opens = []
  track : o.tok.type.isValid = true → o.tok.type ≠ .Eof → (k.dyn = true → o.tok.type ≠ .InterpolatedStringBegin) →
    ∀ rest, Closers rest → (k = .base → rest.head? ≠ some .RBracket) →
    track (k.opens ++ rest) o.tok.type = some ((o.child.toList.flatMap (·.kind.opens)) ++ (o.lx.kind.opens ++ rest))
  child : ∀ c, o.child = some c → (k = .base ∧ c.kind ≠ .base ∧ c.kind.dyn = false) ∨
    (k ≠ .base ∧ c.kind = .base ∧ o.lx.kind.waits = true)
  dyn : o.lx.kind.dyn = true → o.tok.type.isValid = true → o.tok.type ≠ .Eof → o.tok.type = .EvaluateToStringEnd

theorem track_plain (os : List Ttype) (t : Ttype) (h : plain t = true) (hr : t = .RBracket → os.head? ≠ some .RBracket)
    (ho : Closers os) : track os t = some os := by
  simp only [plain, Bool.and_eq_true, Bool.not_eq_true', Option.isNone_iff_eq_none] at h
  unfold track
  rw [h.1]
  simp only
  rw [if_neg, if_neg (by simp [h.2])]
  intro hh
  cases os with
  | nil => simp at hh
  | cons x xs =>
    simp only [List.head?_cons, Option.some.injEq] at hh
    rcases ho x (by simp) with h' | h'
    · rw [hh, h.2] at h'; cases h'
    · exact hr (hh ▸ h') (by simp [h'])

theorem track_pop (os : List Ttype) (t : Ttype) (h : closer t = none) : track (t :: os) t = some os := by
  simp [track, h]

theorem buildBase_nstep (l : Lx) (o : Out) (hk : l.kind = .base) (h : l.buildBase = .ok o) : NStep l.kind o := by
  have b := buildBase_bal l o h
  have s := (buildBase_shape l o h).kind
  have hok : o.lx.kind = .base := by rw [hk] at s; generalize o.lx.kind = k at s; cases s; rfl
  rw [hk]
  refine ⟨fun _ => rfl, ?_, ?_, by rw [hok]; nofun⟩
  · intro _ _ _ rest hc hr
    rw [hok]
    rcases b with ⟨h1, h2⟩ | ⟨c, e, h1, h2, h3, -⟩
    · rw [h1]
      exact track_plain _ _ h2 (fun _ => hr rfl) hc
    · rw [h1]
      show track rest _ = some ((c.kind.opens ++ []) ++ rest)
      rw [h3]
      simp [track, h2]
  · intro c hc
    left
    rcases b with ⟨h1, -⟩ | ⟨c', e, h1, h2, h3, h4, h5⟩
    · rw [h1] at hc; cases hc
    · rw [h1] at hc; cases hc
      exact ⟨rfl, h4, h5⟩

/-- The token types of interpolating literals. -/
theorem EndType.closer {e : Ttype} (h : EndType e) : Spec.closer e = none ∧ isCloser e = true ∧ e ≠ .Eof ∧
    e ≠ .InterpolatedStringBegin := by
  rcases h with rfl | rfl | rfl <;> decide

theorem Closers.cons {x : Ttype} {os : List Ttype} (h : isCloser x = true ∨ x = .RBracket) (ho : Closers os) :
    Closers (x :: os) := by
  intro y hy
  rcases List.mem_cons.1 hy with rfl | hy
  · exact h
  · exact ho y hy

theorem NStep.simple {k : Kind} {t : Token} {lx : Lx} (ht : plain t.type = true) (hr : t.type ≠ .RBracket)
    (he : t.type ≠ .Eof) (ho : lx.kind.opens = k.opens) (hc : Closers k.opens) (hd : lx.kind.dyn = false) :
    NStep k { tok := t, lx := lx } := by
  refine ⟨fun h => absurd h he, ?_, fun _ h => (by cases h), fun h => absurd (hd.symm.trans h) (by decide)⟩
  intro _ _ _ rest hcl _
  show Spec.track _ _ = some ([] ++ (lx.kind.opens ++ rest))
  rw [ho]
  refine track_plain _ _ ht (fun h => absurd h hr) ?_
  intro x hx
  rcases List.mem_append.1 hx with h | h
  · exact hc x h
  · exact hcl x h

theorem NStep.bad {k : Kind} {t : Token} {lx : Lx} (ht : t.type.isValid = false) : NStep k { tok := t, lx := lx } :=
  ⟨fun h => absurd (h ▸ ht : Ttype.isValid .Eof = false) (by decide), fun h => absurd (ht.symm.trans h) (by decide),
    fun _ h => (by cases h), fun _ h => absurd (ht.symm.trans h) (by decide)⟩

theorem NStep.opening {k : Kind} {t : Token} {lx : Lx} {c : Option Lx} {e : Ttype} (ht : closer t.type = some e)
    (he : t.type ≠ .Eof) (ho : lx.kind.opens = e :: k.opens) (hc : c = none ∨ ∃ x, c = some x ∧ k ≠ .base ∧
      x.kind = .base ∧ lx.kind.waits = true) (hd : lx.kind.dyn = false) :
    NStep k { tok := t, lx := lx, child := c } := by
  refine ⟨fun h => absurd h he, ?_, ?_, fun h => by rw [hd] at h; cases h⟩
  · intro _ _ _ rest _ _
    have : (c.toList.flatMap fun x => x.kind.opens) = [] := by
      rcases hc with rfl | ⟨x, rfl, -, hx, -⟩
      · rfl
      · simp [hx]; rfl
    simp only [this, ho, List.nil_append, List.cons_append]
    simp [Spec.track, ht]
  · intro x hx
    rcases hc with rfl | ⟨y, rfl, h1, h2, h3⟩
    · cases hx
    · cases hx; exact .inr ⟨h1, h2, h3⟩

theorem NStep.closing {k : Kind} {t : Token} {lx : Lx} (ht : closer t.type = none)
    (he : t.type ≠ .Eof) (ho : k.opens = t.type :: lx.kind.opens)
    (hd : lx.kind.dyn = true → t.type = .EvaluateToStringEnd) :
    NStep k { tok := t, lx := lx } := by
  refine ⟨fun h => absurd h he, ?_, fun _ h => (by cases h), fun h _ _ => hd h⟩
  intro _ _ _ rest _ _
  rw [ho]
  exact track_pop _ _ ht

theorem NStep.done {k : Kind} {t : Token} {lx : Lx} (ht : t.type = .Eof) (ho : k.opens = []) :
    NStep k { tok := t, lx := lx } :=
  ⟨fun _ => ho, fun _ h => absurd ht h, fun _ h => (by cases h), fun _ _ h => absurd ht h⟩

theorem closers_one {e : Ttype} (h : isCloser e = true ∨ e = .RBracket) : Closers [e] :=
  .cons h (fun _ h => by cases h)

theorem buildIstr_nstep (l : Lx) (o : Out) (st : IState) (e : Ttype) (a : Bool)
    (he : EndType e) (h : l.buildIstr st e a = .ok o) : NStep (.istr st e a) o := by
  obtain ⟨e1, e2, e3, e4⟩ := he.closer
  have ce := closers_one (.inl e2)
  unfold Lx.buildIstr at h
  cases st with
  | InProgress =>
    simp only at h
    unfold Lx.istrConsume at h
    have ends := interpLoop_ends l.startChar l.stopChar (l.rest.length + 1) l.pairDepth [] 0 l.rest
    split at h
    · simp only at h
      ite_at h as cb
      · cases h
        exact .opening rfl nofun rfl (.inr ⟨_, rfl, nofun, rfl, rfl⟩) rfl
      · cases h; exact .simple rfl nofun nofun rfl ce rfl
    · simp only at h
      ite_at h as cb
      · cases h; exact .closing e1 e3 rfl nofun
      · cases h; exact .simple rfl nofun nofun rfl ce rfl
    · simp only at h
      ite_at h as cb
      · cases h; exact .simple rfl nofun nofun rfl ce rfl
      · cases h; exact .bad rfl
    · rename_i t d n heq
      rw [heq] at ends
      simp only [IEnds] at h ends
      cases h
      exact .bad (by rcases ends.2 with rfl | rfl <;> rfl)
    · cases h
    · cases h
  | EvaluateBegin => cases h; exact .opening rfl nofun rfl (.inr ⟨_, rfl, nofun, rfl, rfl⟩) rfl
  | EvaluateEnd => cases h; exact .closing rfl nofun rfl nofun
  | EndToken => cases h; exact .closing e1 e3 rfl nofun
  | Done => cases h; exact .done rfl rfl

theorem buildRegexp_nstep (l : Lx) (o : Out) (st : IState) (op : Str)
    (h : l.buildRegexp st op = .ok o) : NStep (.regexp st op) o := by
  have ce := closers_one (e := .InterpolatedRegexpEnd) (.inl rfl)
  unfold Lx.buildRegexp at h
  cases st with
  | InProgress =>
    simp only at h
    unfold Lx.regexpConsume at h
    split at h <;> cases h
    · exact .simple rfl nofun nofun rfl ce rfl
    · exact .simple rfl nofun nofun rfl ce rfl
    · exact .bad rfl
  | EvaluateBegin => cases h; exact .opening rfl nofun rfl (.inr ⟨_, rfl, nofun, rfl, rfl⟩) rfl
  | EvaluateEnd =>
    simp only at h
    ite_at h as c
    · cases h; exact .closing rfl nofun rfl nofun
    · cases h; exact .closing rfl nofun rfl nofun
  | EndToken => cases h; exact .closing rfl nofun rfl nofun
  | Done => cases h; exact .done rfl rfl

theorem wordsDynFinish_nstep (l : Lx) (i : Bool) (s : Char) (d d0 : Nat) (b b0 : Str) :
    NStep (.words .DynamicStringInProgress i s d0 b0) (l.wordsDynFinish i s d b) := by
  unfold Lx.wordsDynFinish
  split
  · exact .simple rfl nofun nofun rfl (.cons (.inl rfl) (closers_one (.inr rfl))) rfl
  · exact .closing rfl nofun rfl nofun

theorem buildWords_nstep (l : Lx) (o : Out) (st : WState) (i : Bool) (s : Char) (d : Nat) (b : Str)
    (h : l.buildWords st i s d b = .ok o) : NStep (.words st i s d b) o := by
  have ce := closers_one (e := .RBracket) (.inr rfl)
  have cd : Closers [.InterpolatedStringEnd, .RBracket] := .cons (.inl rfl) ce
  unfold Lx.buildWords at h
  cases st with
  | InProgress =>
    simp only at h
    unfold Lx.wordsConsume at h
    simp only [show (WState.InProgress == WState.DynamicStringInProgress) = false from rfl, Bool.false_eq_true,
      if_false] at h
    split at h <;> cases h
    · exact .simple rfl nofun nofun rfl ce rfl
    · exact .opening rfl nofun rfl (.inl rfl) rfl
    · unfold Lx.wordsFinish
      extract_lets l'
      split
      · exact .simple rfl nofun nofun rfl ce rfl
      · exact .closing rfl nofun rfl nofun
    · exact .bad rfl
  | DynamicStringInProgress =>
    simp only at h
    unfold Lx.wordsConsume at h
    simp only [show (WState.DynamicStringInProgress == WState.DynamicStringInProgress) = true from rfl,
      if_true] at h
    split at h <;> cases h
    · exact wordsDynFinish_nstep _ _ _ _ _ _ _
    · exact ⟨fun h => (by cases h), fun _ _ h => absurd rfl (h rfl), fun _ h => (by cases h), fun h => (by cases h)⟩
    · exact wordsDynFinish_nstep _ _ _ _ _ _ _
    · exact .bad rfl
  | DynamicStringBegin => cases h; exact .simple rfl nofun nofun rfl cd rfl
  | DynamicStringEnd =>
    simp only at h
    ite_at h as c
    · cases h; exact .closing rfl nofun rfl nofun
    · cases h; exact .closing rfl nofun rfl nofun
  | EvaluateBegin => cases h; exact .opening rfl nofun rfl (.inr ⟨_, rfl, nofun, rfl, rfl⟩) rfl
  | EvaluateEnd => cases h; exact .closing rfl nofun rfl (fun _ => rfl)
  | EndToken => cases h; exact .closing rfl nofun rfl nofun
  | Done => cases h; exact .done rfl rfl

theorem step_nstep (l : Lx) (o : Out) (hw : l.kind.WF) (h : l.step = .ok o) : NStep l.kind o := by
  obtain ⟨b, hb, rfl⟩ := l.step_eq o h
  have key : NStep l.kind b := by
    unfold Lx.build at hb
    rw [Lx.start_kind] at hb
    cases hk : l.kind with
    | base =>
      rw [hk] at hb
      have := buildBase_nstep l.start b (by simpa using hk) hb
      rwa [Lx.start_kind, hk] at this
    | istr st e a =>
      rw [hk] at hb hw
      exact buildIstr_nstep _ _ _ _ _ hw hb
    | regexp st op => rw [hk] at hb; exact buildRegexp_nstep _ _ _ _ hb
    | words st i s d bf => rw [hk] at hb; exact buildWords_nstep _ _ _ _ _ _ _ hb
  obtain ⟨k1, k2, k3, k4⟩ := key
  exact ⟨k1, by simpa using k2, by simpa using k3, by simpa using k4⟩

/-! ### The stack -/

/-- The objects of a stack: plain lexers alternate with literal lexers that wait for the code of an interpolation. -/
def Nest : List Lx → Prop
  | [] => False
  | [l] => l.kind = .base
  | c :: p :: ps => (c.kind = .base → p.kind.waits = true) ∧ (c.kind ≠ .base → p.kind = .base) ∧ Nest (p :: ps)

/-- What the objects of a stack have opened, innermost first. -/
def openOf (st : List Lx) : List Ttype := st.flatMap (·.kind.opens)

theorem openOf_cons (l : Lx) (ps : List Lx) : openOf (l :: ps) = l.kind.opens ++ openOf ps := rfl

theorem track_closers {os os' : List Ttype} {t : Ttype} (h : track os t = some os') (ho : Closers os) :
    Closers os' := by
  unfold track at h
  split at h
  · rename_i e he
    cases h
    refine .cons ?_ ho
    cases t <;> simp [closer] at he <;> subst he <;> simp [isCloser]
  · split at h
    · cases h; exact fun x hx => ho x (List.mem_of_mem_tail hx)
    · split at h
      · cases h
      · cases h; exact ho

theorem Kind.base_iff {k k' : Kind} (h : KStep k k') : k' = .base ↔ k = .base := by
  cases h <;> simp

theorem Kind.waits_opens (k : Kind) (h : k.waits = true) : k.opens.head? = some .EvaluateToStringEnd ∧
    k ≠ .base ∧ k.dyn = false := by
  unfold Kind.waits at h
  split at h
  · exact ⟨rfl, nofun, rfl⟩
  · exact ⟨rfl, nofun, rfl⟩
  · exact ⟨rfl, nofun, rfl⟩
  · cases h

theorem Nest.replace {l l' : Lx} {ps : List Lx} (h : Nest (l :: ps)) (hk : l'.kind = .base ↔ l.kind = .base) :
    Nest (l' :: ps) := by
  cases ps with
  | nil => exact hk.2 h
  | cons p ps => exact ⟨fun e => h.1 (hk.1 e), fun e => h.2.1 (fun e' => e (hk.2 e')), h.2.2⟩

theorem Nest.setLast (t : Ttype) {st : List Lx} (h : Nest st) : Nest (setLast t st) := by
  induction st with
  | nil => exact h
  | cons l st ih =>
    cases st with
    | nil => exact h
    | cons p ps =>
      obtain ⟨h1, h2, h3⟩ := h
      have h4 := ih h3
      cases ps with
      | nil => exact ⟨h1, h2, h4⟩
      | cons q qs => exact ⟨h1, h2, h4⟩

theorem openOf_setLast (t : Ttype) (st : List Lx) : openOf (setLast t st) = openOf st := by
  induction st with
  | nil => rfl
  | cons l st ih =>
    cases st with
    | nil => rfl
    | cons p ps => simp only [setLast, openOf_cons] at ih ⊢; rw [ih]

/-- The innermost object is a word array lexer behind an interpolation. -/
def topDyn : List Lx → Bool
  | [] => false
  | l :: _ => l.kind.dyn

theorem topDyn_setLast (t : Ttype) (st : List Lx) : topDyn (setLast t st) = topDyn st := by
  cases st with
  | nil => rfl
  | cons l st => cases st <;> rfl

theorem nextToken_nest {src : Str} (ps : List Lx) : ∀ (l : Lx) (t : Token) (st : List Lx),
    StackOk src (l :: ps) → Nest (l :: ps) → Closers (openOf (l :: ps)) → nextToken l ps = .ok (t, st) →
    t.type.isValid = true → (l.kind.dyn = true → t.type ≠ .InterpolatedStringBegin) →
    (t.type = .Eof → openOf (l :: ps) = []) ∧
    (t.type ≠ .Eof → track (openOf (l :: ps)) t.type = some (openOf st) ∧ Nest st ∧
      (topDyn st = true → t.type = .EvaluateToStringEnd)) := by
  induction ps with
  | nil =>
    intro l t st hst hn hc h hv hd
    unfold nextToken at h
    cases ho : l.step with
    | ok o =>
      rw [ho] at h
      cases h
      have s := step_nstep l o hst.head.wf ho
      have hk := Kind.base_iff (hst.head.shape ho).kind
      have hb : l.kind = .base := hn
      refine ⟨fun he => by simpa [openOf] using s.eof he, fun he => ⟨?_, ?_, ?_⟩⟩
      · have := s.track hv he hd [] (fun _ h => by cases h) (fun _ => by simp)
        simp only [List.append_nil] at this
        simpa [openOf] using this
      · cases hcd : o.child with
        | none => exact hk.2 hb
        | some c =>
          rcases s.child c hcd with ⟨-, h2, -⟩ | ⟨h1, -⟩
          · exact ⟨fun e => absurd e h2, fun _ => hk.2 hb, hk.2 hb⟩
          · exact absurd hb h1
      · cases hcd : o.child with
        | none => exact fun h => s.dyn h hv he
        | some c =>
          rcases s.child c hcd with ⟨-, -, h3⟩ | ⟨h1, -⟩
          · exact fun h => absurd (h3.symm.trans h) (by decide)
          · exact absurd hb h1
    | abort => rw [ho] at h; cases h
    | ub => rw [ho] at h; cases h
    | fuel => rw [ho] at h; cases h
  | cons p ps ih =>
    intro l t st hst hn hc h hv hd
    unfold nextToken at h
    cases ho : l.step with
    | ok o =>
      rw [ho] at h
      simp only at h
      have s := step_nstep l o hst.head.wf ho
      have sh := hst.head.shape ho
      have hk := Kind.base_iff sh.kind
      by_cases he : o.tok.type = .Eof
      · rw [if_pos he] at h
        have hst2 := hst.step ho
        rw [(sh.eof he).1] at hst2
        simp only [Option.toList_none, List.nil_append] at hst2
        have hnil := s.eof he
        have hpd : p.kind.dyn = false := by
          by_cases hb : l.kind = .base
          · exact (Kind.waits_opens _ (hn.1 hb)).2.2
          · rw [hn.2.1 hb]; rfl
        have hop : openOf (p.sync o.lx :: ps) = openOf (l :: p :: ps) := by
          simp [openOf_cons, Lx.sync_kind, hnil]
        have := ih (p.sync o.lx) t st hst2.pop (hn.2.2.replace (by rw [Lx.sync_kind])) (hop ▸ hc) h hv
          (by rw [Lx.sync_kind, hpd]; nofun)
        rwa [hop] at this
      · rw [if_neg he] at h
        cases h
        refine ⟨fun e => absurd e he, fun _ => ⟨?_, ?_, ?_⟩⟩
        · have := s.track hv he hd (openOf (p :: ps))
            (fun x hx => hc x (by rw [openOf_cons]; exact List.mem_append_right _ hx))
            (fun hb => by
              rw [openOf_cons]
              have hw := (Kind.waits_opens _ (hn.1 hb)).1
              generalize p.kind.opens = os at hw
              cases os with
              | nil => cases hw
              | cons x xs => simp at hw ⊢; rw [hw]; nofun)
          rw [openOf_cons l, this]
          simp [openOf]
        · have hn' : Nest (o.lx :: p :: ps) := hn.replace hk
          cases hcd : o.child with
          | none => exact hn'
          | some c =>
            rcases s.child c hcd with ⟨h1, h2, -⟩ | ⟨h1, h2, h3⟩
            · exact ⟨fun e => absurd e h2, fun _ => hk.2 h1, hn'⟩
            · exact ⟨fun _ => h3, fun e => absurd h2 e, hn'⟩
        · cases hcd : o.child with
          | none => exact fun h => s.dyn h hv he
          | some c =>
            rcases s.child c hcd with ⟨-, -, h3⟩ | ⟨-, h2, -⟩
            · exact fun h => absurd (h3.symm.trans h) (by decide)
            · intro h
              simp only [topDyn, Option.toList_some, List.cons_append] at h
              rw [h2] at h; cases h
    | abort => rw [ho] at h; cases h
    | ub => rw [ho] at h; cases h
    | fuel => rw [ho] at h; cases h

/-! ### The raw token stream -/

/-- The types at which a second interpolation within one word of a word array is announced. -/
def badPair : List Ttype := [.EvaluateToStringEnd, .InterpolatedStringBegin]

theorem rawLoop_nest {src : Str} (fuel : Nat) : ∀ (l : Lx) (ps : List Lx) (f : Filt) (ts : List Token) (pre : List Ttype),
    StackOk src (l :: ps) → Nest (l :: ps) → Closers (openOf (l :: ps)) →
    (l.kind.dyn = true → ∃ q, pre = q ++ [.EvaluateToStringEnd]) →
    tokensLoop fuel l ps f = .ok ts → (∀ t ∈ rawLoop fuel l ps f, t.type.isValid = true) →
    ¬ badPair <:+: pre ++ (rawLoop fuel l ps f).map (·.type) →
    trackAll (openOf (l :: ps)) ((rawLoop fuel l ps f).map (·.type)) = some [] := by
  induction fuel with
  | zero => intro l ps f ts pre _ _ _ _ h; simp [tokensLoop] at h
  | succ fuel ih =>
    intro l ps f ts pre hst hn hc hd h
    unfold tokensLoop at h
    unfold rawLoop
    cases hnt : nextToken l ps with
    | abort => rw [hnt] at h; cases h
    | ub => rw [hnt] at h; cases h
    | fuel => rw [hnt] at h; cases h
    | ok r =>
      obtain ⟨t, stack⟩ := r
      rw [hnt] at h
      simp only at h ⊢
      obtain ⟨hp, hst'⟩ := nextToken_ok ps l t stack hst hnt
      have key : ∀ raw : List Token, t.type.isValid = true →
          ¬ badPair <:+: pre ++ (t :: raw).map (·.type) →
          (t.type = .Eof → openOf (l :: ps) = []) ∧
          (t.type ≠ .Eof → track (openOf (l :: ps)) t.type = some (openOf stack) ∧ Nest stack ∧
            (topDyn stack = true → t.type = .EvaluateToStringEnd)) := by
        intro raw hv hb
        refine nextToken_nest ps l t stack hst hn hc hnt hv ?_
        intro hdyn ht
        obtain ⟨q, rfl⟩ := hd hdyn
        apply hb
        refine ⟨q, raw.map (·.type), ?_⟩
        simp [badPair, ht]
      have go : ∀ l' ps' f', openOf (l' :: ps') = openOf stack → Nest (l' :: ps') → StackOk src (l' :: ps') →
          topDyn (l' :: ps') = topDyn stack → tokensLoop fuel l' ps' f' = .ok ts → t.type ≠ .Eof →
          (∀ x ∈ t :: rawLoop fuel l' ps' f', x.type.isValid = true) →
          ¬ badPair <:+: pre ++ (t :: rawLoop fuel l' ps' f').map (·.type) →
          trackAll (openOf (l :: ps)) ((t :: rawLoop fuel l' ps' f').map (·.type)) = some [] := by
        intro l' ps' f' ho hn' hs' htd hl ht hv hb
        obtain ⟨-, k2⟩ := key _ (hv t (by simp)) hb
        obtain ⟨k3, k4, k5⟩ := k2 ht
        simp only [List.map_cons, trackAll, k3, Option.bind_some]
        rw [← ho]
        refine ih l' ps' f' ts (pre ++ [t.type]) hs' hn' (ho ▸ track_closers k3 hc) ?_ hl
          (fun x hx => hv x (by simp [hx])) (by simpa using hb)
        intro hdd
        exact ⟨pre, by rw [k5 (by rw [← htd]; exact hdd)]⟩
      have nestS : ∀ raw : List Token, t.type ≠ .Eof → t.type.isValid = true →
          ¬ badPair <:+: pre ++ (t :: raw).map (·.type) → Nest stack := fun raw ht hv hb => ((key raw hv hb).2 ht).2.1
      cases hf : f.step t with
      | mk f' o =>
        rw [hf] at h
        cases o with
        | none =>
          have hne : t.type ≠ .Eof := by
            intro he
            unfold Filt.step at hf
            rw [if_neg (by rw [he]; decide), if_neg (by rw [he]; decide), if_neg (by rw [he]; rintro ⟨-, h⟩; cases h)] at hf
            simp at hf
          cases stack with
          | nil => cases h
          | cons l' ps' =>
            simp only at h ⊢
            intro hv hb
            exact go l' ps' f' rfl (nestS _ hne (hv t (by simp)) hb) hst' rfl h hne hv hb
        | some t' =>
          have hty : t'.type = t.type := Filt.step_type f t t' (by rw [hf])
          simp only at h ⊢
          by_cases hterm : t'.type = .Eof ∨ (!t'.type.isValid) = true
          · rw [if_pos hterm]
            intro hv hb
            have hv' := hv t (by simp)
            have he : t.type = .Eof := by
              rw [hty] at hterm
              rcases hterm with h | h
              · exact h
              · rw [hv'] at h; cases h
            have := (key [] hv' hb).1 he
            rw [this, List.map_cons, he]
            rfl
          · rw [if_neg hterm] at h ⊢
            have hst'' := hst'.setLast t'.type
            have h1 := openOf_setLast t'.type stack
            have h2 := topDyn_setLast t'.type stack
            have h3 := fun h : Nest stack => h.setLast t'.type
            cases hs : setLast t'.type stack with
            | nil => rw [hs] at h; cases h
            | cons l' ps' =>
              rw [hs] at hst'' h h1 h2 h3
              simp only at h ⊢
              intro hv hb
              have hne : t.type ≠ .Eof := fun e => hterm (.inl (hty.trans e))
              exact go l' ps' f' h1 (h3 (nestS _ hne (hv t (by simp)) hb)) hst'' h2 h hne hv hb

/-! ### The filter keeps the nesting -/

theorem trackAll_erase {α : Type _} (ty : α → Ttype) (p : α → Bool) (os : List Ttype) (s : List α) (hc : Closers os)
    (h : ∀ x ∈ s, p x = false → plain (ty x) = true ∧ ty x ≠ .RBracket) :
    trackAll os ((s.filter p).map ty) = trackAll os (s.map ty) := by
  induction s generalizing os with
  | nil => rfl
  | cons x xs ih =>
    cases hp : p x with
    | true =>
      simp only [List.filter_cons, hp, if_true, List.map_cons, trackAll]
      cases ht : track os (ty x) with
      | none => rfl
      | some os' => exact ih _ (track_closers ht hc) fun y hy => h y (by simp [hy])
    | false =>
      obtain ⟨h1, h2⟩ := h x (by simp) hp
      simp only [List.filter_cons, hp, List.map_cons, trackAll,
        track_plain os _ h1 (fun e => absurd e h2) hc, Option.bind_some]
      exact ih _ hc fun y hy => h y (by simp [hy])

theorem trackAll_collapse (prev : Option Ttype) (os : List Ttype) (s : List Token) (hc : Closers os) :
    trackAll os ((collapse prev s).map (·.type)) = trackAll os (s.map (·.type)) := by
  induction s generalizing os prev with
  | nil => rfl
  | cons x xs ih =>
    have keep : ∀ pv, trackAll os ((x :: collapse pv xs).map (·.type)) = trackAll os ((x :: xs).map (·.type)) := by
      intro pv
      simp only [List.map_cons, trackAll]
      cases ht : track os x.type with
      | none => rfl
      | some os' => exact ih _ _ (track_closers ht hc)
    unfold collapse
    split
    · rename_i hx
      split
      · simp only [List.map_cons, trackAll, hx]
        rw [track_plain os .Newline rfl nofun hc]
        exact ih _ _ hc
      · exact keep _
    · exact keep _

theorem isComment_plain (t : Token) (h : isComment t = true) : plain t.type = true ∧ t.type ≠ .RBracket := by
  simp only [isComment, Bool.or_eq_true, beq_iff_eq] at h
  rcases h with h | h <;> rw [h] <;> exact ⟨rfl, nofun⟩

theorem trackAll_filtered (raw : List Token) :
    trackAll [] ((filtered raw).map (·.type)) = trackAll [] (raw.map (·.type)) := by
  have hnil : Closers [] := fun _ h => by cases h
  unfold filtered
  rw [trackAll_collapse _ _ _ hnil, trackAll_erase (fun t : Token => t.type) _ _ _ hnil, annotate_map (·.type) (fun _ _ => rfl)]
  intro x _ hp
  exact isComment_plain x (by simpa using hp)

theorem collapse_pair (s q : List Token) (a b : Token) (ha : a.type ≠ .Newline) (hb : b.type ≠ .Newline) :
    ∀ prev, ∃ s' q', collapse prev (s ++ a :: b :: q) = s' ++ a :: b :: q' := by
  induction s with
  | nil =>
    intro prev
    refine ⟨[], collapse (some b.type) q, ?_⟩
    simp only [List.nil_append]
    rw [collapse, if_neg ha, collapse, if_neg hb]
  | cons x xs ih =>
    intro prev
    rw [List.cons_append, collapse]
    split
    · split
      · exact ih _
      · obtain ⟨s', q', h⟩ := ih prev
        exact ⟨x :: s', q', by rw [h]; rfl⟩
    · obtain ⟨s', q', h⟩ := ih (some x.type)
      exact ⟨x :: s', q', by rw [h]; rfl⟩

theorem infix_pair {ts : List Token} {x y : Ttype} (h : [x, y] <:+: ts.map (·.type)) :
    ∃ s a b q, ts = s ++ a :: b :: q ∧ a.type = x ∧ b.type = y := by
  obtain ⟨u, v, h⟩ := h
  rw [List.append_assoc] at h
  obtain ⟨s, r, rfl, -, h2⟩ := List.append_eq_map_iff.1 h
  rw [List.cons_append] at h2
  obtain ⟨a, r1, rfl, ha, h3⟩ := List.map_eq_cons_iff.1 h2
  obtain ⟨b, r2, rfl, hb, -⟩ := List.map_eq_cons_iff.1 h3
  exact ⟨s, a, b, r2, rfl, ha, hb⟩

theorem badPair_filtered (raw : List Token) (h : badPair <:+: raw.map (·.type)) :
    badPair <:+: (filtered raw).map (·.type) := by
  rw [← annotate_map (·.type) (fun _ _ => rfl) [] raw] at h
  obtain ⟨s, a, b, q, he, ha, hb⟩ := infix_pair h
  unfold filtered
  rw [he, List.filter_append, List.filter_cons_of_pos (by simp [isComment, ha]),
    List.filter_cons_of_pos (by simp [isComment, hb])]
  obtain ⟨s', q', h'⟩ := collapse_pair (s.filter fun t => !isComment t) (q.filter fun t => !isComment t) a b
    (by rw [ha]; nofun) (by rw [hb]; nofun) none
  rw [h']
  exact ⟨s'.map (·.type), q'.map (·.type), by simp [badPair, ha, hb]⟩

end NP
