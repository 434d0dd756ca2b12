import Verif.Proofs.Shape

/-! What one step of a lexer object of any kind can do. -/

set_option linter.unusedSimpArgs false

namespace NP

/-! ### The loops of the nested lexers -/

/-- Facts about how the loop ends, started at count `n` on the text `s`. -/
def IEnds (n : Nat) (s : Str) : StrEnd → Prop
  | .eval _ _ n' => n + 2 ≤ n' ∧ s.ch 0 ≠ NUL
  | .stop _ _ n' => n + 1 ≤ n' ∧ s.ch 0 ≠ NUL
  | .eos _ _ n' => n ≤ n'
  | .bad t _ n' => n ≤ n' ∧ (t = .InvalidUnicodeEscape ∨ t = .InvalidCharacterEscape)
  | .abort => True
  | .fuel => True

theorem interpLoop_ends (start stop : Char) (fuel depth : Nat) (buf : Str) (n : Nat) (s : Str) :
    IEnds n s (interpLoop start stop fuel depth buf n s) := by
  induction fuel generalizing depth buf n s with
  | zero => simp [interpLoop, IEnds]
  | succ fuel ih =>
    unfold interpLoop
    extract_lets c
    by_cases h0 : c = NUL
    · simp [h0, IEnds]
    rw [if_neg h0]
    have key : ∀ depth' buf' n' s', n ≤ n' →
      IEnds n s (interpLoop start stop fuel depth' buf' n' s') := by
      intro depth' buf' n' s' hn
      have := ih depth' buf' n' s'
      revert this
      unfold IEnds
      split <;> intro h <;> first | trivial | (exact ⟨by omega, h0⟩) | (exact ⟨by omega, h.2⟩) | omega
    split
    · split
      · exact key _ _ _ _ (by omega)
      · rename_i he
        exact ⟨by omega, escapedByte_bad _ _ _ he⟩
      · trivial
      · trivial
    split
    · exact ⟨by omega, h0⟩
    split
    · exact key _ _ _ _ (by omega)
    split
    · split
      · exact key _ _ _ _ (by omega)
      · exact ⟨by omega, h0⟩
    · exact key _ _ _ _ (by omega)

/-- Facts about how the loop ends, started at count `n` on the text `s`. -/
def REnds (n : Nat) (s : Str) : StrEnd → Prop
  | .eval _ _ n' => n + 2 ≤ n' ∧ s.ch 0 ≠ NUL
  | .stop _ _ n' => n + 1 ≤ n' ∧ s.ch 0 ≠ NUL
  | .eos _ _ n' => n ≤ n'
  | .bad _ _ _ => False
  | .abort => False
  | .fuel => True

theorem regexpLoop_ends (start stop : Char) (fuel depth : Nat) (buf : Str) (n : Nat) (s : Str) :
    REnds n s (regexpLoop start stop fuel depth buf n s) := by
  induction fuel generalizing depth buf n s with
  | zero => simp [regexpLoop, REnds]
  | succ fuel ih =>
    unfold regexpLoop
    extract_lets c d add
    by_cases h0 : c = NUL
    · simp [h0, REnds]
    rw [if_neg h0]
    have key : ∀ depth' buf' n' s', n ≤ n' →
      REnds n s (regexpLoop start stop fuel depth' buf' n' s') := by
      intro depth' buf' n' s' hn
      have := ih depth' buf' n' s'
      revert this
      unfold REnds
      split <;> intro h <;> first | trivial | (exact ⟨by omega, h0⟩) | omega
    split
    · exact key _ _ _ _ (by omega)
    split
    · exact ⟨by omega, h0⟩
    split
    · exact key _ _ _ _ (by omega)
    split
    · split
      · exact key _ _ _ _ (by omega)
      · exact ⟨by omega, h0⟩
    · exact key _ _ _ _ (by omega)

/-- Facts about how the loop ends, started at count `n` on the text `s`. -/
def WEnds (n : Nat) (s : Str) : WordEnd → Prop
  | .eval _ _ n' => n ≤ n' ∧ s.ch 0 ≠ NUL
  | .stop _ _ n' => n ≤ n' ∧ s.ch 0 ≠ NUL
  | .space _ _ n' => n ≤ n' ∧ s.ch 0 ≠ NUL
  | .eos _ _ n' => n ≤ n'
  | .fuel => True

theorem wordLoop_ends (interp dyn : Bool) (start stop : Char) (fuel depth : Nat) (buf : Str) (n : Nat) (s : Str) :
    WEnds n s (wordLoop interp dyn start stop fuel depth buf n s) := by
  induction fuel generalizing depth buf n s with
  | zero => simp [wordLoop, WEnds]
  | succ fuel ih =>
    unfold wordLoop
    extract_lets c d add
    by_cases h0 : c = NUL
    · simp [h0, WEnds]
    rw [if_neg h0]
    have key : ∀ depth' buf' n' s', n ≤ n' →
      WEnds n s (wordLoop interp dyn start stop fuel depth' buf' n' s') := by
      intro depth' buf' n' s' hn
      have := ih depth' buf' n' s'
      revert this
      unfold WEnds
      split <;> intro h <;> first | trivial | (exact ⟨by omega, h0⟩) | omega
    split
    · exact key _ _ _ _ (by omega)
    split
    · split
      · exact ⟨by omega, h0⟩
      split
      · exact ⟨by omega, h0⟩
      · exact key _ _ _ _ (by omega)
    split
    · exact ⟨by omega, h0⟩
    split
    · exact key _ _ _ _ (by omega)
    split
    · split
      · exact key _ _ _ _ (by omega)
      · exact ⟨by omega, h0⟩
    · exact key _ _ _ _ (by omega)

/-! ### `build` -/

/-- Remaining token obligations of a lexer state that consumes no further byte. -/
def IState.bonus : IState → Nat
  | .EvaluateBegin => 4 | .EvaluateEnd => 3 | .InProgress => 2 | .EndToken => 1 | .Done => 0

def WState.bonus : WState → Nat
  | .DynamicStringBegin => 7 | .EvaluateBegin => 6 | .EvaluateEnd => 5 | .DynamicStringInProgress => 4
  | .DynamicStringEnd => 3 | .InProgress => 2 | .EndToken => 1 | .Done => 0

def Kind.bonus : Kind → Nat
  | .base => 0
  | .istr st _ _ => st.bonus
  | .regexp st _ => st.bonus
  | .words st _ _ _ _ => st.bonus

theorem Kind.bonus_lt (k : Kind) : k.bonus < 8 := by
  cases k with
  | base => decide
  | istr st _ _ => cases st <;> simp [Kind.bonus, IState.bonus]
  | regexp st _ => cases st <;> simp [Kind.bonus, IState.bonus]
  | words st _ _ _ _ => cases st <;> simp [Kind.bonus, WState.bonus]

/-- Interpolating literal lexers are created with one of three closing token types. -/
def Kind.WF : Kind → Prop
  | .istr _ e _ => EndType e
  | _ => True

/-- Kinds of the same class with the same `alters`. -/
inductive KStep : Kind → Kind → Prop where
  | same (k) : KStep k k
  | istr (s s' e a) : KStep (.istr s e a) (.istr s' e a)
  | regexp (s s' o o') : KStep (.regexp s o) (.regexp s' o')
  | words (s s' i c d d' b b') : KStep (.words s i c d b) (.words s' i c d' b')

structure BShape (l : Lx) (o : Out) : Prop where
  input : o.lx.input = l.input
  cur : ∃ n, o.lx.cur = l.cur.nextN l.input n ∧
    ((o.tok.line = l.tokenLine ∧ o.tok.col = l.tokenCol) ∨
      ∃ m, m ≤ n ∧ o.tok.line = (l.cur.nextN l.input m).line ∧ o.tok.col = (l.cur.nextN l.input m).col)
  prog : o.tok.type.isValid → o.tok.type ≠ .Eof →
    (l.cur.index < l.input.length ∧ l.cur.index < o.lx.cur.index) ∨
    (o.lx.kind.bonus < l.kind.bonus ∧ ∀ c, o.child = some c → c.kind = .base)
  eof : o.tok.type = .Eof → o.lx = l ∧ o.child = none ∧
    (l.kind = .base → l.cur.index ≥ l.input.length ∨ (l.stopChar ≠ NUL ∧ l.ch 0 = l.stopChar))
  kind : KStep l.kind o.lx.kind
  stop : o.lx.stopChar = l.stopChar
  start : o.lx.startChar = l.startChar
  last : o.lx.lastType = l.lastType
  stack : StackStep l.input l.heredocStack l.cur.index o.lx.heredocStack
  ws : o.tok.ws = l.ws
  child : ∀ c, o.child = some c → Child o.lx c

theorem StackStep.mono {input : Str} {old : List Nat} {i j : Nat} {new : List Nat} (h : StackStep input old j new)
    (hij : i ≤ j) : StackStep input old i new := by
  cases h with
  | same => exact .same
  | clear => exact .clear
  | push start k hk h =>
    refine .push start k hk ?_
    rcases h with ⟨a, b, c⟩ | h
    · exact .inl ⟨a, by omega, c⟩
    · exact .inr h

theorem Shape.b {l l0 : Lx} {o : Out} (h : Shape l o) (m d : Nat) (hl : l = { l0.adv m with pairDepth := d })
    (hi : l0.cur.index < l0.input.length) : BShape l0 o := by
  obtain ⟨n, hn, hv⟩ := h.cur
  have hc : l.cur = l0.cur.nextN l0.input m := by rw [hl]; rfl
  have hin : l.input = l0.input := by rw [hl]; rfl
  have hcur : o.lx.cur = l0.cur.nextN l0.input (m + n) := by rw [hn, hc, hin, Cursor.nextN_add]
  refine ⟨h.input.trans hin, ⟨m + n, hcur, ?_⟩, ?_, fun he => absurd he h.notEof, ?_, ?_, ?_, ?_, ?_, ?_, h.child⟩
  · rcases h.pos with ⟨a, b⟩ | ⟨_, a, b⟩
    · left; rw [a, b, hl]; exact ⟨rfl, rfl⟩
    · right; exact ⟨m + n, Nat.le_refl _, by rw [a, hcur], by rw [b, hcur]⟩
  · intro hv' _
    left
    refine ⟨hi, ?_⟩
    rw [hcur, Cursor.nextN_index]
    have := hv hv'
    omega
  · rw [h.kind, hl]; exact .same _
  · rw [h.stop, hl]; rfl
  · rw [h.start, hl]; rfl
  · rw [h.last, hl]; rfl
  · have := h.stack
    rw [hin, hc, Cursor.nextN_index] at this
    have hst : l.heredocStack = l0.heredocStack := by rw [hl]; rfl
    rw [hst] at this
    exact this.mono (by omega)
  · rw [h.ws, hl]; rfl

theorem BShape.eofHere (l : Lx)
    (hb : l.kind = .base → l.cur.index ≥ l.input.length ∨ (l.stopChar ≠ NUL ∧ l.ch 0 = l.stopChar)) :
    BShape l { tok := l.tkCur .Eof, lx := l } :=
  ⟨rfl, ⟨0, rfl, .inr ⟨0, Nat.le_refl _, rfl, rfl⟩⟩, fun _ h => absurd rfl h, fun _ => ⟨rfl, rfl, hb⟩, .same _, rfl, rfl, rfl, .same, rfl,
    by simp⟩

theorem buildBase_shape (l : Lx) (o : Out) (h : l.buildBase = .ok o) : BShape l o := by
  unfold Lx.buildBase at h
  ite_at h as c0
  · cases h; exact .eofHere l (fun _ => .inl c0)
  have hi : l.cur.index < l.input.length := by omega
  ite_at h as c1
  · exact (Shape.dispatch _ o h).b 0 (l.pairDepth + 1) rfl hi
  ite_at h as c2
  · ite_at h as c3
    · cases h; exact .eofHere l (fun _ => .inr c2)
    · exact (Shape.dispatch _ o h).b 0 (l.pairDepth - 1) rfl hi
  ite_at h as c4
  · exact (Shape.dispatch _ o h).b l.bomLen l.pairDepth rfl hi
  · exact (Shape.dispatch _ o h).b 0 l.pairDepth rfl hi

theorem Lx.rest_ch (l : Lx) : l.rest.ch 0 ≠ NUL → l.cur.index < l.input.length := by
  intro h
  have := List.ch_ne_nul _ _ h
  simp [Lx.rest] at this
  omega

theorem EndType.ne_eof {e : Ttype} (h : EndType e) : e ≠ .Eof := by
  rcases h with rfl | rfl | rfl <;> decide

/-- Outcomes that only move the cursor and change the pair depth and the kind. -/
theorem BShape.move (l : Lx) (n d : Nat) (k : Kind) (t : Token) (c : Option Lx) (hk : KStep l.kind k)
    (hpos : (t.line = l.tokenLine ∧ t.col = l.tokenCol) ∨
      ∃ m, m ≤ n ∧ t.line = (l.cur.nextN l.input m).line ∧ t.col = (l.cur.nextN l.input m).col)
    (hprog : t.type.isValid → (l.cur.index < l.input.length ∧ 1 ≤ n) ∨
      (k.bonus < l.kind.bonus ∧ ∀ x, c = some x → x.kind = .base))
    (hne : t.type ≠ .Eof) (hws : t.ws = l.ws)
    (hc : ∀ x, c = some x → Child { l.adv n with pairDepth := d, kind := k } x) :
    BShape l { tok := t, lx := { l.adv n with pairDepth := d, kind := k }, child := c } := by
  refine ⟨rfl, ⟨n, rfl, hpos⟩, fun hv _ => ?_, fun h => absurd h hne, hk, rfl, rfl, rfl, .same, hws, hc⟩
  rcases hprog hv with ⟨a, b⟩ | a
  · left
    refine ⟨a, ?_⟩
    show l.cur.index < (l.adv n).cur.index
    rw [Lx.adv_index]; omega
  · right; exact a

theorem buildIstr_shape (l : Lx) (o : Out) (st : IState) (e : Ttype) (a : Bool) (hk : l.kind = .istr st e a)
    (he : EndType e) (h : l.buildIstr st e a = .ok o) : BShape l o := by
  have hks : ∀ st', KStep l.kind (.istr st' e a) := fun st' => by rw [hk]; exact .istr _ _ _ _
  have hb : l.kind.bonus = st.bonus := by rw [hk]; rfl
  unfold Lx.buildIstr at h
  cases st with
  | InProgress =>
    simp only at h
    unfold Lx.istrConsume at h
    have ends := interpLoop_ends l.startChar l.stopChar (l.rest.length + 1) l.pairDepth [] 0 l.rest
    split at h
    · rename_i buf d n heq
      rw [heq] at ends
      simp only [IEnds] at h ends
      have hi := l.rest_ch ends.2
      ite_at h as cb
      · cases h
        exact .move l n d _ _ _ (hks _) (.inl ⟨rfl, rfl⟩) (fun _ => .inl ⟨hi, by omega⟩) (by simp [Lx.tk]) rfl
          (fun x hx => by cases hx; exact .eval)
      · cases h
        exact .move l n d _ _ none (hks _) (.inl ⟨rfl, rfl⟩) (fun _ => .inl ⟨hi, by omega⟩) (by simp [Lx.tkLit, Lx.tk]) rfl
          (fun x hx => by cases hx)
    · rename_i buf d n heq
      rw [heq] at ends
      simp only [IEnds] at h ends
      have hi := l.rest_ch ends.2
      ite_at h as cb
      · cases h
        exact .move l n d _ _ none (hks _) (.inr ⟨n, Nat.le_refl _, rfl, rfl⟩) (fun _ => .inl ⟨hi, by omega⟩) he.ne_eof rfl
          (fun x hx => by cases hx)
      · cases h
        exact .move l n d _ _ none (hks _) (.inl ⟨rfl, rfl⟩) (fun _ => .inl ⟨hi, by omega⟩) (by simp [Lx.tkLit, Lx.tk]) rfl
          (fun x hx => by cases hx)
    · rename_i buf d n heq
      simp only at h
      ite_at h as cb
      · cases h
        have := BShape.move l (n + 1) d (.istr .EndToken e a) ({ l.adv n with pairDepth := d }.tkLit .String buf) none (hks _) (.inl ⟨rfl, rfl⟩)
          (fun _ => .inr (by rw [hb]; simp [Kind.bonus, IState.bonus, Lx.evalChild])) (by simp [Lx.tkLit, Lx.tk]) rfl
          (fun x hx => by cases hx)
        rw [← Lx.adv_adv] at this
        exact this
      · cases h
        have := BShape.move l n d l.kind ({ l.adv n with pairDepth := d }.tkLit .UnterminatedString buf) none (.same _) (.inl ⟨rfl, rfl⟩)
          (fun hv => by simp [Lx.tkLit, Lx.tk, Ttype.isValid, Ttype.value] at hv) (by simp [Lx.tkLit, Lx.tk]) rfl
          (fun x hx => by cases hx)
        exact this
    · rename_i t d n heq
      rw [heq] at ends
      simp only [IEnds] at h ends
      cases h
      exact BShape.move l n d l.kind ({ l.adv n with pairDepth := d }.tkCurLit t _) none (.same _) (.inr ⟨n, Nat.le_refl _, rfl, rfl⟩)
          (fun hv => by rcases ends.2 with rfl | rfl <;> simp [Lx.tkCurLit, Lx.tkCur, Ttype.isValid, Ttype.value] at hv)
          (by rcases ends.2 with rfl | rfl <;> simp [Lx.tkCurLit, Lx.tkCur]) rfl (fun x hx => by cases hx)
    · cases h
    · cases h
  | EvaluateBegin =>
    cases h
    exact .move l 0 l.pairDepth _ _ _ (hks _) (.inl ⟨rfl, rfl⟩) (fun _ => .inr (by rw [hb]; simp [Kind.bonus, IState.bonus, Lx.evalChild]))
      (by simp [Lx.tk]) rfl (fun x hx => by cases hx; exact .eval)
  | EvaluateEnd =>
    cases h
    exact .move l 1 l.pairDepth _ _ none (hks _) (.inl ⟨rfl, rfl⟩) (fun _ => .inr (by rw [hb]; simp [Kind.bonus, IState.bonus, Lx.evalChild]))
      (by simp [Lx.tk]) rfl (fun x hx => by cases hx)
  | EndToken =>
    cases h
    exact .move l 0 l.pairDepth _ _ none (hks _) (.inr ⟨0, Nat.le_refl _, rfl, rfl⟩) (fun _ => .inr (by rw [hb]; simp [Kind.bonus, IState.bonus, Lx.evalChild]))
      he.ne_eof rfl (fun x hx => by cases hx)
  | Done =>
    cases h
    exact .eofHere l (fun h => by rw [hk] at h; cases h)

theorem buildRegexp_shape (l : Lx) (o : Out) (st : IState) (op : Str) (hk : l.kind = .regexp st op)
    (h : l.buildRegexp st op = .ok o) : BShape l o := by
  have hks : ∀ st' op', KStep l.kind (.regexp st' op') := fun st' op' => by rw [hk]; exact .regexp _ _ _ _
  have hb : l.kind.bonus = st.bonus := by rw [hk]; rfl
  unfold Lx.buildRegexp at h
  cases st with
  | InProgress =>
    simp only at h
    unfold Lx.regexpConsume at h
    have ends := regexpLoop_ends l.startChar l.stopChar (l.rest.length + 1) l.pairDepth [] 0 l.rest
    split at h
    · rename_i buf d n heq
      rw [heq] at ends
      simp only [REnds] at h ends
      have hi := l.rest_ch ends.2
      cases h
      exact .move l n d _ _ none (hks _ _) (.inl ⟨rfl, rfl⟩) (fun _ => .inl ⟨hi, by omega⟩) (by simp [Lx.tkLit, Lx.tk]) rfl
          (fun x hx => by cases hx)
    · rename_i buf d n heq
      rw [heq] at ends
      simp only [REnds] at h ends
      have hi := l.rest_ch ends.2
      cases h
      generalize regexpOptions _ = ro
      have := BShape.move l (n + ro.length) d (.regexp .EndToken ro) ({ l.adv n with pairDepth := d }.tkLit .String buf) none (hks _ _) (.inl ⟨rfl, rfl⟩) (fun _ => .inl ⟨hi, by omega⟩) (by simp [Lx.tkLit, Lx.tk]) rfl
          (fun x hx => by cases hx)
      rw [← Lx.adv_adv] at this
      exact this
    · rename_i buf d n heq
      cases h
      exact BShape.move l n d l.kind (l.tkLit .UnterminatedRegexp buf) none (.same _) (.inl ⟨rfl, rfl⟩)
          (fun hv => by simp [Lx.tkLit, Lx.tk, Ttype.isValid, Ttype.value] at hv) (by simp [Lx.tkLit, Lx.tk]) rfl
          (fun x hx => by cases hx)
    · cases h
    · cases h
    · cases h
  | EvaluateBegin =>
    cases h
    exact .move l 0 l.pairDepth _ _ _ (hks _ _) (.inl ⟨rfl, rfl⟩) (fun _ => .inr (by rw [hb]; simp [Kind.bonus, IState.bonus, Lx.evalChild]))
      (by simp [Lx.tk]) rfl (fun x hx => by cases hx; exact .regexpEval)
  | EvaluateEnd =>
    simp only at h
    ite_at h as c
    · cases h
      generalize regexpOptions _ = ro
      have := BShape.move l (1 + (1 + ro.length)) l.pairDepth (.regexp .EndToken ro) (l.tk .EvaluateToStringEnd) none (hks _ _) (.inl ⟨rfl, rfl⟩) (fun _ => .inr (by rw [hb]; simp [Kind.bonus, IState.bonus, Lx.evalChild]))
        (by simp [Lx.tk]) rfl (fun x hx => by cases hx)
      rw [← Lx.adv_adv, ← Lx.adv_adv] at this
      exact this
    · cases h
      exact .move l 1 l.pairDepth _ _ none (hks _ _) (.inl ⟨rfl, rfl⟩) (fun _ => .inr (by rw [hb]; simp [Kind.bonus, IState.bonus, Lx.evalChild]))
        (by simp [Lx.tk]) rfl (fun x hx => by cases hx)
  | EndToken =>
    cases h
    exact .move l 0 l.pairDepth (.regexp .Done op) { l.tkCur .InterpolatedRegexpEnd with lit := if op = [] then none else some op } none (hks _ _) (.inr ⟨0, Nat.le_refl _, rfl, rfl⟩) (fun _ => .inr (by rw [hb]; simp [Kind.bonus, IState.bonus, Lx.evalChild]))
      (by simp [Lx.tkCur]) rfl (fun x hx => by cases hx)
  | Done =>
    cases h
    exact .eofHere l (fun h => by rw [hk] at h; cases h)

theorem wordsDynFinish_shape (l0 l : Lx) (i : Bool) (s : Char) (d d0 : Nat) (b b0 : Str) (n : Nat)
    (hl : l = l0.adv n) (hk : l0.kind = .words .DynamicStringInProgress i s d0 b0) :
    BShape l0 (l.wordsDynFinish i s d b) := by
  have hks : ∀ st' d' b', KStep l0.kind (.words st' i s d' b') := fun _ _ _ => by rw [hk]; exact .words _ _ _ _ _ _ _ _
  have hb : l0.kind.bonus = WState.bonus .DynamicStringInProgress := by rw [hk]; rfl
  subst hl
  unfold Lx.wordsDynFinish
  split
  · exact .move l0 n l0.pairDepth _ _ none (hks _ _ _) (.inr ⟨n, Nat.le_refl _, rfl, rfl⟩) (fun _ => .inr (by rw [hb]; simp [Kind.bonus, WState.bonus, Lx.evalChild]))
        (by simp [Lx.tkCurLit, Lx.tkCur]) rfl (fun x hx => by cases hx)
  · exact .move l0 n l0.pairDepth _ _ none (hks _ _ _) (.inl ⟨rfl, rfl⟩) (fun _ => .inr (by rw [hb]; simp [Kind.bonus, WState.bonus, Lx.evalChild]))
        (by simp [Lx.tk]) rfl (fun x hx => by cases hx)

theorem wordsConsume_shape (l : Lx) (o : Out) (st : WState) (i : Bool) (s : Char) (d0 : Nat) (b0 : Str)
    (hk : l.kind = .words st i s d0 b0)
    (h : l.wordsConsume st i s d0 = .ok o) : BShape l o := by
  have hks : ∀ st' d' b', KStep l.kind (.words st' i s d' b') := fun _ _ _ => by rw [hk]; exact .words _ _ _ _ _ _ _ _
  unfold Lx.wordsConsume at h
  extract_lets dyn at h
  have hdyn : dyn = true → st = .DynamicStringInProgress := by intro h; simpa [dyn] using h
  have ends := wordLoop_ends i dyn s l.stopChar (l.rest.length + 1) d0 [] 0 l.rest
  split at h
  · rename_i buf d n heq
    rw [heq] at ends
    simp only [WEnds] at h ends
    have hi := l.rest_ch ends.2
    ite_at h as cb
    · cases h
      exact wordsDynFinish_shape l _ i s d d0 buf b0 (n + 1) (by rw [Lx.adv_adv]) (by rw [hk, hdyn cb])
    · cases h
      have := BShape.move l (n + 1) l.pairDepth (.words st i s d buf) ((l.adv n).tkCurLit .String buf) none (hks _ _ _) (.inr ⟨n, by omega, rfl, rfl⟩)
        (fun _ => .inl ⟨hi, by omega⟩) (by simp [Lx.tkCurLit, Lx.tkCur]) rfl (fun x hx => by cases hx)
      rw [← Lx.adv_adv] at this
      exact this
  · rename_i buf d n heq
    rw [heq] at ends
    simp only [WEnds] at h ends
    have hi := l.rest_ch ends.2
    cases h
    exact .move l (n + 2) l.pairDepth _ _ none (hks _ _ _) (.inr ⟨n + 2, by omega, rfl, rfl⟩)
        (fun _ => .inl ⟨hi, by omega⟩) (by simp [Lx.tkCur]) rfl (fun x hx => by cases hx)
  · rename_i buf d n heq
    rw [heq] at ends
    simp only [WEnds] at h ends
    have hi := l.rest_ch ends.2
    ite_at h as cb
    · cases h
      exact wordsDynFinish_shape l _ i s d d0 buf b0 n rfl (by rw [hk, hdyn cb])
    · cases h
      unfold Lx.wordsFinish
      rw [Lx.adv_adv]
      simp only
      split
      · exact .move l (n + 1) l.pairDepth _ _ none (hks _ _ _) (.inr ⟨n + 1, by omega, rfl, rfl⟩)
          (fun _ => .inl ⟨hi, by omega⟩) (by simp [Lx.tkCurLit, Lx.tkCur]) rfl (fun x hx => by cases hx)
      · exact .move l (n + 1) l.pairDepth _ _ none (hks _ _ _) (.inr ⟨n + 1, by omega, rfl, rfl⟩)
          (fun _ => .inl ⟨hi, by omega⟩) (by simp [Lx.tkCur]) rfl (fun x hx => by cases hx)
  · rename_i buf d n heq
    cases h
    exact .move l n l.pairDepth _ _ none (hks _ _ _) (.inl ⟨rfl, rfl⟩)
          (fun hv => by simp [Lx.tkLit, Lx.tk, Ttype.isValid, Ttype.value] at hv) (by simp [Lx.tkLit, Lx.tk]) rfl
          (fun x hx => by cases hx)
  · cases h

theorem buildWords_shape (l : Lx) (o : Out) (st : WState) (i : Bool) (s : Char) (d : Nat) (b : Str)
    (hk : l.kind = .words st i s d b) (h : l.buildWords st i s d b = .ok o) : BShape l o := by
  have hks : ∀ st' d' b', KStep l.kind (.words st' i s d' b') := fun _ _ _ => by rw [hk]; exact .words _ _ _ _ _ _ _ _
  have hb : l.kind.bonus = st.bonus := by rw [hk]; rfl
  unfold Lx.buildWords at h
  cases st with
  | InProgress => exact wordsConsume_shape l o _ i s d b hk h
  | DynamicStringInProgress => exact wordsConsume_shape l o _ i s d b hk h
  | DynamicStringBegin =>
    cases h
    exact .move l 0 l.pairDepth _ _ none (hks _ _ _) (.inl ⟨rfl, rfl⟩) (fun _ => .inr (by rw [hb]; simp [Kind.bonus, WState.bonus, Lx.evalChild]))
        (by simp [Lx.tkLit, Lx.tk]) rfl (fun x hx => by cases hx)
  | DynamicStringEnd =>
    simp only at h
    ite_at h as c
    · cases h
      exact .move l 1 l.pairDepth _ _ none (hks _ _ _) (.inl ⟨rfl, rfl⟩) (fun _ => .inr (by rw [hb]; simp [Kind.bonus, WState.bonus, Lx.evalChild]))
        (by simp [Lx.tk]) rfl (fun x hx => by cases hx)
    · cases h
      exact .move l 0 l.pairDepth _ _ none (hks _ _ _) (.inl ⟨rfl, rfl⟩) (fun _ => .inr (by rw [hb]; simp [Kind.bonus, WState.bonus, Lx.evalChild]))
        (by simp [Lx.tk]) rfl (fun x hx => by cases hx)
  | EvaluateBegin =>
    cases h
    exact .move l 0 l.pairDepth _ _ _ (hks _ _ _) (.inl ⟨rfl, rfl⟩) (fun _ => .inr (by rw [hb]; simp [Kind.bonus, WState.bonus, Lx.evalChild]))
        (by simp [Lx.tk]) rfl (fun x hx => by cases hx; exact .eval)
  | EvaluateEnd =>
    cases h
    exact .move l 1 l.pairDepth _ _ none (hks _ _ _) (.inl ⟨rfl, rfl⟩) (fun _ => .inr (by rw [hb]; simp [Kind.bonus, WState.bonus, Lx.evalChild]))
        (by simp [Lx.tk]) rfl (fun x hx => by cases hx)
  | EndToken =>
    cases h
    exact .move l 0 l.pairDepth _ _ none (hks _ _ _) (.inr ⟨0, Nat.le_refl _, rfl, rfl⟩) (fun _ => .inr (by rw [hb]; simp [Kind.bonus, WState.bonus, Lx.evalChild]))
        (by simp [Lx.tkCur]) rfl (fun x hx => by cases hx)
  | Done =>
    cases h
    exact .eofHere l (fun h => by rw [hk] at h; cases h)

theorem build_shape (l : Lx) (o : Out) (hw : l.kind.WF) (h : l.build = .ok o) : BShape l o := by
  unfold Lx.build at h
  split at h
  · exact buildBase_shape l o h
  · rename_i st e a hk
    rw [hk] at hw
    exact buildIstr_shape l o st e a hk hw h
  · rename_i st op hk
    exact buildRegexp_shape l o st op hk h
  · rename_i st i s d b hk
    exact buildWords_shape l o st i s d b hk h

end NP
