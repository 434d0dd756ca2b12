import Verif.Proofs.Build

/-! One `step` of a lexer object. -/

namespace NP

namespace Lx

theorem post_eq (l : Lx) (t : Ttype) :
    l.post t = { l with remaining := (l.post t).remaining, allowAssign := (l.post t).allowAssign,
                        sep := (l.post t).sep, lastName := (l.post t).lastName } := by
  unfold post
  split
  all_goals first | rfl | skip
  split
  · split
    · split <;> rfl
    · rfl
  · split <;> rfl

@[simp] theorem post_input (l : Lx) (t : Ttype) : (l.post t).input = l.input := by rw [post_eq]
@[simp] theorem post_cur (l : Lx) (t : Ttype) : (l.post t).cur = l.cur := by rw [post_eq]
@[simp] theorem post_kind (l : Lx) (t : Ttype) : (l.post t).kind = l.kind := by rw [post_eq]
@[simp] theorem post_heredocStack (l : Lx) (t : Ttype) : (l.post t).heredocStack = l.heredocStack := by rw [post_eq]
@[simp] theorem post_stopChar (l : Lx) (t : Ttype) : (l.post t).stopChar = l.stopChar := by rw [post_eq]
@[simp] theorem post_startChar (l : Lx) (t : Ttype) : (l.post t).startChar = l.startChar := by rw [post_eq]
@[simp] theorem post_lastType (l : Lx) (t : Ttype) : (l.post t).lastType = l.lastType := by rw [post_eq]
@[simp] theorem post_pairDepth (l : Lx) (t : Ttype) : (l.post t).pairDepth = l.pairDepth := by rw [post_eq]
@[simp] theorem post_openTernary (l : Lx) (t : Ttype) : (l.post t).openTernary = l.openTernary := by rw [post_eq]
@[simp] theorem post_ws (l : Lx) (t : Ttype) : (l.post t).ws = l.ws := by rw [post_eq]
@[simp] theorem post_tokenLine (l : Lx) (t : Ttype) : (l.post t).tokenLine = l.tokenLine := by rw [post_eq]
@[simp] theorem post_tokenCol (l : Lx) (t : Ttype) : (l.post t).tokenCol = l.tokenCol := by rw [post_eq]
@[simp] theorem post_rest (l : Lx) (t : Ttype) : (l.post t).rest = l.rest := by simp [rest]

@[simp] theorem start_input (l : Lx) : l.start.input = l.input := rfl
@[simp] theorem start_kind (l : Lx) : l.start.kind = l.kind := rfl
@[simp] theorem start_heredocStack (l : Lx) : l.start.heredocStack = l.heredocStack := rfl
@[simp] theorem start_stopChar (l : Lx) : l.start.stopChar = l.stopChar := rfl
@[simp] theorem start_startChar (l : Lx) : l.start.startChar = l.startChar := rfl
@[simp] theorem start_lastType (l : Lx) : l.start.lastType = l.lastType := rfl
@[simp] theorem start_pairDepth (l : Lx) : l.start.pairDepth = l.pairDepth := rfl
@[simp] theorem start_openTernary (l : Lx) : l.start.openTernary = l.openTernary := rfl
@[simp] theorem start_remaining (l : Lx) : l.start.remaining = l.remaining := rfl
@[simp] theorem start_allowAssign (l : Lx) : l.start.allowAssign = l.allowAssign := rfl
theorem start_cur (l : Lx) : l.start.cur = l.cur.nextN l.input l.skipped := rfl
theorem start_rest (l : Lx) : l.start.rest = l.rest.drop l.skipped := adv_rest _ _
theorem start_ws (l : Lx) : l.start.ws = (l.skipped != 0) := rfl
theorem start_line (l : Lx) : l.start.tokenLine = l.start.cur.line := rfl
theorem start_col (l : Lx) : l.start.tokenCol = l.start.cur.col := rfl

theorem step_eq (l : Lx) (o : Out) (h : l.step = .ok o) :
    ∃ b, l.start.build = .ok b ∧ o = { b with lx := b.lx.post b.tok.type } := by
  unfold step at h
  split at h <;> cases h
  exact ⟨_, by assumption, rfl⟩

theorem step_abort (l : Lx) (h : l.step = .abort) : l.start.build = .abort := by
  unfold step at h; split at h <;> cases h; assumption
theorem step_ub (l : Lx) (h : l.step = .ub) : l.start.build = .ub := by
  unfold step at h; split at h <;> cases h; assumption
theorem step_fuel (l : Lx) (h : l.step = .fuel) : l.start.build = .fuel := by
  unfold step at h; split at h <;> cases h; assumption

end Lx

/-- A nested lexer and the object that encloses it. -/
structure Link (c p : Lx) : Prop where
  input : c.alters = true → c.input = p.input
  index : c.alters = true → p.cur.index ≤ c.cur.index

structure SShape (l : Lx) (o : Out) : Prop where
  input : o.lx.input = l.input
  cur : ∃ n, o.lx.cur = l.cur.nextN l.input n ∧
      ∃ m, m ≤ n ∧ o.tok.line = (l.cur.nextN l.input m).line ∧ o.tok.col = (l.cur.nextN l.input m).col
  prog : o.tok.type.isValid → o.tok.type ≠ .Eof →
    (l.cur.index < l.input.length ∧ l.cur.index < o.lx.cur.index) ∨
    (o.lx.kind.bonus < l.kind.bonus ∧ ∀ c, o.child = some c → c.kind = .base)
  eof : o.tok.type = .Eof → o.child = none ∧ o.lx.kind = l.kind ∧
    (l.kind = .base → o.lx.cur.index ≥ l.input.length ∨ (l.stopChar ≠ NUL ∧ o.lx.ch 0 = l.stopChar))
  kind : KStep l.kind o.lx.kind
  stop : o.lx.stopChar = l.stopChar
  start : o.lx.startChar = l.startChar
  last : o.lx.lastType = l.lastType
  stack : StackStep l.input l.heredocStack l.cur.index o.lx.heredocStack
  ws : o.tok.ws = (l.skipped != 0)
  child : ∀ c, o.child = some c → ∃ t b, o.lx = Lx.post b t ∧ Child b c

theorem step_shape (l : Lx) (o : Out) (hw : l.kind.WF) (h : l.step = .ok o) : SShape l o := by
  obtain ⟨b, hb, rfl⟩ := l.step_eq o h
  have s := build_shape l.start b hw hb
  obtain ⟨n, hn, hpos⟩ := s.cur
  simp only [Lx.start_input, Lx.start_cur] at hn
  rw [← Cursor.nextN_add] at hn
  have hidx : l.start.cur.index = l.cur.index + l.skipped := by rw [Lx.start_cur, Cursor.nextN_index]
  refine ⟨by simpa using s.input, ⟨l.skipped + n, by simpa using hn, ?_⟩, ?_, ?_, by simpa using s.kind,
    by simpa using s.stop, by simpa using s.start, by simpa using s.last, ?_, ?_, ?_⟩
  · rcases hpos with ⟨a, b⟩ | ⟨m, hm, a, b⟩
    · exact ⟨l.skipped, by omega, by rw [a, Lx.start_line, Lx.start_cur], by rw [b, Lx.start_col, Lx.start_cur]⟩
    · rw [Lx.start_cur, Lx.start_input, ← Cursor.nextN_add] at a b
      exact ⟨l.skipped + m, by omega, a, b⟩
  · intro hv he
    rcases s.prog hv he with ⟨a, b⟩ | h
    · left
      simp only [Lx.start_input, Lx.post_cur] at *
      omega
    · right; simpa using h
  · intro he
    obtain ⟨h1, h2, h3⟩ := s.eof he
    refine ⟨h2, by simp [h1], ?_⟩
    intro hk
    have := h3 (by simpa using hk)
    simp only [Lx.start_input, Lx.start_stopChar] at this
    simpa [h1, Lx.ch] using this
  · have := s.stack
    simp only [Lx.start_input, Lx.start_heredocStack] at this
    simpa using this.mono (by omega)
  · rw [s.ws, Lx.start_ws]
  · intro c hc
    exact ⟨_, _, rfl, s.child c hc⟩

/-! ### Reachable objects -/

/-- The lexer objects that occur while a source is tokenised. -/
inductive Reach (src : Str) : Lx → Prop where
  | init : Reach src (Lx.init src)
  | step {l o} (hl : Reach src l) (h : l.step = .ok o) : Reach src o.lx
  | child {l o c} (hl : Reach src l) (h : l.step = .ok o) (hc : o.child = some c) : Reach src c
  | last {l} (t : Ttype) (hl : Reach src l) : Reach src { l with lastType := t }
  | sync {p c} (hp : Reach src p) (hc : Reach src c) (h : Link c p) : Reach src (p.sync c)

theorem KStep.wf {k k' : Kind} (h : KStep k k') (hw : k.WF) : k'.WF := by
  cases h <;> exact hw

theorem Child.wf {l c : Lx} (h : Child l c) : c.kind.WF := by
  cases h with
  | istr s t e he _ => exact he
  | heredoc d e he _ => exact he
  | regexp => trivial
  | words => trivial
  | eval => trivial
  | regexpEval => trivial

theorem Reach.wf {src : Str} {l : Lx} (h : Reach src l) : l.kind.WF := by
  induction h with
  | init => trivial
  | step _ h ih => exact (step_shape _ _ ih h).kind.wf ih
  | child _ h hc ih =>
    obtain ⟨_, _, _, hc⟩ := (step_shape _ _ ih h).child _ hc
    exact hc.wf
  | last t _ ih => exact ih
  | sync _ _ _ ih _ =>
    unfold Lx.sync; split <;> exact ih

theorem Reach.shape {src : Str} {l : Lx} {o : Out} (h : Reach src l) (hs : l.step = .ok o) : SShape l o :=
  step_shape l o h.wf hs

theorem Lx.alters_eq_of_kstep {l l' : Lx} (h : KStep l.kind l'.kind) : l'.alters = l.alters := by
  unfold Lx.alters
  generalize l.kind = k at *
  generalize l'.kind = k' at *
  cases h <;> rfl

theorem Child.link {l c : Lx} (h : Child l c) : Link c l ∧ (c.alters = true → c.cur = l.cur ∧ c.input = l.input) := by
  cases h
  case heredoc => exact ⟨⟨nofun, nofun⟩, nofun⟩
  all_goals exact ⟨⟨fun _ => rfl, fun _ => Nat.le_refl _⟩, fun _ => ⟨rfl, rfl⟩⟩

/-- The objects of a stack are reachable and linked. -/
def StackOk (src : Str) : List Lx → Prop
  | [] => False
  | [l] => Reach src l
  | c :: p :: ps => Reach src c ∧ Link c p ∧ StackOk src (p :: ps)

theorem StackOk.head {src : Str} {l : Lx} {ps : List Lx} (h : StackOk src (l :: ps)) : Reach src l := by
  cases ps with
  | nil => exact h
  | cons p ps => exact h.1

theorem StackOk.replace {src : Str} {l l' : Lx} {ps : List Lx} (h : StackOk src (l :: ps)) (hr : Reach src l')
    (ha : l'.alters = l.alters) (hi : l'.input = l.input) (hx : l.cur.index ≤ l'.cur.index) :
    StackOk src (l' :: ps) := by
  cases ps with
  | nil => exact hr
  | cons p ps =>
    obtain ⟨_, h2, h3⟩ := h
    refine ⟨hr, ⟨fun h => ?_, fun h => ?_⟩, h3⟩
    · rw [hi]; exact h2.input (ha ▸ h)
    · exact Nat.le_trans (h2.index (ha ▸ h)) hx

theorem SShape.index_le {l : Lx} {o : Out} (h : SShape l o) : l.cur.index ≤ o.lx.cur.index := by
  obtain ⟨n, hn, _⟩ := h.cur
  rw [hn, Cursor.nextN_index]; omega

theorem StackOk.step {src : Str} {l : Lx} {ps : List Lx} {o : Out} (h : StackOk src (l :: ps)) (hs : l.step = .ok o) :
    StackOk src (o.child.toList ++ o.lx :: ps) := by
  have s := h.head.shape hs
  have h1 : StackOk src (o.lx :: ps) :=
    h.replace (.step h.head hs) (Lx.alters_eq_of_kstep s.kind) s.input s.index_le
  cases hc : o.child with
  | none => simpa using h1
  | some c =>
    simp only [Option.toList_some, List.singleton_append]
    refine ⟨.child h.head hs hc, ?_, h1⟩
    obtain ⟨t, b, hb, hch⟩ := s.child c hc
    have := hch.link.1
    rw [hb]
    exact ⟨fun ha => by simpa using this.input ha, fun ha => by simpa using this.index ha⟩

theorem Lx.sync_alters (p c : Lx) : (p.sync c).alters = p.alters := by
  unfold Lx.sync; split <;> rfl
theorem Lx.sync_input (p c : Lx) : (p.sync c).input = p.input := by
  unfold Lx.sync; split <;> rfl
theorem Lx.sync_kind (p c : Lx) : (p.sync c).kind = p.kind := by
  unfold Lx.sync; split <;> rfl

theorem StackOk.pop {src : Str} {c p : Lx} {ps : List Lx} (h : StackOk src (c :: p :: ps)) :
    StackOk src (p.sync c :: ps) := by
  obtain ⟨h1, h2, h3⟩ := h
  refine h3.replace (.sync h3.head h1 h2) (Lx.sync_alters p c) (Lx.sync_input p c) ?_
  unfold Lx.sync
  split
  · exact h2.index (by assumption)
  · exact Nat.le_refl _

theorem StackOk.setLast {src : Str} (t : Ttype) {st : List Lx} (h : StackOk src st) : StackOk src (setLast t st) := by
  induction st with
  | nil => exact h
  | cons l st ih =>
    cases st with
    | nil => exact .last t h
    | cons p ps =>
      obtain ⟨h1, h2, h3⟩ := h
      have h4 := ih h3
      cases ps with
      | nil => exact ⟨h1, ⟨h2.input, h2.index⟩, h4⟩
      | cons q qs => exact ⟨h1, h2, h4⟩

/-- `t` is a token returned by a reachable object. -/
def Produced (src : Str) (t : Token) : Prop := ∃ l o, Reach src l ∧ l.step = .ok o ∧ o.tok = t

theorem nextToken_ok {src : Str} (ps : List Lx) : ∀ (l : Lx) (t : Token) (st : List Lx), StackOk src (l :: ps) →
    nextToken l ps = .ok (t, st) → Produced src t ∧ StackOk src st := by
  induction ps with
  | nil =>
    intro l t st h hn
    unfold nextToken at hn
    split at hn <;> cases hn
    rename_i o ho
    exact ⟨⟨l, o, h, ho, rfl⟩, h.step ho⟩
  | cons p ps ih =>
    intro l t st h hn
    unfold nextToken at hn
    split at hn
    · rename_i o ho
      split at hn
      · refine ih _ _ _ ?_ hn
        have s := h.1.shape ho
        have := h.step ho
        rw [(s.eof (by assumption)).1] at this
        exact this.pop
      · cases hn
        exact ⟨⟨l, o, h.1, ho, rfl⟩, h.step ho⟩
    · cases hn
    · cases hn
    · cases hn

theorem Filt.step_type (f : Filt) (t t' : Token) (h : (f.step t).2 = some t') : t'.type = t.type := by
  unfold Filt.step at h
  by_cases h1 : t.type = .Comment
  · simp [h1] at h
  rw [if_neg h1] at h
  by_cases h2 : t.type = .Doc
  · rw [if_pos h2] at h
    split at h <;> simp at h
  rw [if_neg h2] at h
  by_cases h3 : f.skip = true ∧ t.type = .Newline
  · rw [if_pos h3] at h; simp at h
  rw [if_neg h3] at h
  cases hl : f.lastDoc with
  | none => rw [hl] at h; simp at h; rw [h]
  | some d =>
    rw [hl] at h
    by_cases h4 : t.type.canHaveDoc = true
    · simp only [h4, if_true, Option.some.injEq] at h; rw [← h]
    · by_cases h5 : t.type.isEndOfLine = true
      · simp only [h4, h5, if_true, if_false, Bool.false_eq_true, Option.some.injEq] at h; rw [← h]
      · simp only [h4, h5, if_false, Bool.false_eq_true, Option.some.injEq] at h; rw [← h]

end NP
