import Verif.Proofs.Dispatch

/-! What `build` can change in a lexer object, and which nested lexers it creates. -/

namespace NP

open Lx

/-- The text of a heredoc whose body starts at offset `start` of `input`; reading it ends `k` bytes further. -/
def IsDoc (input : Str) (start k : Nat) (doc : Str) : Prop :=
  ∃ (dash dedent : Bool) (name d : Str), heredocBody dash name [] (input.drop start) = (some d, k) ∧
    doc = (if dedent then dedentHeredoc (stripTrailingSpaces (d.take (d.length - name.length)))
           else stripTrailingSpaces (d.take (d.length - name.length)))

/-- The closing token types of interpolating literals. -/
def EndType (e : Ttype) : Prop :=
  e = .InterpolatedStringEnd ∨ e = .InterpolatedShellEnd ∨ e = .InterpolatedSymbolEnd

/-- Where a heredoc body can start: behind the current line, or where the previous heredoc ended. -/
def StackStart (input : Str) (start : Nat) (tl : List Nat) : Prop :=
  (1 ≤ start ∧ start ≤ input.length) ∨ ∃ t, tl = start :: t

/-- The nested lexers created by a lexer object that is left as `lx`. -/
inductive Child (lx : Lx) : Lx → Prop where
  | istr (start stop : Char) (e : Ttype) (he : EndType e) (hs : stop ≠ NUL) :
      Child lx { lx with startChar := start, stopChar := stop, kind := .istr .InProgress e true }
  | regexp (start stop : Char) (hs : stop ≠ NUL) :
      Child lx { lx with startChar := start, stopChar := stop, kind := .regexp .InProgress [] }
  | words (stop : Char) (interp : Bool) (start : Char) (hs : stop ≠ NUL) :
      Child lx { lx with stopChar := stop, kind := .words .InProgress interp start 0 [] }
  | heredoc (doc : Str) (e : Ttype) (he : EndType e) (start k : Nat) (tl : List Nat)
      (hs : lx.heredocStack = (start + k) :: tl) (hlt : cs! "<<" <:+: lx.input)
      (hst : StackStart lx.input start tl) (hd : IsDoc lx.input start k doc) :
      Child lx { input := doc, cur := { index := 0, line := lx.cur.line + 1, col := 0 },
                 kind := .istr .InProgress e false }
  | eval : Child lx lx.evalChild
  | regexpEval : Child lx { lx with stopChar := '}', kind := .base }

/-- How the heredoc stack of an object changes in one step. -/
inductive StackStep (input : Str) (old : List Nat) (index : Nat) : List Nat → Prop where
  | same : StackStep input old index old
  | clear : StackStep input old index []
  | push (start k : Nat) (hk : start ≤ input.length → start + k ≤ input.length)
      (h : (old = [] ∧ index + 2 < start ∧ start ≤ input.length) ∨ ∃ tl, old = start :: tl) :
      StackStep input old index ((start + k) :: old)

/-- The effect of one `dispatch` on the object. -/
structure Shape (l : Lx) (o : Out) : Prop where
  input : o.lx.input = l.input
  cur : ∃ n, o.lx.cur = l.cur.nextN l.input n ∧ (o.tok.type.isValid → 1 ≤ n)
  kind : o.lx.kind = l.kind
  stop : o.lx.stopChar = l.stopChar
  start : o.lx.startChar = l.startChar
  depth : o.lx.pairDepth = l.pairDepth
  last : o.lx.lastType = l.lastType
  stack : StackStep l.input l.heredocStack l.cur.index o.lx.heredocStack
  ws : o.tok.ws = l.ws
  notEof : o.tok.type ≠ .Eof
  pos : (o.tok.line = l.tokenLine ∧ o.tok.col = l.tokenCol) ∨
    (o.tok.type = .Invalid ∧ o.tok.line = o.lx.cur.line ∧ o.tok.col = o.lx.cur.col)
  child : ∀ c, o.child = some c → Child o.lx c

namespace Shape

theorem op (l : Lx) (n : Nat) (t : Ttype) (hn : 1 ≤ n) (ht : t ≠ .Eof) : Shape l (l.op n t) :=
  ⟨rfl, ⟨n, rfl, fun _ => hn⟩, rfl, rfl, rfl, rfl, rfl, .same, rfl, ht, .inl ⟨rfl, rfl⟩, by simp [Lx.op]⟩

theorem opLit (l : Lx) (n : Nat) (t : Ttype) (s : Str) (hn : t.isValid → 1 ≤ n) (ht : t ≠ .Eof) :
    Shape l (l.opLit n t s) :=
  ⟨rfl, ⟨n, rfl, hn⟩, rfl, rfl, rfl, rfl, rfl, .same, rfl, ht, .inl ⟨rfl, rfl⟩, by simp [Lx.opLit]⟩

theorem doubleQuoted (l : Lx) (n : Nat) (a b : Char) (t e : Ttype) (hn : 1 ≤ n) (ht : t ≠ .Eof) (he : EndType e)
    (hb : b ≠ NUL) : Shape l (l.doubleQuoted n a b t e) :=
  ⟨rfl, ⟨n, rfl, fun _ => hn⟩, rfl, rfl, rfl, rfl, rfl, .same, rfl, ht, .inl ⟨rfl, rfl⟩, by
    intro c hc; simp only [Lx.doubleQuoted, Option.some.injEq] at hc; subst hc; exact .istr _ _ _ he hb⟩

theorem regexp (l : Lx) (n : Nat) (a b : Char) (hn : 1 ≤ n) (hb : b ≠ NUL) : Shape l (l.regexp n a b) :=
  ⟨rfl, ⟨n, rfl, fun _ => hn⟩, rfl, rfl, rfl, rfl, rfl, .same, rfl, by simp [Lx.regexp, Lx.tkLit, Lx.tk],
    .inl ⟨rfl, rfl⟩, by
    intro c hc; simp only [Lx.regexp, Option.some.injEq] at hc; subst hc; exact .regexp _ _ hb⟩

theorem wordArray (l : Lx) (n : Nat) (a b : Char) (i : Bool) (t : Ttype) (hn : 1 ≤ n) (ht : t ≠ .Eof) (hb : b ≠ NUL) :
    Shape l (l.wordArray n a b i t) :=
  ⟨rfl, ⟨n, rfl, fun _ => hn⟩, rfl, rfl, rfl, rfl, rfl, .same, rfl, ht, .inl ⟨rfl, rfl⟩, by
    intro c hc; simp only [Lx.wordArray, Option.some.injEq] at hc; subst hc; exact .words _ _ _ hb⟩

theorem singleQuotedString (l : Lx) (n : Nat) (a b : Char) (hn : 1 ≤ n) : Shape l (l.singleQuotedString n a b) := by
  unfold Lx.singleQuotedString
  split
  · split
    · exact opLit _ _ _ _ (fun _ => by omega) (by decide)
    · exact opLit _ _ _ _ (fun _ => by omega) (by decide)
  · exact opLit _ _ _ _ (fun h => absurd h (by decide)) (by decide)

theorem setTok (l : Lx) (o : Out) (t : Token) (h : Shape l o) (hl : t.line = o.tok.line) (hc : t.col = o.tok.col)
    (hw : t.ws = o.tok.ws) (he : t.type ≠ .Eof) (hi : o.tok.type ≠ .Invalid)
    (hn : ∃ n, 1 ≤ n ∧ o.lx.cur = l.cur.nextN l.input n) :
    Shape l { o with tok := t } := by
  obtain ⟨n, hn, hcur⟩ := hn
  refine ⟨h.input, ⟨n, hcur, fun _ => hn⟩, h.kind, h.stop, h.start, h.depth, h.last, h.stack, by rw [← h.ws]; exact hw,
    he, ?_, h.child⟩
  rcases h.pos with ⟨a, b⟩ | ⟨a, _⟩
  · exact .inl ⟨hl.trans a, hc.trans b⟩
  · exact absurd a hi

theorem singleQuotedString_adv (l : Lx) (n : Nat) (a b : Char) (hn : 1 ≤ n) :
    (∃ k, 1 ≤ k ∧ (l.singleQuotedString n a b).lx.cur = l.cur.nextN l.input k) ∧
    (l.singleQuotedString n a b).tok.type ≠ .Invalid := by
  unfold Lx.singleQuotedString
  split
  · split
    · exact ⟨⟨_, by omega, rfl⟩, by simp [Lx.opLit, Lx.tkLit, Lx.tk]⟩
    · exact ⟨⟨_, by omega, rfl⟩, by simp [Lx.opLit, Lx.tkLit, Lx.tk]⟩
  · exact ⟨⟨_, by omega, rfl⟩, by simp [Lx.opLit, Lx.tkLit, Lx.tk]⟩

theorem percentConsumer (l : Lx) (n : Nat) (k : PKind) (a b : Char) (hn : 1 ≤ n) (hb : b ≠ NUL) :
    Shape l (l.percentConsumer n k a b) := by
  cases k <;> simp only [Lx.percentConsumer]
  · exact singleQuotedString _ _ _ _ hn
  · exact doubleQuoted _ _ _ _ _ _ hn (by decide) (by simp [EndType]) hb
  · exact regexp _ _ _ _ hn hb
  · have h := singleQuotedString_adv l n a b hn
    exact setTok l _ _ (singleQuotedString _ _ _ _ hn) rfl rfl rfl (by simp) h.2 h.1
  · exact doubleQuoted _ _ _ _ _ _ hn (by decide) (by simp [EndType]) hb
  · exact wordArray _ _ _ _ _ _ hn (by decide) hb
  · exact wordArray _ _ _ _ _ _ hn (by decide) hb
  · exact wordArray _ _ _ _ _ _ hn (by decide) hb
  · exact wordArray _ _ _ _ _ _ hn (by decide) hb

theorem percentString (l : Lx) (n : Nat) (k : PKind) (hn : 1 ≤ n) : Shape l (l.percentString n k) := by
  unfold Lx.percentString
  split
  · exact op _ _ _ (by omega) (by decide)
  · extract_lets c
    repeat' split
    all_goals first
      | exact op _ _ _ (by omega) (by decide)
      | exact percentConsumer _ _ _ _ _ hn (by decide)
      | exact percentConsumer _ _ _ _ _ hn (by rename_i hc; rintro h; rw [h] at hc; exact absurd hc (by decide))

end Shape

/-- Bytes read by `heredocBody`. -/
theorem heredocBody_le (dash : Bool) (name : Str) (s : Str) (doc : Str) :
    (heredocBody dash name doc s).2 ≤ s.length := by
  induction s generalizing doc with
  | nil => unfold heredocBody; split <;> simp
  | cons c cs ih =>
    unfold heredocBody
    split
    · simp
    · have := ih (doc ++ [c])
      simp only [List.length_cons]; omega

theorem lineLen_pos (s : Str) (n : Nat) (h : lineLen s = some n) : 1 ≤ n ∧ n ≤ s.length := by
  induction s generalizing n with
  | nil => simp [lineLen] at h
  | cons c cs ih =>
    unfold lineLen at h
    split at h
    · simp at h; simp; omega
    · cases hc : lineLen cs with
      | none => simp [hc] at h
      | some m =>
        have := ih m hc
        simp [hc] at h; simp; omega

theorem consumeWord_pos (s : Str) : 1 ≤ (consumeWord s).2 := by simp [consumeWord]

/-- The two ways `heredoc` ends. -/
inductive HeredocOut (l : Lx) : Out → Prop where
  | bad (n : Nat) (s : Str) : HeredocOut l { tok := (l.adv n).tkLit .UnterminatedString s, lx := l.adv n }
  | raw (n start k : Nat) (doc : Str) (hn : 1 ≤ n) (hd : IsDoc l.input start k doc)
      (hs : (l.heredocStack = [] ∧ l.cur.index + n < start ∧ start ≤ l.input.length) ∨
        ∃ tl, l.heredocStack = start :: tl) :
      HeredocOut l { tok := l.tkLit .String doc,
                     lx := { l.adv n with heredocStack := (start + k) :: l.heredocStack } }
  | interp (n start k : Nat) (doc : Str) (b e : Ttype) (hn : 1 ≤ n) (hd : IsDoc l.input start k doc)
      (hs : (l.heredocStack = [] ∧ l.cur.index + n < start ∧ start ≤ l.input.length) ∨
        ∃ tl, l.heredocStack = start :: tl)
      (hbe : (b = .InterpolatedShellBegin ∧ e = .InterpolatedShellEnd) ∨
        (b = .InterpolatedStringBegin ∧ e = .InterpolatedStringEnd)) :
      HeredocOut l { tok := l.tk b,
                     lx := { l.adv n with heredocStack := (start + k) :: l.heredocStack },
                     child := some { input := doc,
                                     cur := { index := 0, line := (l.adv n).cur.line + 1, col := 0 },
                                     kind := .istr .InProgress e false } }

theorem heredoc_out (l : Lx) : HeredocOut l l.heredoc := by
  unfold Lx.heredoc
  extract_lets dash dedent l1 c quoted r1 r2 shell
  -- the cursor after the identifier
  obtain ⟨n0, hl1⟩ : ∃ n0, l1 = l.adv n0 := by
    by_cases hd : dash = true
    · exact ⟨1, by simp [l1, hd]⟩
    · exact ⟨0, by simp [l1, hd]⟩
  have hn : ∃ nm n, (if quoted = true then (r1.1, r1.2 + 1) else (some r2.1, r2.2)) = (nm, n) ∧ 1 ≤ n := by
    by_cases hq : quoted = true
    · exact ⟨_, _, by rw [if_pos hq], by omega⟩
    · exact ⟨_, _, by rw [if_neg hq], consumeWord_pos _⟩
  obtain ⟨nm, n, he, hn⟩ := hn
  rw [he]
  simp only
  have hl2 : l1.adv n = l.adv (n0 + n) := by rw [hl1, Lx.adv_adv]
  rw [hl2]
  cases nm with
  | none => exact .bad _ _
  | some name =>
    simp only [Lx.adv_heredocStack]
    have hs : ∀ start, (l.adv (n0 + n)).heredocBegin = some start →
        (l.heredocStack = [] ∧ l.cur.index + (n0 + n) < start ∧ start ≤ l.input.length) ∨
          ∃ tl, l.heredocStack = start :: tl := by
      intro start h
      unfold Lx.heredocBegin at h
      rw [Lx.adv_heredocStack] at h
      cases hst : l.heredocStack with
      | nil =>
        rw [hst] at h
        cases hll : lineLen (l.adv (n0 + n)).rest with
        | none => simp [hll] at h
        | some m =>
          have hm := lineLen_pos _ _ hll
          simp only [hll, Option.map_some, Option.some.injEq, Lx.adv_index] at h
          have : (l.adv (n0 + n)).rest.length = l.input.length - (l.cur.index + (n0 + n)) := by
            simp [Lx.rest]
          exact .inl ⟨rfl, by omega, by omega⟩
      | cons a tl =>
        rw [hst] at h
        simp only [Option.some.injEq] at h
        exact .inr ⟨tl, by rw [h]⟩
    revert hs
    generalize (l.adv (n0 + n)).heredocBegin = so
    intro hs
    cases so with
    | none => exact .bad _ _
    | some start =>
      simp only [Lx.adv_input]
      cases hb : heredocBody dash name [] (List.drop start l.input) with
      | mk d k =>
        cases d with
        | none => exact .bad _ _
        | some d =>
          simp only
          have hdoc : IsDoc l.input start k (if dedent = true then
              dedentHeredoc (stripTrailingSpaces (d.take (d.length - name.length)))
              else stripTrailingSpaces (d.take (d.length - name.length))) := ⟨dash, dedent, name, d, hb, rfl⟩
          split
          · exact .raw _ start k _ (by omega) hdoc (hs start rfl)
          · refine .interp _ start k _ _ _ (by omega) hdoc (hs start rfl) ?_
            cases shell <;> simp

theorem IsDoc.le {input : Str} {start k : Nat} {doc : Str} (h : IsDoc input start k doc) : k ≤ input.length - start := by
  obtain ⟨dash, dedent, name, d, hb, _⟩ := h
  have := heredocBody_le dash name (input.drop start) []
  rw [hb] at this
  simpa using this


theorem HeredocOut.shape {l : Lx} {o : Out} (h : HeredocOut (l.adv 2) o) (hlt : cs! "<<" <:+: l.input) : Shape l o := by
  cases h with
  | bad n s =>
    exact ⟨rfl, ⟨2 + n, by rw [Lx.adv_adv]; rfl, fun _ => by omega⟩, rfl, rfl, rfl, rfl, rfl, .same, rfl,
      by simp [Lx.tkLit, Lx.tk], .inl ⟨rfl, rfl⟩, by simp⟩
  | raw n start k doc hn hd hs =>
    have hk := hd.le
    have hs' : StackStep l.input l.heredocStack l.cur.index ((start + k) :: l.heredocStack) := by
      simp only [Lx.adv_heredocStack, Lx.adv_input, Lx.adv_index] at hs hk
      exact .push start k (by omega) (by
        rcases hs with ⟨a, b, c⟩ | h
        · exact .inl ⟨a, by omega, c⟩
        · exact .inr h)
    exact ⟨rfl, ⟨2 + n, by rw [Lx.adv_adv]; rfl, fun _ => by omega⟩, rfl, rfl, rfl, rfl, rfl, hs', rfl,
      by simp [Lx.tkLit, Lx.tk], .inl ⟨rfl, rfl⟩, by simp⟩
  | interp n start k doc b e hn hd hs hbe =>
    have hk := hd.le
    have hs' : StackStep l.input l.heredocStack l.cur.index ((start + k) :: l.heredocStack) := by
      simp only [Lx.adv_heredocStack, Lx.adv_input, Lx.adv_index] at hs hk
      exact .push start k (by omega) (by
        rcases hs with ⟨a, b, c⟩ | h
        · exact .inl ⟨a, by omega, c⟩
        · exact .inr h)
    refine ⟨rfl, ⟨2 + n, by rw [Lx.adv_adv]; rfl, fun _ => by omega⟩, rfl, rfl, rfl, rfl, rfl, hs', rfl,
      by rcases hbe with ⟨rfl, _⟩ | ⟨rfl, _⟩ <;> simp [Lx.tk], .inl ⟨rfl, rfl⟩, ?_⟩
    intro c hc
    simp only [Option.some.injEq] at hc
    subst hc
    exact .heredoc doc e (by rcases hbe with ⟨_, rfl⟩ | ⟨_, rfl⟩ <;> simp [EndType]) start k l.heredocStack rfl hlt (by
      rcases hs with ⟨_, b, c⟩ | h
      · exact .inl ⟨by omega, c⟩
      · exact .inr h) hd

theorem docCommentLoop_pos (c : Char) (cs : Str) (h : c ≠ NUL) : 1 ≤ (docCommentLoop true (c :: cs)).2 := by
  unfold docCommentLoop
  simp [h]
  split <;> simp

theorem commentLen_pos (s : Str) : 1 ≤ commentLen s := by simp [commentLen]

theorem digitRun_pos (p : Char → Bool) (s : Str) (h : p (s.ch 0) = true) (hs : s ≠ []) :
    1 ≤ (digitRun p s).2 := by
  unfold digitRun
  split
  · simp at h; simp [h]
  · simp at h; simp [h]
  · exact absurd rfl hs

theorem isDigit_nul : isDigit NUL = false := by decide

theorem decimal_pos (s : Str) (h : isDigit (s.ch 0) = true) : 1 ≤ (decimal s).2 := by
  have hs : s ≠ [] := by rintro rfl; simp [List.ch_nil, isDigit_nul] at h
  have := digitRun_pos isDigit s h hs
  unfold decimal
  simp only
  split <;> simp <;> omega

theorem numeric_pos (s : Str) (h : isDigit (s.ch 0) = true) : 1 ≤ (numeric s).2 ∨ ∃ c, (numeric s).1 = .bad c := by
  unfold numeric
  split
  · repeat' split
    all_goals first
      | (unfold prefixed; split <;> (left; simp))
      | (left; simp; done)
      | (right; exact ⟨_, rfl⟩)
      | (left; exact decimal_pos s h)
  · left; exact decimal_pos s h

theorem keywordAt_pos (l : Lx) (t : Ttype) (n : Nat) (h : l.keywordAt = some (t, n)) :
    1 ≤ n ∧ t.isKeyword = true ∧ ∃ w, t.value = some w ∧ w.length = n ∧ matchWord l.rest w = true := by
  unfold Lx.keywordAt at h
  split at h
  · rename_i hs
    simp only [Option.some.injEq, Prod.mk.injEq] at h
    obtain ⟨rfl, rfl⟩ := h
    exact ⟨by omega, rfl, _, rfl, rfl, hs.2.2.1⟩
  · split at h
    · cases hf : keywords.find? (fun k => matchWord l.rest k.1) with
      | none => simp [hf] at h
      | some k =>
        simp only [hf, Option.map_some, Option.some.injEq, Prod.mk.injEq] at h
        obtain ⟨rfl, rfl⟩ := h
        have hm := List.mem_of_find?_eq_some hf
        have hp := List.find?_some hf
        have hall : ∀ k ∈ keywords, 1 ≤ k.1.length ∧ k.2.isKeyword = true ∧ k.2.value = some k.1 := by
          decide
        obtain ⟨a, b, c⟩ := hall k hm
        exact ⟨a, b, k.1, c, rfl, hp⟩
    · simp at h

theorem unicodeList_bad (fuel : Nat) (s : Str) (t : Ttype) (n : Nat) (h : unicodeList fuel s = .bad t n) :
    t = .InvalidUnicodeEscape := by
  induction fuel generalizing s n with
  | zero => simp [unicodeList] at h
  | succ fuel ih =>
    unfold unicodeList at h
    split at h
    · simp at h
    split at h
    · simp at h; exact h.1.symm
    dsimp only at h
    split at h
    · simp at h
    · split at h <;> simp at h
      rename_i hu
      exact ih _ _ (h.1 ▸ hu)

theorem escapedByte_bad (s : Str) (t : Ttype) (n : Nat) (h : escapedByte s = .bad t n) :
    t = .InvalidUnicodeEscape ∨ t = .InvalidCharacterEscape := by
  unfold escapedByte at h
  ite_at h as c1
  · simp at h
  ite_at h as c2
  · simp at h
  ite_at h as c3
  · ite_at h as c4
    · cases hu : unicodeList (s.length + 1) (s.drop 2) <;> simp [hu] at h
      exact .inl (h.1 ▸ unicodeList_bad _ _ _ _ hu)
    · cases hu : utf8Encode (hexNumber (s.drop 1) 4).1 <;> dsimp only at h <;> rw [hu] at h <;> simp at h
  ite_at h as c4
  · simp at h
  ite_at h as c5
  · simp at h
  ite_at h as c6
  · rcases hc : controlChar false s with ⟨_ | _, _⟩ <;> simp [hc] at h
    exact .inr h.1.symm
  ite_at h as c7
  · simp at h
  ite_at h as c8
  · simp at h
  ite_at h as c9
  · ite_at h as c10
    · ite_at h as c11
      · rcases hc : controlChar true (s.drop 3) with ⟨_ | _, _⟩ <;> simp [hc] at h
      · simp at h
    · simp at h; exact .inr h.1.symm
  iterate 6
    ite_at h as c10
    · simp at h
  simp at h

theorem isKeyword_facts : ∀ t : Ttype, t.isKeyword = true → t ≠ .Eof ∧ t.isValid = true ∧ t ≠ .Comment ∧ t ≠ .Doc := by
  intro t; cases t <;> decide

namespace Shape

theorem bareName (l : Lx) (t : Ttype) (ht : t ≠ .Eof) : Shape l (l.bareName t) := by
  unfold Lx.bareName
  extract_lets r c d
  have hr : 1 ≤ r.2 := consumeWord_pos _
  repeat' split
  all_goals exact opLit _ _ _ _ (fun _ => by omega) (by first | exact ht | decide)

theorem lexWord (l : Lx) : Shape l l.lexWord := by
  unfold Lx.lexWord
  split
  · rename_i t n hk
    obtain ⟨hn, hkw, _⟩ := keywordAt_pos l t n hk
    split
    · exact opLit _ _ _ _ (fun _ => by omega) (by decide)
    · exact op _ _ _ hn (isKeyword_facts t hkw).1
  · extract_lets c r
    repeat' split
    · exact bareName _ _ (by decide)
    · exact bareName _ _ (by decide)
    · exact opLit _ _ _ _ (fun h => absurd h (by decide)) (by decide)

theorem setTernary (l : Lx) (n : Nat) (t : Ttype) (b : Bool) (hn : 1 ≤ n) (ht : t ≠ .Eof) :
    Shape l { tok := l.tk t, lx := { l.adv n with openTernary := b } } :=
  ⟨rfl, ⟨n, rfl, fun _ => hn⟩, rfl, rfl, rfl, rfl, rfl, .same, rfl, ht, .inl ⟨rfl, rfl⟩, by simp⟩

theorem lexColon (l : Lx) : Shape l l.lexColon := by
  unfold Lx.lexColon
  extract_lets c o
  split
  · exact op _ _ _ (by omega) (by decide)
  split
  · exact op _ _ _ (by omega) (by decide)
  split
  · exact doubleQuoted _ _ _ _ _ _ (by omega) (by decide) (by simp [EndType]) (by decide)
  split
  · have h := singleQuotedString_adv l 2 '\'' '\'' (by omega)
    have hs := singleQuotedString l 2 '\'' '\'' (by omega)
    exact setTok l _ _ hs (by
        rcases hs.pos with ⟨a, _⟩ | ⟨a, _⟩
        · exact a.symm
        · exact absurd a h.2) (by
        rcases hs.pos with ⟨_, a⟩ | ⟨a, _⟩
        · exact a.symm
        · exact absurd a h.2) hs.ws.symm (by simp [Lx.tkLit, Lx.tk]) h.2 h.1
  split
  · exact setTernary _ _ _ _ (by omega) (by decide)
  split
  · exact opLit _ _ _ _ (fun _ => by omega) (by decide)
  · exact opLit _ _ _ _ (fun _ => by omega) (by decide)

attribute [local irreducible] Lx.heredoc in
theorem lexLess (l : Lx) (hc : l.ch 0 = '<') : Shape l l.lexLess := by
  have hlt : l.ch 1 = '<' → cs! "<<" <:+: l.input := by
    intro h1
    obtain ⟨r, hr⟩ := l.rest.ch_zero_cons '<' hc (by decide)
    have h1' : r.ch 0 = '<' := by simpa [Lx.ch, hr] using h1
    obtain ⟨r', hr'⟩ := r.ch_zero_cons '<' h1' (by decide)
    refine ⟨l.input.take l.cur.index, r', ?_⟩
    have := List.take_append_drop l.cur.index l.input
    rw [show l.input.drop l.cur.index = _ from hr, hr'] at this
    simpa using this
  unfold Lx.lexLess
  by_cases h1 : l.ch 1 = '<'
  · rw [if_pos h1]
    repeat' split
    all_goals first
      | exact op _ _ _ (by omega) (by decide)
      | exact (heredoc_out _).shape (hlt h1)
  · rw [if_neg h1]
    repeat' split
    all_goals exact op _ _ _ (by omega) (by decide)

theorem lexNumber (l : Lx) (h : isDigit (l.ch 0) = true) : Shape l l.lexNumber := by
  unfold Lx.lexNumber
  extract_lets r l'
  have hr : 1 ≤ r.2 ∨ ∃ c, r.1 = .bad c := numeric_pos _ h
  split
  all_goals rename_i x hx
  · have hr : 1 ≤ r.2 := by rcases hr with h | ⟨c, h⟩; exact h; simp [hx] at h
    exact ⟨rfl, ⟨r.2, rfl, fun _ => hr⟩, rfl, rfl, rfl, rfl, rfl, .same, rfl, nofun, .inl ⟨rfl, rfl⟩, by simp⟩
  · have hr : 1 ≤ r.2 := by rcases hr with h | ⟨c, h⟩; exact h; simp [hx] at h
    exact ⟨rfl, ⟨r.2, rfl, fun _ => hr⟩, rfl, rfl, rfl, rfl, rfl, .same, rfl, by simp [Lx.tkLit, Lx.tk],
      .inl ⟨rfl, rfl⟩, by simp⟩
  · have hr : 1 ≤ r.2 := by rcases hr with h | ⟨c, h⟩; exact h; simp [hx] at h
    exact ⟨rfl, ⟨r.2, rfl, fun _ => hr⟩, rfl, rfl, rfl, rfl, rfl, .same, rfl, nofun, .inl ⟨rfl, rfl⟩, by simp⟩
  · exact ⟨rfl, ⟨r.2, rfl, fun h => by simp [Lx.tkCurLit, Lx.tkCur, Ttype.isValid, Ttype.value] at h⟩, rfl, rfl, rfl, rfl, rfl, .same, rfl,
      by simp [Lx.tkCurLit, Lx.tkCur], .inr ⟨rfl, rfl, rfl⟩, by simp⟩

theorem lexDollar (l : Lx) (o : Out) (h : l.lexDollar = .ok o) : Shape l o := by
  unfold Lx.lexDollar at h
  split at h
  · cases h; exact opLit _ _ _ _ (fun _ => by omega) (by decide)
  split at h
  · extract_lets ds at h
    split at h
    · cases h
      exact ⟨rfl, ⟨1 + ds.length, rfl, fun _ => by omega⟩, rfl, rfl, rfl, rfl, rfl, .same, rfl, nofun,
        .inl ⟨rfl, rfl⟩, by simp⟩
    · simp at h
  · cases h
    unfold Lx.globalVariable
    repeat' split
    all_goals exact opLit _ _ _ _ (fun _ => by simp [consumeWord]) (by decide)

theorem lexQuestion (l : Lx) (o : Out) (h : l.lexQuestion = .ok o) : Shape l o := by
  unfold Lx.lexQuestion at h
  extract_lets c at h
  split at h
  · cases h; exact setTernary _ _ _ _ (by omega) (by decide)
  split at h
  · split at h <;> cases h
    · exact opLit _ _ _ _ (fun _ => by omega) (by decide)
    · rename_i t n he
      exact opLit _ _ _ _ (fun _ => by omega) (by rcases escapedByte_bad _ _ _ he with rfl | rfl <;> decide)
  · cases h; exact opLit _ _ _ _ (fun _ => by omega) (by decide)

theorem lexNewline (l : Lx) : Shape l l.lexNewline := by
  unfold Lx.lexNewline
  extract_lets l1
  split
  · exact ⟨rfl, ⟨1, rfl, fun _ => by omega⟩, rfl, rfl, rfl, rfl, rfl, .same, rfl, by simp [Lx.tk], .inl ⟨rfl, rfl⟩,
      by simp⟩
  · rename_i new tl hst
    exact ⟨rfl, ⟨1 + (new - l1.cur.index), by simp only [l1, Lx.adv_adv]; rfl, fun _ => by omega⟩, rfl, rfl, rfl, rfl,
      rfl, .clear, rfl, by simp [Lx.tk], .inl ⟨rfl, rfl⟩, by simp⟩

theorem dispatch (l : Lx) (o : Out) (h : l.dispatch = .ok o) : Shape l o := by
  have hd := dispatch_disp l
  rw [h] at hd
  generalize hr : Res.ok o = r at hd
  cases hd
  case question => exact lexQuestion l o hr.symm
  case dollar => exact lexDollar l o hr.symm
  all_goals (obtain rfl : o = _ := by simpa using hr)
  case less hc =>
    exact lexLess l hc
  case colon => exact lexColon l
  case newline => exact lexNewline l
  case digit hc => exact lexNumber l hc
  case word => exact lexWord l
  case squote => exact singleQuotedString _ _ _ _ (by omega)
  case dquote => exact doubleQuoted _ _ _ _ _ _ (by omega) (by decide) (by simp [EndType]) (by decide)
  case hash hc =>
    unfold Lx.lexHash
    split
    · refine opLit _ _ _ _ (fun _ => ?_) (by decide)
      obtain ⟨r, hr⟩ := l.rest.ch_zero_cons '#' hc (by decide)
      rw [hr]; exact docCommentLoop_pos _ _ (by decide)
    · exact op _ _ _ (commentLen_pos _) (by decide)
  case percent =>
    unfold Lx.lexPercent
    extract_lets c
    repeat' split
    all_goals first
      | exact op _ _ _ (by omega) (by decide)
      | exact percentString _ _ _ (by omega)
  case i =>
    unfold Lx.lexI
    split
    · exact op _ _ _ (by omega) (by decide)
    · exact lexWord l
  case r =>
    unfold Lx.lexR
    repeat' split
    all_goals first
      | exact op _ _ _ (by omega) (by decide)
      | exact lexWord l
  case slash =>
    unfold Lx.lexSlash
    repeat' split
    all_goals first
      | exact op _ _ _ (by omega) (by decide)
      | exact regexp _ _ _ _ (by omega) (by decide)
  case backtick =>
    unfold Lx.lexBacktick
    split
    · exact opLit _ _ _ _ (fun _ => by omega) (by decide)
    · exact doubleQuoted _ _ _ _ _ _ (by omega) (by decide) (by simp [EndType]) (by decide)
  case «at» =>
    unfold Lx.lexAt
    split
    · exact opLit _ _ _ _ (fun _ => by omega) (by decide)
    · exact opLit _ _ _ _ (fun _ => consumeWord_pos _) (by decide)
  case equal =>
    unfold Lx.lexEqual
    repeat' split
    all_goals first
      | exact op _ _ _ (by omega) (by decide)
      | exact opLit _ _ _ _ (fun _ => by omega) (by decide)
  all_goals
    try unfold Lx.lexPlus
    try unfold Lx.lexMinus
    try unfold Lx.lexStar
    try unfold Lx.lexBang
    try unfold Lx.lexGreater
    try unfold Lx.lexAmpersand
    try unfold Lx.lexPipe
    try unfold Lx.lexCaret
    try unfold Lx.lexTilde
    try unfold Lx.lexDot
    try unfold Lx.lexLBracket
    repeat' split
    all_goals first
      | exact op _ _ _ (by omega) (by decide)
      | exact opLit _ _ _ _ (fun _ => by omega) (by decide)

end Shape

end NP
