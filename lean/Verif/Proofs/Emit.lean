import Verif.Model.Emit
import Verif.Proofs.Number

/-! Runs of tokens of a stack of lexer objects. -/

namespace NP

open Spec

theorem Emits.trans {a b c : List Lx} {ts us : List Token} (h : Emits a ts b) (h' : Emits b us c) :
    Emits a (ts ++ us) c := by
  induction h with
  | done => exact h'
  | token st st1 st' t ts h hp hs ih => exact .token _ _ _ _ _ h hp (ih h')
  | same st st1 st' ts h hs ih => exact .same _ _ _ _ h (ih h')

theorem Emits.one {st st1 : List Lx} {t : Token} (h : next st = .ok (t, st1)) (hp : plainType t.type = true) :
    Emits st [t] (setLast t.type st1) := .token _ _ _ _ _ h hp (.done _)

theorem setLast_cons (t : Ttype) (c : Lx) (P : List Lx) (h : P ≠ []) : setLast t (c :: P) = c :: setLast t P := by
  cases P with
  | nil => exact absurd rfl h
  | cons p ps => rfl

theorem setLast_ne (t : Ttype) (P : List Lx) (h : P ≠ []) : setLast t P ≠ [] := by
  cases P with
  | nil => exact absurd rfl h
  | cons p ps => cases ps <;> simp [setLast]

theorem setLast_setLast (t u : Ttype) (P : List Lx) : setLast t (setLast u P) = setLast t P := by
  induction P with
  | nil => rfl
  | cons p ps ih =>
    cases ps with
    | nil => rfl
    | cons q qs =>
      rw [setLast_cons u p _ (by simp), setLast_cons t p _ (setLast_ne _ _ (by simp)), ih, setLast_cons t p _ (by simp)]

theorem next_step (c : Lx) (P : List Lx) (o : Out) (h : c.step = .ok o) (he : o.tok.type ≠ .Eof) :
    next (c :: P) = .ok (o.tok, o.child.toList ++ o.lx :: P) := by
  cases P with
  | nil => show nextToken c [] = _; rw [nextToken, h]
  | cons p ps => show nextToken c (p :: ps) = _; rw [nextToken, h]; simp only; rw [if_neg he]

theorem next_pop (c p : Lx) (ps : List Lx) (o : Out) (h : c.step = .ok o) (he : o.tok.type = .Eof) :
    next (c :: p :: ps) = next (p.sync o.lx :: ps) := by
  show nextToken c (p :: ps) = nextToken _ ps
  rw [nextToken, h]; simp only; rw [if_pos he]

/-- The head of a stack whose outermost object gets a new last token. -/
theorem setLast_head (t : Ttype) (p : Lx) (ps : List Lx) :
    ∃ lt qs, setLast t (p :: ps) = { p with lastType := lt } :: qs ∧
      ∀ q : Lx, q.lastType = p.lastType → setLast t (q :: ps) = { q with lastType := lt } :: qs := by
  cases ps with
  | nil => exact ⟨t, [], rfl, fun q _ => rfl⟩
  | cons a tl =>
    refine ⟨p.lastType, setLast t (a :: tl), rfl, fun q hq => ?_⟩
    rw [← hq]
    rfl

/-- A nested lexer that has finished is removed; its parent goes on where it stopped. -/
theorem Emits.pop {c p : Lx} {ps : List Lx} {o : Out} (t : Ttype) (h : c.step = .ok o) (he : o.tok.type = .Eof) :
    Emits (c :: setLast t (p :: ps)) [] (setLast t (p.sync o.lx :: ps)) := by
  obtain ⟨lt, qs, h1, h2⟩ := setLast_head t p ps
  have h3 := h2 (p.sync o.lx) (by unfold Lx.sync; split <;> rfl)
  rw [h1, h3]
  refine .same _ _ _ _ (next_pop c _ qs o h he) ?_
  have : Lx.sync { p with lastType := lt } o.lx = { p.sync o.lx with lastType := lt } := by
    unfold Lx.sync; split <;> rfl
  rw [this]
  exact .done _

/-- The loop of `tokens()` on a stack. -/
def tokensSt (fuel : Nat) (st : List Lx) (f : Filt) : Res (List Token) :=
  match fuel, st with
  | 0, _ => .fuel
  | _ + 1, [] => .abort
  | fuel + 1, l :: ps => tokensLoop (fuel + 1) l ps f

theorem tokensSt_congr (fuel : Nat) (a b : List Lx) (f : Filt) (h : next a = next b) (hb : next b ≠ .abort) :
    tokensSt fuel a f = tokensSt fuel b f := by
  cases fuel with
  | zero => rfl
  | succ fuel =>
    cases a with
    | nil => exact absurd h.symm hb
    | cons l ps =>
      cases b with
      | nil => exact absurd rfl hb
      | cons m qs =>
        show tokensLoop _ l ps f = tokensLoop _ m qs f
        rw [tokensLoop, tokensLoop, show nextToken l ps = nextToken m qs from h]

theorem plain_facts {t : Ttype} (h : plainType t = true) :
    t ≠ .Comment ∧ t ≠ .Doc ∧ t ≠ .Newline ∧ t ≠ .Eof ∧ t.isValid = true := by
  simpa [plainType, and_assoc] using h

/-- A plain token is appended. -/
theorem Filt.step_plain (f : Filt) (t : Token) (h : plainType t.type = true) :
    ∃ f' t', f.step t = (f', some t') ∧ t'.type = t.type ∧ t'.lit = t.lit := by
  obtain ⟨h1, h2, h3, -⟩ := plain_facts h
  unfold Filt.step
  rw [if_neg h1, if_neg h2, if_neg (fun h => h3 h.2)]
  refine ⟨_, _, rfl, ?_, ?_⟩
  all_goals (split <;> (try split_ifs) <;> rfl)

theorem tokensSt_token (fuel : Nat) (st st1 : List Lx) (t : Token) (f : Filt) (h : next st = .ok (t, st1))
    (hp : plainType t.type = true) :
    tokensSt (fuel + 1) st f = tokensSt fuel (setLast t.type st1) (f.step t).1 ∨ (fuel = 0 ∨ st1 = []) := by
  by_cases hf : fuel = 0
  · exact .inr (.inl hf)
  by_cases hs : st1 = []
  · exact .inr (.inr hs)
  left
  cases st with
  | nil => cases h
  | cons l ps =>
    obtain ⟨f', t', e1, e2, -⟩ := f.step_plain t hp
    obtain ⟨-, -, -, h4, h5⟩ := plain_facts hp
    show tokensLoop _ l ps f = _
    rw [tokensLoop, show nextToken l ps = .ok (t, st1) from h]
    simp only
    rw [e1]
    simp only
    rw [if_neg (by rw [e2]; simp [h4, h5]), e2]
    have := setLast_ne t.type st1 hs
    cases hst : setLast t.type st1 with
    | nil => exact absurd hst this
    | cons a tl =>
      cases fuel with
      | zero => exact absurd rfl hf
      | succ n => rfl

/-- What `tokens()` does while the stack emits plain tokens. -/
theorem Emits.loop {st st' : List Lx} {ts : List Token} (h : Emits st ts st') (hne : next st' ≠ .abort) :
    ∀ (fuel : Nat) (f : Filt), 0 < fuel →
      tokensSt (ts.length + fuel) st f = tokensSt fuel st' (ts.foldl (fun f t => (f.step t).1) f) ∧ next st ≠ .abort := by
  induction h with
  | done => intro fuel f _; simp [hne]
  | same st st1 st' ts h hs ih =>
    intro fuel f hf
    obtain ⟨h1, h2⟩ := ih hne fuel f hf
    refine ⟨?_, by rw [h]; exact h2⟩
    rw [tokensSt_congr _ _ _ _ h h2, h1]
  | token st st1 st' t ts h hp hs ih =>
    intro fuel f hf
    obtain ⟨h1, h2⟩ := ih hne fuel (f.step t).1 hf
    refine ⟨?_, by rw [h]; simp⟩
    have hl : (t :: ts).length + fuel = (ts.length + fuel) + 1 := by simp; omega
    rw [hl]
    rcases tokensSt_token (ts.length + fuel) st st1 t f h hp with h3 | h3 | h3
    · rw [h3, h1]; rfl
    · omega
    · subst h3; exact absurd rfl h2

/-- Plain tokens without a pending documentation comment simply go to the vector. -/
theorem Filt.fold_plain (ts : List Token) (hp : ∀ t ∈ ts, plainType t.type = true) : ∀ f : Filt, f.lastDoc = none →
    (∀ t ∈ f.out, t.type ≠ .Newline) →
    (ts.foldl (fun f t => (f.step t).1) f).out = ts.reverse ++ f.out ∧
    (ts.foldl (fun f t => (f.step t).1) f).lastDoc = none := by
  induction ts with
  | nil => intro f h _; exact ⟨rfl, h⟩
  | cons t ts ih =>
    intro f hd hn
    obtain ⟨h1, h2, h3, h4, h5⟩ := plain_facts (hp t List.mem_cons_self)
    have hpop : popNewlines f.out = f.out := by
      unfold popNewlines
      cases ho : f.out with
      | nil => rfl
      | cons a tl =>
        have := hn a (by rw [ho]; exact List.mem_cons_self)
        rw [List.dropWhile_cons]
        simp [this]
    have hs : (f.step t).1 = { out := t :: f.out, skip := t.type.canPrecedeCollapsibleNewline, lastDoc := none } := by
      unfold Filt.step
      rw [if_neg h1, if_neg h2, if_neg (fun h => h3 h.2)]
      simp only [hpop, hd, ite_self]
    rw [List.foldl_cons]
    obtain ⟨e1, e2⟩ := ih (fun u hu => hp u (List.mem_cons_of_mem _ hu)) (f.step t).1 (by rw [hs]) (by
      rw [hs]
      intro u hu
      rcases List.mem_cons.1 hu with rfl | hu
      · exact h3
      · exact hn u hu)
    refine ⟨?_, e2⟩
    rw [e1, hs]
    simp

theorem Emits.plain {st st' : List Lx} {ts : List Token} (h : Emits st ts st') : ∀ t ∈ ts, plainType t.type = true := by
  induction h with
  | done => intro t ht; cases ht
  | same _ _ _ _ _ _ ih => exact ih
  | token _ _ _ t ts _ hp _ ih =>
    intro u hu
    rcases List.mem_cons.1 hu with rfl | hu
    · exact hp
    · exact ih u hu

/-- If all of a source has been turned into plain tokens, these and an `Eof` token are what `tokens()` returns. -/
theorem Emits.lexes {src : Str} {ts : List Token} {l : Lx} (h : Emits [Lx.init src] ts [l]) (hk : l.kind = .base)
    (hr : Blank l.rest) : ∃ e, e.type = .Eof ∧ Lexes src (ts ++ [e]) := by
  have hsk : l.skipped = l.rest.length := by
    rw [show l.skipped = skipWs l.rest by rw [Lx.skipped, hk]]
    have := blank_skipWs hr [] (fun b r _ he => (List.append_eq_nil_iff.1 he.symm).1)
    rwa [List.append_nil] at this
  have hstep : l.step = .ok { tok := l.start.tkCur .Eof, lx := l.start.post .Eof } := by
    unfold Lx.step Lx.build
    rw [Lx.start_kind, hk]
    simp only
    unfold Lx.buildBase
    rw [if_pos]
    · rfl
    · rw [Lx.start_input, Lx.start_cur, Cursor.nextN_index, hsk]
      unfold Lx.rest
      rw [List.length_drop]
      omega
  have hnext : next [l] = .ok (l.start.tkCur .Eof, [l.start.post .Eof]) := by
    show nextToken l [] = _
    rw [nextToken, hstep]
    rfl
  obtain ⟨h1, -⟩ := h.loop (by rw [hnext]; simp) 1 {} (by decide)
  obtain ⟨h2, h3⟩ := Filt.fold_plain ts h.plain {} rfl (fun t ht => by cases ht)
  refine ⟨l.start.tkCur .Eof, rfl, ts.length + 1, ?_, by simp⟩
  have hl : tokensFuel (ts.length + 1) src = tokensSt (ts.length + 1) [Lx.init src] {} := rfl
  rw [hl, h1]
  generalize hf : ts.foldl (fun f t => (Filt.step f t).1) {} = f at h2 h3 ⊢
  show tokensLoop 1 l [] f = _
  rw [tokensLoop, show nextToken l [] = _ from hnext]
  simp only
  have hs : f.step (l.start.tkCur .Eof) =
      ({ out := l.start.tkCur .Eof :: f.out, skip := false, lastDoc := none }, some (l.start.tkCur .Eof)) := by
    unfold Filt.step
    rw [if_neg (by simp [Lx.tkCur]), if_neg (by simp [Lx.tkCur]), if_neg (by simp [Lx.tkCur])]
    simp only [h3]
    rfl
  rw [hs]
  simp only
  rw [if_pos (.inl rfl), h2]
  simp

/-- A step of a plain lexer in front of `s`, when the object goes on to `dispatch` without counting pairs. -/
theorem base_start (l : Lx) (hk : l.kind = .base) (hst : l.stopChar = NUL ∨ l.stopChar = '}') (pre s : Str)
    (hr : l.rest = pre ++ s) (hb : Blank pre) (hs : NoBlank s) (hne : s ≠ []) (hEF : s.ch 0 ≠ '\xEF')
    (hbr : s.ch 0 ≠ '}') (hsc : l.startChar = NUL ∨ s.ch 0 ≠ l.startChar) :
    l.start.build = l.start.dispatch ∧ l.start.rest = s ∧ l.skipped = pre.length := by
  have hsk : l.skipped = pre.length := by
    rw [show l.skipped = skipWs l.rest by rw [Lx.skipped, hk], hr, blank_skipWs hb s hs]
  have hrest : l.start.rest = s := by rw [l.start_rest, hsk, hr, List.drop_left]
  have hlen : ¬ (l.start.cur.index ≥ l.start.input.length) := by
    intro h
    apply hne
    rw [← hrest]
    exact List.drop_of_length_le h
  have hch : l.start.ch 0 = s.ch 0 := by unfold Lx.ch; rw [hrest]
  have hstop : ¬ (l.start.stopChar ≠ NUL ∧ l.start.ch 0 = l.start.stopChar) := by
    rw [show l.start.stopChar = l.stopChar from rfl, hch]
    rintro ⟨h1, h2⟩
    rcases hst with h | h
    · exact h1 h
    · rw [h] at h2; exact hbr h2
  have hstart : ¬ (l.start.startChar ≠ NUL ∧ l.start.ch 0 = l.start.startChar) := by
    rw [show l.start.startChar = l.startChar from rfl, hch]
    rintro ⟨h1, h2⟩
    rcases hsc with h | h
    · exact h1 h
    · exact h h2
  refine ⟨?_, hrest, hsk⟩
  unfold Lx.build
  rw [Lx.start_kind, hk]
  simp only
  rw [Lx.buildBase, if_neg hlen, if_neg hstart, if_neg hstop, if_neg (by rw [hch]; exact fun h => hEF h.2)]

end NP
