import Verif.Model.Parser
import Verif.Spec.Filter

/-!
Reasoning about functions of the parser: a weakest precondition, the invariant of the token position and rules for the
primitive operations and for loops.
-/

namespace NP

open Spec

/-- `p` started in `s` neither exhausts the fuel, nor leaves the token vector, nor runs into undefined behaviour; and if
it returns, `Q` holds. -/
def wp {α : Type} (p : P α) (c : Cx) (s : PS) (Q : α → PS → Prop) : Prop :=
  match p c s with
  | .ok a s' => Q a s'
  | .err _ => True
  | .abort => True
  | .ub => False
  | .overrun => False
  | .fuel => False

/-- A token that can be formatted in a message. -/
def Fmt (t : Token) : Prop := t.type = .Invalid → t.lit ≠ none

/-- The weight of a token: a newline may be put back in exchange for any other token. -/
def wt (t : Ttype) : Nat := if t = .Newline then 1 else 2

/-- The weight of the tokens left. -/
def W (s : PS) : Nat := (s.rest.map fun t => wt t.type).sum
def D (s : PS) : Nat := s.depth.length
def K (s : PS) : Nat := s.precs.length

/-- What stays the same while a vector is parsed: its last token, and its tokens other than newlines. -/
structure Env where
  last : Token
  all : List Token

/-- The tokens other than newlines. -/
def noNewlines (ts : List Token) : List Token := ts.filter fun t => t.type != .Newline

/-- The tokens left end with the terminal token of the vector, and no other token is terminal. The vector is the one
given, up to newlines. -/
structure Inv (e : Env) (s : PS) : Prop where
  last : ∃ pre, s.rest = pre ++ [e.last] ∧ ∀ t ∈ pre, ¬ Terminal t.type ∧ Fmt t
  term : Terminal e.last.type
  fmt : Fmt e.last
  prev : ∀ t ∈ s.prev, ¬ Terminal t.type ∧ Fmt t
  all : noNewlines (s.prev.reverse ++ s.rest) = e.all

/-- What a function does to the position: at least `m` of the weight is used up. -/
def Runs {α : Type} (e : Env) (m : Nat) (p : P α) (c : Cx) (s : PS) (A : α → PS → Prop) : Prop :=
  wp p c s fun a s' => Inv e s' ∧ W s' + m ≤ W s ∧ D s ≤ D s' ∧ K s' = K s ∧ A a s'

section rules
variable {α β σ : Type} {e : Env} {c : Cx} {s : PS}

theorem wp_mono {p : P α} {Q Q' : α → PS → Prop} (h : wp p c s Q) (k : ∀ a s', Q a s' → Q' a s') : wp p c s Q' := by
  unfold wp at *
  split <;> rename_i heq <;> rw [heq] at h <;> first | exact k _ _ h | trivial | exact h

theorem wp_bind {p : P α} {f : α → P β} {Q : β → PS → Prop} (h : wp p c s fun a s' => wp (f a) c s' Q) :
    wp (p >>= f) c s Q := by
  show wp (P.bind p f) c s Q
  unfold wp P.bind at *
  revert h
  cases p c s <;> exact id

theorem wp_pure {a : α} {Q : α → PS → Prop} (h : Q a s) : wp (pure a) c s Q := h
theorem wp_cur {Q : Token → PS → Prop} (h : Q s.cur s) : wp cur c s Q := h
theorem wp_curTy {Q : Ttype → PS → Prop} (h : Q s.cur.type s) : wp curTy c s Q := h
theorem wp_peek {Q : Token → PS → Prop} (h : Q s.peek s) : wp peek c s Q := h
theorem wp_prevTok {Q : Token → PS → Prop} (h : Q s.prevTok s) : wp prevTok c s Q := h
theorem wp_get {Q : PS → PS → Prop} (h : Q s s) : wp P.get c s Q := h
theorem wp_throw {x : SErr} {Q : α → PS → Prop} : wp (P.throw x) c s Q := trivial
theorem wp_abort {Q : α → PS → Prop} : wp (P.abort) c s Q := trivial
theorem wp_ite {p : Prop} [Decidable p] {x y : P α} {Q : α → PS → Prop} (h1 : p → wp x c s Q)
    (h2 : ¬ p → wp y c s Q) : wp (if p then x else y) c s Q := by
  split
  · exact h1 ‹_›
  · exact h2 ‹_›

theorem wp_litOf {t : Token} {Q : Str → PS → Prop} (h : ∀ n, t.lit = some n → Q n s) : wp (litOf t) c s Q := by
  unfold litOf
  split
  · exact h _ ‹_›
  · exact wp_abort

theorem wp_of_runs {m : Nat} {p : P α} {A : α → PS → Prop} {Q : α → PS → Prop} (h : Runs e m p c s A)
    (k : ∀ a s', Inv e s' → W s' + m ≤ W s → D s ≤ D s' → K s' = K s → A a s' → Q a s') : wp p c s Q :=
  wp_mono h fun a s' ⟨h1, h2, h3, h4, h5⟩ => k a s' h1 h2 h3 h4 h5

theorem wt_pos (t : Ttype) : 1 ≤ wt t := by unfold wt; split <;> omega
theorem wt_le (t : Ttype) : wt t ≤ 2 := by unfold wt; split <;> omega

theorem Inv.cur_fmt (i : Inv e s) : Fmt s.cur := by
  obtain ⟨pre, h, hp⟩ := i.last
  unfold PS.cur
  rw [h]
  cases pre with
  | nil => exact i.fmt
  | cons t ts => exact (hp t (by simp)).2

theorem Inv.congr {s' : PS} (i : Inv e s) (h1 : s'.rest = s.rest) (h2 : s'.prev = s.prev) : Inv e s' :=
  ⟨h1 ▸ i.last, i.term, i.fmt, h2 ▸ i.prev, by rw [h1, h2]; exact i.all⟩

theorem Inv.cur_eof (i : Inv e s) (h : s.cur.type = .Eof) : s.rest = [e.last] ∧ e.last.type = .Eof := by
  obtain ⟨pre, hr, hp⟩ := i.last
  unfold PS.cur at h
  rw [hr] at h
  cases pre with
  | nil => exact ⟨hr, h⟩
  | cons t ts => exact absurd (Or.inl h) (hp t (by simp)).1

theorem wp_advance {Q : Unit → PS → Prop} (i : Inv e s) (h : ¬ Terminal s.cur.type)
    (k : ∀ s', Inv e s' → W s' + wt s.cur.type = W s → 1 ≤ wt s.cur.type → D s' = D s → K s' = K s →
      s'.cur = s.peek → s'.prevTok = s.cur → s'.prev ≠ [] → Q () s') : wp advance c s Q := by
  obtain ⟨pre, hr, hp⟩ := i.last
  unfold wp advance
  cases pre with
  | nil => exact absurd (by simpa [PS.cur, hr] using i.term) h
  | cons t ts =>
    have hr' : s.rest = t :: (ts ++ [e.last]) := by simpa using hr
    rw [hr']
    refine k _ ⟨⟨ts, rfl, fun x hx => hp x (by simp [hx])⟩, i.term, i.fmt, ?_, ?_⟩ ?_ (wt_pos _) rfl rfl ?_ ?_ ?_
    · intro x hx
      rcases List.mem_cons.1 hx with rfl | hx
      · exact hp x (by simp)
      · exact i.prev x hx
    · rw [← i.all, hr']
      simp
    · simp [W, PS.cur, hr']
      omega
    · simp [PS.cur, PS.peek, hr']
    · simp [PS.cur, PS.prevTok, hr']
    · simp

theorem wp_rewind {Q : Unit → PS → Prop} (i : Inv e s) (h : s.prev ≠ [])
    (k : ∀ s', Inv e s' → W s' ≤ W s + 2 → D s' = D s → K s' = K s → Q () s') : wp rewind c s Q := by
  unfold wp rewind
  obtain ⟨pre, hr, hp⟩ := i.last
  cases hpr : s.prev with
  | nil => exact absurd hpr h
  | cons t ts =>
    have ht := i.prev t (by simp [hpr])
    refine k _ ⟨⟨t :: pre, by simp [hr], ?_⟩, i.term, i.fmt, fun x hx => i.prev x (by simp [hpr, hx]), ?_⟩ ?_ rfl rfl
    · intro x hx
      rcases List.mem_cons.1 hx with rfl | hx
      · exact ht
      · exact hp x hx
    · rw [← i.all, hpr]
      simp
    · have := wt_le t.type
      simp [W]
      omega

theorem wp_insertNewline {t : Token} {Q : Unit → PS → Prop} (i : Inv e s)
    (k : ∀ s', Inv e s' → W s' = W s + 1 → D s' = D s → K s' = K s → Q () s') : wp (insertNewline t) c s Q := by
  obtain ⟨pre, hr, hp⟩ := i.last
  refine k _ ⟨⟨{ type := .Newline, line := t.line, col := t.col, ws := t.ws } :: pre, by simp [hr], ?_⟩, i.term, i.fmt,
    i.prev, ?_⟩ ?_ rfl rfl
  · intro x hx
    rcases List.mem_cons.1 hx with rfl | hx
    · exact ⟨show ¬ Terminal Ttype.Newline by decide, fun h => by cases h⟩
    · exact hp x hx
  · rw [← i.all]
    simp [noNewlines]
  · simp [W, wt]
    omega

theorem isEndOfLine_nonterm {t : Ttype} (h : t.isEndOfLine = true) : ¬ Terminal t := by
  intro hT
  cases t <;> first | exact absurd h (by decide) | exact absurd hT (by decide)

theorem skipNewlines_go {e : Token} (ts : List Token) : ∀ (pre : List Token), Terminal e.type →
    (∀ t ∈ pre, ¬ Terminal t.type ∧ Fmt t) → (∀ t ∈ ts, ¬ Terminal t.type ∧ Fmt t) →
    ∃ q pr, skipNewlines.go pre (ts ++ [e]) = (pr, q ++ [e]) ∧ (∀ t ∈ q, ¬ Terminal t.type ∧ Fmt t) ∧
      (∀ t ∈ pr, ¬ Terminal t.type ∧ Fmt t) ∧ q.Sublist ts ∧
      pr.reverse ++ (q ++ [e]) = pre.reverse ++ (ts ++ [e]) ∧ ((q ++ [e]).headD {}).type.isEndOfLine = false ∧ (((ts ++ [e]).headD {}).type.isEndOfLine = false → q = ts) := by
  have hE : Terminal e.type → e.type.isEndOfLine = false := by
    intro h
    cases hh : e.type.isEndOfLine with
    | false => rfl
    | true => exact absurd h (isEndOfLine_nonterm hh)
  induction ts with
  | nil =>
    intro pre ht hp _
    refine ⟨[], pre, ?_, by simp, hp, by simp, rfl, hE ht, by simp⟩
    simp [skipNewlines.go, hE ht]
  | cons t ts ih =>
    intro pre ht hp hts
    by_cases h : t.type.isEndOfLine
    · obtain ⟨q, pr, h1, h2, h3, h4, h7, h5, h6⟩ := ih (t :: pre) ht (by
        intro x hx
        rcases List.mem_cons.1 hx with rfl | hx
        · exact hts _ (by simp)
        · exact hp x hx) (fun x hx => hts x (by simp [hx]))
      refine ⟨q, pr, ?_, h2, h3, h4.trans (List.sublist_cons_self _ _), by rw [h7]; simp, h5, ?_⟩
      · simp only [List.cons_append, skipNewlines.go, h, if_true]
        exact h1
      · intro hf
        simp [h] at hf
    · refine ⟨t :: ts, pre, ?_, hts, hp, List.Sublist.refl _, rfl, ?_, fun _ => rfl⟩
      · simp only [List.cons_append, skipNewlines.go]
        rw [if_neg h]
      · simpa using h

theorem W_sublist {a b : List Token} (h : a.Sublist b) :
    (a.map fun t => wt t.type).sum ≤ (b.map fun t => wt t.type).sum := by
  induction h with
  | slnil => simp
  | cons x _ ih => simp; omega
  | cons_cons x _ ih => simp; omega

theorem wp_skipNewlines {Q : Unit → PS → Prop} (i : Inv e s)
    (k : ∀ s', Inv e s' → W s' ≤ W s → D s' = D s → K s' = K s → s'.cur.type.isEndOfLine = false →
      (s.cur.type.isEndOfLine = false → s'.cur = s.cur ∧ s'.peek = s.peek ∧ W s' = W s) → Q () s') :
    wp skipNewlines c s Q := by
  obtain ⟨pre, hr, hp⟩ := i.last
  obtain ⟨q, pr, h1, h2, h3, h4, h7, h5, h6⟩ := skipNewlines_go (e := e.last) pre s.prev i.term i.prev hp
  unfold wp skipNewlines
  simp only [hr, h1]
  refine k _ ⟨⟨q, rfl, h2⟩, i.term, i.fmt, h3, ?_⟩ ?_ rfl rfl h5 ?_
  · rw [← i.all, hr, ← h7]
  · have := W_sublist h4
    simp [W, hr]
    omega
  · intro hc
    have : q = pre := h6 (by simpa [PS.cur, hr] using hc)
    subst this
    simp [PS.cur, PS.peek, W, hr]

theorem wp_throwTok {t : Token} {b : Bool} {m : Str} {Q : α → PS → Prop} (h : Fmt t) :
    wp (throwTok t b m) c s Q := by
  unfold wp throwTok
  by_cases hc : t.type = .Invalid ∧ t.lit = none
  · exact absurd hc.2 (h hc.1)
  · rw [if_neg hc]
    trivial

theorem wp_throwUnexpected {m : Str} {Q : α → PS → Prop} (i : Inv e s) : wp (throwUnexpected m) c s Q :=
  wp_throwTok i.cur_fmt

theorem wp_throwError {t : Token} {m : Str} {Q : α → PS → Prop} (h : Fmt t) : wp (throwError t m) c s Q :=
  wp_throwTok h

theorem wp_throwUnterminated {t u : Token} {Q : α → PS → Prop} : wp (throwUnterminated t u) c s Q := by
  unfold wp throwUnterminated
  dsimp only
  split <;> rename_i h <;> split at h <;> cases h <;> trivial

theorem wp_expect {ty : Ttype} {m : Str} {Q : Unit → PS → Prop} (i : Inv e s) (k : s.cur.type = ty → Q () s) :
    wp (expect ty m) c s Q := by
  unfold expect
  exact wp_bind (wp_curTy (wp_ite (fun h => wp_pure (k h)) fun _ => wp_throwUnexpected i))

theorem wp_nextExpression {Q : Unit → PS → Prop} (i : Inv e s)
    (k : ∀ s', Inv e s' → W s' ≤ W s → D s' = D s → K s' = K s → Q () s') : wp nextExpression c s Q := by
  unfold nextExpression
  exact wp_bind (wp_curTy (wp_ite (fun _ => wp_skipNewlines i fun s' a b c d _ _ => k s' a b c d)
    fun _ => wp_throwUnexpected i))

theorem wp_validateCurrent {Q : Unit → PS → Prop} (k : s.cur.type.value.isSome → Q () s) :
    wp validateCurrent c s Q := by
  unfold validateCurrent
  refine wp_bind (wp_cur ?_)
  split
  all_goals first | exact wp_throw | exact wp_throwUnterminated | skip
  exact wp_ite (fun h => wp_pure (k h)) fun _ => wp_abort

theorem wp_pushDepth {Q : Unit → PS → Prop} (i : Inv e s)
    (k : ∀ s', Inv e s' → W s' = W s → D s' = D s + 1 → K s' = K s → s'.cur = s.cur → s'.peek = s.peek → Q () s') :
    wp pushDepth c s Q :=
  k _ (i.congr rfl rfl) rfl (by simp [D]) rfl rfl rfl

theorem wp_popDepth {Q : Unit → PS → Prop} (i : Inv e s) (h : 0 < D s)
    (k : ∀ s', Inv e s' → W s' = W s → D s' + 1 = D s → K s' = K s → s'.cur = s.cur → s'.peek = s.peek → Q () s') :
    wp popDepth c s Q := by
  unfold wp popDepth
  cases hd : s.depth with
  | nil => simp [D, hd] at h
  | cons d ds => exact k _ (i.congr rfl rfl) rfl (by simp [D, hd]) rfl rfl rfl

theorem wp_bumpDepth {b : Nat} {Q : Unit → PS → Prop} (i : Inv e s) (h : 0 < D s)
    (k : ∀ s', Inv e s' → W s' = W s → D s' = D s → K s' = K s → s'.cur = s.cur → s'.peek = s.peek → Q () s') :
    wp (bumpDepth b) c s Q := by
  unfold wp bumpDepth
  cases hd : s.depth with
  | nil => simp [D, hd] at h
  | cons d ds => exact k _ (i.congr rfl rfl) rfl (by simp [D, hd]) rfl rfl rfl

theorem wp_incDepth {Q : Unit → PS → Prop} (i : Inv e s) (h : 0 < D s)
    (k : ∀ s', Inv e s' → W s' = W s → D s' = D s → K s' = K s → s'.cur = s.cur → s'.peek = s.peek → Q () s') :
    wp incDepth c s Q := wp_bumpDepth i h k

theorem wp_decDepth {Q : Unit → PS → Prop} (i : Inv e s) (h : 0 < D s)
    (k : ∀ s', Inv e s' → W s' = W s → D s' = D s → K s' = K s → s'.cur = s.cur → s'.peek = s.peek → Q () s') :
    wp decDepth c s Q := wp_bumpDepth i h k

theorem wp_pushPrec {p : Prec} {Q : Unit → PS → Prop} (i : Inv e s)
    (k : ∀ s', Inv e s' → W s' = W s → D s' = D s → K s' = K s + 1 → s'.cur = s.cur → s'.peek = s.peek → Q () s') :
    wp (pushPrec p) c s Q :=
  k _ (i.congr rfl rfl) rfl rfl (by simp [K]) rfl rfl

theorem wp_popPrec {Q : Unit → PS → Prop} (i : Inv e s) (h : 0 < K s)
    (k : ∀ s', Inv e s' → W s' = W s → D s' = D s → K s' + 1 = K s → s'.cur = s.cur → s'.peek = s.peek → Q () s') :
    wp popPrec c s Q := by
  unfold wp popPrec
  cases hd : s.precs with
  | nil => simp [K, hd] at h
  | cons d ds => exact k _ (i.congr rfl rfl) rfl rfl (by simp [K, hd]) rfl rfl

theorem wp_modifyLocals {f : PS → List Str} {Q : Unit → PS → Prop} (i : Inv e s)
    (k : ∀ s', Inv e s' → W s' = W s → D s' = D s → K s' = K s → s'.cur = s.cur → s'.peek = s.peek →
      s'.prevTok = s.prevTok → Q () s') :
    wp (P.modify fun s => { s with locals := f s }) c s Q :=
  k _ (i.congr rfl rfl) rfl rfl rfl rfl rfl rfl

theorem wp_addLocal {n : Str} {Q : Unit → PS → Prop} (i : Inv e s)
    (k : ∀ s', Inv e s' → W s' = W s → D s' = D s → K s' = K s → s'.cur = s.cur → s'.peek = s.peek →
      s'.prevTok = s.prevTok → Q () s') :
    wp (addLocal n) c s Q := wp_modifyLocals i k

theorem wp_addNames {ns : Option (List Str)} {Q : Unit → PS → Prop} (i : Inv e s)
    (k : ∀ s', Inv e s' → W s' = W s → D s' = D s → K s' = K s → s'.cur = s.cur → s'.peek = s.peek →
      s'.prevTok = s.prevTok → Q () s') :
    wp (addNames ns) c s Q := by
  unfold addNames
  split
  · exact wp_modifyLocals i k
  · exact wp_abort

/-- A function run with other local variables. -/
theorem wp_withLocals {ls : List Str} {p : P α} {Q : α → PS → Prop} (i : Inv e s)
    (h : ∀ s', Inv e s' → W s' = W s → D s' = D s → K s' = K s → s'.cur = s.cur → s'.peek = s.peek →
      wp p c s' fun a s'' => Inv e s'' ∧ ∀ s₃, Inv e s₃ → W s₃ = W s'' → D s₃ = D s'' → K s₃ = K s'' →
        s₃.cur = s''.cur → s₃.peek = s''.peek → Q a s₃) : wp (withLocals ls p) c s Q := by
  unfold withLocals
  refine wp_bind (wp_get (wp_bind (wp_modifyLocals i ?_)))
  intro s' i' hW hD hK hc hp _
  refine wp_bind (wp_mono (h s' i' hW hD hK hc hp) ?_)
  intro a s'' ⟨i'', k⟩
  exact wp_bind (wp_modifyLocals i'' fun s₃ a b c d e f _ => wp_pure (k s₃ a b c d e f))

/-- What is shown of a continuation `jp` that several branches share. -/
def JP (e : Env) (s : PS) (A : α → Prop) (jp : α → P β) (c : Cx) (Q : β → PS → Prop) : Prop :=
  ∀ a s', Inv e s' → W s' ≤ W s → D s ≤ D s' → K s' = K s → A a → wp (jp a) c s' Q

theorem wp_jp {p : P β} {Q : β → PS → Prop} (jp : α → P β) (A : α → Prop) (h1 : JP e s A jp c Q)
    (h2 : JP e s A jp c Q → wp p c s Q) : wp p c s Q := h2 h1

theorem wp_callJP {jp : α → P β} {A : α → Prop} {Q : β → PS → Prop} {a : α} {s' : PS} (h : JP e s A jp c Q)
    (i : Inv e s') (h1 : W s' ≤ W s) (h2 : D s ≤ D s') (h3 : K s' = K s) (h4 : A a) : wp (jp a) c s' Q :=
  h a s' i h1 h2 h3 h4

/-- A loop whose body uses up some weight in every iteration that is not the last. -/
theorem wp_loop {body : σ → P (Loop σ α)} {Q : α → PS → Prop} {n : Nat} {x : σ} (I : σ → PS → Prop)
    (m : σ → PS → Nat) (hn : m x s < n) (hI : I x s)
    (h : ∀ y s', I y s' → wp (body y) c s' fun r s'' =>
      match r with
      | .again z => I z s'' ∧ m z s'' < m y s'
      | .done a => Q a s'') : wp (loop body n x) c s Q := by
  induction n generalizing x s with
  | zero => omega
  | succ n ih =>
    unfold loop
    refine wp_bind (wp_mono (h x s hI) ?_)
    intro r s' hr
    cases r with
    | again y =>
      exact ih (by have := hr.2; omega) hr.1
    | done a => exact hr

/-- The same for loops that keep the position invariant, with a predicate for the loop variables. -/
theorem wp_loopA {body : σ → P (Loop σ α)} {Q : α → PS → Prop} {n : Nat} {x : σ} (A : σ → Prop) (i : Inv e s)
    (hx : A x) (hn : W s < n)
    (h : ∀ y s', A y → Inv e s' → W s' ≤ W s → D s ≤ D s' → K s' = K s → wp (body y) c s' fun r s'' =>
      match r with
      | .again z => Inv e s'' ∧ W s'' < W s' ∧ D s ≤ D s'' ∧ K s'' = K s ∧ A z
      | .done a => Q a s'') : wp (loop body n x) c s Q := by
  refine wp_loop (fun y s' => A y ∧ Inv e s' ∧ W s' ≤ W s ∧ D s ≤ D s' ∧ K s' = K s) (fun _ s => W s) hn
    ⟨hx, i, Nat.le_refl _, Nat.le_refl _, rfl⟩ ?_
  intro y s' ⟨hA, h1, h2, h3, h4⟩
  refine wp_mono (h y s' hA h1 h2 h3 h4) ?_
  intro r s'' hr
  cases r with
  | again z =>
    obtain ⟨k1, k2, k3, k4, k5⟩ := hr
    exact ⟨⟨k5, k1, by omega, k3, k4⟩, k2⟩
  | done a => exact hr

end rules

/-! ## Automation -/

theorem opkw_nonterm {t : Ttype} (h : (t.isOperator || t.isKeyword) = true) : ¬ Terminal t := by
  intro hT
  cases t <;> first | exact absurd h (by decide) | exact absurd hT (by decide)

theorem keyword_nonterm {t : Ttype} (h : t.isKeyword = true) : ¬ Terminal t := by
  intro hT
  cases t <;> first | exact absurd h (by decide) | exact absurd hT (by decide)

/-- The token of a node can be formatted in a message. -/
def NodeOk (n : Node) : Prop := Fmt n.tok

theorem nt_of_eq {x y : Ttype} (h : x = y) (hy : ¬ Terminal y) : ¬ Terminal x := h ▸ hy
theorem nt_of_cur {t u : Token} (h : t = u) (hu : ¬ Terminal u.type) : ¬ Terminal t.type := h ▸ hu

theorem nt_of_or {x y z : Ttype} (h : x = y ∨ x = z) (hy : ¬ Terminal y) (hz : ¬ Terminal z) : ¬ Terminal x := by
  rcases h with h | h <;> rw [h] <;> assumption
theorem nt_of_or3 {x y z u : Ttype} (h : x = y ∨ x = z ∨ x = u) (hy : ¬ Terminal y) (hz : ¬ Terminal z)
    (hu : ¬ Terminal u) : ¬ Terminal x := by
  rcases h with h | h | h <;> rw [h] <;> assumption

theorem nt_of_orb {x y z : Ttype} (h : (x == y || x == z) = true) (hy : ¬ Terminal y) (hz : ¬ Terminal z) : ¬ Terminal x := by
  simp only [Bool.or_eq_true, beq_iff_eq] at h
  exact nt_of_or h hy hz

/-- Closes goals `¬ Terminal …`. -/
syntax "nt" : tactic
macro_rules | `(tactic| nt) => `(tactic| first
  | assumption
  | ((with_reducible apply nt_of_eq); assumption; decide)
  | ((with_reducible apply nt_of_or); assumption; decide; decide)
  | ((with_reducible apply nt_of_orb); assumption; decide; decide)
  | ((with_reducible apply nt_of_or3); assumption; decide; decide; decide)
  | (refine opkw_nonterm ?_; assumption)
  | (refine keyword_nonterm ?_; assumption)
  | ((with_reducible apply nt_of_cur); assumption; nt))

/-- More rules for `fmt`. -/
syntax "fmt1" : tactic
macro_rules | `(tactic| fmt1) => `(tactic| fail "no rule")

/-- Closes goals `Fmt …` and `NodeOk …`. -/
macro "fmt" : tactic => `(tactic| first
  | assumption
  | (apply Inv.cur_fmt; assumption)
  | (intro h; cases h; done)
  | trivial
  | fmt1)

/-- Calls of functions already treated. -/
syntax "pspec" : tactic
macro_rules | `(tactic| pspec) => `(tactic| fail "no rule")

/-- One step of a function. -/
macro "pstep" : tactic => `(tactic| first
  | (with_reducible exact wp_abort)
  | (with_reducible exact wp_throw)
  | (with_reducible exact wp_throwUnterminated)
  | ((with_reducible apply wp_throwUnexpected); assumption)
  | ((with_reducible refine wp_throwTok ?_); fmt)
  | ((with_reducible refine wp_throwError ?_); fmt)
  | (with_reducible refine wp_bind ?_)
  | ((with_reducible refine wp_pure ?_); try dsimp -zeta only)
  | ((with_reducible refine wp_cur ?_); try dsimp -zeta only)
  | ((with_reducible refine wp_curTy ?_); try dsimp -zeta only)
  | ((with_reducible refine wp_peek ?_); try dsimp -zeta only)
  | ((with_reducible refine wp_prevTok ?_); try dsimp -zeta only)
  | ((with_reducible refine wp_get ?_); try dsimp -zeta only)
  | ((with_reducible refine wp_litOf ?_); intro _ _)
  | ((with_reducible apply wp_advance); assumption; nt; intro _ _ _ _ _ _ _ _ _)
  | ((with_reducible apply wp_skipNewlines); assumption; intro _ _ _ _ _ _ _)
  | ((with_reducible apply wp_nextExpression); assumption; intro _ _ _ _ _)
  | ((with_reducible apply wp_expect); assumption; intro _)
  | ((with_reducible refine wp_validateCurrent ?_); intro _)
  | ((with_reducible apply wp_pushDepth); assumption; intro _ _ _ _ _ _ _)
  | ((with_reducible apply wp_popDepth); assumption; omega; intro _ _ _ _ _ _ _)
  | ((with_reducible apply wp_incDepth); assumption; omega; intro _ _ _ _ _ _ _)
  | ((with_reducible apply wp_decDepth); assumption; omega; intro _ _ _ _ _ _ _)
  | ((with_reducible apply wp_addLocal); assumption; intro _ _ _ _ _ _ _ _)
  | ((with_reducible apply wp_addNames); assumption; intro _ _ _ _ _ _ _ _)
  | ((with_reducible apply wp_insertNewline); assumption; intro _ _ _ _ _)
  | ((with_reducible refine wp_ite ?_ ?_) <;> intro hc <;>
      (try simp only [Bool.and_eq_true, beq_iff_eq] at hc) <;> try (with_reducible obtain ⟨_, _⟩ := hc))
  | ((with_reducible apply wp_loopA NodeOk); assumption; fmt; omega; intro _ _ _ _ _ _ _)
  | ((with_reducible apply wp_loopA (fun _ => True)); assumption; trivial; omega; intro _ _ _ _ _ _ _)
  | pspec
  | ((with_reducible apply wp_callJP); assumption; assumption; omega; omega; omega; fmt)
  | (extract_lets +onlyGivenNames jp
     first
     | ((with_reducible refine wp_jp jp NodeOk ?_ ?_)
        (focus (intro _ _ _ _ _ _ _; dsimp -zeta only [jp]))
        rotate_left; intro _; clear_value jp; rotate_left)
     | ((with_reducible refine wp_jp jp (fun x : Node × Bool => NodeOk x.1) ?_ ?_)
        (focus (intro _ _ _ _ _ _ _; dsimp -zeta only [jp]))
        rotate_left; intro _; clear_value jp; rotate_left)
     | ((with_reducible refine wp_jp jp (fun _ => True) ?_ ?_)
        (focus (intro _ _ _ _ _ _ _; dsimp -zeta only [jp]))
        rotate_left; intro _; clear_value jp; rotate_left))
  | (refine ⟨?_, ?_, ?_, ?_, ?_⟩; assumption; omega; omega; omega)
  | fmt
  | (dsimp only; done)
  | split)

/-- The first of two parts of a function, with what the second part may use. -/
macro "pjoin" m:term:max A:term:max : tactic =>
  `(tactic| (refine wp_bind (wp_of_runs (m := $m) (A := $A) ?_ ?_); (rotate_left; intro _ _ _ _ _ _ _; rotate_left)))

macro "pgo" : tactic => `(tactic| (repeat' pstep))

end NP
