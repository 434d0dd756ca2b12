import Verif.Proofs.Step
import Verif.Spec.Pos

/-! Cursors carry true positions. -/

namespace NP

open Spec

/-- The cursor is the position of its offset in `s`. -/
def Cursor.At (s : Str) (c : Cursor) : Prop := c.line = lineAt s c.index ∧ c.col = colAt s c.index

theorem take_succ_ch (s : Str) (i : Nat) (h : i < s.length) : s.take (i + 1) = s.take i ++ [s.ch i] := by
  rw [List.ch_getElem _ _ h, List.take_append_getElem]

theorem Cursor.At.next {s : Str} {c : Cursor} (h : c.At s) : (c.next s).At s := by
  unfold At at *
  unfold Cursor.next
  by_cases hi : c.index < s.length
  · have ht := take_succ_ch s c.index hi
    split
    · rename_i hn
      rw [hn] at ht
      simp only [lineAt, colAt, ht]
      simp [h.1, lineAt]
      omega
    · rename_i hn
      simp only [lineAt, colAt, ht]
      simp only [List.count_append, h.1, h.2, lineAt, colAt, List.reverse_append, List.reverse_cons, List.reverse_nil,
        List.nil_append, List.singleton_append, List.takeWhile_cons]
      have : (s.ch c.index != '\n') = true := by simpa using hn
      rw [this]
      simp only [if_true, List.length_cons]
      refine ⟨?_, by omega⟩
      rw [List.count_singleton, if_neg (by simpa using hn)]
      rfl
  · rw [List.ch_of_ge _ _ (by omega), if_neg (by decide)]
    have h1 : s.take (c.index + 1) = s := List.take_of_length_le (by omega)
    have h2 : s.take c.index = s := List.take_of_length_le (by omega)
    simp only [lineAt, colAt, h1, h2] at *
    omega

theorem Cursor.At.nextN {s : Str} {c : Cursor} (h : c.At s) (n : Nat) : (c.nextN s n).At s := by
  induction n generalizing c with
  | zero => exact h
  | succ n ih => exact ih h.next

/-- All objects advance their parents: none of them is inside a heredoc body. -/
def outside (st : List Lx) : Bool := st.all (·.alters)

/-- The innermost object that is not inside a heredoc body is at a true position, not before `lo`. -/
def PosInv (src : Str) (lo : Nat) : List Lx → Prop
  | [] => False
  | l :: ps => if outside (l :: ps) then l.input = src ∧ l.cur.At src ∧ lo ≤ l.cur.index else PosInv src lo ps

theorem PosInv.setLast {src : Str} {lo : Nat} (t : Ttype) {st : List Lx} (h : PosInv src lo st) :
    PosInv src lo (setLast t st) ∧ outside (NP.setLast t st) = outside st := by
  induction st with
  | nil => exact absurd h (by simp [PosInv])
  | cons l ps ih =>
    cases ps with
    | nil =>
      unfold PosInv at h
      simp only [NP.setLast]
      constructor
      · unfold PosInv; exact h
      · rfl
    | cons p qs =>
      have ho : ∀ st : List Lx, outside (NP.setLast t st) = outside st := by
        intro st
        induction st with
        | nil => rfl
        | cons a st ih =>
          cases st with
          | nil => rfl
          | cons b st => simp only [NP.setLast, outside, List.all_cons] at *; rw [ih]
      unfold PosInv at h
      refine ⟨?_, ho _⟩
      rw [NP.setLast]
      unfold PosInv
      have h2 := ho (l :: p :: qs)
      rw [NP.setLast] at h2
      rw [h2]
      split
      · rename_i hc; rw [if_pos hc] at h; exact h
      · rename_i hc; rw [if_neg hc] at h; exact (ih h).1

/-- Replacing the head by the object after its step. -/
theorem PosInv.step {src : Str} {lo : Nat} {l : Lx} {ps : List Lx} {o : Out} (h : PosInv src lo (l :: ps))
    (s : SShape l o) :
    ∃ i, lo ≤ i ∧ (outside (l :: ps) = true → TokenAt src i o.tok) ∧
      PosInv src (if outside (l :: ps) then i else lo) (o.lx :: ps) := by
  have hal : o.lx.alters = l.alters := Lx.alters_eq_of_kstep s.kind
  have ho : outside (o.lx :: ps) = outside (l :: ps) := by simp [outside, hal]
  unfold PosInv at h
  by_cases hc : outside (l :: ps) = true
  · rw [if_pos hc] at h
    obtain ⟨h1, h2, h3⟩ := h
    obtain ⟨n, hn, m, hm, a, b⟩ := s.cur
    rw [h1] at hn a b
    refine ⟨l.cur.index + m, by omega, fun _ => ?_, ?_⟩
    · have := h2.nextN m
      unfold Cursor.At at this
      rw [Cursor.nextN_index] at this
      exact ⟨a.trans this.1, b.trans this.2⟩
    · rw [if_pos hc]
      unfold PosInv
      rw [ho, if_pos hc]
      refine ⟨by rw [s.input, h1], by rw [hn]; exact h2.nextN n, ?_⟩
      rw [hn, Cursor.nextN_index]; omega
  · rw [if_neg hc] at h
    refine ⟨lo, Nat.le_refl _, fun h => absurd h hc, ?_⟩
    rw [if_neg hc]
    unfold PosInv
    rw [ho, if_neg hc]
    exact h

theorem PosInv.child {src : Str} {lo : Nat} {l : Lx} {ps : List Lx} {o : Out} {c : Lx}
    (h : PosInv src lo (o.lx :: ps)) (s : SShape l o) (hc : o.child = some c) : PosInv src lo (c :: o.lx :: ps) := by
  obtain ⟨t, b, hb, hch⟩ := s.child c hc
  unfold PosInv
  by_cases ho : outside (c :: o.lx :: ps) = true
  · rw [if_pos ho]
    simp only [outside, List.all_cons, Bool.and_eq_true] at ho
    obtain ⟨h1, h2⟩ := hch.link.2 ho.1
    unfold PosInv at h
    rw [if_pos (by simp only [outside, List.all_cons, Bool.and_eq_true]; exact ho.2)] at h
    have hbc : b.cur = o.lx.cur := by rw [hb]; simp
    have hbi : b.input = o.lx.input := by rw [hb]; simp
    rw [h2, hbi, h1, hbc]
    exact h
  · rw [if_neg ho]; exact h

theorem PosInv.pop {src : Str} {lo : Nat} {c p : Lx} {ps : List Lx} (h : PosInv src lo (c :: p :: ps))
    (hl : Link c p) : PosInv src lo (p.sync c :: ps) := by
  unfold PosInv at h
  have hal := Lx.sync_alters p c
  by_cases ho : outside (c :: p :: ps) = true
  · rw [if_pos ho] at h
    have ho2 : outside (p.sync c :: ps) = true := by
      simp only [outside, List.all_cons, Bool.and_eq_true, hal] at *; exact ho.2
    have hca : c.alters = true := by simp only [outside, List.all_cons, Bool.and_eq_true] at ho; exact ho.1
    unfold PosInv
    rw [if_pos ho2]
    refine ⟨by rw [Lx.sync_input, ← hl.input hca]; exact h.1, ?_⟩
    unfold Lx.sync
    rw [if_pos hca]
    exact h.2
  · rw [if_neg ho] at h
    by_cases hca : c.alters = true
    · -- the parent is inside a heredoc body as well
      have ho3 : ¬ outside (p :: ps) = true := by
        intro h2; apply ho; simp only [outside, List.all_cons, Bool.and_eq_true] at *; exact ⟨hca, h2⟩
      have ho2 : ¬ outside (p.sync c :: ps) = true := by
        simp only [outside, List.all_cons, hal] at *; exact ho3
      unfold PosInv at h ⊢
      rw [if_neg ho2]
      rw [if_neg ho3] at h
      exact h
    · have : p.sync c = p := by unfold Lx.sync; rw [if_neg hca]
      rw [this]; exact h

/-- The stack whose innermost object produces the next token (exhausted nested lexers removed). -/
def producer (l : Lx) : List Lx → List Lx
  | [] => [l]
  | p :: ps =>
    match l.step with
    | .ok o => if o.tok.type = .Eof then producer (p.sync o.lx) ps else l :: p :: ps
    | _ => l :: p :: ps

theorem nextToken_pos {src : Str} (ps : List Lx) : ∀ (l : Lx) (t : Token) (st : List Lx) (lo : Nat),
    StackOk src (l :: ps) → PosInv src lo (l :: ps) → nextToken l ps = .ok (t, st) →
    ∃ i, lo ≤ i ∧ (outside (producer l ps) = true → TokenAt src i t) ∧
      PosInv src (if outside (producer l ps) then i else lo) st := by
  have emit : ∀ (ps : List Lx) (l : Lx) (o : Out) (lo : Nat), StackOk src (l :: ps) → PosInv src lo (l :: ps) →
      l.step = .ok o → ∃ i, lo ≤ i ∧ (outside (l :: ps) = true → TokenAt src i o.tok) ∧
      PosInv src (if outside (l :: ps) then i else lo) (o.child.toList ++ o.lx :: ps) := by
    intro ps l o lo hst h ho
    have s := hst.head.shape ho
    obtain ⟨i, h1, h2, h3⟩ := h.step s
    refine ⟨i, h1, h2, ?_⟩
    cases hc : o.child with
    | none => simpa using h3
    | some c => simpa using h3.child s hc
  induction ps with
  | nil =>
    intro l t st lo hst h hn
    unfold nextToken at hn
    split at hn <;> cases hn
    rename_i o ho
    exact emit [] l o lo hst h ho
  | cons p ps ih =>
    intro l t st lo hst h hn
    unfold nextToken at hn
    cases ho : l.step with
    | ok o =>
      rw [ho] at hn
      simp only at hn
      by_cases he : o.tok.type = .Eof
      · rw [if_pos he] at hn
        have hp : producer l (p :: ps) = producer (p.sync o.lx) ps := by
          rw [producer, ho]; simp only; rw [if_pos he]
        simp only [hp]
        have s := hst.head.shape ho
        have hst2 := hst.step ho
        rw [(s.eof he).1] at hst2
        simp only [Option.toList_none, List.nil_append] at hst2
        obtain ⟨i, h1, -, h3⟩ := h.step s
        have h4 : PosInv src lo (o.lx :: p :: ps) := by
          have hmono : ∀ (st : List Lx) (a b : Nat), a ≤ b → PosInv src b st → PosInv src a st := by
            intro st a b hab
            induction st with
            | nil => exact fun h => h
            | cons x xs ih =>
              unfold PosInv
              split
              · rintro ⟨p1, p2, p3⟩; exact ⟨p1, p2, by omega⟩
              · exact ih
          refine hmono _ _ _ ?_ h3
          split <;> omega
        exact ih _ _ _ _ hst2.pop (h4.pop hst2.2.1) hn
      · rw [if_neg he] at hn
        have hp : producer l (p :: ps) = l :: p :: ps := by
          rw [producer, ho]; simp only; rw [if_neg he]
        simp only [hp]
        cases hn
        exact emit (p :: ps) l o lo hst h ho
    | abort => rw [ho] at hn; cases hn
    | ub => rw [ho] at hn; cases hn
    | fuel => rw [ho] at hn; cases hn

/-- The raw stream with a mark on the tokens that come from a heredoc body: their object, or one it is nested in, is
the lexer of a heredoc body. -/
def rawMarked : Nat → Lx → List Lx → Filt → List (Token × Bool)
  | 0, _, _, _ => []
  | fuel + 1, l, ps, f =>
    match nextToken l ps with
    | .ok (t, stack) =>
      let m := !outside (producer l ps)
      match f.step t with
      | (f', none) =>
        match stack with
        | [] => [(t, m)]
        | l' :: ps' => (t, m) :: rawMarked fuel l' ps' f'
      | (f', some t') =>
        if t'.type = .Eof ∨ !t'.type.isValid then [(t, m)]
        else
          match setLast t'.type stack with
          | [] => [(t, m)]
          | l' :: ps' => (t, m) :: rawMarked fuel l' ps' f'
    | _ => []

theorem rawMarked_fst (fuel : Nat) : ∀ (l : Lx) (ps : List Lx) (f : Filt),
    (rawMarked fuel l ps f).map (·.1) = rawLoop fuel l ps f := by
  induction fuel with
  | zero => intro l ps f; rfl
  | succ fuel ih =>
    intro l ps f
    unfold rawMarked rawLoop
    cases nextToken l ps with
    | ok p =>
      obtain ⟨t, stack⟩ := p
      simp only
      cases f.step t with
      | mk f' o =>
        cases o with
        | none => simp only; cases stack <;> simp [ih]
        | some t' =>
          simp only
          split
          · rfl
          · cases setLast t'.type stack <;> simp [ih]
    | abort => rfl
    | ub => rfl
    | fuel => rfl

theorem rawMarked_positions {src : Str} (fuel : Nat) : ∀ (l : Lx) (ps : List Lx) (f : Filt) (lo : Nat),
    StackOk src (l :: ps) → PosInv src lo (l :: ps) → Positions src lo (rawMarked fuel l ps f) := by
  induction fuel with
  | zero => intro l ps f lo _ _; trivial
  | succ fuel ih =>
    intro l ps f lo hst h
    unfold rawMarked
    cases hn : nextToken l ps with
    | abort => trivial
    | ub => trivial
    | fuel => trivial
    | ok p =>
      obtain ⟨t, stack⟩ := p
      obtain ⟨i, h1, h2, h3⟩ := nextToken_pos ps l t stack lo hst h hn
      have hst' := (nextToken_ok ps l t stack hst hn).2
      have cons : ∀ rest, (∀ lo', PosInv src lo' stack → Positions src lo' rest) →
          Positions src lo ((t, !outside (producer l ps)) :: rest) := by
        intro rest hr
        cases hm : outside (producer l ps) with
        | true =>
          rw [hm] at h2 h3
          exact ⟨i, h1, h2 rfl, hr i h3⟩
        | false =>
          rw [hm] at h3
          exact hr lo h3
      simp only
      cases hf : f.step t with
      | mk f' o =>
        cases o with
        | none =>
          simp only
          cases stack with
          | nil => exact cons [] (fun _ _ => trivial)
          | cons l' ps' => exact cons _ (fun lo' hp => ih _ _ _ _ hst' hp)
        | some t' =>
          simp only
          split
          · exact cons [] (fun _ _ => trivial)
          · have h4 := hst'.setLast t'.type
            cases hs : setLast t'.type stack with
            | nil => exact cons [] (fun _ _ => trivial)
            | cons l' ps' =>
              rw [hs] at h4
              refine cons _ (fun lo' hp => ih _ _ _ _ h4 ?_)
              rw [← hs]
              exact (hp.setLast t'.type).1

end NP
