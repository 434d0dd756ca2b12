import Verif.Proofs.Pos
import Verif.Proofs.Keyword
import Verif.Proofs.Names

/-! Every token of the raw stream is the token of a step of a reachable object. -/

namespace NP

open Spec

theorem PosInv.mono {src : Str} (st : List Lx) (a b : Nat) (hab : a ≤ b) : PosInv src b st → PosInv src a st := by
  induction st with
  | nil => exact fun h => h
  | cons x xs ih =>
    unfold PosInv
    split
    · rintro ⟨p1, p2, p3⟩; exact ⟨p1, p2, by omega⟩
    · exact ih

theorem nextToken_from {src : Str} (ps : List Lx) : ∀ (l : Lx) (t : Token) (st : List Lx),
    StackOk src (l :: ps) → PosInv src 0 (l :: ps) → nextToken l ps = .ok (t, st) →
    ∃ p qs o, producer l ps = p :: qs ∧ p.step = .ok o ∧ t = o.tok ∧ st = o.child.toList ++ o.lx :: qs ∧
      StackOk src (p :: qs) ∧ PosInv src 0 (p :: qs) := by
  induction ps with
  | nil =>
    intro l t st hst h hn
    unfold nextToken at hn
    split at hn <;> cases hn
    rename_i o ho
    exact ⟨l, [], o, rfl, ho, rfl, rfl, hst, h⟩
  | cons p ps ih =>
    intro l t st hst h hn
    unfold nextToken at hn
    cases ho : l.step with
    | ok o =>
      rw [ho] at hn
      simp only at hn
      by_cases he : o.tok.type = .Eof
      · rw [if_pos he] at hn
        have hp : producer l (p :: ps) = producer (p.sync o.lx) ps := by
          rw [producer, ho]; simp only; rw [if_pos he]
        rw [hp]
        have s := hst.head.shape ho
        have hst2 := hst.step ho
        rw [(s.eof he).1] at hst2
        simp only [Option.toList_none, List.nil_append] at hst2
        obtain ⟨i, h1, -, h3⟩ := h.step s
        have h4 : PosInv src 0 (o.lx :: p :: ps) := PosInv.mono _ _ _ (Nat.zero_le _) h3
        exact ih _ _ _ hst2.pop (h4.pop hst2.2.1) hn
      · rw [if_neg he] at hn
        have hp : producer l (p :: ps) = l :: p :: ps := by
          rw [producer, ho]; simp only; rw [if_neg he]
        cases hn
        exact ⟨l, p :: ps, o, hp, ho, rfl, rfl, hst, h⟩
    | abort => rw [ho] at hn; cases hn
    | ub => rw [ho] at hn; cases hn
    | fuel => rw [ho] at hn; cases hn

/-- A token, the step it comes from, and where that step began. -/
def FromStep (src : Str) (u : Token × Bool) : Prop :=
  ∃ p o, Reach src p ∧ p.step = .ok o ∧ u.1 = o.tok ∧ (u.2 = false → p.input = src ∧ p.cur.At src)

theorem rawMarked_from {src : Str} (fuel : Nat) : ∀ (l : Lx) (ps : List Lx) (f : Filt),
    StackOk src (l :: ps) → PosInv src 0 (l :: ps) → ∀ u ∈ rawMarked fuel l ps f, FromStep src u := by
  induction fuel with
  | zero => intro l ps f _ _ u hu; cases hu
  | succ fuel ih =>
    intro l ps f hst h u hu
    unfold rawMarked at hu
    cases hn : nextToken l ps with
    | abort => rw [hn] at hu; cases hu
    | ub => rw [hn] at hu; cases hu
    | fuel => rw [hn] at hu; cases hu
    | ok r =>
      rw [hn] at hu
      obtain ⟨t, stack⟩ := r
      obtain ⟨p, qs, o, hp, hs, ht, hstk, h1, h2⟩ := nextToken_from ps l t stack hst h hn
      obtain ⟨i, -, -, h3⟩ := nextToken_pos ps l t stack 0 hst h hn
      have h3 : PosInv src 0 stack := PosInv.mono _ _ _ (Nat.zero_le _) h3
      have hst' := (nextToken_ok ps l t stack hst hn).2
      have first : FromStep src (t, !outside (producer l ps)) := by
        refine ⟨p, o, h1.head, hs, ht, ?_⟩
        intro hm
        rw [hp] at hm
        have hout : outside (p :: qs) = true := by simpa using hm
        unfold PosInv at h2
        rw [if_pos hout] at h2
        exact ⟨h2.1, h2.2.1⟩
      have cons : ∀ rest, (∀ u ∈ rest, FromStep src u) → u ∈ (t, !outside (producer l ps)) :: rest →
          FromStep src u := by
        intro rest hr hu
        rcases List.mem_cons.1 hu with rfl | hu
        · exact first
        · exact hr u hu
      simp only at hu
      cases hf : f.step t with
      | mk f' r =>
        rw [hf] at hu
        cases r with
        | none =>
          simp only at hu
          cases stack with
          | nil => exact cons [] (fun _ h => by cases h) hu
          | cons l' ps' => exact cons _ (ih _ _ _ hst' h3) hu
        | some t' =>
          simp only at hu
          split at hu
          · exact cons [] (fun _ h => by cases h) hu
          · have h4 := hst'.setLast t'.type
            have h5 := (h3.setLast t'.type).1
            cases hs : setLast t'.type stack with
            | nil => rw [hs] at hu; exact cons [] (fun _ h => by cases h) hu
            | cons l' ps' =>
              rw [hs] at hu h4 h5
              exact cons _ (ih _ _ _ h4 h5) hu

theorem raw_from (src : Str) (fuel : Nat) : ∀ u ∈ rawMarked fuel (Lx.init src) [] {}, FromStep src u := by
  refine rawMarked_from fuel _ _ _ .init ?_
  unfold PosInv
  rw [if_pos (show outside [Lx.init src] = true from rfl)]
  exact ⟨rfl, ⟨rfl, by simp [Lx.init, colAt]⟩, Nat.zero_le _⟩

end NP
