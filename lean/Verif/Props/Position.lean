import Verif.Proofs.Pos
import Verif.Proofs.Filter

/-!
C07: token positions.

`rawMarked n (Lx.init src) [] {}` is the raw token stream (`C07_marked_is_raw`) in which a token is marked if it was
produced by the lexer of a heredoc body or by a lexer nested in one (Verif/Proofs/Pos.lean). `Positions`:
Verif/Spec/Pos.lean.
-/

namespace NP

open Spec

theorem C07_marked_is_raw (src : Str) (fuel : Nat) :
    (rawMarked fuel (Lx.init src) [] {}).map (·.1) = rawFuel fuel src := rawMarked_fst _ _ _ _

/-- C07: the tokens of the raw stream that do not come from a heredoc body carry the line and column of offsets of the
source, and these offsets never decrease. -/
theorem C07_positions (src : Str) (fuel : Nat) : Positions src 0 (rawMarked fuel (Lx.init src) [] {}) := by
  refine rawMarked_positions fuel _ _ _ 0 .init ?_
  unfold PosInv
  rw [if_pos (show outside [Lx.init src] = true from rfl)]
  exact ⟨rfl, ⟨rfl, by simp [Lx.init, colAt]⟩, Nat.zero_le _⟩

theorem Positions.sublist {src : Str} {ts us : List (Token × Bool)} (hs : us.Sublist ts) :
    ∀ lo lo', lo' ≤ lo → Positions src lo ts → Positions src lo' us := by
  induction hs with
  | slnil => intro _ _ _ _; trivial
  | cons a _ ih =>
    intro lo lo' hl h
    obtain ⟨t, m⟩ := a
    cases m with
    | true => exact ih lo lo' hl h
    | false => obtain ⟨i, h1, -, h3⟩ := h; exact ih i lo' (by omega) h3
  | cons_cons a _ ih =>
    intro lo lo' hl h
    obtain ⟨t, m⟩ := a
    cases m with
    | true => exact ih lo lo' hl h
    | false => obtain ⟨i, h1, h2, h3⟩ := h; exact ⟨i, by omega, h2, ih i i (Nat.le_refl _) h3⟩

/-- Tokens of which only the documentation differs. -/
def undoc (t : Token) : Token := { t with doc := none }

theorem annotate_undoc (seen raw : List Token) : (annotate seen raw).map undoc = raw.map undoc := by
  induction raw generalizing seen with
  | nil => rfl
  | cons t ts ih =>
    rw [annotate, List.map_cons, List.map_cons, ih]
    congr 1
    split <;> rfl

/-- C07 for the vector returned: apart from attached documentation it is a part, in order, of the marked stream, hence
has the same positions. -/
theorem C07_vector (src : Str) (ts : List Token) (fuel : Nat) (h : tokensFuel fuel src = .ok ts) :
    ∃ us : List (Token × Bool), us.map (fun u => undoc u.1) = ts.map undoc ∧
      us.Sublist (rawMarked fuel (Lx.init src) [] {}) ∧ Positions src 0 us := by
  obtain ⟨h1, -⟩ := lexes_raw h
  have hs : (ts.map undoc).Sublist ((rawMarked fuel (Lx.init src) [] {}).map (fun u => undoc u.1)) := by
    have e : (rawMarked fuel (Lx.init src) [] {}).map (fun u => undoc u.1) = (rawFuel fuel src).map undoc := by
      rw [← C07_marked_is_raw, List.map_map]; rfl
    rw [e, ← annotate_undoc [] (rawFuel fuel src), h1, filtered]
    exact ((collapse_sublist none _).trans List.filter_sublist).map undoc
  obtain ⟨us, hu, he⟩ := List.sublist_map_iff.1 hs
  exact ⟨us, he.symm, hu, Positions.sublist hu 0 0 (Nat.le_refl _) (C07_positions src fuel)⟩

/-- A source without `<<` has no heredoc: no token is marked. -/
theorem C07_no_heredoc (src : Str) (fuel : Nat) (hsrc : ¬ cs! "<<" <:+: src) :
    ∀ u ∈ rawMarked fuel (Lx.init src) [] {}, u.2 = false := by
  have key : ∀ (fuel : Nat) (l : Lx) (ps : List Lx) (f : Filt), StackOk src (l :: ps) → PosInv src 0 (l :: ps) →
      outside (l :: ps) = true → ∀ u ∈ rawMarked fuel l ps f, u.2 = false := by
    have hnext : ∀ (ps : List Lx) (l : Lx), StackOk src (l :: ps) → PosInv src 0 (l :: ps) →
        outside (l :: ps) = true → outside (producer l ps) = true ∧
          ∀ t st, nextToken l ps = .ok (t, st) → outside st = true := by
      have hchild : ∀ (l : Lx) (ps : List Lx) (o : Out), StackOk src (l :: ps) → PosInv src 0 (l :: ps) →
          outside (l :: ps) = true → l.step = .ok o → outside (o.child.toList ++ o.lx :: ps) = true := by
        intro l ps o hst hp ho hs
        have s := hst.head.shape hs
        unfold PosInv at hp
        rw [if_pos ho] at hp
        have h1 : outside (o.lx :: ps) = true := by
          simpa [outside, Lx.alters_eq_of_kstep s.kind] using ho
        cases hc : o.child with
        | none => simpa using h1
        | some c =>
          obtain ⟨t, b, hb, hch⟩ := s.child c hc
          have hbi : b.input = src := by
            have : o.lx.input = b.input := by rw [hb]; simp
            rw [← this, s.input, hp.1]
          have : c.alters = true := by
            cases hch with
            | heredoc doc e he start k tl hs hlt => rw [hbi] at hlt; exact absurd hlt hsrc
            | _ => rfl
          simp only [Option.toList_some, List.singleton_append]
          simp only [outside, List.all_cons, Bool.and_eq_true] at h1 ⊢
          exact ⟨this, h1⟩
      intro ps
      induction ps with
      | nil =>
        intro l hst hp ho
        refine ⟨ho, ?_⟩
        intro t st hn
        unfold nextToken at hn
        split at hn <;> cases hn
        rename_i o hs
        exact hchild l [] o hst hp ho hs
      | cons p ps ih =>
        intro l hst hp ho
        unfold nextToken producer
        cases hs : l.step with
        | abort => exact ⟨ho, by simp⟩
        | ub => exact ⟨ho, by simp⟩
        | fuel => exact ⟨ho, by simp⟩
        | ok o =>
          simp only
          by_cases he : o.tok.type = .Eof
          · rw [if_pos he, if_pos he]
            have s := hst.head.shape hs
            have hst2 := hst.step hs
            rw [(s.eof he).1] at hst2
            simp only [Option.toList_none, List.nil_append] at hst2
            obtain ⟨i, -, -, h3⟩ := hp.step s
            have ho2 : outside (o.lx :: p :: ps) = true := by
              simpa [outside, Lx.alters_eq_of_kstep s.kind] using ho
            have h4 : PosInv src 0 (o.lx :: p :: ps) := by
              unfold PosInv at h3 ⊢
              rw [if_pos ho2] at h3 ⊢
              exact ⟨h3.1, h3.2.1, Nat.zero_le _⟩
            refine ih _ hst2.pop (h4.pop hst2.2.1) ?_
            simp only [outside, List.all_cons, Bool.and_eq_true, Lx.sync_alters] at ho2 ⊢
            exact ho2.2
          · rw [if_neg he, if_neg he]
            refine ⟨ho, ?_⟩
            intro t st hn
            cases hn
            exact hchild l (p :: ps) o hst hp ho hs
    intro fuel
    induction fuel with
    | zero => intro l ps f _ _ _ u hu; simp [rawMarked] at hu
    | succ fuel ih =>
      intro l ps f hst hp ho
      obtain ⟨n1, n2⟩ := hnext ps l hst hp ho
      unfold rawMarked
      cases hn : nextToken l ps with
      | abort => simp
      | ub => simp
      | fuel => simp
      | ok q =>
        obtain ⟨t, stack⟩ := q
        have hst' := (nextToken_ok ps l t stack hst hn).2
        have ho' := n2 t stack hn
        obtain ⟨i, -, -, h3⟩ := nextToken_pos ps l t stack 0 hst hp hn
        have hp' : PosInv src 0 stack := by
          cases stack with
          | nil => exact h3
          | cons a b =>
            unfold PosInv at h3 ⊢
            rw [if_pos ho'] at h3 ⊢
            exact ⟨h3.1, h3.2.1, Nat.zero_le _⟩
        simp only [n1, Bool.not_true]
        have cons : ∀ rest : List (Token × Bool), (∀ u ∈ rest, u.2 = false) →
            ∀ u ∈ (t, false) :: rest, u.2 = false := by
          intro rest hr u hu
          rcases List.mem_cons.1 hu with rfl | hu
          · rfl
          · exact hr u hu
        cases hf : f.step t with
        | mk f' o =>
          cases o with
          | none =>
            simp only
            cases stack with
            | nil => exact cons [] (by simp)
            | cons l' ps' => exact cons _ (ih _ _ _ hst' hp' ho')
          | some t' =>
            simp only
            split
            · exact cons [] (by simp)
            · have h4 := hst'.setLast t'.type
              have h5 := hp'.setLast t'.type
              cases hs : setLast t'.type stack with
              | nil => exact cons [] (by simp)
              | cons l' ps' =>
                rw [hs] at h4 h5
                exact cons _ (ih _ _ _ h4 h5.1 (by rw [h5.2]; exact ho'))
  refine key fuel _ _ _ .init ?_ rfl
  unfold PosInv
  rw [if_pos (show outside [Lx.init src] = true from rfl)]
  exact ⟨rfl, ⟨rfl, by simp [Lx.init, colAt]⟩, Nat.zero_le _⟩

/-- Non-vacuity for C07: two lines, an interpolation and a heredoc (whose three body tokens are marked). -/
example : (rawMarked 60 (Lx.init (cs! "a = \"x#{1}\"\nb <<-E\n y\n E\nc")) [] {}).map
      (fun u => (u.1.type, u.1.line, u.1.col, u.2)) =
    [(.BareName, 0, 0, false), (.Equal, 0, 2, false), (.InterpolatedStringBegin, 0, 4, false), (.String, 0, 5, false),
     (.EvaluateToStringBegin, 0, 8, false), (.Fixnum, 0, 8, false), (.EvaluateToStringEnd, 0, 9, false),
     (.InterpolatedStringEnd, 0, 11, false), (.Newline, 0, 11, false), (.BareName, 1, 0, false),
     (.InterpolatedStringBegin, 1, 2, false), (.String, 2, 0, true), (.InterpolatedStringEnd, 3, 1, true),
     (.Newline, 1, 6, false), (.BareName, 4, 0, false), (.Eof, 4, 1, false)] := by
  decide +kernel

/-- Non-vacuity of the hypothesis of `C07_no_heredoc`. -/
example : ¬ cs! "<<" <:+: cs! "a < b\n\"#{c}\"" := by decide +kernel

end NP
