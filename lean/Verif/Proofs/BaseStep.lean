import Verif.Proofs.Pos
import Verif.Spec.Lexeme

/-! The steps of a plain `Lexer`: skipped bytes, then `dispatch`. -/

namespace NP

open Spec

theorem skipWs_blank (s : Str) : Blank (s.take (skipWs s)) := by
  induction s using skipWs.induct with
  | case1 cs ih => rw [skipWs]; exact .line _ ih
  | case2 cs ih => rw [skipWs]; exact .space _ ih
  | case3 cs ih => rw [skipWs]; exact .tab _ ih
  | case4 s h1 h2 h3 => rw [skipWs] <;> first | exact .nil | assumption

theorem skipWs_le (s : Str) : skipWs s ≤ s.length := by
  induction s using skipWs.induct with
  | case1 cs ih => rw [skipWs]; simp; omega
  | case2 cs ih => rw [skipWs]; simp; omega
  | case3 cs ih => rw [skipWs]; simp; omega
  | case4 s h1 h2 h3 => rw [skipWs] <;> first | exact Nat.zero_le _ | assumption

theorem skipWs_max (s : Str) : NoBlank (s.drop (skipWs s)) := by
  induction s using skipWs.induct with
  | case1 cs ih => rw [skipWs]; exact ih
  | case2 cs ih => rw [skipWs]; exact ih
  | case3 cs ih => rw [skipWs]; exact ih
  | case4 s h1 h2 h3 =>
    have : skipWs s = 0 := by rw [skipWs] <;> assumption
    rw [this]
    intro b r hb he
    simp only [List.drop_zero] at he
    cases hb with
    | nil => rfl
    | space b _ => exact absurd he (h2 (b ++ r))
    | tab b _ => exact absurd he (h3 (b ++ r))
    | line b _ => exact absurd he (h1 (b ++ r))

theorem blank_skipWs {b : Str} (hb : Blank b) (s : Str) (hs : NoBlank s) : skipWs (b ++ s) = b.length := by
  induction hb with
  | nil =>
    have h1 := skipWs_blank s
    have := hs _ _ h1 (List.take_append_drop _ s).symm
    have hl := skipWs_le s
    have h2 := congrArg List.length this
    simp at h2
    rcases h2 with h2 | h2
    · simpa using h2
    · subst h2; rfl
  | space b _ ih => simp only [List.cons_append, skipWs, ih, List.length_cons]
  | tab b _ ih => simp only [List.cons_append, skipWs, ih, List.length_cons]
  | line b _ ih => simp only [List.cons_append, skipWs, ih, List.length_cons]

theorem bomLen_bom (l : Lx) (h : l.ch 0 = '\xEF') : Bom (l.rest.take l.bomLen) ∧ l.bomLen ≤ l.rest.length := by
  obtain ⟨r, hr⟩ := l.rest.ch_zero_cons '\xEF' h (by decide)
  unfold Lx.bomLen Lx.ch
  rw [hr]
  simp only [List.ch_cons_succ]
  have e1 : ∀ c, (r.ch 0 = c) → c ≠ NUL → ∃ r', r = c :: r' := fun c hc hn => r.ch_zero_cons c hc hn
  split
  · rename_i h1
    obtain ⟨r', rfl⟩ := r.ch_zero_cons _ h1 (by decide)
    split
    · rename_i h2
      have h2' : r'.ch 0 = '\xBF' := by simpa using h2
      obtain ⟨r'', rfl⟩ := r'.ch_zero_cons _ h2' (by decide)
      exact ⟨.inr (.inr (.inr rfl)), by simp⟩
    · exact ⟨.inr (.inl rfl), by simp⟩
  · split
    · rename_i h1
      obtain ⟨r', rfl⟩ := r.ch_zero_cons _ h1 (by decide)
      exact ⟨.inr (.inr (.inl rfl)), by simp⟩
    · exact ⟨.inl rfl, by simp⟩

/-- The object as it enters `dispatch`: `pre` skipped, position and whitespace flag noted. -/
structure Ready (l : Lx) (pre : Str) (l' : Lx) : Prop where
  rest : l.rest = pre ++ l'.rest
  skip : Skipped (l.cur.index == 0) pre l'.rest
  input : l'.input = l.input
  cur : l'.cur = l.cur.nextN l.input pre.length
  line : l'.tokenLine = (l.cur.nextN l.input l.skipped).line
  col : l'.tokenCol = (l.cur.nextN l.input l.skipped).col
  ws : l'.ws = (l.skipped != 0)
  last : l'.lastType = l.lastType
  ternary : l'.openTernary = l.openTernary
  remaining : l'.remaining = l.remaining
  assign : l'.allowAssign = l.allowAssign
  heredocs : l'.heredocStack = l.heredocStack
  nonempty : l'.rest ≠ [] ∨ Bom pre

theorem Ready.index {l l' : Lx} {pre : Str} (h : Ready l pre l') : l'.cur.index = l.cur.index + pre.length := by
  rw [h.cur, Cursor.nextN_index]

theorem base_step (l : Lx) (o : Out) (hk : l.kind = .base) (h : l.step = .ok o) :
    (o.tok.type = .Eof ∧ o.child = none ∧ (l.rest.drop l.skipped = [] ∨
      (l.stopChar ≠ NUL ∧ (l.rest.drop l.skipped).ch 0 = l.stopChar))) ∨
    ∃ pre l' o', Ready l pre l' ∧ l'.dispatch = .ok o' ∧ o.tok = o'.tok ∧ o.lx = o'.lx.post o'.tok.type ∧
      o.child = o'.child := by
  obtain ⟨b, hb, rfl⟩ := l.step_eq o h
  have hsk : l.skipped = skipWs l.rest := by rw [Lx.skipped, hk]
  have hrest : l.start.rest = l.rest.drop l.skipped := l.start_rest
  have hpl : (l.rest.take l.skipped).length = l.skipped := by
    rw [List.length_take]; have := skipWs_le l.rest; omega
  -- without byte order mark
  have ready : ∀ d, l.start.cur.index < l.start.input.length →
      Ready l (l.rest.take l.skipped) { l.start with pairDepth := d } := by
    intro d hd
    refine ⟨?_, ?_, rfl, ?_, rfl, rfl, rfl, rfl, rfl, rfl, rfl, rfl, ?_⟩
    · show l.rest = l.rest.take l.skipped ++ l.start.rest
      rw [hrest, List.take_append_drop]
    · left
      show _ ∧ NoBlank l.start.rest
      rw [hrest, hsk]
      exact ⟨skipWs_blank _, skipWs_max _⟩
    · rw [hpl]; rfl
    · left
      show l.start.rest ≠ []
      unfold Lx.rest
      intro he
      have := congrArg List.length he
      simp at this
      simp at hd
      omega
  rw [Lx.build] at hb
  simp only [Lx.start_kind, hk] at hb
  unfold Lx.buildBase at hb
  ite_at hb as c0
  · cases hb
    refine .inl ⟨rfl, rfl, .inl ?_⟩
    rw [← hrest]
    exact List.drop_of_length_le c0
  have hi : l.start.cur.index < l.start.input.length := by omega
  ite_at hb as c1
  · exact .inr ⟨_, _, _, ready _ hi, hb, rfl, rfl, rfl⟩
  ite_at hb as c2
  · ite_at hb as c3
    · cases hb
      refine .inl ⟨rfl, rfl, .inr ?_⟩
      rw [← hrest]
      exact c2
    · exact .inr ⟨_, _, _, ready _ hi, hb, rfl, rfl, rfl⟩
  ite_at hb as c4
  · right
    obtain ⟨h1, h2⟩ := c4
    have hidx : l.cur.index = 0 ∧ l.skipped = 0 := by
      rw [Lx.start_cur, Cursor.nextN_index] at h1; omega
    have hst : l.start.rest = l.rest := by rw [hrest, hidx.2]; rfl
    have hbom : l.start.bomLen ≤ l.rest.length := by rw [← hst]; exact (bomLen_bom l.start h2).2
    have hb1 := (bomLen_bom l.start h2).1
    rw [hst] at hb1
    refine ⟨l.rest.take l.start.bomLen, _, _, ?_, hb, rfl, rfl, rfl⟩
    refine ⟨?_, .inr ⟨by simp [hidx.1], hb1⟩, rfl, ?_, rfl, rfl, rfl, rfl, rfl, rfl, rfl, rfl, .inr hb1⟩
    · rw [Lx.adv_rest, hst, List.take_append_drop]
    · rw [Lx.adv_cur, List.length_take, Nat.min_eq_left hbom, Lx.start_cur, hidx.2]; rfl
  · exact .inr ⟨_, _, _, ready _ hi, hb, rfl, rfl, rfl⟩

/-- What is skipped is determined by the text. -/
theorem Ready.unique {l l' : Lx} {pre' : Str} (h : Ready l pre' l') (pre s : Str) (hr : l.rest = pre ++ s)
    (hb : Blank pre) (hs : NoBlank s) (hbom : l.cur.index ≠ 0 ∨ s.ch 0 ≠ '\xEF') : pre' = pre ∧ l'.rest = s := by
  have hbom' : ¬ ((l.cur.index == 0) = true ∧ Bom pre') := by
    rintro ⟨h0, hB⟩
    rcases hbom with h1 | h1
    · exact h1 (by simpa using h0)
    · apply h1
      have hc : ∃ r, pre' = '\xEF' :: r := by
        rcases hB with rfl | rfl | rfl | rfl <;> exact ⟨_, rfl⟩
      obtain ⟨r, rfl⟩ := hc
      have he := h.rest.symm.trans hr
      cases pre with
      | nil => simp only [List.nil_append] at he; rw [← he]; rfl
      | cons a t =>
        simp only [List.cons_append, List.cons.injEq] at he
        rw [← he.1] at hb
        cases hb
  rcases h.skip with ⟨h1, h2⟩ | h1
  · have e1 := blank_skipWs hb s hs
    have e2 := blank_skipWs h1 l'.rest h2
    rw [← hr] at e1
    rw [← h.rest] at e2
    have he := h.rest.symm.trans hr
    have hlen : pre'.length = pre.length := by omega
    exact List.append_inj he hlen
  · exact absurd h1 hbom'

/-- The position of the token: behind the blanks, but before a byte order mark. -/
theorem Ready.tokenAt {l l' : Lx} {pre : Str} (h : Ready l pre l') (hk : l.kind = .base) (src : Str)
    (hi : l.input = src) (hc : l.cur.At src) :
    ∃ i b, l'.tokenLine = lineAt src i ∧ l'.tokenCol = colAt src i ∧ src.drop i = b ++ l'.rest ∧
      (b = [] ∨ (i = 0 ∧ Bom b)) := by
  subst hi
  have hsk : l.skipped = skipWs l.rest := by rw [Lx.skipped, hk]
  have hat := hc.nextN l.skipped
  have hat2 : l'.tokenLine = lineAt l.input (l.cur.index + l.skipped) ∧
      l'.tokenCol = colAt l.input (l.cur.index + l.skipped) := by
    rw [h.line, h.col]
    unfold Cursor.At at hat
    rwa [Cursor.nextN_index] at hat
  have hd : l.input.drop (l.cur.index + l.skipped) = l.rest.drop l.skipped := by
    rw [← List.drop_drop]; rfl
  rcases h.skip with ⟨h1, h2⟩ | ⟨h1, h2⟩
  · refine ⟨_, [], hat2.1, hat2.2, ?_, .inl rfl⟩
    have e2 := blank_skipWs h1 l'.rest h2
    rw [← h.rest] at e2
    rw [hd, hsk, e2, h.rest, List.drop_left]
    rfl
  · have h0 : l.cur.index = 0 := by simpa using h1
    have hs0 : l.skipped = 0 := by
      rw [hsk, h.rest]
      rcases h2 with rfl | rfl | rfl | rfl <;>
        simp [skipWs]
    refine ⟨_, pre, hat2.1, hat2.2, ?_, .inr ⟨by omega, h2⟩⟩
    rw [hd, hs0, List.drop_zero, h.rest]

end NP
