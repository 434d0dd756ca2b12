import Verif.Proofs.Step
import Verif.Proofs.Heredoc

/-! Termination of the token loop. -/

namespace NP

/-! ### The inner loops end before their bound -/

theorem unicodeList_fuel (fuel : Nat) (s : Str) (h : s.length < fuel) : unicodeList fuel s ≠ .fuel := by
  induction fuel generalizing s with
  | zero => omega
  | succ fuel ih =>
    unfold unicodeList
    split
    · simp
    split
    · simp
    rename_i hx
    extract_lets r sp
    split
    · simp
    · have h0 : s.ch 0 ≠ NUL := by rintro h0; rw [h0] at hx; exact hx (by decide)
      have hs := List.ch_ne_nul _ _ h0
      have hr : 1 ≤ r.2 := by simp [r, hexNumber]
      have := ih (s.drop (r.2 + sp)) (by simp only [List.length_drop]; omega)
      split <;> simp_all

theorem escapedByte_fuel (s : Str) : escapedByte s ≠ .fuel := by
  intro h
  unfold escapedByte at h
  extract_lets c r1 r2 r3 at h
  ite_at h as c1
  · cases h
  ite_at h as c2
  · cases h
  ite_at h as c3
  · ite_at h as c4
    · have := unicodeList_fuel (s.length + 1) (s.drop 2) (by simp only [List.length_drop]; omega)
      split at h <;> contradiction
    · split at h <;> cases h
  ite_at h as c4
  · cases h
  ite_at h as c5
  · cases h
  ite_at h as c6
  · split at h <;> cases h
  ite_at h as c7
  · cases h
  ite_at h as c8
  · cases h
  ite_at h as c9
  · ite_at h as d1
    · ite_at h as d2
      · split at h <;> cases h
      · cases h
    · cases h
  ite_at h as c10
  · cases h
  ite_at h as c11
  · cases h
  ite_at h as c12
  · cases h
  ite_at h as c13
  · cases h
  ite_at h as c14
  · cases h
  ite_at h as c15
  · cases h
  · cases h

theorem interpLoop_fuel (start stop : Char) (fuel depth : Nat) (buf : Str) (n : Nat) (s : Str) (h : s.length < fuel) :
    interpLoop start stop fuel depth buf n s ≠ .fuel := by
  induction fuel generalizing depth buf n s with
  | zero => omega
  | succ fuel ih =>
    unfold interpLoop
    extract_lets c
    by_cases h0 : c = NUL
    · simp [h0]
    rw [if_neg h0]
    have hs := List.ch_ne_nul _ _ h0
    split
    · have := escapedByte_fuel (s.drop 1)
      split
      · exact ih _ _ _ _ (by simp only [List.length_drop]; omega)
      · simp
      · simp
      · contradiction
    split
    · simp
    split
    · exact ih _ _ _ _ (by simp only [List.length_drop]; omega)
    split
    · split
      · exact ih _ _ _ _ (by simp only [List.length_drop]; omega)
      · simp
    · exact ih _ _ _ _ (by simp only [List.length_drop]; omega)

theorem regexpLoop_fuel (start stop : Char) (fuel depth : Nat) (buf : Str) (n : Nat) (s : Str) (h : s.length < fuel) :
    regexpLoop start stop fuel depth buf n s ≠ .fuel := by
  induction fuel generalizing depth buf n s with
  | zero => omega
  | succ fuel ih =>
    unfold regexpLoop
    extract_lets c d add
    by_cases h0 : c = NUL
    · simp [h0]
    rw [if_neg h0]
    have hs := List.ch_ne_nul _ _ h0
    split
    · exact ih _ _ _ _ (by simp only [List.length_drop]; omega)
    split
    · simp
    split
    · exact ih _ _ _ _ (by simp only [List.length_drop]; omega)
    split
    · split
      · exact ih _ _ _ _ (by simp only [List.length_drop]; omega)
      · simp
    · exact ih _ _ _ _ (by simp only [List.length_drop]; omega)

theorem wordLoop_fuel (interp dyn : Bool) (start stop : Char) (fuel depth : Nat) (buf : Str) (n : Nat) (s : Str)
    (h : s.length < fuel) : wordLoop interp dyn start stop fuel depth buf n s ≠ .fuel := by
  induction fuel generalizing depth buf n s with
  | zero => omega
  | succ fuel ih =>
    unfold wordLoop
    extract_lets c d add
    by_cases h0 : c = NUL
    · simp [h0]
    rw [if_neg h0]
    have hs := List.ch_ne_nul _ _ h0
    split
    · exact ih _ _ _ _ (by simp only [List.length_drop]; omega)
    split
    · split
      · simp
      split
      · simp
      · exact ih _ _ _ _ (by simp only [List.length_drop]; omega)
    split
    · simp
    split
    · exact ih _ _ _ _ (by simp only [List.length_drop]; omega)
    split
    · split
      · exact ih _ _ _ _ (by simp only [List.length_drop]; omega)
      · simp
    · exact ih _ _ _ _ (by simp only [List.length_drop]; omega)

theorem dispatch_fuel (l : Lx) : l.dispatch ≠ .fuel := by
  have h := dispatch_disp l
  revert h
  generalize l.dispatch = r
  intro h
  cases h
  case question h =>
    unfold Lx.lexQuestion
    extract_lets c
    split
    · simp
    split
    · have := escapedByte_fuel (l.rest.drop 2)
      split
      · simp
      · simp
      · simp
      · contradiction
    · simp
  case dollar h =>
    unfold Lx.lexDollar
    split
    · simp
    split
    · dsimp only; split <;> simp
    · simp
  all_goals simp

theorem build_fuel (l : Lx) : l.build ≠ .fuel := by
  unfold Lx.build
  split
  · unfold Lx.buildBase
    split
    · simp
    split
    · exact dispatch_fuel _
    split
    · split
      · simp
      · exact dispatch_fuel _
    split
    · exact dispatch_fuel _
    · exact dispatch_fuel _
  · unfold Lx.buildIstr
    split
    · unfold Lx.istrConsume
      have := interpLoop_fuel l.startChar l.stopChar (l.rest.length + 1) l.pairDepth [] 0 l.rest (by omega)
      split
      · dsimp only; split <;> simp
      · dsimp only; split <;> simp
      · dsimp only; split <;> simp
      · simp
      · simp
      · contradiction
    all_goals simp
  · unfold Lx.buildRegexp
    split
    · unfold Lx.regexpConsume
      have := regexpLoop_fuel l.startChar l.stopChar (l.rest.length + 1) l.pairDepth [] 0 l.rest (by omega)
      split
      · simp
      · simp
      · simp
      · simp
      · simp
      · contradiction
    · simp
    · dsimp only; split <;> simp
    all_goals simp
  · rename_i k st i s d b _
    unfold Lx.buildWords
    have hc : ∀ st, l.wordsConsume st i s d ≠ .fuel := by
      intro st
      unfold Lx.wordsConsume
      extract_lets dyn
      have := wordLoop_fuel i dyn s l.stopChar (l.rest.length + 1) d [] 0 l.rest (by omega)
      split
      · dsimp only; split <;> simp
      · simp
      · dsimp only; split <;> simp
      · simp
      · contradiction
    split
    · exact hc _
    · exact hc _
    · simp
    · split <;> simp
    all_goals simp

theorem step_ne_fuel (l : Lx) : l.step ≠ .fuel := fun h => build_fuel _ (l.step_fuel h)

theorem nextToken_ne_fuel (ps : List Lx) : ∀ l, nextToken l ps ≠ .fuel := by
  induction ps with
  | nil =>
    intro l
    unfold nextToken
    have := step_ne_fuel l
    split <;> simp_all
  | cons p ps ih =>
    intro l
    unfold nextToken
    have := step_ne_fuel l
    split
    · split
      · exact ih _
      · simp
    · simp
    · simp
    · contradiction

/-! ### Sizes -/

open Classical in
/-- The bulk of a text that counts for nesting: blank texts contain no heredoc. -/
noncomputable def bulk (s : Str) : Nat := if Blank s then 0 else s.length

theorem bulk_le (s : Str) : bulk s ≤ s.length := by
  unfold bulk; split <;> omega

theorem bulk_of_mem (s : Str) (h : '<' ∈ s) : bulk s = s.length := by
  unfold bulk
  rw [if_neg]
  intro hb
  exact absurd (hb _ h) (by decide)

structure Sizes (l : Lx) : Prop where
  size : bulk l.input < 2 ^ 63
  stack : ∀ e ∈ l.heredocStack, 1 ≤ e ∧ e ≤ l.input.length

theorem doc_size {input : Str} {start k : Nat} {doc : Str} (h : IsDoc input start k doc) (hs : 1 ≤ start)
    (hle : start ≤ input.length) (hm : input.length < 2 ^ 63) :
    bulk doc + 1 ≤ input.length ∧ doc.length ≤ 2 * (input.length - 1) := by
  obtain ⟨dash, dedent, name, d, hb, hd⟩ := h
  have h1 := heredocBody_length _ _ _ _ _ _ hb
  have h2 := stripTrailingSpaces_length (d.take (d.length - name.length))
  generalize stripTrailingSpaces (d.take (d.length - name.length)) = t at *
  simp only [List.length_nil, List.length_drop, List.length_take] at h1 h2
  cases dedent with
  | false =>
    simp only [Bool.false_eq_true, if_false] at hd
    subst hd
    have := bulk_le doc
    omega
  | true =>
    simp only [if_true] at hd
    rcases dedentHeredoc_size t (by omega) with h | ⟨h3, h4⟩
    · rw [← hd] at h
      have := bulk_le doc
      omega
    · rw [← hd] at h3 h4
      have : bulk doc = 0 := by unfold NP.bulk; rw [if_pos h3]
      omega

theorem Sizes.heredoc {b c : Lx} (hb : Sizes b) (h : Child b c) (ha : c.alters = false) :
    c.cur.index = 0 ∧ c.heredocStack = [] ∧ c.kind.bonus = 2 ∧ c.kind ≠ .base ∧ '<' ∈ b.input ∧
      bulk c.input + 1 ≤ bulk b.input ∧ c.input.length ≤ 2 * (bulk b.input - 1) := by
  cases h with
  | heredoc doc e he start k tl hs hlt2 hst hd =>
    have hlt : '<' ∈ b.input := hlt2.subset (by simp)
    have hsz := bulk_of_mem _ hlt
    have hm := hb.size
    have hst' : 1 ≤ start ∧ start ≤ b.input.length := by
      rcases hst with h | ⟨t, rfl⟩
      · exact h
      · exact hb.stack start (by rw [hs]; simp)
    have := doc_size hd hst'.1 hst'.2 (by omega)
    exact ⟨rfl, rfl, rfl, by simp, hlt, by simpa [hsz] using this⟩
  | istr | regexp | words | eval | regexpEval => simp [Lx.alters, Lx.evalChild] at ha

theorem Sizes.child {b c : Lx} (hb : Sizes b) (h : Child b c) : Sizes c := by
  by_cases ha : c.alters = true
  · cases h with
    | heredoc => simp [Lx.alters] at ha
    | eval => exact ⟨hb.size, by simp [Lx.evalChild]⟩
    | istr | regexp | words | regexpEval => exact ⟨hb.size, hb.stack⟩
  · have := hb.heredoc h (by simpa using ha)
    have hs := hb.size
    exact ⟨by omega, by simp [this.2.1]⟩

theorem Sizes.step {l : Lx} {o : Out} (hl : Sizes l) (s : SShape l o) : Sizes o.lx := by
  refine ⟨by rw [s.input]; exact hl.size, ?_⟩
  rw [s.input]
  have := s.stack
  generalize o.lx.heredocStack = new at *
  cases this with
  | same => exact hl.stack
  | clear => simp
  | push start k hk h =>
    have hst : 1 ≤ start ∧ start ≤ l.input.length := by
      rcases h with ⟨_, h, h'⟩ | ⟨tl, h⟩
      · omega
      · exact hl.stack start (by rw [h]; simp)
    intro e he
    rcases List.mem_cons.1 he with rfl | he
    · have := hk hst.2; omega
    · exact hl.stack e he

theorem Reach.sizes {src : Str} (hsrc : src.length < 2 ^ 63) {l : Lx} (h : Reach src l) : Sizes l := by
  induction h with
  | init =>
    have := bulk_le src
    exact ⟨by show NP.bulk src < _; omega, by simp [Lx.init]⟩
  | step hl h ih => exact ih.step (hl.shape h)
  | @child l o c hl h hc ih =>
    have s := hl.shape h
    obtain ⟨t, b, hb, hch⟩ := s.child _ hc
    have h1 := ih.step s
    rw [hb] at h1
    have : Sizes b := ⟨by simpa using h1.size, by simpa using h1.stack⟩
    exact this.child hch
  | last t _ ih => exact ⟨ih.size, ih.stack⟩
  | sync _ _ _ ih _ =>
    unfold Lx.sync
    split
    · exact ⟨ih.size, ih.stack⟩
    · exact ih

/-! ### The measure -/

/-- Tokens per byte of a text of bulk `n`, including those of nested heredocs. -/
def V : Nat → Nat
  | 0 => 16
  | n + 1 => V n * (2 * n + 4) + 16

theorem V_ge (n : Nat) : 16 ≤ V n := by
  cases n <;> simp [V]

theorem V_mono {m n : Nat} (h : m ≤ n) : V m ≤ V n := by
  induction n with
  | zero => have : m = 0 := by omega
            subst this; exact Nat.le_refl _
  | succ n ih =>
    by_cases hm : m = n + 1
    · subst hm; exact Nat.le_refl _
    · refine Nat.le_trans (ih (by omega)) ?_
      show V n ≤ V n * (2 * n + 4) + 16
      calc V n = V n * 1 := by omega
        _ ≤ V n * (2 * n + 4) := Nat.mul_le_mul_left _ (by omega)
        _ ≤ _ := by omega

theorem V_nest {m n len : Nat} (h : m + 1 ≤ n) (hl : len ≤ 2 * (n - 1)) : V m * len + 16 ≤ V n := by
  obtain ⟨n, rfl⟩ : ∃ k, n = k + 1 := ⟨n - 1, by omega⟩
  show V m * len + 16 ≤ V n * (2 * n + 4) + 16
  have : V m * len ≤ V n * (2 * n + 4) := Nat.mul_le_mul (V_mono (by omega)) (by omega)
  omega

/-- Tokens one object can still produce. -/
noncomputable def Lx.weight (l : Lx) : Nat := V (bulk l.input) * (l.input.length - l.cur.index) + l.kind.bonus

/-- Tokens the enclosing objects can still produce. -/
noncomputable def above (l : Lx) : List Lx → Nat
  | [] => 0
  | p :: ps => (if l.alters then p.kind.bonus else p.weight) + above p ps

/-- Tokens a stack of objects can still produce. -/
noncomputable def measure (l : Lx) (ps : List Lx) : Nat := l.weight + above l ps

theorem above_congr {l l' : Lx} (h : l'.alters = l.alters) (ps : List Lx) : above l' ps = above l ps := by
  cases ps with
  | nil => rfl
  | cons p ps => simp [above, h]

theorem weight_index (v len i j : Nat) (hij : i < j) (hi : i < len) (hv : 16 ≤ v) :
    v * (len - j) + 16 ≤ v * (len - i) ∧ v * (len - j) + v ≤ v * (len - i) := by
  have : v * (len - j) + v ≤ v * (len - i) := by
    calc v * (len - j) + v = v * (len - j + 1) := by rw [Nat.mul_add, Nat.mul_one]
      _ ≤ _ := Nat.mul_le_mul_left _ (by omega)
  omega

theorem step_measure {l : Lx} {o : Out} {ps : List Lx} (hl : Sizes l) (s : SShape l o)
    (hv : o.tok.type.isValid = true) (he : o.tok.type ≠ .Eof) (l' : Lx) (ps' : List Lx)
    (hst : o.child.toList ++ o.lx :: ps = l' :: ps') : measure l' ps' < measure l ps := by
  have ha : above o.lx ps = above l ps := above_congr (Lx.alters_eq_of_kstep s.kind) ps
  have hle := s.index_le
  have hi := s.input
  have hV := V_ge (bulk l.input)
  have b1 := o.lx.kind.bonus_lt
  cases hc : o.child with
  | none =>
    simp only [hc, Option.toList_none, List.nil_append, List.cons.injEq] at hst
    obtain ⟨rfl, rfl⟩ := hst
    unfold measure
    rw [ha]
    unfold Lx.weight
    rw [hi]
    rcases s.prog hv he with ⟨h1, h2⟩ | ⟨h1, _⟩
    · have := weight_index (V (bulk l.input)) _ _ _ h2 h1 hV
      omega
    · have : V (bulk l.input) * (l.input.length - o.lx.cur.index) ≤ V (bulk l.input) * (l.input.length - l.cur.index) :=
        Nat.mul_le_mul_left _ (by omega)
      omega
  | some c =>
    simp only [hc, Option.toList_some, List.singleton_append, List.cons.injEq] at hst
    obtain ⟨rfl, rfl⟩ := hst
    obtain ⟨t, b, hb, hch⟩ := s.child c hc
    have b2 := c.kind.bonus_lt
    have hbin : b.input = l.input := by rw [← hi, hb]; simp
    have hbcur : b.cur = o.lx.cur := by rw [hb]; simp
    unfold measure
    rw [above, ha]
    by_cases hca : c.alters = true
    · rw [if_pos hca]
      obtain ⟨hccur, hcin⟩ := hch.link.2 hca
      unfold Lx.weight
      rw [hcin, hbin, hccur, hbcur]
      rcases s.prog hv he with ⟨h1, h2⟩ | ⟨h1, h2⟩
      · have := weight_index (V (bulk l.input)) _ _ _ h2 h1 hV
        omega
      · have hk : c.kind.bonus = 0 := by rw [h2 c hc]; rfl
        have : V (bulk l.input) * (l.input.length - o.lx.cur.index) ≤ V (bulk l.input) * (l.input.length - l.cur.index) :=
          Nat.mul_le_mul_left _ (by omega)
        omega
    · rw [if_neg hca]
      have hsb : Sizes b := by
        have h1 := hl.step s
        rw [hb] at h1
        exact ⟨by simpa using h1.size, by simpa using h1.stack⟩
      obtain ⟨g1, g2, g3, g4, g5, g6, g7⟩ := hsb.heredoc hch (by simpa using hca)
      rw [hbin] at g6 g7
      rcases s.prog hv he with ⟨h1, h2⟩ | ⟨h1, h2⟩
      · have k1 := weight_index (V (bulk l.input)) _ _ _ h2 h1 hV
        have k2 := V_nest g6 g7
        unfold Lx.weight
        rw [g1, g3, hi, Nat.sub_zero]
        omega
      · exact absurd (h2 c hc) g4

theorem nextToken_measure {src : Str} (hsrc : src.length < 2 ^ 63) (ps : List Lx) :
    ∀ (l : Lx) (t : Token) (l' : Lx) (ps' : List Lx), StackOk src (l :: ps) →
    nextToken l ps = .ok (t, l' :: ps') → t.type.isValid = true → t.type ≠ .Eof → measure l' ps' < measure l ps := by
  induction ps with
  | nil =>
    intro l t l' ps' h hn hv he
    unfold nextToken at hn
    split at hn <;> simp only [Res.ok.injEq, Prod.mk.injEq, reduceCtorEq] at hn
    rename_i o ho
    obtain ⟨rfl, hn⟩ := hn
    exact step_measure (h.head.sizes hsrc) (h.head.shape ho) hv he _ _ hn
  | cons p ps ih =>
    intro l t l' ps' h hn hv he
    unfold nextToken at hn
    split at hn
    · rename_i o ho
      have s := h.1.shape ho
      split at hn
      · rename_i heof
        obtain ⟨hc, hk, _⟩ := s.eof heof
        have hst := h.step ho
        rw [hc] at hst
        simp only [Option.toList_none, List.nil_append] at hst
        refine Nat.lt_of_lt_of_le (ih _ _ _ _ hst.pop hn hv he) ?_
        unfold measure
        rw [above_congr (Lx.sync_alters p o.lx) ps, above]
        have hal : o.lx.alters = l.alters := Lx.alters_eq_of_kstep s.kind
        by_cases ha : l.alters = true
        · rw [if_pos ha]
          have hlin : l.input = p.input := h.2.1.input ha
          have hsy : p.sync o.lx = { p with cur := o.lx.cur } := by
            unfold Lx.sync; rw [if_pos (by rw [hal]; exact ha)]
          rw [hsy]
          unfold Lx.weight
          have := s.index_le
          have : V (bulk p.input) * (p.input.length - o.lx.cur.index) ≤ V (bulk p.input) * (p.input.length - l.cur.index) :=
            Nat.mul_le_mul_left _ (by omega)
          rw [hlin]
          show V (bulk p.input) * (p.input.length - o.lx.cur.index) + p.kind.bonus + _ ≤ _
          omega
        · rw [if_neg ha]
          have hsy : p.sync o.lx = p := by
            unfold Lx.sync; rw [if_neg (by rw [hal]; exact ha)]
          rw [hsy]
          omega
      · simp only [Res.ok.injEq, Prod.mk.injEq] at hn
        obtain ⟨rfl, hn⟩ := hn
        exact step_measure (h.head.sizes hsrc) s hv he _ _ hn
    · cases hn
    · cases hn
    · cases hn

theorem setLast_measure (t : Ttype) (l : Lx) (ps : List Lx) :
    ∃ l' ps', setLast t (l :: ps) = l' :: ps' ∧ measure l' ps' = measure l ps := by
  have h : ∀ (ps : List Lx) (l : Lx), ∃ l' ps', setLast t (l :: ps) = l' :: ps' ∧ l'.weight = l.weight ∧
      l'.kind = l.kind ∧ above l' ps' = above l ps := by
    intro ps
    induction ps with
    | nil => intro l; exact ⟨_, _, rfl, rfl, rfl, rfl⟩
    | cons p ps ih =>
      intro l
      obtain ⟨p', ps', h1, h2, h3, h4⟩ := ih p
      refine ⟨l, p' :: ps', by rw [setLast, h1], rfl, rfl, ?_⟩
      simp only [above, h2, h3, h4]
  obtain ⟨l', ps', h1, h2, _, h3⟩ := h ps l
  exact ⟨l', ps', h1, by unfold measure; rw [h2, h3]⟩

theorem tokensLoop_ne_fuel {src : Str} (hsrc : src.length < 2 ^ 63) (fuel : Nat) :
    ∀ (l : Lx) (ps : List Lx) (f : Filt), StackOk src (l :: ps) → measure l ps < fuel →
    tokensLoop fuel l ps f ≠ .fuel := by
  induction fuel with
  | zero => intro l ps f _ h; omega
  | succ fuel ih =>
    intro l ps f hst hm
    unfold tokensLoop
    have hnf := nextToken_ne_fuel ps l
    split
    · rename_i t stack hnt
      have hst' := (nextToken_ok ps l t stack hst hnt).2
      cases stack with
      | nil => exact absurd hst' (by simp [StackOk])
      | cons l' ps' =>
        have hmm := nextToken_measure hsrc ps l t l' ps' hst hnt
        split
        · rename_i f' hf
          refine ih _ _ _ hst' ?_
          have hty : t.type.isValid = true ∧ t.type ≠ .Eof := by
            unfold Filt.step at hf
            ite_at hf as c1
            · rw [c1]; decide
            ite_at hf as c2
            · rw [c2]; decide
            ite_at hf as c3
            · rw [c3.2]; decide
            · simp at hf
          have := hmm hty.1 hty.2
          omega
        · rename_i f' t' hf
          have hty : t'.type = t.type := Filt.step_type f t t' (by rw [hf])
          split
          · simp
          · rename_i hterm
            rw [hty] at hterm
            have := hmm (by
              by_contra hv
              exact hterm (.inr (by simpa using hv))) (fun h => hterm (.inl h))
            obtain ⟨l'', ps'', h1, h2⟩ := setLast_measure t'.type l' ps'
            have h3 := hst'.setLast t'.type
            rw [h1] at h3 ⊢
            exact ih _ _ _ h3 (by omega)
    · simp
    · simp
    · contradiction

/-- More iterations do not change the result. -/
theorem tokensLoop_mono (fuel : Nat) : ∀ (l : Lx) (ps : List Lx) (f : Filt) (fuel' : Nat), fuel ≤ fuel' →
    tokensLoop fuel l ps f ≠ .fuel → tokensLoop fuel' l ps f = tokensLoop fuel l ps f := by
  induction fuel with
  | zero => intro l ps f fuel' _ h; exact absurd rfl h
  | succ fuel ih =>
    intro l ps f fuel' hle h
    obtain ⟨fuel', rfl⟩ : ∃ k, fuel' = k + 1 := ⟨fuel' - 1, by omega⟩
    unfold tokensLoop at h ⊢
    cases hnt : nextToken l ps with
    | ok p =>
      obtain ⟨t, stack⟩ := p
      rw [hnt] at h
      simp only at h ⊢
      cases hf : f.step t with
      | mk f' o =>
        rw [hf] at h
        cases o with
        | none =>
          simp only at h ⊢
          cases stack with
          | nil => rfl
          | cons l' ps' => exact ih _ _ _ _ (by omega) h
        | some t' =>
          simp only at h ⊢
          by_cases ht : t'.type = .Eof ∨ (!t'.type.isValid) = true
          · rw [if_pos ht, if_pos ht]
          · rw [if_neg ht] at h ⊢
            rw [if_neg ht]
            cases hs : setLast t'.type stack with
            | nil => rfl
            | cons l' ps' => rw [hs] at h; exact ih _ _ _ _ (by omega) h
    | abort => rfl
    | ub => rfl
    | fuel => rfl

end NP
