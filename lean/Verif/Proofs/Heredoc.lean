import Verif.Proofs.Cursor

/-! Sizes of heredoc bodies. -/

namespace NP

/-- Only whitespace. -/
def Blank (s : Str) : Prop := ∀ c ∈ s, isSpace c = true

theorem indentLoop_le (s : Str) (ind line : Nat) (blank : Bool) :
    indentLoop s ind line blank ≤ ind ∧
    (indentLoop s ind line blank = ind ∨ indentLoop s ind line blank ≤ line + s.length) := by
  induction s generalizing ind line blank with
  | nil => simp [indentLoop]
  | cons c cs ih =>
    unfold indentLoop
    split
    · generalize hx : (if !blank ∧ line < ind then line else ind) = x
      have hx' : x ≤ ind ∧ (x = ind ∨ x ≤ line) := by
        subst hx; split <;> omega
      have h := ih x 0 true
      simp only [List.length_cons]
      omega
    split
    · generalize hx : (if blank = true then line + 1 else line) = x
      have hx' : x ≤ line + 1 := by subst hx; split <;> omega
      have h := ih ind x blank
      simp only [List.length_cons]
      omega
    · have h := ih ind line false
      simp only [List.length_cons]
      omega

theorem indentLoop_eq_self (s : Str) (ind line : Nat) (blank : Bool) (h : indentLoop s ind line blank = ind)
    (hl : line + s.length < ind) (pre post : Str) (hs : s = pre ++ '\n' :: post) : blank = true ∧ Blank pre := by
  induction s generalizing line blank pre with
  | nil => simp at hs
  | cons c cs ih =>
    unfold indentLoop at h
    simp only [List.length_cons] at hl
    by_cases hc : c = '\n'
    · rw [if_pos hc] at h
      have hb : blank = true := by
        by_contra hb
        simp only [Bool.not_eq_true] at hb
        rw [if_pos ⟨by simp [hb], by omega⟩] at h
        have := (indentLoop_le cs line 0 true).1
        omega
      refine ⟨hb, ?_⟩
      rw [if_neg (by simp [hb])] at h
      cases pre with
      | nil => intro c hc; simp at hc
      | cons d pre =>
        simp only [List.cons_append, List.cons.injEq] at hs
        have := (ih 0 true h (by omega) pre hs.2).2
        intro x hx
        rcases List.mem_cons.1 hx with rfl | hx
        · rw [← hs.1, hc]; decide
        · exact this x hx
    · rw [if_neg hc] at h
      cases pre with
      | nil => simp only [List.nil_append, List.cons.injEq] at hs; exact absurd hs.1 hc
      | cons d pre =>
        simp only [List.cons_append, List.cons.injEq] at hs
        by_cases hsp : isSpace c = true
        · rw [if_pos hsp] at h
          have hlt : (if blank = true then line + 1 else line) + cs.length < ind := by split <;> omega
          obtain ⟨hb, hp⟩ := ih _ blank h hlt pre hs.2
          refine ⟨hb, ?_⟩
          intro x hx
          rcases List.mem_cons.1 hx with rfl | hx
          · rw [← hs.1]; exact hsp
          · exact hp x hx
        · rw [if_neg hsp] at h
          have := (ih line false h (by omega) pre hs.2).1
          simp at this

/-- With an indentation that does not wrap the body does not grow. -/
theorem dedentLoop_length (doc : Str) (ind : Nat) (s : Str) (i lb : Nat) (hi : i + s.length = doc.length)
    (hlb : lb ≤ i) (hd : doc.length + ind < 2 ^ 64) :
    (dedentLoop doc ind s i lb).length + lb ≤ doc.length := by
  induction s generalizing i lb with
  | nil => simp [dedentLoop] at *; omega
  | cons c cs ih =>
    unfold dedentLoop
    simp only [List.length_cons] at hi
    split
    · have := ih (i + 1) (i + 1) (by omega) (by omega)
      rw [Nat.mod_eq_of_lt (by omega)]
      simp only [List.length_append, List.length_cons]
      split
      · simp only [List.length_take, List.length_drop]; omega
      · simp; omega
    · have := ih (i + 1) lb (by omega) (by omega)
      omega

/-- With the indentation `SIZE_MAX` at most one byte is added per line. -/
theorem dedentLoop_max (doc : Str) (hmax : doc.length < 2 ^ 63)
    (hb : ∀ pre post, doc = pre ++ '\n' :: post → Blank pre)
    (s : Str) (i lb : Nat) (hi : doc.drop i = s) (hlen : i + s.length = doc.length) (hlb : lb ≤ i) :
    Blank (dedentLoop doc sizeMax s i lb) ∧ (dedentLoop doc sizeMax s i lb).length + lb ≤ doc.length + s.length := by
  induction s generalizing i lb with
  | nil => simp [dedentLoop, Blank] at *; omega
  | cons c cs ih =>
    unfold dedentLoop
    simp only [List.length_cons] at hlen
    have hi' : doc.drop (i + 1) = cs := by
      rw [← List.drop_drop, hi]; rfl
    split
    · rename_i hc
      obtain ⟨h1, h2⟩ := ih (i + 1) (i + 1) hi' (by omega) (by omega)
      have hpre : Blank (doc.take i) := by
        apply hb _ cs
        rw [← hc, ← hi, List.take_append_drop]
      have hlb' : (lb + sizeMax) % 2 ^ 64 = if lb = 0 then sizeMax else lb - 1 := by
        unfold sizeMax
        split
        · subst_vars; decide
        · omega
      constructor
      · intro x hx
        simp only [List.mem_append, List.mem_cons] at hx
        rcases hx with hx | rfl | hx
        · split at hx
          · apply hpre
            rw [← List.drop_take] at hx
            exact List.mem_of_mem_drop hx
          · simp at hx
        · decide
        · exact h1 x hx
      · simp only [List.length_append, List.length_cons]
        rw [hlb']
        by_cases h0 : lb = 0
        · rw [if_pos h0, if_neg (by unfold sizeMax; omega)]
          simp only [List.length_nil]; omega
        · rw [if_neg h0]
          split
          · simp only [List.length_take, List.length_drop]; omega
          · simp only [List.length_nil]; omega
    · obtain ⟨h1, h2⟩ := ih (i + 1) lb hi' (by omega) (by omega)
      exact ⟨h1, by simp only [List.length_cons]; omega⟩

theorem dedentHeredoc_size (doc : Str) (hmax : doc.length < 2 ^ 63) :
    (dedentHeredoc doc).length ≤ doc.length ∨
    (Blank (dedentHeredoc doc) ∧ (dedentHeredoc doc).length ≤ 2 * doc.length) := by
  unfold dedentHeredoc
  extract_lets ind
  split
  · left; simp
  · rename_i h0
    have hind : ind = heredocIndent doc := rfl
    unfold heredocIndent at hind
    split at hind
    · omega
    have hle := indentLoop_le doc sizeMax 0 true
    rw [← hind] at hle
    by_cases hm : ind = sizeMax
    · right
      have hb : ∀ pre post, doc = pre ++ '\n' :: post → Blank pre := fun pre post h =>
        (indentLoop_eq_self doc sizeMax 0 true (by rw [← hind, hm]) (by unfold sizeMax; omega) pre post h).2
      have := dedentLoop_max doc hmax hb doc 0 0 (by simp) (by simp) (by simp)
      rw [hm]
      exact ⟨this.1, by omega⟩
    · left
      have : ind ≤ doc.length := by
        rcases hle.2 with h | h
        · exact absurd h hm
        · omega
      have := dedentLoop_length doc ind doc 0 0 (by simp) (by simp) (by omega)
      omega

theorem heredocBody_length (dash : Bool) (name : Str) (s doc d : Str) (k : Nat)
    (h : heredocBody dash name doc s = (some d, k)) : d.length ≤ doc.length + s.length := by
  induction s generalizing doc k with
  | nil =>
    unfold heredocBody at h
    split at h <;> simp at h
    simp [h.1]
  | cons c cs ih =>
    unfold heredocBody at h
    split at h
    · simp at h; simp [h.1]
    · simp only [Prod.mk.injEq] at h
      have := ih (doc ++ [c]) _ (Prod.ext h.1 rfl)
      simp at this; simp; omega

theorem stripTrailingSpaces_length (s : Str) : (stripTrailingSpaces s).length ≤ s.length := by
  unfold stripTrailingSpaces
  simp only [List.length_reverse]
  calc _ ≤ s.reverse.length := (List.dropWhile_suffix _).length_le
    _ = _ := by simp

end NP
