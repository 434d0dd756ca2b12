import Verif.Spec.Heredoc
import Verif.Proofs.Heredoc
import Verif.Proofs.Array
import Verif.Proofs.Names
import Verif.Proofs.Trace

/-! Texts of heredocs, line by line. -/

namespace NP

open Spec

theorem joinLines_nil : joinLines [] = [] := rfl

theorem joinLines_cons (l : Str) (ls : List Str) : joinLines (l :: ls) = l ++ '\n' :: joinLines ls := by
  simp [joinLines]

theorem joinLines_append (a b : List Str) : joinLines (a ++ b) = joinLines a ++ joinLines b := by
  simp [joinLines]

theorem joinLines_end (ls : List Str) : joinLines ls = [] ∨ ∃ s, joinLines ls = s ++ ['\n'] := by
  rcases List.eq_nil_or_concat ls with rfl | ⟨ls, l, rfl⟩
  · exact .inl rfl
  · exact .inr ⟨joinLines ls ++ l, by rw [List.concat_eq_append, joinLines_append]; simp [joinLines]⟩

theorem suffix_cases (a p name : Str) (h : name.isSuffixOf (a ++ p) = true) :
    (∃ p', p = p' ++ name) ∨ ∃ a' m, m ≠ [] ∧ name = m ++ p ∧ a = a' ++ m := by
  obtain ⟨x, hx⟩ := List.isSuffixOf_iff_suffix.1 h
  rcases List.append_eq_append_iff.1 hx with ⟨y, h1, h2⟩ | ⟨y, h1, h2⟩
  · by_cases hy : y = []
    · subst hy; exact .inl ⟨[], by simpa using h2.symm⟩
    · exact .inr ⟨x, y, hy, h2, h1⟩
  · exact .inl ⟨y, h2⟩

theorem ch_mid (x : Str) (w : Char) (y : Str) : (x ++ w :: y).ch (x.length + 1 - 1) = w := by
  simp [List.ch]

/-- `is_valid_heredoc` on the text up to some place of a line. -/
theorem validHeredoc_iff (dash : Bool) (ls : List Str) (p name : Str) (hn : '\n' ∉ name) (hp : '\n' ∉ p) :
    validHeredoc dash (joinLines ls ++ p) name = true ↔ Closes dash name p := by
  have hmid : ∀ (x : Str) (w : Char), validHeredoc dash (x ++ w :: name) name = if dash then isSpace w else w == '\n' := by
    intro x w
    have h1 : name.isSuffixOf (x ++ w :: name) = true :=
      List.isSuffixOf_iff_suffix.2 ⟨x ++ [w], by simp⟩
    have h2 : (x ++ w :: name).length - name.length = x.length + 1 := by simp; omega
    unfold validHeredoc
    rw [h1, h2, ch_mid]
    simp
  constructor
  · intro h
    have hs : name.isSuffixOf (joinLines ls ++ p) = true := by
      by_contra hc
      unfold validHeredoc at h
      simp [hc] at h
    rcases suffix_cases _ _ _ hs with ⟨p', rfl⟩ | ⟨a', m, hm, rfl, hj⟩
    · rcases List.eq_nil_or_concat p' with rfl | ⟨q, w, rfl⟩
      · exact .inl rfl
      · rw [List.concat_eq_append] at *
        rw [show joinLines ls ++ (q ++ [w] ++ name) = (joinLines ls ++ q) ++ w :: name by simp, hmid] at h
        cases dash with
        | true => exact .inr ⟨rfl, q, w, by rw [← isWs_eq]; exact h, by simp⟩
        | false =>
          have : w = '\n' := by simpa using h
          subst this
          exact absurd (by simp) hp
    · exfalso
      rcases List.eq_nil_or_concat m with rfl | ⟨q, w, rfl⟩
      · exact hm rfl
      · rw [List.concat_eq_append] at *
        rcases joinLines_end ls with h0 | ⟨s, h0⟩
        · rw [h0] at hj; simp at hj
        · rw [h0, ← List.append_assoc] at hj
          have := (List.append_inj' hj rfl).2
          simp only [List.cons.injEq, and_true] at this
          subst this
          exact hn (by simp)
  · rintro (rfl | ⟨rfl, q, w, hw, rfl⟩)
    · rcases joinLines_end ls with h0 | ⟨s, h0⟩
      · rw [h0]
        simp [validHeredoc, List.isSuffixOf_iff_suffix]
      · rw [h0, show s ++ ['\n'] ++ p = s ++ '\n' :: p by simp, hmid]
        cases dash <;> decide
    · rw [← List.append_assoc, hmid, if_pos rfl, isWs_eq]
      exact hw

theorem heredocBody_line (dash : Bool) (name p : Str) (hp : '\n' ∉ p) : ∀ doc s : Str,
    heredocBody dash name doc (p ++ s) =
      ((heredocBody dash name (doc ++ p) s).1, (heredocBody dash name (doc ++ p) s).2 + p.length) := by
  induction p with
  | nil => intro doc s; simp
  | cons c p ih =>
    intro doc s
    have hc : c ≠ '\n' := by rintro rfl; simp at hp
    rw [List.cons_append, heredocBody, if_neg (fun h => hc h.1)]
    simp only
    rw [ih (fun h => hp (List.mem_cons_of_mem _ h))]
    simp [Nat.add_assoc]

/-- Behind the lines of a heredoc. -/
inductive LineEnd : Str → Str → Nat → Prop where
  | newline (post : Str) : LineEnd ('\n' :: post) post 1
  | input : LineEnd [] [] 0

theorem heredocBody_lines (dash : Bool) (name z t post : Str) (n : Nat) (hn : '\n' ∉ name) (hz : '\n' ∉ z)
    (hc : Closes dash name z) (ht : LineEnd t post n) (ls : List Str)
    (hl : ∀ l ∈ ls, '\n' ∉ l ∧ ¬Closes dash name l) : ∀ ms : List Str,
    heredocBody dash name (joinLines ms) (joinLines ls ++ (z ++ t)) =
      (some (joinLines (ms ++ ls) ++ z), (joinLines ls).length + z.length + n) := by
  induction ls with
  | nil =>
    intro ms
    rw [joinLines_nil, List.nil_append, heredocBody_line dash name z hz]
    have hv := (validHeredoc_iff dash ms z name hn hz).2 hc
    cases ht with
    | newline =>
      rw [heredocBody, if_pos ⟨rfl, hv⟩]
      simp [Nat.add_comm]
    | input =>
      rw [heredocBody, if_pos hv]
      simp
  | cons l ls ih =>
    intro ms
    obtain ⟨h1, h2⟩ := hl l List.mem_cons_self
    rw [joinLines_cons, List.append_assoc, heredocBody_line dash name l h1]
    have hv : ¬(validHeredoc dash (joinLines ms ++ l) name = true) := fun h => h2 ((validHeredoc_iff dash ms l name hn h1).1 h)
    rw [List.cons_append, heredocBody, if_neg (fun h => hv h.2)]
    have e : joinLines ms ++ l ++ ['\n'] = joinLines (ms ++ [l]) := by simp [joinLines]
    rw [e]
    simp only
    rw [ih (fun m hm => hl m (List.mem_cons_of_mem _ hm))]
    simp
    omega

/-- No line closes the heredoc. -/
theorem heredocBody_none (dash : Bool) (name z : Str) (hn : '\n' ∉ name) (hz : '\n' ∉ z)
    (hc : ¬Closes dash name z) (ls : List Str)
    (hl : ∀ l ∈ ls, '\n' ∉ l ∧ ¬Closes dash name l) : ∀ ms : List Str,
    (heredocBody dash name (joinLines ms) (joinLines ls ++ z)).1 = none := by
  induction ls with
  | nil =>
    intro ms
    have := heredocBody_line dash name z hz (joinLines ms) []
    rw [List.append_nil] at this
    rw [joinLines_nil, List.nil_append, this]
    have hv : ¬(validHeredoc dash (joinLines ms ++ z) name = true) := fun h => hc ((validHeredoc_iff dash ms z name hn hz).1 h)
    rw [heredocBody, if_neg hv]
  | cons l ls ih =>
    intro ms
    obtain ⟨h1, h2⟩ := hl l List.mem_cons_self
    rw [joinLines_cons, List.append_assoc, heredocBody_line dash name l h1]
    have hv : ¬(validHeredoc dash (joinLines ms ++ l) name = true) := fun h => h2 ((validHeredoc_iff dash ms l name hn h1).1 h)
    rw [List.cons_append, heredocBody, if_neg (fun h => hv h.2)]
    have e : joinLines ms ++ l ++ ['\n'] = joinLines (ms ++ [l]) := by simp [joinLines]
    rw [e]
    simp only
    rw [ih (fun m hm => hl m (List.mem_cons_of_mem _ hm))]

theorem strip_spaces (a sp : Str) (hs : ∀ c ∈ sp, c = ' ') (ha : a = [] ∨ ∃ b, a = b ++ ['\n']) :
    stripTrailingSpaces (a ++ sp) = a := by
  unfold stripTrailingSpaces
  rw [List.reverse_append, List.dropWhile_append_of_pos (by intro c hc; simp [hs c (by simpa using hc)])]
  rcases ha with rfl | ⟨b, rfl⟩
  · rfl
  · simp

/-! ### Indentation -/

theorem indentLoop_line (l : Str) (hl : '\n' ∉ l) : ∀ (s : Str) (ind line : Nat),
    indentLoop (l ++ s) ind line true =
      if l.all isWs then indentLoop s ind (line + l.length) true
      else indentLoop s ind (line + (l.takeWhile isWs).length) false := by
  induction l with
  | nil => intro s ind line; simp
  | cons c l ih =>
    intro s ind line
    have hc : c ≠ '\n' := by rintro rfl; simp at hl
    have hl' : '\n' ∉ l := fun h => hl (List.mem_cons_of_mem _ h)
    rw [List.cons_append, indentLoop, if_neg hc, isWs_eq]
    by_cases hw : isWs c = true
    · rw [if_pos hw, if_pos rfl, ih hl']
      simp only [List.all_cons, hw, Bool.true_and, List.length_cons, List.takeWhile_cons, if_true]
      rw [show line + 1 + l.length = line + (l.length + 1) by omega,
        show line + 1 + (l.takeWhile isWs).length = line + ((l.takeWhile isWs).length + 1) by omega]
    · rw [if_neg hw]
      simp only [List.all_cons, hw, Bool.false_and, Bool.false_eq_true, if_false, List.takeWhile_cons,
        List.length_nil, Nat.add_zero]
      clear ih
      clear hl hc
      induction l with
      | nil => rfl
      | cons d l ih2 =>
        have hd : d ≠ '\n' := by rintro rfl; simp at hl'
        rw [List.cons_append, indentLoop, if_neg hd]
        have := ih2 (fun h => hl' (List.mem_cons_of_mem _ h))
        split
        · rw [if_neg (by simp)]; exact this
        · exact this

theorem indentLoop_lines (ls : List Str) (hl : ∀ l ∈ ls, '\n' ∉ l) : ∀ ind : Nat,
    indentLoop (joinLines ls) ind 0 true = (ls.filterMap indentOf).foldl min ind := by
  induction ls with
  | nil => intro ind; rfl
  | cons l ls ih =>
    intro ind
    rw [joinLines_cons, indentLoop_line l (hl l List.mem_cons_self)]
    have ih' := ih fun m hm => hl m (List.mem_cons_of_mem _ hm)
    by_cases h : l.all isWs = true
    · rw [if_pos h, indentLoop, if_pos rfl, if_neg (by simp), ih', List.filterMap_cons]
      simp only [indentOf, if_pos h]
    · rw [if_neg h, indentLoop, if_pos rfl, ih', List.filterMap_cons]
      simp only [indentOf, if_neg h, List.foldl_cons]
      congr 1
      simp only [Nat.zero_add, Bool.not_false, true_and]
      split <;> omega

theorem heredocIndent_lines (ls : List Str) (hl : ∀ l ∈ ls, '\n' ∉ l) (k : Nat) (hk : commonIndent ls = some k)
    (hlen : (joinLines ls).length < 2 ^ 63) : heredocIndent (joinLines ls) = k ∧ k < 2 ^ 63 := by
  unfold commonIndent at hk
  cases hx : ls.filterMap indentOf with
  | nil => rw [hx] at hk; cases hk
  | cons x xs =>
    have hxl : x ≤ (joinLines ls).length := by
      have : x ∈ ls.filterMap indentOf := by rw [hx]; simp
      obtain ⟨l, h1, h2⟩ := List.mem_filterMap.1 this
      unfold indentOf at h2
      split at h2
      · cases h2
      · cases h2
        have h3 : (l.takeWhile isWs).length ≤ l.length := (List.takeWhile_prefix _).length_le
        have h4 : l.length ≤ (joinLines ls).length := by
          obtain ⟨a, b, rfl⟩ := List.append_of_mem h1
          rw [joinLines_append, joinLines_cons]
          simp
          omega
        omega
    have hne : joinLines ls ≠ [] := by
      intro h0
      cases ls with
      | nil => cases hx
      | cons l ls => rw [joinLines_cons] at h0; simp at h0
    rw [hx, List.min?_cons'] at hk
    cases hk
    have e : heredocIndent (joinLines ls) = xs.foldl min x := by
      unfold heredocIndent
      rw [if_neg hne, indentLoop_lines ls hl, hx, List.foldl_cons]
      congr 1
      unfold sizeMax
      omega
    refine ⟨e, ?_⟩
    have : ∀ (ys : List Nat) (y : Nat), ys.foldl min y ≤ y := by
      intro ys
      induction ys with
      | nil => intro y; exact Nat.le_refl _
      | cons z ys ih => intro y; exact (ih (min y z)).trans (Nat.min_le_left _ _)
    have := this xs x
    omega

theorem dedentLoop_line (doc : Str) (ind : Nat) (l : Str) (hl : '\n' ∉ l) : ∀ (s : Str) (i lb : Nat),
    dedentLoop doc ind (l ++ s) i lb = dedentLoop doc ind s (i + l.length) lb := by
  induction l with
  | nil => intro s i lb; simp
  | cons c l ih =>
    intro s i lb
    have hc : c ≠ '\n' := by rintro rfl; simp at hl
    rw [List.cons_append, dedentLoop, if_neg hc, ih (fun h => hl (List.mem_cons_of_mem _ h))]
    rw [List.length_cons, show i + 1 + l.length = i + (l.length + 1) by omega]

theorem dedentLoop_lines (doc : Str) (ind : Nat) (hd : doc.length < 2 ^ 63) (hi : ind < 2 ^ 63) (ls : List Str)
    (hl : ∀ l ∈ ls, '\n' ∉ l) : ∀ a : Str, doc = a ++ joinLines ls →
    dedentLoop doc ind (joinLines ls) a.length a.length = joinLines (ls.map (·.drop ind)) := by
  induction ls with
  | nil => intro a _; rfl
  | cons l ls ih =>
    intro a ha
    rw [joinLines_cons, dedentLoop_line doc ind l (hl l List.mem_cons_self), dedentLoop, if_pos rfl]
    have hlen : a.length ≤ doc.length := by rw [ha]; simp
    have hmod : (a.length + ind) % 2 ^ 64 = a.length + ind := Nat.mod_eq_of_lt (by omega)
    simp only [hmod]
    have hrec := ih (fun m hm => hl m (List.mem_cons_of_mem _ hm)) (a ++ l ++ ['\n'])
      (by rw [ha, joinLines_cons]; simp)
    simp only [List.length_append, List.length_cons, List.length_nil, Nat.zero_add] at hrec
    rw [hrec, List.map_cons, joinLines_cons]
    congr 1
    split
    · rw [ha, joinLines_cons]
      rw [← List.drop_drop, List.drop_left]
      rw [List.drop_append_of_le_length (by omega)]
      rw [show a.length + l.length - (a.length + ind) = (l.drop ind).length by simp; omega, List.take_left]
    · rw [List.drop_of_length_le (by omega)]

/-- `dedent_heredoc` on a text of lines that are not all blank. -/
theorem dedentHeredoc_lines (ls : List Str) (hl : ∀ l ∈ ls, '\n' ∉ l) (hb : commonIndent ls ≠ none)
    (hlen : (joinLines ls).length < 2 ^ 63) : dedentHeredoc (joinLines ls) = joinLines (dedentLines ls) := by
  cases hk : commonIndent ls with
  | none => exact absurd hk hb
  | some k =>
    obtain ⟨h1, h2⟩ := heredocIndent_lines ls hl k hk hlen
    unfold dedentHeredoc dedentLines
    rw [h1, hk]
    simp only [Option.getD_some]
    split
    · rename_i h; subst h; simp
    · exact dedentLoop_lines _ k hlen h2 ls hl [] rfl

end NP
