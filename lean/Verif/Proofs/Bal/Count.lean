import Verif.Spec.Brackets
import Verif.Proofs.ParseWp

/-! Balanced lists of tokens: newlines do not matter, and the brackets other than keywords are balanced by themselves. -/

namespace NP.Bal

open Spec

/-- The tokens other than newlines, last first. -/
theorem noNewlines_cons (t : Token) (l : List Token) (h : t.type ≠ .Newline) : noNewlines (t :: l) = t :: noNewlines l := by
  simp [noNewlines, h]

theorem noNewlines_append (a b : List Token) : noNewlines (a ++ b) = noNewlines a ++ noNewlines b := by
  simp [noNewlines]

theorem noNewlines_reverse (a : List Token) : noNewlines a.reverse = (noNewlines a).reverse := by
  simp [noNewlines, List.filter_reverse]

theorem namePos_noNewlines {l : List Token} (h : NamePos l) : NamePos (noNewlines l) := by
  cases h with
  | after t l h =>
    rw [noNewlines_cons _ _ (by intro e; rw [e] at h; exact absurd h (by decide))]
    exact .after _ _ h
  | second x a l hx h =>
    rw [noNewlines_cons _ _ hx, noNewlines_cons _ _ (by rw [h]; decide)]
    exact .second _ _ _ hx h
  | dynamic x a m l hx h =>
    rw [List.cons_append, noNewlines_cons _ _ (by rw [hx]; decide), noNewlines_append,
      noNewlines_cons _ _ (by rw [h]; decide)]
    exact .dynamic _ _ _ _ hx h
  | further x a m l hx h =>
    rw [List.cons_append, noNewlines_cons _ _ (by rw [hx]; decide), noNewlines_append,
      noNewlines_cons _ _ (by rw [h]; decide)]
    exact .further _ _ _ _ hx h

theorem opened_noNewlines {st : List Ttype} {l : List Token} (h : Opened st l) : Opened st (noNewlines l) := by
  induction h with
  | nil => exact .nil
  | plain t h _ ih =>
    by_cases e : t.type = .Newline
    · simpa [noNewlines, e] using ih
    · rw [noNewlines_cons _ _ e]
      exact .plain _ h ih
  | opens t c h _ ih =>
    rw [noNewlines_cons _ _ (by intro e; rw [e] at h; cases h)]
    exact .opens _ _ h ih
  | closed t o h _ ih =>
    rw [noNewlines_cons _ _ (by intro e; rw [e] at h; cases o <;> exact absurd h (by decide))]
    exact .closed _ _ h ih
  | name t h hp _ ih =>
    rw [noNewlines_cons _ _ (by intro e; rw [e] at h; cases h)]
    exact .name _ h (namePos_noNewlines hp) ih

theorem read_append (a b : List Ttype) : ∀ st, readBrackets st (a ++ b) = (readBrackets st a).bind fun st' => readBrackets st' b := by
  induction a with
  | nil => intro st; rfl
  | cons t ts ih =>
    intro st
    simp only [List.cons_append, readBrackets]
    split
    · exact ih _
    · split
      · cases st with
        | nil => rfl
        | cons o st =>
          dsimp only
          split
          · exact ih _
          · rfl
      · exact ih _

theorem closes_kinds {o c : Ttype} (h : closes o c = true) :
    (isOpen o = true ∧ isClose c = true ∧ isOpen c = false) ∨ (isOpen o = false ∧ c = .EndKeyword) := by
  cases o <;> cases c <;> first | exact absurd h (by decide) | exact .inl (by decide) | exact .inr (by decide)

theorem keyword_kinds {t : Ttype} (h : t.isKeyword = true) : isOpen t = false ∧ isClose t = false := by
  cases t <;> first | exact absurd h (by decide) | decide

theorem plain_kinds {t : Ttype} (h : isPlain t = true) : isOpen t = false ∧ isClose t = false := by
  simp only [isPlain, Bool.and_eq_true, Bool.not_eq_true'] at h
  exact ⟨h.1.1.1, h.1.1.2⟩

theorem opened_read {st : List Ttype} {l : List Token} (h : Opened st l) :
    readBrackets [] (l.reverse.map (·.type)) = some (st.filter isOpen) := by
  induction h with
  | nil => rfl
  | plain t h _ ih =>
    obtain ⟨h1, h2⟩ := plain_kinds h
    rw [List.reverse_cons, List.map_append, read_append, ih]
    simp [readBrackets, h1, h2]
  | opens t c h _ ih =>
    rw [List.reverse_cons, List.map_append, read_append, ih]
    rcases closes_kinds h with ⟨h1, -, -⟩ | ⟨h1, -⟩
    · simp [readBrackets, h1]
    · have h2 : isClose t.type = false := by
        revert h
        cases t.type <;> first | (intros; rfl) | (cases c <;> decide)
      simp [readBrackets, h1, h2]
  | closed t o h _ ih =>
    rw [List.reverse_cons, List.map_append, read_append, ih]
    rcases closes_kinds h with ⟨h1, h2, h3⟩ | ⟨h1, h2⟩
    · simp [readBrackets, h1, h2, h3, h]
    · rw [List.filter_cons_of_neg (by simp [h1])]
      simp [readBrackets, h2, isOpen, isClose]
  | name t h hp _ ih =>
    obtain ⟨h1, h2⟩ := keyword_kinds h
    rw [List.reverse_cons, List.map_append, read_append, ih]
    simp [readBrackets, h1, h2]

theorem read_noNewlines (ts : List Token) : ∀ st,
    readBrackets st ((noNewlines ts).map (·.type)) = readBrackets st (ts.map (·.type)) := by
  induction ts with
  | nil => intro st; rfl
  | cons t ts ih =>
    intro st
    by_cases e : t.type = .Newline
    · have : noNewlines (t :: ts) = noNewlines ts := by simp [noNewlines, e]
      rw [this, ih]
      simp [readBrackets, e, isOpen, isClose]
    · rw [noNewlines_cons _ _ e]
      simp only [List.map_cons, readBrackets]
      split
      · exact ih _
      · split
        · cases st with
          | nil => rfl
          | cons o st =>
            dsimp only
            split
            · exact ih _
            · rfl
        · exact ih _

/-- What closes a token, if anything. -/
def closer : Ttype → Ttype
  | .LParen => .RParen
  | .LCurlyBrace => .RCurlyBrace
  | .LBracket | .PercentLowerW | .PercentUpperW | .PercentLowerI | .PercentUpperI => .RBracket
  | .EvaluateToStringBegin => .EvaluateToStringEnd
  | .InterpolatedStringBegin => .InterpolatedStringEnd
  | .InterpolatedSymbolBegin => .InterpolatedSymbolEnd
  | .InterpolatedRegexpBegin => .InterpolatedRegexpEnd
  | .InterpolatedShellBegin => .InterpolatedShellEnd
  | _ => .EndKeyword

theorem closes_closer {o c : Ttype} (h : closes o c = true) : c = closer o := by
  revert h
  cases o <;> cases c <;> first | (intro h; exact absurd h (by decide)) | (intro; rfl)

/-- Brackets that are closed by `c` are as many as the tokens `c`, and the open ones. -/
theorem read_count (c : Ttype) (hc : isClose c = true) (ts : List Ttype) : ∀ st st',
    readBrackets st ts = some st' →
      ts.countP (fun o => isOpen o && closes o c) + st.countP (fun o => closes o c) =
        ts.count c + st'.countP fun o => closes o c := by
  have ho : isOpen c = false := by
    revert hc
    cases c <;> decide
  induction ts with
  | nil =>
    intro st st' h
    cases h
    simp
  | cons t ts ih =>
    intro st st' h
    simp only [readBrackets] at h
    split at h
    · rename_i h1
      have := ih _ _ h
      have hn : t ≠ c := by
        rintro rfl
        rw [ho] at h1
        cases h1
      simp only [List.countP_cons, List.count_cons, h1, Bool.true_and, beq_iff_eq, hn, if_false] at this ⊢
      omega
    · rename_i h1
      split at h
      · rename_i h2
        cases st with
        | nil => cases h
        | cons o st =>
          dsimp only at h
          split at h
          · rename_i h3
            have := ih _ _ h
            have h1' : isOpen t = false := by simpa using h1
            have hoc : closes o c = true ↔ t = c := by
              constructor
              · intro h4
                rw [closes_closer h3, closes_closer h4]
              · rintro rfl
                exact h3
            simp only [List.countP_cons, List.count_cons, h1', Bool.false_and, beq_iff_eq, hoc] at this ⊢
            simp only [Bool.false_eq_true, if_false]
            omega
          · cases h
      · rename_i h2
        have := ih _ _ h
        have hn : t ≠ c := by
          rintro rfl
          exact h2 hc
        have h1' : isOpen t = false := by simpa using h1
        simp only [List.countP_cons, List.count_cons, h1', Bool.false_and, beq_iff_eq, hn, if_false] at this ⊢
        simp only [Bool.false_eq_true, if_false]
        omega

/-- Without a place for a keyword as a name, every keyword that needs an `end` has one, and every `end` a keyword. -/
theorem opened_ends {st : List Ttype} {l : List Token} (h : Opened st l)
    (hn : ∀ t ∈ l, t.type ∉ [.Dot, .SafeNavigation, .ConstantResolution, .DefKeyword, .AliasKeyword, .UndefKeyword, .StarStar]) :
    l.countP (fun t => needsEnd t.type) ≤ l.countP (fun t => t.type == .EndKeyword) + st.countP (fun o => closes o .EndKeyword) ∧
    l.countP (fun t => t.type == .EndKeyword) + st.countP (fun o => closes o .EndKeyword) ≤
      l.countP fun t => closes t.type .EndKeyword := by
  induction h with
  | nil => simp
  | plain t h _ ih =>
    have := ih fun t' h' => hn t' (List.mem_cons_of_mem _ h')
    simp only [isPlain, Bool.and_eq_true, Bool.not_eq_true', bne_iff_ne, ne_eq] at h
    have he : (t.type == .EndKeyword) = false := by simpa using h.2
    simp only [List.countP_cons, h.1.2, he, Bool.false_eq_true, if_false]
    omega
  | opens t c h _ ih =>
    have := ih fun t' h' => hn t' (List.mem_cons_of_mem _ h')
    have he : (t.type == .EndKeyword) = false := by
      revert h
      cases t.type <;> first | (intros; rfl) | (cases c <;> decide)
    have hk : needsEnd t.type = true → closes t.type .EndKeyword = true := by
      cases t.type <;> decide
    simp only [List.countP_cons, he, Bool.false_eq_true, if_false]
    by_cases h1 : needsEnd t.type = true
    · simp only [h1, hk h1, if_true]
      omega
    · rw [if_neg h1]
      by_cases h2 : closes t.type .EndKeyword = true
      · simp only [h2, if_true]
        omega
      · rw [if_neg h2]
        omega
  | closed t o h _ ih =>
    have := ih fun t' h' => hn t' (List.mem_cons_of_mem _ h')
    have h1 : needsEnd t.type = false ∧ closes t.type .EndKeyword = false := by
      revert h
      cases t.type <;> first | (intros; exact ⟨rfl, rfl⟩) | (cases o <;> decide)
    have h2 : closes o .EndKeyword = (t.type == .EndKeyword) := by
      rw [closes_closer h]
      revert h
      cases o <;> first | (intros; rfl) | (cases t.type <;> decide)
    simp only [List.countP_cons, h1.1, h1.2, h2, Bool.false_eq_true, if_false] at this ⊢
    omega
  | name t h hp _ ih =>
    exfalso
    cases hp with
    | after x l h => exact hn x (by simp) h
    | second x a l hx h => exact hn a (by simp) (by simp [h])
    | dynamic x a m l hx h => exact hn a (by simp) (by simp [h])
    | further x a m l hx h => exact hn a (by simp) (by simp [h])

end NP.Bal
