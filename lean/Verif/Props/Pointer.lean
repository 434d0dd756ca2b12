import Verif.Props.Tree
import Verif.Props.Message

/-! C49: the places that syntax errors report. -/

namespace NP

open Spec

/-- Line and column that an error reports: those of the unexpected or invalid token, or those of the beginning of the
literal that is not terminated. -/
def SErr.reports : SErr → Option (Nat × Nat)
  | .unexpected t _ _ _ => some (t.line, t.col)
  | .unterminated _ start _ _ => some (start.line, start.col)
  | .invalid t => some (t.line, t.col)
  | .plain _ => none

theorem Parses.errPlace {src file : Str} {e : SErr} (W : Nat → Nat → Prop) (h : Parses src file (.err e))
    (h0 : W 0 0) (hW : ∀ ts, Lexes src ts → ∀ t ∈ ts, W t.line t.col) : Val.errPlace W e := by
  generalize hr : PRes.err e = r at h
  obtain ⟨ts, hl⟩ | _ | _ := h
  · refine Val.err_parseToks hr.symm h0 fun t ht => ⟨hW ts hl t ht, fun k => ?_⟩
    have := hl.litOk t ht (by rcases k with k | k <;> rw [k] <;> rfl)
    exact Option.isSome_iff_ne_none.2 this
  · cases hr
  · cases hr

theorem errPlace_reports {W : Nat → Nat → Prop} {e : SErr} {l k : Nat} (h : Val.errPlace W e) (he : e.reports = some (l, k)) :
    W l k := by
  cases e <;> simp only [SErr.reports, Option.some.injEq, Prod.mk.injEq, reduceCtorEq] at he
  · rw [← he.1, ← he.2]; exact h
  · rw [← he.1, ← he.2]; exact h.2
  · rw [← he.1, ← he.2]; exact h

/-- C49: every syntax error reports the place of a token of the source (or the beginning of the source). -/
theorem C49 {src file : Str} {e : SErr} {l k : Nat} (h : Parses src file (.err e)) (he : e.reports = some (l, k))
    {ts : List Token} (hl : Lexes src ts) : (∃ t ∈ ts, l = t.line ∧ k = t.col) ∨ l = 0 ∧ k = 0 :=
  errPlace_reports (h.errPlace (fun l k => (∃ t ∈ ts, l = t.line ∧ k = t.col) ∨ l = 0 ∧ k = 0) (.inr ⟨rfl, rfl⟩)
    fun _ hl' t ht => .inl ⟨t, hl'.unique hl ▸ ht, rfl, rfl⟩) he

/-- C49 for sources without `<<`: line and column are those of an offset of the source. -/
theorem C49_source {src file : Str} {e : SErr} {l k : Nat} (hsrc : ¬ cs! "<<" <:+: src) (h : Parses src file (.err e))
    (he : e.reports = some (l, k)) : ∃ i, l = lineAt src i ∧ k = colAt src i :=
  errPlace_reports (h.errPlace (fun l k => ∃ i, l = lineAt src i ∧ k = colAt src i) ⟨0, by simp [lineAt], by simp [colAt]⟩
    fun _ hl t ht => tokens_at hsrc hl t ht) he

/-- The line of an offset, and what stands in it before and behind the column of the offset. -/
theorem line_at (src : Str) (i : Nat) : ∃ x, IsLine src (lineAt src i) x ∧ x.take (colAt src i) <:+ src.take i ∧
    x.drop (colAt src i) <+: src.drop i := by
  have hs : src.take i ++ src.drop i = src := List.take_append_drop i src
  have hover : i - src.length = 0 ∨ src.drop i = [] := by
    rcases Nat.le_total i src.length with h | h
    · exact .inl (by omega)
    · exact .inr (List.drop_eq_nil_of_le h)
  unfold lineAt colAt
  generalize src.take i = u at *
  generalize src.drop i = v at *
  generalize i - src.length = j at *
  have hu : u = (u.reverse.dropWhile (· != '\n')).reverse ++ (u.reverse.takeWhile (· != '\n')).reverse := by
    rw [← List.reverse_append, List.takeWhile_append_dropWhile, List.reverse_reverse]
  have hv : v = v.takeWhile (· != '\n') ++ v.dropWhile (· != '\n') := (List.takeWhile_append_dropWhile).symm
  have hp : '\n' ∉ u.reverse.takeWhile (· != '\n') := fun h => by simpa using List.mem_takeWhile_imp h
  have hq : '\n' ∉ v.takeWhile (· != '\n') := fun h => by simpa using List.mem_takeWhile_imp h
  have ha : u.reverse.dropWhile (· != '\n') = [] ∨ (u.reverse.dropWhile (· != '\n')).head? = some '\n' := by
    cases he : u.reverse.dropWhile (· != '\n') with
    | nil => exact .inl rfl
    | cons c r =>
      have := List.head_dropWhile_not (· != '\n') (l := u.reverse) (by rw [he]; simp)
      simp only [he, List.head_cons, bne_eq_false_iff_eq] at this
      exact .inr (by rw [this]; rfl)
  have hb : v.dropWhile (· != '\n') = [] ∨ (v.dropWhile (· != '\n')).head? = some '\n' := by
    cases he : v.dropWhile (· != '\n') with
    | nil => exact .inl rfl
    | cons c r =>
      have := List.head_dropWhile_not (· != '\n') (l := v) (by rw [he]; simp)
      simp only [he, List.head_cons, bne_eq_false_iff_eq] at this
      exact .inr (by rw [this]; rfl)
  generalize u.reverse.takeWhile (· != '\n') = p at *
  generalize u.reverse.dropWhile (· != '\n') = a at *
  have hv' : v = [] → v.takeWhile (· != '\n') = [] := by rintro rfl; rfl
  generalize v.takeWhile (· != '\n') = q at *
  generalize v.dropWhile (· != '\n') = b at *
  refine ⟨p.reverse ++ q, ⟨a.reverse, b, ?_, ?_, ?_, ?_, hb⟩, ?_, ?_⟩
  · rw [← hs, hu, hv]; simp
  · rw [hu, List.count_append]
    simp [List.count_eq_zero.2 hp]
  · simp [hp, hq]
  · rcases ha with rfl | ha
    · exact .inl rfl
    · exact .inr (by rw [List.getLast?_reverse, ha])
  · have : (p.reverse ++ q).take (p.length + j) = p.reverse := by
      rcases hover with rfl | hv0
      · simp
      · rw [hv' hv0, List.append_nil]; exact List.take_of_length_le (by simp)
    rw [this, hu]
    exact ⟨_, rfl⟩
  · have : (p.reverse ++ q).drop (p.length + j) = q := by
      rcases hover with rfl | hv0
      · simp
      · rw [hv' hv0]; simp
    rw [this, hv]
    exact ⟨_, rfl⟩

/-- C49 for the message of an unexpected token (except for the messages of `C36_unexpected_partial`) in a source without
`<<`: the excerpt is a line of the source, and the column in front of which `^` is put (`C36_message`) separates what
stands before the reported offset from what stands behind it. -/
theorem C49_unexpected {src file : Str} {t : Token} {b : Bool} {help ex : Str} (hsrc : ¬ cs! "<<" <:+: src)
    (h : Parses src file (.err (.unexpected t b help ex))) (hh : help ∉ offSite) :
    ∃ i, IsLine src t.line ex ∧ TokenAt src i t ∧ ex.take t.col <:+ src.take i ∧ ex.drop t.col <+: src.drop i := by
  obtain ⟨i, hl, hk⟩ := C49_source hsrc h rfl
  obtain ⟨x, h1, h2, h3⟩ := line_at src i
  rw [← hl] at h1
  cases C36_unexpected_partial src file t b help ex x h hh h1
  rw [← hk] at h2 h3
  exact ⟨i, h1, ⟨hl, hk⟩, h2, h3⟩

/-- The same for a literal that is not terminated. -/
theorem C49_unterminated {src file : Str} {t start : Token} {thing ex : Str} (hsrc : ¬ cs! "<<" <:+: src)
    (h : Parses src file (.err (.unterminated t start thing ex))) :
    ∃ i, IsLine src start.line ex ∧ TokenAt src i start ∧ ex.take start.col <:+ src.take i ∧
      ex.drop start.col <+: src.drop i := by
  obtain ⟨i, hl, hk⟩ := C49_source hsrc h rfl
  obtain ⟨x, h1, h2, h3⟩ := line_at src i
  rw [← hl] at h1
  cases C36_unterminated src file t start thing ex x h h1
  rw [← hk] at h2 h3
  exact ⟨i, h1, ⟨hl, hk⟩, h2, h3⟩

/-! ### Non-vacuity -/

/-- The place and excerpt of the error of a source, and whether the excerpt need not be the reported line. -/
def errorOf (src : Str) : Option (Option (Nat × Nat) × Str × Bool) :=
  match runSource 40 src with
  | some (.err (.unexpected t b help ex)) => some ((SErr.unexpected t b help ex).reports, ex, decide (help ∈ offSite))
  | some (.err (.unterminated t u th ex)) => some ((SErr.unterminated t u th ex).reports, ex, false)
  | some (.err e) => some (e.reports, [], false)
  | _ => none

example : ¬ cs! "<<" <:+: cs! "a\nb\nc )" ∧ errorOf (cs! "a\nb\nc )") = some (some (2, 2), cs! "c )", false) := by decide +kernel

example : ¬ cs! "<<" <:+: cs! "a\nb(\"c\n" ∧ errorOf (cs! "a\nb(\"c\n") = some (some (1, 2), cs! "b(\"c", false) := by decide +kernel

example : errorOf (cs! "x = 1\n  [1] += 2") = some (some (1, 2), cs! "  [1] += 2", true) := by decide +kernel

end NP
