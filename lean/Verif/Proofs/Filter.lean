import Verif.Proofs.Step
import Verif.Proofs.Doc
import Verif.Spec.Filter

/-! The loop of `tokens()` refines the declarative filter. -/

namespace NP

open Spec

theorem mustContinue_eq (t : Ttype) : mustContinue t = t.canPrecedeCollapsibleNewline := by cases t <;> rfl
theorem continuesLine_eq (t : Ttype) : continuesLine t = t.canFollowCollapsibleNewline := by cases t <;> rfl
theorem isDefinition_eq (t : Ttype) : isDefinition t = t.canHaveDoc := by cases t <;> rfl
theorem isError_eq (t : Ttype) : isError t = !t.isValid := by cases t <;> rfl

theorem nextContinues_nil : nextContinues [] = false := rfl
theorem nextContinues_cons (t : Token) (ts : List Token) : nextContinues (t :: ts) =
    if t.type = .Newline then nextContinues ts else t.type.canFollowCollapsibleNewline := by
  rw [nextContinues, continuesLine_eq]
theorem prevContinues_none : prevContinues none = false := rfl
theorem prevContinues_some (t : Ttype) : prevContinues (some t) = t.canPrecedeCollapsibleNewline := mustContinue_eq t

/-- `tokens()` over a given raw stream. -/
def Filt.run (f : Filt) (raw : List Token) : Filt := raw.foldl (fun f t => (f.step t).1) f

theorem docsBefore_comment (seen : List Token) (t : Token) (h : t.type = .Comment) :
    docsBefore (seen ++ [t]) = docsBefore seen := by
  simp [docsBefore, neutral, isComment, h]

theorem docsBefore_eol (seen : List Token) (t : Token) (h : t.type.isEndOfLine = true) :
    docsBefore (seen ++ [t]) = docsBefore seen := by
  simp only [Ttype.isEndOfLine, Bool.or_eq_true, beq_iff_eq] at h
  rcases h with h | h <;> simp [docsBefore, neutral, isComment, h]

theorem docsBefore_other (seen : List Token) (t : Token) (h : neutral t = false) :
    docsBefore (seen ++ [t]) = none := by
  simp [docsBefore, h]

theorem docsBefore_doc (seen : List Token) (t : Token) (h : t.type = .Doc) :
    docsBefore (seen ++ [t]) = some ((docsBefore seen).getD [] ++ t.lit.getD []) := by
  simp only [docsBefore, neutral, isComment, h, List.reverse_append, List.reverse_cons, List.reverse_nil,
    List.nil_append, List.singleton_append, List.takeWhile_cons]
  simp only [beq_self_eq_true, Bool.or_true, Bool.true_or, if_true, List.filter_cons, h]
  generalize List.filter _ _ = ds
  cases ds with
  | nil => simp
  | cons d ds => simp

/-- What is left to do for the rest `ts` of the stream when `nl` newlines are pending. -/
def finish (base nl : List Token) (prev : Option Ttype) (ts : List Token) : List Token :=
  base.reverse ++ (if nextContinues ts then [] else nl.reverse) ++ collapse prev ts

structure FiltInv (f : Filt) (seen base nl : List Token) (prev : Option Ttype) : Prop where
  out : f.out = nl ++ base
  nls : ∀ t ∈ nl, t.type = .Newline
  bases : ∀ t, base.head? = some t → t.type ≠ .Newline
  skip : f.skip = (nl.isEmpty && prevContinues prev)
  nlp : nl ≠ [] → prevContinues prev = false
  doc : f.lastDoc = docsBefore seen

theorem popNewlines_eq (nl base : List Token) (h1 : ∀ t ∈ nl, t.type = .Newline)
    (h2 : ∀ t, base.head? = some t → t.type ≠ .Newline) : popNewlines (nl ++ base) = base := by
  induction nl with
  | nil =>
    cases base with
    | nil => rfl
    | cons b bs =>
      have := h2 b rfl
      simp [popNewlines, this]
  | cons n nl ih =>
    have := h1 n (by simp)
    simp only [popNewlines, List.cons_append, List.dropWhile_cons, this, beq_self_eq_true, if_true]
    exact ih (fun t ht => h1 t (by simp [ht]))

theorem isComment_annotated (seen : List Token) (t : Token) :
    isComment (if t.type.canHaveDoc then { t with doc := docsBefore seen } else t) = isComment t := by
  split <;> rfl

theorem type_annotated (seen : List Token) (t : Token) :
    (if t.type.canHaveDoc then { t with doc := docsBefore seen } else t).type = t.type := by
  split <;> rfl

theorem canHaveDoc_not_neutral (t : Token) (h : t.type.canHaveDoc = true) :
    neutral t = false ∧ t.type ≠ .Newline ∧ t.type.isEndOfLine = false ∧ isComment t = false := by
  cases ht : t.type <;> rw [ht] at h <;> simp [Ttype.canHaveDoc] at h <;>
    simp [neutral, isComment, ht, Ttype.isEndOfLine]

theorem run_spec (raw : List Token) : ∀ (f : Filt) (seen base nl : List Token) (prev : Option Ttype),
    FiltInv f seen base nl prev → (∀ t ∈ raw, t.doc = none) →
    (f.run raw).out.reverse = finish base nl prev ((annotate seen raw).filter fun t => !isComment t) := by
  induction raw with
  | nil =>
    intro f seen base nl prev h _
    simp [Filt.run, finish, annotate, nextContinues_nil, collapse, h.out]
  | cons t ts ih =>
    intro f seen base nl prev h hd
    have hd' : ∀ t ∈ ts, t.doc = none := fun x hx => hd x (by simp [hx])
    have htd : t.doc = none := hd t (by simp)
    show ((f.step t).1.run ts).out.reverse = _
    rw [annotate, isDefinition_eq, List.filter_cons, isComment_annotated]
    by_cases hc : isComment t = true
    · simp only [hc, Bool.not_true, Bool.false_eq_true, if_false]
      have hinv : FiltInv (f.step t).1 (seen ++ [t]) base nl prev := by
        simp only [isComment, Bool.or_eq_true, beq_iff_eq] at hc
        unfold Filt.step
        rcases hc with hc | hc
        · rw [if_pos hc]
          exact ⟨h.out, h.nls, h.bases, h.skip, h.nlp, by rw [docsBefore_comment _ _ hc]; exact h.doc⟩
        · rw [if_neg (by simp [hc]), if_pos hc]
          have := h.doc
          split
          · rename_i d hd
            exact ⟨h.out, h.nls, h.bases, h.skip, h.nlp, by
              rw [docsBefore_doc _ _ hc, ← this, hd]; rfl⟩
          · rename_i hd
            exact ⟨h.out, h.nls, h.bases, h.skip, h.nlp, by
              rw [docsBefore_doc _ _ hc, ← this, hd]; rfl⟩
      exact ih _ _ _ _ _ hinv hd'
    · simp only [hc, Bool.not_false, if_true]
      have hc' : t.type ≠ .Comment ∧ t.type ≠ .Doc := by
        simp only [isComment, Bool.or_eq_true, beq_iff_eq, not_or] at hc; exact hc
      by_cases hn : t.type = .Newline
      · -- a newline
        have hcd : t.type.canHaveDoc = false := by rw [hn]; rfl
        have hcf : t.type.canFollowCollapsibleNewline = false := by rw [hn]; rfl
        have hcp : t.type.canPrecedeCollapsibleNewline = false := by rw [hn]; rfl
        have heol : t.type.isEndOfLine = true := by rw [hn]; rfl
        simp only [hcd, Bool.false_eq_true, if_false]
        by_cases hs : f.skip = true
        · have hst : f.step t = (f, none) := by
            unfold Filt.step
            rw [if_neg hc'.1, if_neg hc'.2, if_pos ⟨hs, hn⟩]
          rw [hst]
          have hinv : FiltInv f (seen ++ [t]) base nl prev :=
            ⟨h.out, h.nls, h.bases, h.skip, h.nlp, by rw [docsBefore_eol _ _ heol]; exact h.doc⟩
          rw [ih _ _ _ _ _ hinv hd']
          have hpc : nl = [] ∧ prevContinues prev = true := by
            have := h.skip; rw [hs] at this; simpa using this.symm
          simp [finish, nextContinues_cons, collapse, hn, hpc]
        · have hst : (f.step t).1 = { out := t :: f.out, skip := false, lastDoc := f.lastDoc } := by
            unfold Filt.step
            rw [if_neg hc'.1, if_neg hc'.2, if_neg (by simp [hs])]
            simp only [hcf, Bool.false_eq_true, if_false]
            split
            · simp [hcd, heol, hcp]; rename_i heq; exact heq.symm
            · simp [hcp]; rename_i heq; exact heq.symm
          rw [hst]
          have hpc : prevContinues prev = false := by
            by_cases hnl : nl = []
            · have := h.skip
              simp only [Bool.not_eq_true] at hs
              rw [hs, hnl] at this
              simpa using this.symm
            · exact h.nlp hnl
          have hinv : FiltInv { out := t :: f.out, skip := false, lastDoc := f.lastDoc } (seen ++ [t]) base (t :: nl) prev :=
            ⟨by simp [h.out], by
              intro x hx
              rcases List.mem_cons.1 hx with rfl | hx
              · exact hn
              · exact h.nls x hx, h.bases, by simp, fun _ => hpc, by rw [docsBefore_eol _ _ heol]; exact h.doc⟩
          rw [ih _ _ _ _ _ hinv hd']
          simp only [finish, nextContinues_cons, collapse, hn, if_true, hpc, Bool.false_or]
          split <;> simp
      · -- another token
        have hst : ∃ t', (t' = if t.type.canHaveDoc then { t with doc := docsBefore seen } else t) ∧
            (f.step t).1 = { out := t' :: (if t.type.canFollowCollapsibleNewline then popNewlines f.out else f.out),
                             skip := t.type.canPrecedeCollapsibleNewline,
                             lastDoc := docsBefore (seen ++ [t]) } := by
          unfold Filt.step
          refine ⟨_, rfl, ?_⟩
          rw [if_neg hc'.1, if_neg hc'.2, if_neg (show ¬ (f.skip = true ∧ t.type = .Newline) from fun h => hn h.2)]
          have hdoc := h.doc
          cases hl : f.lastDoc with
          | none =>
            rw [hl] at hdoc
            simp only
            have : docsBefore (seen ++ [t]) = none := by
              by_cases hneu : neutral t = true
              · have : t.type.isEndOfLine = true := by
                  simp only [neutral, hc, Bool.false_or, Bool.or_eq_true] at hneu
                  simpa [Ttype.isEndOfLine] using hneu
                rw [docsBefore_eol _ _ this, hdoc]
              · exact docsBefore_other _ _ (by simpa using hneu)
            rw [this, ← hdoc]
            congr 1
            congr 1
            split
            · rw [← htd]
            · rfl
          | some d =>
            rw [hl] at hdoc
            simp only
            by_cases hcd : t.type.canHaveDoc = true
            · simp only [hcd, if_true]
              rw [docsBefore_other _ _ (canHaveDoc_not_neutral t hcd).1, ← hdoc]
            · simp only [hcd, Bool.false_eq_true, if_false]
              by_cases he : t.type.isEndOfLine = true
              · simp only [he, if_true]
                rw [docsBefore_eol _ _ he, ← hdoc]
              · simp only [he, Bool.false_eq_true, if_false]
                rw [docsBefore_other]
                have : t.type ≠ .Semicolon := by
                  rintro h; simp [h, Ttype.isEndOfLine] at he
                simp [neutral, hc, hn, this]
        obtain ⟨t', ht', hst⟩ := hst
        rw [← ht', hst]
        have hty : t'.type = t.type := by rw [ht']; exact type_annotated _ _
        by_cases hcf : t.type.canFollowCollapsibleNewline = true
        · simp only [hcf, if_true, h.out, popNewlines_eq nl base h.nls h.bases]
          have hinv : FiltInv { out := t' :: base, skip := t.type.canPrecedeCollapsibleNewline,
                                lastDoc := docsBefore (seen ++ [t]) } (seen ++ [t]) (t' :: base) [] (some t.type) :=
            ⟨rfl, by simp, by simp only [List.head?_cons, Option.some.injEq]; rintro x rfl; rw [hty]; exact hn,
              by simp [prevContinues_some], by simp, rfl⟩
          rw [ih _ _ _ _ _ hinv hd']
          simp [finish, nextContinues_cons, collapse, hty, hn, hcf]
        · simp only [hcf, Bool.false_eq_true, if_false, h.out]
          have hinv : FiltInv { out := t' :: (nl ++ base), skip := t.type.canPrecedeCollapsibleNewline,
                                lastDoc := docsBefore (seen ++ [t]) } (seen ++ [t]) (t' :: (nl ++ base)) []
                                (some t.type) :=
            ⟨rfl, by simp, by simp only [List.head?_cons, Option.some.injEq]; rintro x rfl; rw [hty]; exact hn,
              by simp [prevContinues_some], by simp, rfl⟩
          rw [ih _ _ _ _ _ hinv hd']
          simp [finish, nextContinues_cons, collapse, hty, hn, hcf]

theorem run_filtered (raw : List Token) (h : ∀ t ∈ raw, t.doc = none) :
    (Filt.run {} raw).out.reverse = filtered raw := by
  have hinv : FiltInv {} [] [] [] none := ⟨rfl, by simp, by simp, rfl, by simp, rfl⟩
  rw [run_spec raw {} [] [] [] none hinv h]
  simp [finish, filtered]

/-! ### The token loop -/

/-- Whatever the token loop returns is the filter run over the raw tokens. -/
theorem tokensLoop_raw {src : Str} (fuel : Nat) : ∀ (l : Lx) (ps : List Lx) (f : Filt) (ts : List Token),
    StackOk src (l :: ps) → tokensLoop fuel l ps f = .ok ts →
    ts = (f.run (rawLoop fuel l ps f)).out.reverse ∧ (∀ t ∈ rawLoop fuel l ps f, Produced src t) ∧
    ∃ (raw : List Token) (e : Token), rawLoop fuel l ps f = raw ++ [e] ∧ (∀ t ∈ raw, ¬ Terminal t.type) ∧
      Terminal e.type := by
  induction fuel with
  | zero => intro l ps f ts _ h; simp [tokensLoop] at h
  | succ fuel ih =>
    intro l ps f ts hst h
    unfold tokensLoop at h
    unfold rawLoop
    cases hnt : nextToken l ps with
    | abort => rw [hnt] at h; cases h
    | ub => rw [hnt] at h; cases h
    | fuel => rw [hnt] at h; cases h
    | ok p =>
      obtain ⟨t, stack⟩ := p
      rw [hnt] at h
      simp only at h ⊢
      obtain ⟨hp, hst'⟩ := nextToken_ok ps l t stack hst hnt
      cases hf : f.step t with
      | mk f' o =>
        rw [hf] at h
        cases o with
        | none =>
          simp only at h ⊢
          cases stack with
          | nil => cases h
          | cons l' ps' =>
            simp only at h ⊢
            obtain ⟨h1, h2, raw, e, h3, h4, h5⟩ := ih l' ps' f' ts hst' h
            refine ⟨by rw [h1]; simp [Filt.run, hf], ?_, t :: raw, e, by simp [h3], ?_, h5⟩
            · intro x hx
              rcases List.mem_cons.1 hx with rfl | hx
              · exact hp
              · exact h2 x hx
            · intro x hx
              rcases List.mem_cons.1 hx with rfl | hx
              · unfold Filt.step at hf
                ite_at hf as c1
                · rw [c1]; decide
                ite_at hf as c2
                · rw [c2]; decide
                ite_at hf as c3
                · rw [c3.2]; decide
                · simp at hf
              · exact h4 x hx
        | some t' =>
          have hty : t'.type = t.type := Filt.step_type f t t' (by rw [hf])
          simp only at h ⊢
          by_cases hterm : t'.type = .Eof ∨ (!t'.type.isValid) = true
          · rw [if_pos hterm] at h ⊢
            cases h
            refine ⟨by simp [Filt.run, hf], by simpa using hp, [], t, rfl, by simp, ?_⟩
            rw [hty] at hterm
            rcases hterm with h | h
            · exact .inl h
            · right; rw [isError_eq]; exact h
          · rw [if_neg hterm] at h ⊢
            have hst'' := hst'.setLast t'.type
            cases hs : setLast t'.type stack with
            | nil => rw [hs] at h; cases h
            | cons l' ps' =>
              rw [hs] at hst'' h
              simp only at h ⊢
              obtain ⟨h1, h2, raw, e, h3, h4, h5⟩ := ih l' ps' f' ts hst'' h
              refine ⟨by rw [h1]; simp [Filt.run, hf], ?_, t :: raw, e, by simp [h3], ?_, h5⟩
              · intro x hx
                rcases List.mem_cons.1 hx with rfl | hx
                · exact hp
                · exact h2 x hx
              · intro x hx
                rcases List.mem_cons.1 hx with rfl | hx
                · rw [hty] at hterm
                  rintro (h | h)
                  · exact hterm (.inl h)
                  · exact hterm (.inr (by rw [← isError_eq]; exact h))
                · exact h4 x hx

/-! ### Properties of the declarative filter -/

theorem annotate_map (f : Token → α) (hf : ∀ t d, f { t with doc := d } = f t) (seen raw : List Token) :
    (annotate seen raw).map f = raw.map f := by
  induction raw generalizing seen with
  | nil => rfl
  | cons t ts ih =>
    simp only [annotate, List.map_cons, ih]
    congr 1
    split
    · exact hf _ _
    · rfl

theorem collapse_sublist (prev : Option Ttype) (s : List Token) : (collapse prev s).Sublist s := by
  induction s generalizing prev with
  | nil => exact List.Sublist.refl _
  | cons t ts ih =>
    unfold collapse
    split
    · split
      · exact (ih _).cons _
      · exact (ih _).cons_cons _
    · exact (ih _).cons_cons _

theorem collapse_last (prev : Option Ttype) (s : List Token) (e : Token) (he : e.type ≠ .Newline) :
    ∃ r, collapse prev (s ++ [e]) = r ++ [e] := by
  induction s generalizing prev with
  | nil => exact ⟨[], by simp [collapse, he]⟩
  | cons t ts ih =>
    rw [List.cons_append, collapse]
    split
    · obtain ⟨r, hr⟩ := ih prev
      split
      · exact ⟨r, hr⟩
      · exact ⟨t :: r, by simp [hr]⟩
    · obtain ⟨r, hr⟩ := ih (some t.type)
      exact ⟨t :: r, by simp [hr]⟩

theorem collapse_keeps (prev : Option Ttype) (s : List Token) :
    (collapse prev s).filter (fun t => t.type != .Newline) = s.filter (fun t => t.type != .Newline) := by
  induction s generalizing prev with
  | nil => rfl
  | cons t ts ih =>
    unfold collapse
    split
    · rename_i h
      split <;> simp [h, ih]
    · rename_i h
      simp [h, ih]

theorem collapse_head (prev : Option Ttype) (s : List Token) (t : Token) (h : (collapse prev s).head? = some t) :
    (t.type = .Newline → prevContinues prev = false) ∧
    (t.type ≠ .Newline → nextContinues s = t.type.canFollowCollapsibleNewline) := by
  induction s with
  | nil => simp [collapse] at h
  | cons u us ih =>
    unfold collapse at h
    by_cases hu : u.type = .Newline
    · simp only [hu, if_true] at h
      by_cases hc : (prevContinues prev || nextContinues us) = true
      · rw [if_pos hc] at h
        have := ih h
        exact ⟨this.1, fun ht => by rw [nextContinues_cons, if_pos hu]; exact this.2 ht⟩
      · rw [if_neg hc] at h
        simp only [List.head?_cons, Option.some.injEq] at h
        subst h
        simp only [Bool.or_eq_true, not_or, Bool.not_eq_true] at hc
        exact ⟨fun _ => hc.1, fun ht => absurd hu ht⟩
    · simp only [hu, if_false, List.head?_cons, Option.some.injEq] at h
      subst h
      exact ⟨fun ht => absurd ht hu, fun _ => by rw [nextContinues_cons, if_neg hu]⟩

theorem collapse_adjacent (s : List Token) : ∀ (prev : Option Ttype) (pre post : List Token) (a b : Token),
    collapse prev s = pre ++ a :: b :: post →
    (a.type.canPrecedeCollapsibleNewline = true → b.type ≠ .Newline) ∧
    (b.type.canFollowCollapsibleNewline = true → a.type ≠ .Newline) := by
  induction s with
  | nil => intro prev pre post a b h; simp [collapse] at h
  | cons t ts ih =>
    intro prev pre post a b h
    unfold collapse at h
    by_cases ht : t.type = .Newline
    · rw [if_pos ht] at h
      by_cases hc : (prevContinues prev || nextContinues ts) = true
      · rw [if_pos hc] at h; exact ih _ _ _ _ _ h
      · rw [if_neg hc] at h
        cases pre with
        | cons p pre =>
          simp only [List.cons_append, List.cons.injEq] at h
          exact ih _ _ _ _ _ h.2
        | nil =>
          simp only [List.nil_append, List.cons.injEq] at h
          obtain ⟨rfl, h⟩ := h
          have hh := collapse_head prev ts b (by rw [h]; rfl)
          simp only [Bool.or_eq_true, not_or, Bool.not_eq_true] at hc
          refine ⟨fun hp => by rw [ht] at hp; simp [Ttype.canPrecedeCollapsibleNewline] at hp, fun hb => ?_⟩
          have hbn : b.type ≠ .Newline := by rintro hx; rw [hx] at hb; simp [Ttype.canFollowCollapsibleNewline] at hb
          have := hh.2 hbn
          rw [hb, hc.2] at this
          cases this
    · rw [if_neg ht] at h
      cases pre with
      | cons p pre =>
        simp only [List.cons_append, List.cons.injEq] at h
        exact ih _ _ _ _ _ h.2
      | nil =>
        simp only [List.nil_append, List.cons.injEq] at h
        obtain ⟨rfl, h⟩ := h
        have hh := collapse_head (some t.type) ts b (by rw [h]; rfl)
        refine ⟨fun hp hb => ?_, fun _ => ht⟩
        have := hh.1 hb
        simp only [prevContinues_some] at this
        rw [hp] at this
        cases this

theorem annotate_append (seen xs ys : List Token) :
    annotate seen (xs ++ ys) = annotate seen xs ++ annotate (seen ++ xs) ys := by
  induction xs generalizing seen with
  | nil => simp [annotate]
  | cons x xs ih => simp [annotate, ih]

theorem annotate_length (seen xs : List Token) : (annotate seen xs).length = xs.length := by
  induction xs generalizing seen with
  | nil => rfl
  | cons x xs ih => simp [annotate, ih]

theorem annotate_mem_type (seen raw : List Token) (t : Token) (h : t ∈ annotate seen raw) :
    ∃ t0 ∈ raw, t.type = t0.type := by
  have : t.type ∈ (annotate seen raw).map (·.type) := List.mem_map_of_mem h
  rw [annotate_map (·.type) (fun _ _ => rfl)] at this
  obtain ⟨t0, h0, h1⟩ := List.mem_map.1 this
  exact ⟨t0, h0, h1.symm⟩

theorem filtered_types (raw : List Token) (t : Token) (h : t ∈ filtered raw) :
    isComment t = false ∧ ∃ t0 ∈ raw, t.type = t0.type := by
  have h := (collapse_sublist _ _).mem h
  simp only [List.mem_filter, Bool.not_eq_true'] at h
  exact ⟨h.2, annotate_mem_type _ _ _ h.1⟩

theorem lexes_raw {src : Str} {ts : List Token} {fuel : Nat} (h : tokensFuel fuel src = .ok ts) :
    ts = filtered (rawFuel fuel src) ∧ (∀ t ∈ rawFuel fuel src, Produced src t) ∧
    ∃ (raw : List Token) (e : Token), rawFuel fuel src = raw ++ [e] ∧ (∀ t ∈ raw, ¬ Terminal t.type) ∧
      Terminal e.type := by
  have hst : StackOk src [Lx.init src] := .init
  obtain ⟨h1, h2, h3⟩ := tokensLoop_raw fuel _ _ _ _ hst h
  refine ⟨?_, h2, h3⟩
  rw [h1]
  exact run_filtered _ fun t ht => (h2 t ht).doc

end NP
