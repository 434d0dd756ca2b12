import Verif.Spec.Strings
import Verif.Model.Sexp
import Verif.Props.Regexp
import Verif.Props.Quoted

/-! Property C34: adjacent string literals. -/

namespace NP
open Spec

/-- The tokens of one string literal without interpolation, and its text. -/
inductive StrToks : List Token → Str → Prop where
  | plain (t : Token) (bs : Str) (ht : t.type = .String) (hl : t.lit = some bs) : StrToks [t] bs
  | empty (b e : Token) (hb : b.type = .InterpolatedStringBegin) (he : e.type = .InterpolatedStringEnd) : StrToks [b, e] []
  | quoted (b t e : Token) (bs : Str) (hb : b.type = .InterpolatedStringBegin) (ht : t.type = .String)
      (hl : t.lit = some bs) (he : e.type = .InterpolatedStringEnd) : StrToks [b, t, e] bs

/-- The tokens of several string literals. -/
inductive RunToks : List Token → List Str → Prop where
  | nil : RunToks [] []
  | cons (ts us : List Token) (bs : Str) (contents : List Str) (h : StrToks ts bs) (h' : RunToks us contents) :
      RunToks (ts ++ us) (bs :: contents)

/-- Token types that continue a run, or make a key of it. -/
def continuesRun (t : Ttype) : Bool := t == .String || t == .InterpolatedStringBegin || t == .InterpolatedStringSymbolKey

/-- `parse_string` or `parse_interpolated_string`. -/
def strFun (t : Ttype) : Rec → P Node := if t = .String then parseString else parseInterpolatedString

theorem StrToks.ne_nil {ts : List Token} {bs : Str} (h : StrToks ts bs) : ∃ t us, ts = t :: us ∧
    (t.type = .String ∨ t.type = .InterpolatedStringBegin) := by
  cases h with
  | plain t _ ht _ => exact ⟨t, _, rfl, .inl ht⟩
  | empty b e hb he => exact ⟨b, _, rfl, .inr hb⟩
  | quoted b t e _ hb ht hl he => exact ⟨b, _, rfl, .inr hb⟩

/-- One literal up to the concatenation. -/
theorem StrToks.first {t : Token} {us : List Token} {bs : Str} (h : StrToks (t :: us) bs) (rest : List Token) (R : Rec)
    (c : Cx) (s : PS) (hr : s.rest = t :: us ++ rest) :
    strFun t.type R c s =
      finishString R (.string t bs) c { s with prev := (t :: us).reverse ++ s.prev, rest := rest } := by
  obtain ⟨prev, rest', depth, precs, locals⟩ := s
  subst hr
  cases h with
  | plain _ _ ht hl =>
    unfold strFun
    rw [if_pos ht]
    unfold parseString
    rw [P.bind_eq (show cur c _ = .ok t _ from rfl), P.bind_eq (show litOf t c _ = .ok bs _ by unfold litOf; rw [hl]; rfl)]
    rfl
  | empty _ e hb he =>
    unfold strFun
    rw [if_neg (by rw [hb]; decide)]
    unfold parseInterpolatedString
    rw [P.bind_eq (show cur c _ = .ok t _ from rfl),
      P.bind_eq (show advance c _ = .ok () ⟨t :: prev, e :: rest, depth, precs, locals⟩ from rfl),
      P.bind_eq (show cur c _ = .ok e _ from rfl), P.bind_eq (show peek c _ = .ok _ _ from rfl)]
    simp only [he, if_true]
    rfl
  | quoted _ u e _ hb ht hl he =>
    unfold strFun
    rw [if_neg (by rw [hb]; decide)]
    unfold parseInterpolatedString
    rw [P.bind_eq (show cur c _ = .ok t _ from rfl),
      P.bind_eq (show advance c _ = .ok () ⟨t :: prev, u :: e :: rest, depth, precs, locals⟩ from rfl),
      P.bind_eq (show cur c _ = .ok u _ from rfl), P.bind_eq (show peek c _ = .ok e _ from rfl)]
    rw [if_neg (by rw [ht]; decide), if_pos ⟨ht, he⟩]
    rw [P.bind_eq (show litOf u c _ = .ok bs _ by unfold litOf; rw [hl]; rfl)]
    rfl

/-- The body of the loop of `concat_adjacent_strings`. -/
def concatBody (R : Rec) (x : Node × Bool) : P (Loop (Node × Bool) (Node × Bool)) := do
  let ty ← curTy
  if ty = .String then
    let b ← R.string
    let r ← appendStringNodes x.1 b
    pure (Loop.again (r, true))
  else if ty = .InterpolatedStringBegin then
    let b ← R.istring
    let r ← appendStringNodes x.1 b
    pure (Loop.again (r, true))
  else pure (Loop.done x)

theorem concat_eq (R : Rec) (n : Node) : concatAdjacentStrings R n = loop (concatBody R) R.fuel (n, false) := rfl

theorem continuesRun_ne {t : Ttype} (h : continuesRun t = false) :
    t ≠ .String ∧ t ≠ .InterpolatedStringBegin ∧ t ≠ .InterpolatedStringSymbolKey := by
  refine ⟨?_, ?_, ?_⟩ <;> (intro e; rw [e] at h; cases h)

theorem concat_stop (x : Node × Bool) (c : Cx) (s : PS) (h : continuesRun s.cur.type = false) :
    EvalsLoop concatBody x c s x s := by
  obtain ⟨h1, h2, -⟩ := continuesRun_ne h
  refine .done (.of fun R => ?_)
  unfold concatBody
  rw [P.bind_eq (show curTy c s = .ok s.cur.type s from rfl), if_neg h1, if_neg h2]
  rfl

/-- The end of a string literal: without and with a string behind it. -/
theorem finish_last (n : Node) (c : Cx) (s : PS) (h : continuesRun s.cur.type = false) :
    Evals (fun R => finishString R n) c s n s := by
  obtain ⟨-, -, h3⟩ := continuesRun_ne h
  have hk : (s.cur.type == .InterpolatedStringSymbolKey) = false := by simpa using h3
  unfold finishString
  refine .step (s1 := s) (fun R => P.bind_eq (show P.get c s = .ok s s from rfl)) ?_
  have hend : (do
      let ty ← curTy
      if (!false && ty == .InterpolatedStringSymbolKey) = true then do
        advance
        toSymbolKey n
      else pure n : P Node) c s = .ok n s := by
    rw [P.bind_eq (show curTy c s = .ok s.cur.type s from rfl), hk]
    rfl
  split
  · exact .of fun R => hend
  · simp only [concat_eq]
    exact .bind (concat_stop _ _ _ h).evals (.of fun R => hend)

theorem finish_more (t u : Token) (bs more : Str) (c : Cx) (s s' : PS) (hw : s.precs.head? ≠ some .WORD_ARRAY)
    (hu : s.cur.type = .String ∨ s.cur.type = .InterpolatedStringBegin)
    (hm : Evals (strFun s.cur.type) c s (.string u more) s') (h' : continuesRun s'.cur.type = false) :
    Evals (fun R => finishString R (.string t bs)) c s (.string t (bs ++ more)) s' := by
  unfold finishString
  refine .step (s1 := s) (fun R => P.bind_eq (show P.get c s = .ok s s from rfl)) ?_
  simp only [if_neg hw, concat_eq]
  refine .bind (a := (Node.string t (bs ++ more), true)) (s1 := s') ?_ (.of fun R => rfl)
  refine EvalsLoop.evals (.again (y := (Node.string t (bs ++ more), true)) (s1 := s') ?_ (concat_stop _ _ _ h'))
  unfold concatBody
  refine .step (s1 := s) (fun R => P.bind_eq (show curTy c s = .ok s.cur.type s from rfl)) ?_
  rcases hu with hu | hu
  · rw [hu] at hm ⊢
    simp only [if_true]
    exact .bind (Evals.string hm) (.bind (.of fun R => rfl) (.of fun R => rfl))
  · rw [hu] at hm ⊢
    simp only [if_true, reduceCtorEq, if_false]
    exact .bind (Evals.istring hm) (.bind (.of fun R => rfl) (.of fun R => rfl))

/-- A run of string literals is parsed to one string. -/
theorem RunToks.evals {ts : List Token} {contents : List Str} (h : RunToks ts contents) :
    ∀ (t : Token) (us : List Token), ts = t :: us → ∀ (z : Token) (rest : List Token) (c : Cx) (s : PS),
      s.rest = ts ++ z :: rest → continuesRun z.type = false → s.precs.head? ≠ some .WORD_ARRAY →
      Evals (strFun t.type) c s (.string t contents.flatten) { s with prev := ts.reverse ++ s.prev, rest := z :: rest } := by
  induction h with
  | nil => intro t us h; cases h
  | cons ts us bs contents h h' ih =>
    intro t vs hts z rest c s hr hz hw
    obtain ⟨t', ws, rfl, ht⟩ := h.ne_nil
    cases hts
    have hr' : s.rest = t :: ws ++ (us ++ z :: rest) := by rw [hr]; simp
    refine .step (fun R => h.first (us ++ z :: rest) R c s hr') ?_
    cases h' with
    | nil =>
      have := finish_last (.string t bs) c { s with prev := (t :: ws).reverse ++ s.prev, rest := z :: rest } hz
      simpa using this
    | cons ts2 us2 bs2 contents2 h2 h2' =>
      obtain ⟨u, vs2, rfl, hu⟩ := h2.ne_nil
      have := ih u (vs2 ++ us2) rfl z rest c
        { s with prev := (t :: ws).reverse ++ s.prev, rest := u :: vs2 ++ us2 ++ z :: rest } rfl hz hw
      have := finish_more t u bs (bs2 :: contents2).flatten c
        { s with prev := (t :: ws).reverse ++ s.prev, rest := u :: vs2 ++ us2 ++ z :: rest } _ hw hu this hz
      simpa using this

/-- The parser on the tokens of a run. -/
theorem parse_run_vector (c : Cx) (ts : List Token) (contents : List Str) (h : RunToks ts contents) (hne : contents ≠ [])
    (z : Token) (hz : z.type = .Eof) (hv : VectorOk (ts ++ [z])) :
    ∃ t s, parseToks c (ts ++ [z]) = .ok (.string t contents.flatten) s := by
  obtain ⟨t, us, rfl, ht⟩ : ∃ t us, ts = t :: us ∧ (t.type = .String ∨ t.type = .InterpolatedStringBegin) := by
    cases h with
    | nil => exact absurd rfl hne
    | cons ts us bs contents h h' =>
      obtain ⟨t, ws, rfl, ht⟩ := h.ne_nil
      exact ⟨t, ws ++ us, rfl, ht⟩
  refine ⟨t, _, Evals.parseToks hv (EvalsFrom.tree (s' := { prev := (t :: us).reverse, rest := [z], precs := [.LOWEST] })
    rfl ?_ ?_ ?_ ?_ rfl rfl hz)⟩
  · rcases ht with ht | ht <;> (rw [ht]; rfl)
  · rcases ht with ht | ht <;> (rw [ht]; decide)
  · rcases ht with ht | ht <;> (rw [ht]; rfl)
  · have := h.evals t us rfl z [] c { rest := t :: us ++ [z], precs := [.LOWEST] } rfl (by rw [hz]; rfl) (by simp)
    rw [List.append_nil] at this
    refine .first (strFun t.type) (fun R => ?_) this (.stop (prec_eof z hz _ rfl _ _ _ _ rfl))
    show nullDenotation R t.type = _
    rcases ht with ht | ht <;> (rw [ht]; rfl)

/-! ### Lexing of a run -/

theorem Spec.StringRun.head {src : Str} {contents : List Str} (h : StringRun src contents) : src.head? ≠ some ':' := by
  cases h with
  | nil tail h => cases h <;> simp
  | single pre text bs rest contents hb h hr => cases hb <;> simp
  | double pre text bs rest contents hb h hr => cases hb <;> simp

theorem strToks_double {ts : List Token} {bs : Str} (h : ts.map Token.key = (.InterpolatedStringBegin, some ['"']) ::
    (if bs = [] then [] else [(.String, some bs)]) ++ [(.InterpolatedStringEnd, none)]) : StrToks ts bs := by
  split at h
  · rename_i h0
    subst h0
    obtain ⟨b, e, rfl⟩ : ∃ b e, ts = [b, e] := by
      have := congrArg List.length h
      simp only [List.length_map, List.length_append, List.length_cons, List.length_nil] at this
      match ts, this with
      | [b, e], _ => exact ⟨b, e, rfl⟩
    simp [Token.key] at h
    exact .empty b e h.1.1 h.2.1
  · obtain ⟨b, t, e, rfl⟩ : ∃ b t e, ts = [b, t, e] := by
      have := congrArg List.length h
      simp only [List.length_map, List.length_append, List.length_cons, List.length_nil] at this
      match ts, this with
      | [b, t, e], _ => exact ⟨b, t, e, rfl⟩
    simp [Token.key] at h
    exact .quoted b t e bs h.1.1 h.2.1.1 h.2.1.2 h.2.2.1

theorem Spec.StringRun.emits {src : Str} {contents : List Str} (h : StringRun src contents) :
    ∀ l : Lx, l.kind = .base → l.stopChar = NUL → l.startChar = NUL → l.pairDepth = 0 → l.rest = src →
      ∃ ts l', RunToks ts contents ∧ Emits [l] ts [l'] ∧ l'.kind = .base ∧ Spec.Blank l'.rest := by
  induction h with
  | nil tail h =>
    intro l hk hst hsc hd hr
    exact ⟨[], l, .nil, .done _, hk, hr ▸ h⟩
  | single pre text bs rest contents hb h hr ih =>
    intro l hk hst hsc hd hrest
    obtain ⟨t, l', h1, h2, h3⟩ := C15_content l [] hk (.inl hst) (by rw [hsc]; decide) pre text bs rest hrest hb h
      (.inl hr.head)
    have e : ({ l' with lastType := .String } : Lx).rest = rest := by
      show l'.rest = rest
      rw [h3.rest, hrest]
      simp
    obtain ⟨ts, l2, g1, g2, g3⟩ := ih { l' with lastType := .String } (h3.kind.trans hk) (h3.stop.trans hst)
      (h3.start.trans hsc) (h3.depth.trans hd) e
    simp only [Token.key, Prod.mk.injEq] at h1
    exact ⟨[t] ++ ts, l2, .cons _ _ _ _ (.plain t bs h1.1 h1.2) g1, h2.trans g2, g3⟩
  | double pre text bs rest contents hb h hr ih =>
    intro l hk hst hsc hd hrest
    obtain ⟨us, l', h1, h2, h3⟩ := double_quoted l [] hk (.inl hst) (by rw [hsc]; decide) hd pre text bs rest hrest hb h
    have e : ({ l' with lastType := .InterpolatedStringEnd } : Lx).rest = rest := by
      show l'.rest = rest
      rw [h3.rest, hrest]
      simp
    obtain ⟨ts, l2, g1, g2, g3⟩ := ih { l' with lastType := .InterpolatedStringEnd } (h3.kind.trans hk)
      (h3.stop.trans hst) (h3.start.trans hsc) (h3.depth.trans hd) e
    exact ⟨us ++ ts, l2, .cons _ _ _ _ (strToks_double h1) g1, h2.trans g2, g3⟩

/-- C34: a source that is a run of string literals without interpolation is parsed to the node of one string with the
concatenated contents. This holds in particular for one literal, so a run and a single literal with the same contents
yield the same. -/
theorem C34_concat (src file : Str) (contents : List Str) (h : StringRun src contents) (hne : contents ≠ []) :
    ∃ t s, Parses src file (.ok (.string t contents.flatten) s) := by
  obtain ⟨ts, l', h1, h2, h3, h4⟩ := h.emits (Lx.init src) rfl rfl rfl rfl rfl
  obtain ⟨z, hz, hl⟩ := h2.lexes h3 h4
  obtain ⟨t, s, hs⟩ := parse_run_vector ⟨src, file⟩ ts contents h1 hne z hz hl.vectorOk
  exact ⟨t, s, hs ▸ .tokens _ hl⟩

/-- C34 for any run in the middle of a program: with any tokens in front of it and any token behind it that is no further
string, in any state of the parser except inside a word array, the first string function reads the whole run. -/
theorem C34_anywhere (ts : List Token) (contents : List Str) (h : RunToks ts contents) (hne : contents ≠ []) (z : Token)
    (rest : List Token) (c : Cx) (s : PS) (hr : s.rest = ts ++ z :: rest) (hz : continuesRun z.type = false)
    (hw : s.precs.head? ≠ some .WORD_ARRAY) :
    ∃ t us F, ts = t :: us ∧ (∀ R, nullDenotation R t.type = some (F R)) ∧
      Evals F c s (.string t contents.flatten) { s with prev := ts.reverse ++ s.prev, rest := z :: rest } := by
  obtain ⟨t, us, rfl, ht⟩ : ∃ t us, ts = t :: us ∧ (t.type = .String ∨ t.type = .InterpolatedStringBegin) := by
    cases h with
    | nil => exact absurd rfl hne
    | cons ts us bs contents h h' =>
      obtain ⟨t, ws, rfl, ht⟩ := h.ne_nil
      exact ⟨t, ws ++ us, rfl, ht⟩
  refine ⟨t, us, strFun t.type, rfl, fun R => ?_, h.evals t us rfl z rest c s hr hz hw⟩
  rcases ht with ht | ht <;> (rw [ht]; rfl)

/-- Non-vacuity: five literals, the third one empty, with and without blanks between them. -/
example : StringRun (cs! "'a\\'' \"b\\n\"\"\"'c' \\\n\"d\" ") [cs! "a'", cs! "b\n", [], cs! "c", cs! "d"] :=
  .single [] (cs! "a\\'") _ _ _ .nil
    (.plain _ _ _ (by decide) (by decide) (by decide) (by decide) (.escaped _ _ _ (by decide) (.inl rfl) .nil))
    (.double (cs! " ") (cs! "b\\n") _ _ _ (.space _ .nil)
      (.plain _ _ _ _ (by decide) (by decide) (by decide) (by decide) (by decide)
        (.escape (cs! "n") _ [] _ _ (by decide) (.letter _ _ _ (by decide)) (.nil _)))
      (.double [] [] _ _ _ .nil (.nil _)
        (.single [] (cs! "c") _ _ _ .nil (.plain _ _ _ (by decide) (by decide) (by decide) (by decide) .nil)
          (.double (cs! " \\\n") (cs! "d") _ _ _ (.space _ (.line _ .nil))
            (.plain _ _ _ _ (by decide) (by decide) (by decide) (by decide) (by decide) (.nil _))
            (.nil _ (.space _ .nil))))))

example : (runSource 60 (cs! "'a\\'' \"b\\n\"\"\"'c' \\\n\"d\" ")).any (fun r => match r with
    | .ok (.string _ bs) _ => bs == cs! "a'b\ncd"
    | _ => false) = true := by decide +kernel

end NP
