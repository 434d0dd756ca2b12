import Verif.Proofs.Quoted
import Verif.Spec.Array

/-! Regexp literals and word arrays. -/

namespace NP

open Spec

/-! ### Regexps -/

/-- The loop of `consume_regexp` over a pattern. -/
theorem regexpLoop_pattern {start stop : Char} {text bs post : Str} (h : Pattern start stop text bs post) :
    ∀ (fuel depth : Nat) (buf : Str) (n : Nat), text.length + post.length < fuel →
    ∃ fuel', post.length < fuel' ∧ regexpLoop start stop fuel depth buf n (text ++ post) =
      regexpLoop start stop fuel' depth (buf ++ bs) (n + text.length) post := by
  induction h with
  | nil post =>
    intro fuel depth buf n hf
    exact ⟨fuel, by simpa using hf, by simp⟩
  | plain c t bs post h0 h1 h2 h3 h4 ht ih =>
    intro fuel depth buf n hf
    obtain ⟨f, rfl⟩ : ∃ f, fuel = f + 1 := ⟨fuel - 1, by omega⟩
    simp only [List.length_cons] at hf
    obtain ⟨f', g1, g2⟩ := ih f depth (buf ++ [c]) (n + 1) (by omega)
    refine ⟨f', g1, ?_⟩
    have e0 : List.ch (c :: t ++ post) 0 = c := rfl
    have ed : (c :: t ++ post).drop 1 = t ++ post := rfl
    have e1 : c = '#' → List.ch (c :: t ++ post) 1 ≠ '{' := by
      intro hc he
      apply h4 hc
      obtain ⟨r, hr⟩ := List.ch_zero_cons (t ++ post) '{' he (by decide)
      rw [hr]; rfl
    rw [regexpLoop]
    simp only [e0, ed]
    rw [if_neg h0, if_neg (fun h => h1 h.1), if_neg (fun h => e1 h.1 h.2), if_neg (fun h => h2 h.1), if_neg h3, g2]
    simp [Nat.add_assoc, Nat.add_comm 1]
  | escaped c t bs post hs h ht ih =>
    intro fuel depth buf n hf
    obtain ⟨f, rfl⟩ : ∃ f, fuel = f + 1 := ⟨fuel - 1, by omega⟩
    simp only [List.length_cons] at hf
    obtain ⟨f', g1, g2⟩ := ih f depth (buf ++ [c]) (n + 2) (by omega)
    refine ⟨f', g1, ?_⟩
    have e0 : List.ch ('\\' :: c :: t ++ post) 0 = '\\' := rfl
    have e1 : List.ch ('\\' :: c :: t ++ post) 1 = c := rfl
    have ed : ('\\' :: c :: t ++ post).drop 2 = t ++ post := rfl
    rw [regexpLoop]
    simp only [e0, e1, ed]
    rw [if_neg (by decide), if_pos ⟨trivial, hs⟩, if_pos h, g2]
    simp [Nat.add_assoc, Nat.add_comm 2]
  | kept c t bs post hs h ht ih =>
    intro fuel depth buf n hf
    obtain ⟨f, rfl⟩ : ∃ f, fuel = f + 1 := ⟨fuel - 1, by omega⟩
    simp only [List.length_cons] at hf
    obtain ⟨f', g1, g2⟩ := ih f depth (buf ++ ['\\', c]) (n + 2) (by omega)
    refine ⟨f', g1, ?_⟩
    have e0 : List.ch ('\\' :: c :: t ++ post) 0 = '\\' := rfl
    have e1 : List.ch ('\\' :: c :: t ++ post) 1 = c := rfl
    have ed : ('\\' :: c :: t ++ post).drop 2 = t ++ post := rfl
    rw [regexpLoop]
    simp only [e0, e1, ed]
    rw [if_neg (by decide), if_pos ⟨trivial, hs⟩, if_neg (by rw [not_or]; exact h), g2]
    simp [Nat.add_assoc, Nat.add_comm 2]
  | pair t bs t' bs' post h hne h1 h2 h3 ht ht' ih ih' =>
    intro fuel depth buf n hf
    obtain ⟨f, rfl⟩ : ∃ f, fuel = f + 1 := ⟨fuel - 1, by omega⟩
    simp only [List.length_cons, List.length_append, List.cons_append] at hf ih
    obtain ⟨f1, g1, g2⟩ := ih f (depth + 1) (buf ++ [start]) (n + 1) (by omega)
    obtain ⟨f2, rfl⟩ : ∃ f, f1 = f + 1 := ⟨f1 - 1, by omega⟩
    obtain ⟨f', g3, g4⟩ := ih' f2 depth (buf ++ [start] ++ bs ++ [stop]) (n + 1 + t.length + 1) (by omega)
    refine ⟨f', g3, ?_⟩
    have e0 : List.ch (start :: t ++ stop :: t' ++ post) 0 = start := rfl
    have ed : (start :: t ++ stop :: t' ++ post).drop 1 = t ++ (stop :: (t' ++ post)) := by simp
    rw [regexpLoop]
    simp only [e0, ed]
    rw [if_neg h, if_neg (fun h => h1 h.1), if_neg (fun h => h2 h.1), if_pos ⟨trivial, hne⟩, g2, regexpLoop]
    have e0 : List.ch (stop :: (t' ++ post)) 0 = stop := rfl
    have ed : (stop :: (t' ++ post)).drop 1 = t' ++ post := rfl
    simp only [e0, ed]
    rw [if_neg h3.1, if_neg (fun h => h3.2.1 h.1), if_neg (fun h => h3.2.2 h.1), if_neg (fun h => hne h.1.symm),
      if_pos trivial, if_pos (Nat.succ_pos _), Nat.add_sub_cancel, g4]
    simp only [List.length_cons, List.length_append, List.cons_append, List.append_assoc, List.nil_append]
    congr 1
    omega

theorem regexpOptions_spec (o post : Str) (ho : ∀ c ∈ o, c ∈ optionLetters)
    (hp : ∀ c r, post = c :: r → c ∉ optionLetters) : regexpOptions (o ++ post) = o := by
  unfold regexpOptions
  have e : (fun c : Char => c == 'i' || c == 'm' || c == 'x' || c == 'o' || c == 'u' || c == 'e' || c == 's' || c == 'n') =
      fun c => decide (c ∈ optionLetters) := by
    funext c
    simp only [optionLetters, List.mem_cons, List.not_mem_nil, or_false, Bool.decide_or, Bool.or_assoc]
    rfl
  rw [e, List.takeWhile_append_of_pos (fun c hc => decide_eq_true (ho c hc))]
  cases post with
  | nil => simp
  | cons c r => rw [List.takeWhile_cons, if_neg (by simpa using hp c r rfl), List.append_nil]

/-- A regexp object in front of a pattern, its closing delimiter and the options. -/
theorem regexp_content (c p : Lx) (ps : List Lx) (hk : c.kind = .regexp .InProgress []) (text bs o post : Str)
    (hr : c.rest = text ++ c.stopChar :: (o ++ post))
    (h : Pattern c.startChar c.stopChar text bs (c.stopChar :: (o ++ post))) (hd : c.pairDepth = 0)
    (hstop : c.stopChar ≠ NUL) (hstop2 : c.startChar ≠ c.stopChar)
    (hhash : c.stopChar = '#' → (o ++ post).head? ≠ some '{') (ho : ∀ x ∈ o, x ∈ optionLetters)
    (hp : ∀ x r, post = x :: r → x ∉ optionLetters) :
    ∃ ts, ts.map Token.key = [(.String, some bs), (.InterpolatedRegexpEnd, if o = [] then none else some o)] ∧
      Emits (c :: p :: ps) ts (setLast .InterpolatedRegexpEnd
        ({ p with cur := c.cur.nextN c.input (text.length + 1 + o.length) } :: ps)) := by
  have hnb : c.kind ≠ .base := by rw [hk]; simp
  have hs := nested_start c hnb
  have hrest : c.start.rest = text ++ c.stopChar :: (o ++ post) := by rw [hs]; exact hr
  obtain ⟨f', g1, g2⟩ := regexpLoop_pattern h (c.start.rest.length + 1) 0 [] 0 (by rw [hrest]; simp)
  have hloop : regexpLoop c.start.startChar c.start.stopChar (c.start.rest.length + 1) c.start.pairDepth [] 0
      c.start.rest = .stop bs 0 (text.length + 1) := by
    rw [Lx.start_startChar, Lx.start_stopChar, Lx.start_pairDepth, hd]
    rw [hrest] at g2 ⊢
    rw [g2]
    obtain ⟨f, rfl⟩ : ∃ f, f' = f + 1 := ⟨f' - 1, by omega⟩
    rw [regexpLoop]
    have e0 : List.ch (c.stopChar :: (o ++ post)) 0 = c.stopChar := rfl
    simp only [e0]
    rw [if_neg hstop, if_neg (fun h => h.2 h.1), if_neg, if_neg (fun h => hstop2 h.1.symm), if_pos trivial]
    · simp
    · rintro ⟨h1, h2⟩
      apply hhash h1
      obtain ⟨r, hr⟩ := List.ch_zero_cons (o ++ post) '{' h2 (by decide)
      rw [hr]; rfl
  generalize hl1 : ({ c.start.adv (text.length + 1) with pairDepth := 0 } : Lx) = l1
  have l1rest : l1.rest = o ++ post := by
    rw [← hl1]
    show (c.start.adv (text.length + 1)).rest = _
    rw [Lx.adv_rest, hrest, show text ++ c.stopChar :: (o ++ post) = (text ++ [c.stopChar]) ++ (o ++ post) by simp,
      List.drop_left' (by simp)]
  have hopt : regexpOptions l1.rest = o := by rw [l1rest]; exact regexpOptions_spec o post ho hp
  have hbuild : c.start.build =
      .ok { tok := l1.tkLit .String bs, lx := { l1.adv o.length with kind := .regexp .EndToken o } } := by
    unfold Lx.build
    rw [Lx.start_kind, hk]
    show c.start.regexpConsume [] = _
    unfold Lx.regexpConsume
    rw [hloop]
    have : ∀ x : Lx, x = l1 →
        (Res.ok ⟨x.tkLit .String bs, { x.adv (regexpOptions x.rest).length with
          kind := .regexp .EndToken (regexpOptions x.rest) }, none⟩ : Res Out) =
        Res.ok ⟨l1.tkLit .String bs, { l1.adv o.length with kind := .regexp .EndToken o }, none⟩ := by
      rintro x rfl; rw [hopt]
    exact this _ hl1
  have h1 := Emits.child (c := c) (P := p :: ps) (by simp) _ hbuild rfl (show plainType .String = true from rfl)
  dsimp only at h1
  generalize hd1 : Lx.post { l1.adv o.length with kind := .regexp .EndToken o } (l1.tkLit .String bs).type = d1 at h1
  have d1k : d1.kind = .regexp .EndToken o := by rw [← hd1]; simp
  have d1c : d1.cur = c.cur.nextN c.input (text.length + 1 + o.length) := by
    rw [← hd1, Lx.post_cur]
    show l1.cur.nextN l1.input o.length = _
    rw [Cursor.nextN_add c.input (text.length + 1), ← hl1, hs]
    rfl
  have hb2 : d1.start.build = .ok ⟨{ d1.start.tkCur .InterpolatedRegexpEnd with
      lit := if o = [] then none else some o }, { d1.start with kind := .regexp .Done o }, none⟩ := by
    unfold Lx.build
    rw [Lx.start_kind, d1k]
    rfl
  have h2 := Emits.child (c := d1) (P := setLast .String (p :: ps)) (setLast_ne _ _ (by simp)) _ hb2 rfl
    (show plainType .InterpolatedRegexpEnd = true from rfl)
  dsimp only at h2
  rw [setLast_setLast] at h2
  generalize hd2 : Lx.post { d1.start with kind := .regexp .Done o } _ = d2 at h2
  have d2k : d2.kind = .regexp .Done o := by rw [← hd2]; simp
  have d2c : d2.cur = d1.cur := by
    rw [← hd2, Lx.post_cur]
    show d1.start.cur = _
    rw [nested_start d1 (by rw [d1k]; simp)]
  have h3 := Emits.finished (d := d2) (p := p) (ps := ps) .InterpolatedRegexpEnd (by rw [d2k]; simp) (by
    unfold Lx.build
    rw [Lx.start_kind, d2k]
    rfl) (by unfold Lx.alters; rw [d2k])
  rw [d2c, d1c] at h3
  refine ⟨[l1.tkLit .String bs, { d1.start.tkCur .InterpolatedRegexpEnd with
      lit := if o = [] then none else some o }], rfl, ?_⟩
  exact h1.trans (h2.trans h3)

/-- A regexp literal in a plain lexer. -/
theorem regexp_emits (l : Lx) (ps : List Lx) (k n : Nat) (start stop : Char)
    (hsk : l.skipped = k) (hb : l.start.build = .ok (l.start.regexp n start stop)) (text bs o post : Str)
    (hr : l.start.rest.drop n = text ++ stop :: (o ++ post))
    (h : Pattern (if start = stop then NUL else start) stop text bs (stop :: (o ++ post))) (hd : l.pairDepth = 0)
    (hstop : stop ≠ NUL) (hhash : stop = '#' → (o ++ post).head? ≠ some '{') (ho : ∀ x ∈ o, x ∈ optionLetters)
    (hp : ∀ x r, post = x :: r → x ∉ optionLetters) :
    ∃ ts l', ts.map Token.key = [(.InterpolatedRegexpBegin, some [start]), (.String, some bs),
        (.InterpolatedRegexpEnd, if o = [] then none else some o)] ∧
      Emits (l :: ps) ts (setLast .InterpolatedRegexpEnd (l' :: ps)) ∧
      Continues l l' (k + n + (text.length + 1 + o.length)) := by
  generalize hs0 : (if start = stop then NUL else start) = s0 at h
  have hs1 : s0 ≠ stop := by
    rw [← hs0]; split_ifs with hc
    · exact hstop.symm
    · exact hc
  have hstep := step_of_build l _ hb
  have h1 := Emits.one (next_step l ps _ hstep (show Ttype.InterpolatedRegexpBegin ≠ .Eof by decide))
    (show plainType .InterpolatedRegexpBegin = true from rfl)
  generalize hc : ({ l.start.adv n with startChar := s0, stopChar := stop, kind := .regexp .InProgress [] } : Lx) = c
  generalize hp' : (l.start.adv n).post .InterpolatedRegexpBegin = p
  have h1' : Emits (l :: ps) [l.start.tkLit .InterpolatedRegexpBegin [start]]
      (c :: setLast .InterpolatedRegexpBegin (p :: ps)) := by
    rw [← setLast_cons _ _ _ (by simp), ← hc, ← hp', ← hs0]
    exact h1
  obtain ⟨lt, qs, e1, e2⟩ := setLast_head .InterpolatedRegexpBegin p ps
  rw [e1] at h1'
  have pk : c.rest = text ++ c.stopChar :: (o ++ post) := by
    rw [← hc]
    show (l.start.adv n).rest = _
    rw [Lx.adv_rest]
    exact hr
  have ck : c.kind = .regexp .InProgress [] := by rw [← hc]
  have cd : c.pairDepth = 0 := by rw [← hc]; exact hd
  have cst : c.stopChar = stop := by rw [← hc]
  have css : c.startChar = s0 := by rw [← hc]
  obtain ⟨ts, t1, t2⟩ := regexp_content c { p with lastType := lt } qs ck text bs o post pk
    (by rw [cst, css]; exact h) cd (by rw [cst]; exact hstop) (by rw [cst, css]; exact hs1) (by rw [cst]; exact hhash)
    ho hp
  have h3 := h1'.trans t2
  generalize hn : c.cur.nextN c.input (text.length + 1 + o.length) = cur' at h3
  refine ⟨l.start.tkLit .InterpolatedRegexpBegin [start] :: ts, { p with cur := cur' }, ?_, ?_, ?_⟩
  · rw [List.map_cons, t1]; rfl
  · have e3 := e2 { p with cur := cur' } rfl
    have : setLast .InterpolatedRegexpEnd (setLast .InterpolatedRegexpBegin ({ p with cur := cur' } :: ps)) =
        setLast .InterpolatedRegexpEnd ({ p with cur := cur' } :: ps) := setLast_setLast _ _ _
    rw [← this, e3]
    exact h3
  · have ccur : c.cur = (l.cur.nextN l.input k).nextN l.input n := by
      rw [← hc, ← hsk]; rfl
    have cin : c.input = l.input := by rw [← hc]; rfl
    constructor
    · rw [← hp']; simp
    · show cur' = _
      rw [← hn, ccur, cin, Cursor.nextN_add l.input (k + n), Cursor.nextN_add l.input k n]
    all_goals (rw [← hp']; simp)

/-! ### Word arrays -/

theorem isWs_eq (c : Char) : isSpace c = isWs c := by
  by_cases h : c.toNat < 128
  · have := ascii_forall (p := fun c => isSpace c == isWs c) (by decide +kernel) c h
    simpa using this
  · have h1 : isWs c = false := by
      cases hw : isWs c with
      | false => rfl
      | true =>
        simp only [isWs, Bool.or_eq_true, beq_iff_eq] at hw
        rcases hw with ((((h2 | h2) | h2) | h2) | h2) | h2 <;> (subst h2; exact absurd (by decide) h)
    rw [h1]
    cases hw : isSpace c with
    | false => rfl
    | true =>
      unfold isSpace between at hw
      simp only [Bool.or_eq_true, beq_iff_eq, Bool.and_eq_true, decide_eq_true_eq] at hw
      rcases hw with h2 | ⟨-, h2⟩
      · subst h2; exact absurd (by decide) h
      · exact absurd (Nat.lt_of_le_of_lt h2 (by decide)) h

theorem wordLoop_space (interp : Bool) (start stop : Char) (sp post : Str) (h : ∀ c ∈ sp, isWs c = true) :
    ∀ (fuel depth n : Nat), sp.length + post.length < fuel →
    ∃ fuel', post.length < fuel' ∧ wordLoop interp false start stop fuel depth [] n (sp ++ post) =
      wordLoop interp false start stop fuel' depth [] (n + sp.length) post := by
  induction sp with
  | nil => intro fuel depth n hf; exact ⟨fuel, by simpa using hf, by simp⟩
  | cons c t ih =>
    intro fuel depth n hf
    obtain ⟨f, rfl⟩ : ∃ f, fuel = f + 1 := ⟨fuel - 1, by omega⟩
    simp only [List.length_cons] at hf
    obtain ⟨f', g1, g2⟩ := ih (fun c hc => h c (List.mem_cons_of_mem _ hc)) f depth (n + 1) (by omega)
    refine ⟨f', g1, ?_⟩
    have hc := h c List.mem_cons_self
    have h0 : c ≠ NUL := by rintro rfl; exact absurd hc (by decide)
    have h1 : c ≠ '\\' := by rintro rfl; exact absurd hc (by decide)
    have e0 : List.ch (c :: t ++ post) 0 = c := rfl
    have ed : (c :: t ++ post).drop 1 = t ++ post := rfl
    rw [wordLoop]
    simp only [e0, ed]
    rw [if_neg h0, if_neg (fun h => h1 h.1), if_pos (by rw [isWs_eq]; exact hc), if_neg (by decide), if_neg (by simp), g2]
    simp [Nat.add_assoc, Nat.add_comm 1]

/-- The loop of `consume_array` over a word. -/
theorem wordLoop_word {interp : Bool} {start stop : Char} {text bs : Str} (h : Word interp start stop text bs) :
    ∀ (fuel depth : Nat) (buf : Str) (n : Nat) (post : Str), text.length + post.length < fuel →
    ∃ fuel', post.length < fuel' ∧ wordLoop interp false start stop fuel depth buf n (text ++ post) =
      wordLoop interp false start stop fuel' depth (buf ++ bs) (n + text.length) post := by
  have esc : ∀ (f depth : Nat) (buf : Str) (n : Nat) (c : Char) (t : Str), stop ≠ '\\' →
      wordLoop interp false start stop (f + 1) depth buf n ('\\' :: c :: t) =
      wordLoop interp false start stop f depth (buf ++ if c = ' ' then [c]
        else if interp then (if c = 'n' then ['\n'] else if c = 't' then ['\t'] else [c])
        else if isSpace c then [c] else ['\\', c]) (n + 2) t := by
    intro f depth buf n c t hs
    rw [wordLoop]
    have e0 : List.ch ('\\' :: c :: t) 0 = '\\' := rfl
    have e1 : List.ch ('\\' :: c :: t) 1 = c := rfl
    have ed : ('\\' :: c :: t).drop 2 = t := rfl
    simp only [e0, e1, ed]
    rw [if_neg (by decide), if_pos ⟨trivial, hs⟩]
  induction h with
  | nil =>
    intro fuel depth buf n post hf
    exact ⟨fuel, by simpa using hf, by simp⟩
  | plain c t bs h0 h1 hw h2 h3 hi ht ih =>
    intro fuel depth buf n post hf
    obtain ⟨f, rfl⟩ : ∃ f, fuel = f + 1 := ⟨fuel - 1, by omega⟩
    simp only [List.length_cons] at hf
    obtain ⟨f', g1, g2⟩ := ih f depth (buf ++ [c]) (n + 1) post (by omega)
    refine ⟨f', g1, ?_⟩
    have e0 : List.ch (c :: t ++ post) 0 = c := rfl
    have ed : (c :: t ++ post).drop 1 = t ++ post := rfl
    rw [wordLoop]
    simp only [e0, ed]
    rw [if_neg h0, if_neg (fun h => h1 h.1), if_neg (by rw [isWs_eq, hw]; decide), if_neg (fun h => hi h.1 h.2.1),
      if_neg (fun h => h2 h.1), if_neg h3, g2]
    simp [Nat.add_assoc, Nat.add_comm 1]
  | space c t bs hs hc ht ih =>
    intro fuel depth buf n post hf
    obtain ⟨f, rfl⟩ : ∃ f, fuel = f + 1 := ⟨fuel - 1, by omega⟩
    simp only [List.length_cons] at hf
    obtain ⟨f', g1, g2⟩ := ih f depth (buf ++ [c]) (n + 2) post (by omega)
    refine ⟨f', g1, ?_⟩
    rw [List.cons_append, List.cons_append, esc _ _ _ _ _ _ hs]
    have : (if c = ' ' then [c] else if interp then (if c = 'n' then ['\n'] else if c = 't' then ['\t'] else [c])
        else if isSpace c then [c] else ['\\', c]) = [c] := by
      rw [isWs_eq, hc]
      have h1 : c ≠ 'n' := by rintro rfl; exact absurd hc (by decide)
      have h2 : c ≠ 't' := by rintro rfl; exact absurd hc (by decide)
      rw [if_neg h1, if_neg h2]
      simp
    rw [this, g2]
    simp [Nat.add_assoc, Nat.add_comm 2]
  | kept c t bs hs hi hc ht ih =>
    intro fuel depth buf n post hf
    obtain ⟨f, rfl⟩ : ∃ f, fuel = f + 1 := ⟨fuel - 1, by omega⟩
    simp only [List.length_cons] at hf
    obtain ⟨f', g1, g2⟩ := ih f depth (buf ++ ['\\', c]) (n + 2) post (by omega)
    refine ⟨f', g1, ?_⟩
    have h1 : c ≠ ' ' := by rintro rfl; exact absurd hc (by decide)
    rw [List.cons_append, List.cons_append, esc _ _ _ _ _ _ hs, if_neg h1, hi, if_neg (by decide), isWs_eq, hc,
      if_neg (by decide)]
    rw [hi] at g2
    rw [g2]
    simp [Nat.add_assoc, Nat.add_comm 2]
  | letter c b t bs hs hi hc ht ih =>
    intro fuel depth buf n post hf
    obtain ⟨f, rfl⟩ : ∃ f, fuel = f + 1 := ⟨fuel - 1, by omega⟩
    simp only [List.length_cons] at hf
    obtain ⟨f', g1, g2⟩ := ih f depth (buf ++ [b]) (n + 2) post (by omega)
    refine ⟨f', g1, ?_⟩
    have : (if c = ' ' then [c] else if interp then (if c = 'n' then ['\n'] else if c = 't' then ['\t'] else [c])
        else if isSpace c then [c] else ['\\', c]) = [b] := by
      rw [hi, if_pos rfl]
      rcases hc with ⟨rfl, rfl⟩ | ⟨rfl, rfl⟩ | ⟨h1, h2, rfl⟩
      · rfl
      · rfl
      · rw [if_neg h1, if_neg h2, ite_self]
    rw [List.cons_append, List.cons_append, esc _ _ _ _ _ _ hs, this, g2]
    simp [Nat.add_assoc, Nat.add_comm 2]
  | pair t bs t' bs' h hne h1 hw h2 ht ht' ih ih' =>
    intro fuel depth buf n post hf
    obtain ⟨f, rfl⟩ : ∃ f, fuel = f + 1 := ⟨fuel - 1, by omega⟩
    simp only [List.length_cons, List.length_append, List.cons_append] at hf
    obtain ⟨f1, g1, g2⟩ := ih f (depth + 1) (buf ++ [start]) (n + 1) (stop :: (t' ++ post)) (by
      simp only [List.length_cons, List.length_append]; omega)
    simp only [List.length_cons, List.length_append] at g1
    obtain ⟨f2, rfl⟩ : ∃ f, f1 = f + 1 := ⟨f1 - 1, by omega⟩
    obtain ⟨f', g3, g4⟩ := ih' f2 depth (buf ++ [start] ++ bs ++ [stop]) (n + 1 + t.length + 1) post (by omega)
    refine ⟨f', g3, ?_⟩
    have e0 : List.ch (start :: t ++ stop :: t' ++ post) 0 = start := rfl
    have ed : (start :: t ++ stop :: t' ++ post).drop 1 = t ++ (stop :: (t' ++ post)) := by simp
    rw [wordLoop]
    simp only [e0, ed]
    rw [if_neg h, if_neg (fun h => h1.1 h.1), if_neg (by rw [isWs_eq, hw.1]; decide), if_neg (fun h => h1.2 h.2.1),
      if_pos ⟨trivial, hne⟩, g2, wordLoop]
    have e0 : List.ch (stop :: (t' ++ post)) 0 = stop := rfl
    have ed : (stop :: (t' ++ post)).drop 1 = t' ++ post := rfl
    simp only [e0, ed]
    rw [if_neg h2.1, if_neg (fun h => h2.2.1 h.1), if_neg (by rw [isWs_eq, hw.2]; decide),
      if_neg (fun h => h2.2.2 h.2.1), if_neg (fun h => hne h.1.symm),
      if_pos trivial, if_pos (Nat.succ_pos _), Nat.add_sub_cancel, g4]
    simp only [List.length_cons, List.length_append, List.cons_append, List.append_assoc, List.nil_append]
    congr 1
    omega

/-- The last token of a word array. -/
theorem words_end (c p : Lx) (ps : List Lx) (u : Ttype) (interp : Bool) (a : Char) (dep : Nat) (b : Str)
    (hk : c.kind = .words .Done interp a dep b) :
    Emits (c :: setLast u (p :: ps)) [] (setLast u ({ p with cur := c.cur } :: ps)) :=
  Emits.finished u (by rw [hk]; simp) (by
    unfold Lx.build
    rw [Lx.start_kind, hk]
    rfl) (by unfold Lx.alters; rw [hk])

/-- A word array object in front of its words and the closing delimiter. -/
theorem words_content {interp : Bool} {start stop : Char} {text : Str} {ws : List Str}
    (h : Words interp start stop text ws) (p : Lx) (ps : List Lx) (post : Str) (h0 : stop ≠ NUL)
    (hw : isWs stop = false) (hh : interp = true → stop ≠ '#') :
    ∀ (c : Lx) (u : Ttype) (b : Str), c.kind = .words .InProgress interp start 0 b → c.stopChar = stop →
      c.rest = text ++ stop :: post →
      ∃ ts, ts.map Token.key = ws.map (fun w => (.String, some w)) ++ [(.RBracket, none)] ∧
        Emits (c :: setLast u (p :: ps)) ts
          (setLast .RBracket ({ p with cur := c.cur.nextN c.input (text.length + 1) } :: ps)) := by
  have stopL : ∀ (f : Nat) (buf : Str) (n : Nat), 0 < f →
      wordLoop interp false start stop f 0 buf n (stop :: post) = .stop buf 0 n := by
    intro f buf n hf
    obtain ⟨f, rfl⟩ : ∃ g, f = g + 1 := ⟨f - 1, by omega⟩
    rw [wordLoop]
    have e0 : List.ch (stop :: post) 0 = stop := rfl
    simp only [e0]
    rw [if_neg h0, if_neg (fun h => h.2 h.1), if_neg (by rw [isWs_eq, hw]; decide), if_neg (fun h => hh h.1 h.2.1),
      if_neg (fun h => h.2 h.1.symm), if_pos trivial, if_neg (by omega)]
  have hbuild : ∀ (c : Lx) (b : Str), c.kind = .words .InProgress interp start 0 b →
      c.start.build = c.start.wordsConsume .InProgress interp start 0 := by
    intro c b hk
    unfold Lx.build
    rw [Lx.start_kind, hk]
    rfl
  induction h with
  | none sp hsp =>
    intro c u b hk hst hr
    have hs := nested_start c (by rw [hk]; simp)
    have hrest : c.start.rest = sp ++ stop :: post := by rw [hs]; exact hr
    obtain ⟨f, g1, g2⟩ := wordLoop_space interp start stop sp (stop :: post) hsp (c.start.rest.length + 1) 0 0 (by
      rw [hrest]; simp)
    have hb1 : c.start.build = .ok ⟨((c.start.adv sp.length).adv 1).tkCur .RBracket,
        { (c.start.adv sp.length).adv 1 with kind := .words .Done interp start 0 [] }, none⟩ := by
      rw [hbuild c b hk]
      unfold Lx.wordsConsume
      rw [hrest] at g2 ⊢
      simp only [Lx.start_stopChar, hst]
      rw [show (WState.InProgress == WState.DynamicStringInProgress) = false from rfl, g2, stopL _ _ _ (by omega)]
      simp only [Nat.zero_add]
      rfl
    have h1 := Emits.child (c := c) (P := setLast u (p :: ps)) (setLast_ne _ _ (by simp)) _ hb1 rfl rfl
    rw [setLast_setLast] at h1
    generalize hd : Lx.post _ _ = d at h1
    have dk : d.kind = .words .Done interp start 0 [] := by rw [← hd]; simp
    have dc : d.cur = c.cur.nextN c.input (sp.length + 1) := by
      rw [← hd, Lx.post_cur, Cursor.nextN_add, hs]; rfl
    refine ⟨[((c.start.adv sp.length).adv 1).tkCur .RBracket], rfl, ?_⟩
    rw [← dc]
    exact h1.trans (words_end d p ps .RBracket interp start 0 [] dk)
  | last sp t bs hsp ht hne =>
    intro c u b hk hst hr
    have hs := nested_start c (by rw [hk]; simp)
    have hrest : c.start.rest = sp ++ (t ++ stop :: post) := by rw [← List.append_assoc, hs]; exact hr
    obtain ⟨f, g1, g2⟩ := wordLoop_space interp start stop sp (t ++ stop :: post) hsp (c.start.rest.length + 1) 0 0 (by
      rw [hrest]; simp)
    obtain ⟨f2, g3, g4⟩ := wordLoop_word ht f 0 [] (0 + sp.length) (stop :: post) (by
      simp only [List.length_append] at g1 ⊢; exact g1)
    have hb1 : c.start.build = .ok ⟨((c.start.adv (sp ++ t).length).adv 1).tkCurLit .String bs,
        { (c.start.adv (sp ++ t).length).adv 1 with kind := .words .EndToken interp start 0 bs }, none⟩ := by
      rw [hbuild c b hk]
      unfold Lx.wordsConsume
      rw [hrest] at g2 ⊢
      simp only [Lx.start_stopChar, hst]
      rw [show (WState.InProgress == WState.DynamicStringInProgress) = false from rfl, g2, g4, stopL _ _ _ (by omega)]
      simp only [Nat.zero_add, List.nil_append, List.length_append]
      show Res.ok ((c.start.adv _).wordsFinish interp start 0 bs) = _
      unfold Lx.wordsFinish
      rw [if_pos hne]
    have h1 := Emits.child (c := c) (P := setLast u (p :: ps)) (setLast_ne _ _ (by simp)) _ hb1 rfl rfl
    rw [setLast_setLast] at h1
    generalize hd : Lx.post _ _ = d at h1
    have dk : d.kind = .words .EndToken interp start 0 bs := by rw [← hd]; simp
    have dc : d.cur = c.cur.nextN c.input ((sp ++ t).length + 1) := by
      rw [← hd, Lx.post_cur, Cursor.nextN_add, hs]; rfl
    have hb2 : d.start.build = .ok ⟨d.start.tkCur .RBracket, { d.start with kind := .words .Done interp start 0 bs }, none⟩ := by
      unfold Lx.build
      rw [Lx.start_kind, dk]
      rfl
    have h2 := Emits.child (c := d) (P := setLast .String (p :: ps)) (setLast_ne _ _ (by simp)) _ hb2 rfl rfl
    rw [setLast_setLast] at h2
    generalize he : Lx.post _ _ = e at h2
    have ek : e.kind = .words .Done interp start 0 bs := by rw [← he]; simp
    have ec : e.cur = d.cur := by
      rw [← he, Lx.post_cur]
      show d.start.cur = _
      rw [nested_start d (by rw [dk]; simp)]
    refine ⟨[((c.start.adv (sp ++ t).length).adv 1).tkCurLit .String bs, d.start.tkCur .RBracket], rfl, ?_⟩
    rw [← dc, ← ec]
    exact h1.trans (h2.trans (words_end e p ps .RBracket interp start 0 bs ek))
  | cons sp t bs x rest ws hsp ht hne hx hr' ih =>
    intro c u b hk hst hr
    have hs := nested_start c (by rw [hk]; simp)
    have hrest : c.start.rest = sp ++ (t ++ x :: (rest ++ stop :: post)) := by
      rw [hs, show sp ++ (t ++ x :: (rest ++ stop :: post)) = sp ++ t ++ x :: rest ++ stop :: post by simp]; exact hr
    obtain ⟨f, g1, g2⟩ := wordLoop_space interp start stop sp (t ++ x :: (rest ++ stop :: post)) hsp
      (c.start.rest.length + 1) 0 0 (by rw [hrest]; simp)
    obtain ⟨f2, g3, g4⟩ := wordLoop_word ht f 0 [] (0 + sp.length) (x :: (rest ++ stop :: post)) (by
      simp only [List.length_append] at g1 ⊢; exact g1)
    obtain ⟨f3, rfl⟩ : ∃ f, f2 = f + 1 := ⟨f2 - 1, by omega⟩
    have hsp2 : wordLoop interp false start stop (f3 + 1) 0 ([] ++ bs) (0 + sp.length + t.length)
        (x :: (rest ++ stop :: post)) = .space bs 0 (sp ++ t).length := by
      have x0 : x ≠ NUL := by rintro rfl; exact absurd hx (by decide)
      have x1 : x ≠ '\\' := by rintro rfl; exact absurd hx (by decide)
      rw [wordLoop]
      have e0 : List.ch (x :: (rest ++ stop :: post)) 0 = x := rfl
      simp only [e0]
      rw [if_neg x0, if_neg (fun h => x1 h.1), if_pos (by rw [isWs_eq]; exact hx), if_neg (by decide), if_pos (by simpa using hne)]
      simp
    have hb1 : c.start.build = .ok ⟨(c.start.adv (sp ++ t).length).tkCurLit .String bs,
        { (c.start.adv (sp ++ t).length).adv 1 with kind := .words .InProgress interp start 0 bs }, none⟩ := by
      rw [hbuild c b hk]
      unfold Lx.wordsConsume
      rw [hrest] at g2 ⊢
      simp only [Lx.start_stopChar, hst]
      rw [show (WState.InProgress == WState.DynamicStringInProgress) = false from rfl, g2, g4, hsp2]
      rfl
    have h1 := Emits.child (c := c) (P := setLast u (p :: ps)) (setLast_ne _ _ (by simp)) _ hb1 rfl rfl
    rw [setLast_setLast] at h1
    generalize hd : Lx.post _ _ = d at h1
    have dk : d.kind = .words .InProgress interp start 0 bs := by rw [← hd]; simp
    have din : d.input = c.input := by rw [← hd, Lx.post_input, hs]; rfl
    have dc : d.cur = c.cur.nextN c.input ((sp ++ t).length + 1) := by
      rw [← hd, Lx.post_cur, Cursor.nextN_add, hs]; rfl
    obtain ⟨ts, i1, i2⟩ := ih d .String bs dk (by rw [← hd, Lx.post_stopChar, hs]; exact hst) (by
      unfold Lx.rest
      rw [din, dc, Cursor.nextN_index, ← List.drop_drop]
      change List.drop _ c.rest = _
      rw [hr, show sp ++ t ++ x :: rest ++ stop :: post = (sp ++ t ++ [x]) ++ (rest ++ stop :: post) by simp,
        List.drop_left' (by simp only [List.length_append, List.length_cons, List.length_nil])])
    refine ⟨(c.start.adv (sp ++ t).length).tkCurLit .String bs :: ts, ?_, ?_⟩
    · rw [List.map_cons, i1]; rfl
    · have e : d.cur.nextN d.input (rest.length + 1) = c.cur.nextN c.input ((sp ++ t ++ x :: rest).length + 1) := by
        rw [dc, din, ← Cursor.nextN_add]
        congr 1
        simp only [List.length_append, List.length_cons]
        omega
      rw [← e]
      exact h1.trans i2

/-- A word array in a plain lexer. -/
theorem words_emits (l : Lx) (ps : List Lx) (k n : Nat) (start stop : Char) (interp : Bool) (t : Ttype)
    (ht : plainType t = true) (hsk : l.skipped = k) (hb : l.start.build = .ok (l.start.wordArray n start stop interp t))
    (text : Str) (ws : List Str) (post : Str) (hr : l.start.rest.drop n = text ++ stop :: post)
    (h : Words interp start stop text ws) (h0 : stop ≠ NUL) (hw : isWs stop = false) (hh : interp = true → stop ≠ '#') :
    ∃ ts l', ts.map Token.key = (t, some [start]) :: ws.map (fun w => (.String, some w)) ++ [(.RBracket, none)] ∧
      Emits (l :: ps) ts (setLast .RBracket (l' :: ps)) ∧ Continues l l' (k + n + (text.length + 1)) := by
  have hstep := step_of_build l _ hb
  have h1 := Emits.one (next_step l ps _ hstep (plain_facts ht).2.2.2.1) ht
  generalize hc : ({ l.start.adv n with stopChar := stop, kind := .words .InProgress interp start 0 [] } : Lx) = c
  generalize hp : (l.start.adv n).post t = p
  have h1' : Emits (l :: ps) [l.start.tkLit t [start]] (c :: setLast t (p :: ps)) := by
    rw [← setLast_cons _ _ _ (by simp), ← hc, ← hp]
    exact h1
  have ccur : c.cur = (l.cur.nextN l.input k).nextN l.input n := by
    rw [← hc, ← hsk]; rfl
  have cin : c.input = l.input := by rw [← hc]; rfl
  obtain ⟨ts, t1, t2⟩ := words_content h p ps post h0 hw hh c t [] (by rw [← hc]) (by rw [← hc]) (by
    rw [← hc]
    show (l.start.adv n).rest = _
    rw [Lx.adv_rest]
    exact hr)
  refine ⟨l.start.tkLit t [start] :: ts, { p with cur := c.cur.nextN c.input (text.length + 1) }, ?_, h1'.trans t2, ?_⟩
  · rw [List.map_cons, t1]; rfl
  · constructor
    · rw [← hp]; simp
    · show c.cur.nextN c.input _ = _
      rw [ccur, cin, Cursor.nextN_add l.input (k + n), Cursor.nextN_add l.input k n]
    all_goals (rw [← hp]; simp)

end NP
