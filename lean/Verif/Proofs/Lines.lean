import Verif.Proofs.Layout
import Verif.Spec.Lines

/-! Texts of several lines are read back. -/

namespace NP
open Spec

theorem continues_eq (t : Ttype) : continues t = t.canPrecedeCollapsibleNewline := by
  cases t <;> rfl

theorem resumes_eq (t : Ttype) : resumes t = t.canFollowCollapsibleNewline := by
  cases t <;> rfl

theorem isWhite_eq (c : Char) : isWhite c = isSpace c := by
  unfold isWhite isSpace between
  congr 1


/-! ### The loop of `tokens()` -/

/-- The loop goes on from one state to another. -/
def Goes (l : Lx) (f : Filt) (l' : Lx) (f' : Filt) : Prop :=
  ∃ n, ∀ fuel, 0 < fuel → tokensSt (n + fuel) [l] f = tokensSt fuel [l'] f'

theorem Goes.refl (l : Lx) (f : Filt) : Goes l f l f := ⟨0, fun fuel _ => by rw [Nat.zero_add]⟩

theorem Goes.trans {l l' l'' : Lx} {f f' f'' : Filt} (h : Goes l f l' f') (h' : Goes l' f' l'' f'') : Goes l f l'' f'' := by
  obtain ⟨n, h⟩ := h
  obtain ⟨m, h'⟩ := h'
  exact ⟨n + m, fun fuel hf => by rw [Nat.add_assoc, h _ (by omega), h' _ hf]⟩

theorem Goes.push {l l1 : Lx} {t t' : Token} {f f' : Filt} (h : Fires l t l1) (hs : f.step t = (f', some t'))
    (hv : t'.type ≠ .Eof ∧ t'.type.isValid = true) : Goes l f { l1 with lastType := t'.type } f' := by
  refine ⟨1, fun fuel hf => ?_⟩
  rw [Nat.add_comm]
  show tokensLoop _ l [] f = _
  rw [tokensLoop, show nextToken l [] = .ok (t, [l1]) from h]
  simp only [hs]
  rw [if_neg (by simp [hv])]
  cases fuel with
  | zero => cases hf
  | succ n => rfl

theorem Goes.drop {l l1 : Lx} {t : Token} {f f' : Filt} (h : Fires l t l1) (hs : f.step t = (f', none)) : Goes l f l1 f' := by
  refine ⟨1, fun fuel hf => ?_⟩
  rw [Nat.add_comm]
  show tokensLoop _ l [] f = _
  rw [tokensLoop, show nextToken l [] = .ok (t, [l1]) from h]
  simp only [hs]
  cases fuel with
  | zero => cases hf
  | succ n => rfl

/-- The same but for the documentation. -/
def SameBut (t' t : Token) : Prop := t'.type = t.type ∧ t'.lit = t.lit ∧ t'.fix = t.fix ∧ t'.ws = t.ws

theorem Filt.step_push (f : Filt) (t : Token) (h : t.type ≠ .Comment ∧ t.type ≠ .Doc) (hn : f.skip = true → t.type ≠ .Newline) :
    ∃ d t', f.step t = ({ out := t' :: (if resumes t.type then popNewlines f.out else f.out), skip := continues t.type, lastDoc := d },
      some t') ∧ SameBut t' t := by
  unfold Filt.step
  rw [if_neg h.1, if_neg h.2, if_neg (fun h => hn h.1 h.2), resumes_eq, continues_eq]
  cases f.lastDoc with
  | none => exact ⟨_, _, rfl, rfl, rfl, rfl, rfl⟩
  | some d =>
    by_cases h1 : t.type.canHaveDoc = true
    · simp only [h1, if_true]
      exact ⟨_, _, rfl, rfl, rfl, rfl, rfl⟩
    · by_cases h2 : t.type.isEndOfLine = true
      · simp only [h1, h2, if_true]
        exact ⟨_, _, rfl, rfl, rfl, rfl, rfl⟩
      · simp only [h1, h2]
        exact ⟨_, _, rfl, rfl, rfl, rfl, rfl⟩

/-! ### Line ends and comments -/

theorem newline_dispatch (m : Lx) (post : Str) (hr : m.rest = '\n' :: post) (hh : m.heredocStack = []) :
    m.dispatch = .ok { tok := m.tk .Newline, lx := m.adv 1 } := by
  have h0 : m.ch 0 = '\n' := by unfold Lx.ch; rw [hr]; rfl
  simp [Lx.dispatch, h0, Lx.lexNewline, hh]

theorem hash_dispatch (m : Lx) (post : Str) (hr : m.rest = '#' :: post) : m.dispatch = .ok m.lexHash := by
  have h0 : m.ch 0 = '#' := by unfold Lx.ch; rw [hr]; rfl
  simp [Lx.dispatch, h0]

theorem note_len (s post : Str) (hs : OneLine s) (hp : post = [] ∨ ∃ r, post = '\n' :: r) :
    commentLen ('#' :: (s ++ post)) = s.length + 1 := by
  unfold commentLen
  congr 2
  show (s ++ post).takeWhile _ = s
  rw [List.takeWhile_append_of_pos]
  · rcases hp with rfl | ⟨r, rfl⟩ <;> simp
  · intro c hc
    have := hs c hc
    simp [this.1, this.2.1, this.2.2]

theorem doc_white (w post : Str) (hw : ∀ c ∈ w, isSpace c = true) :
    ∃ d, docCommentLoop false (w ++ post) = (d ++ (docCommentLoop false post).1, w.length + (docCommentLoop false post).2) := by
  induction w with
  | nil => exact ⟨[], by simp⟩
  | cons c w ih =>
    obtain ⟨d, hd⟩ := ih fun c hc => hw c (by simp [hc])
    have h1 := hw c (by simp)
    have h2 : c ≠ NUL := by rintro rfl; exact absurd h1 (by decide)
    have h3 : c ≠ '#' := by rintro rfl; exact absurd h1 (by decide)
    rw [List.cons_append, docCommentLoop, if_neg h2, if_neg (by simp [h1]), hd]
    by_cases h : c = '\n' ∨ c = '\r'
    · rw [if_pos h]
      exact ⟨c :: d, by simp; omega⟩
    · rw [if_neg h, if_neg (by simp [h3])]
      exact ⟨d, by simp; omega⟩

theorem doc_line (s post : Str) (hs : OneLine s) :
    docCommentLoop true (s ++ '\n' :: post) = (s ++ '\n' :: (docCommentLoop false post).1, s.length + 1 + (docCommentLoop false post).2) := by
  induction s with
  | nil =>
    rw [List.nil_append, docCommentLoop, if_neg (by decide), if_neg (by simp), if_pos (.inl rfl)]
    simp
    omega
  | cons c s ih =>
    obtain ⟨h1, h2, h3⟩ := hs c (by simp)
    rw [List.cons_append, docCommentLoop, if_neg h3, if_neg (by simp), if_neg (by simp [h1, h2]), if_pos (by simp),
      ih fun c hc => hs c (by simp [hc])]
    simp
    omega

theorem doc_hash (b : Bool) (post : Str) :
    docCommentLoop b ('#' :: post) = ('#' :: (docCommentLoop true post).1, (docCommentLoop true post).2 + 1) := by
  rw [docCommentLoop, if_neg (by decide), if_neg (by simp), if_neg (by decide), if_pos (by simp)]

theorem doc_end (post : Str) (hp : ∀ c r, post = c :: r → c ≠ '#' ∧ isWhite c = false) : docCommentLoop false post = ([], 0) := by
  cases post with
  | nil => rfl
  | cons c r =>
    obtain ⟨h1, h2⟩ := hp c r rfl
    rw [isWhite_eq] at h2
    rw [docCommentLoop]
    by_cases h : c = NUL
    · rw [if_pos h]
    · rw [if_neg h, if_pos (by simp [h1, h2])]

theorem doc_len (post : Str) (hp : ∀ c r, post = c :: r → c ≠ '#' ∧ isWhite c = false) (b : Bool) :
    ∀ ls : List (Str × Str), (∀ p ∈ ls, OneLine p.1 ∧ ∀ c ∈ p.2, isWhite c = true) → (ls = [] → b = false) →
      (docCommentLoop b ((ls.flatMap fun p => '#' :: p.1 ++ '\n' :: p.2) ++ post)).2 =
        (ls.flatMap fun p => '#' :: p.1 ++ '\n' :: p.2).length
  | [], _, hb => by rw [hb rfl]; exact congrArg Prod.snd (doc_end post hp)
  | (s, w) :: ls, h, _ => by
    obtain ⟨h1, h2⟩ := h (s, w) (by simp)
    have ih := doc_len post hp false ls (fun p hp => h p (by simp [hp])) fun _ => rfl
    obtain ⟨d, hd⟩ := doc_white w ((ls.flatMap fun p => '#' :: p.1 ++ '\n' :: p.2) ++ post)
      fun c hc => by rw [← isWhite_eq]; exact h2 c hc
    have e : ((((s, w) :: ls).flatMap fun p => '#' :: p.1 ++ '\n' :: p.2) ++ post) =
        '#' :: (s ++ '\n' :: (w ++ ((ls.flatMap fun p => '#' :: p.1 ++ '\n' :: p.2) ++ post))) := by simp
    rw [e, doc_hash, doc_line s _ h1, hd]
    simp only [ih]
    simp
    omega

/-! ### One part after another -/

theorem lineBegins_first {last : Ttype} (hv : last = .Invalid ∨ last.isValid = true) (m : Lx) (h : m.lastType = last) :
    m.firstOnLine = true ↔ lineBegins last := by
  unfold Lx.firstOnLine lineBegins
  rw [h]
  rcases hv with rfl | hv
  · exact ⟨fun _ => .inl rfl, fun _ => rfl⟩
  · have : last ≠ .Invalid := by rintro rfl; cases hv
    simp [hv, this]

theorem popNewlines_cons {t : Token} {out : List Token} (h : t.type = .Newline) : popNewlines (t :: out) = popNewlines out := by
  unfold popNewlines
  rw [List.dropWhile_cons, if_pos (by simp [h])]

theorem popNewlines_keep {t : Token} {out : List Token} (h : t.type ≠ .Newline) : popNewlines (t :: out) = t :: out := by
  unfold popNewlines
  rw [List.dropWhile_cons, if_neg (by simp [h])]

theorem At.same {k k' : Nat} {last : Ttype} {l1 : Lx} (h : ∀ u, At k u { l1 with lastType := u }) (hl : l1.lastType = last)
    (hk : k = k') : At k' last l1 := by
  subst hl hk
  exact h _

theorem parts_go : ∀ (ps : List Part) (k : Nat) (last : Ttype) (l : Lx) (f : Filt) (tr : Str), At k last l →
    l.rest = text ps ++ tr → FitText k last ps tr → last ≠ .InterpolatedStringEnd → (last.canBeComplexOrRational = true → last = .Fixnum) →
    (last = .Invalid ∨ last.isValid = true) → f.skip = continues last →
    ∃ ts l' f' k' last', List.Forall₂ Shows (visible last ps) ts ∧ Goes l f l' f' ∧
      f'.out = ts.reverse ++ (if resumed ps then popNewlines f.out else f.out) ∧ At k' last' l' ∧ l'.rest = tr
  | [], k, last, l, f, tr, hl, hr, _, _, _, _, _ => ⟨[], l, f, k, last, .nil, .refl l f, rfl, hl, hr⟩
  | .tok i :: ps, k, last, l, f, tr, hl, hr, hf, h1, h2, hv, h3 => by
    obtain ⟨⟨hb, ho⟩, hf⟩ := hf
    obtain ⟨t, l1, a1, a2, a3, a4, a5⟩ := item_emits l hl i hb (text ps ++ tr) (by rw [hr]; simp [text, Part.text]) ho h1 h2
    obtain ⟨b1, b2⟩ := piece_type_facts i ho
    obtain ⟨c1, c2, c3, c4, c5⟩ := plain_facts a2
    obtain ⟨d, t', e1, e2, e3, e4, e5⟩ := f.step_push t ⟨c1, c2⟩ fun _ => c3
    have hg := Goes.push a3 e1 (by rw [e2]; exact ⟨c4, c5⟩)
    rw [e2, a1.type] at hg
    rw [a1.type] at c5
    obtain ⟨ts, l2, f2, k2, last2, g1, g2, g3, g4, g5⟩ := parts_go ps _ _ { l1 with lastType := i.p.type }
      { out := t' :: (if resumes i.p.type then popNewlines f.out else f.out), skip := continues i.p.type, lastDoc := d } tr a4 a5 hf b1 b2 (.inr c5) rfl
    refine ⟨t' :: ts, l2, f2, k2, last2, .cons ⟨e2.trans a1.type, e3.trans a1.lit, e4.trans a1.fix, e5.trans a1.ws⟩ g1, hg.trans g2, ?_, g4, g5⟩
    rw [g3]
    simp only
    rw [popNewlines_keep (by rw [e2]; exact c3), ite_self]
    simp [resumed]
    rfl
  | .line sp :: ps, k, last, l, f, tr, hl, hr, hf, h1, h2, hv, h3 => by
    obtain ⟨hb, hf⟩ := hf
    obtain ⟨t, l1, a1, a2, a3, a4, a5, a6⟩ := at_fires l hl (sp := sp) (s := '\n' :: (text ps ++ tr)) (n := 1)
      (Q := fun t => t.lit = none ∧ t.fix = 0 ∧ t.ws = (sp != [])) (ty := .Newline) hb
      (by rw [hr]; simp [text, Part.text]) (by show TokenStart '\n'; unfold TokenStart; decide) (fun m b1 b2 b3 =>
        ⟨m.openTernary, _, newline_dispatch m _ b1 b2.here, ⟨rfl, rfl, b3⟩, rfl⟩) nofun ⟨nofun, nofun⟩
    by_cases hc : continues last = true
    · have hs : f.step t = (f, none) := by
        unfold Filt.step
        rw [if_neg (by rw [a2]; nofun), if_neg (by rw [a2]; nofun), if_pos ⟨h3.trans hc, a2⟩]
      have e : (Part.line sp).last last = last := by simp [Part.last, hc]
      rw [e] at hf
      obtain ⟨ts, l2, f2, k2, last2, g1, g2, g3, g4, g5⟩ := parts_go ps _ _ l1 f tr (At.same a4 a5 rfl) a6 hf h1 h2 hv h3
      refine ⟨ts, l2, f2, k2, last2, ?_, (Goes.drop a3 hs).trans g2, g3, g4, g5⟩
      rw [visible]
      simp only [hc, Bool.true_or, if_true, e]
      exact g1
    · have hc' : continues last = false := by simpa using hc
      obtain ⟨d, t', e1, e2, e3, e4, e5⟩ := f.step_push t (by rw [a2]; exact ⟨nofun, nofun⟩) fun h => by rw [h3, hc'] at h; cases h
      have hg := Goes.push a3 e1 (by rw [e2, a2]; exact ⟨nofun, rfl⟩)
      have e : (Part.line sp).last last = .Newline := by simp [Part.last, hc']
      rw [e] at hf
      rw [e2, a2] at hg
      rw [a2] at e2
      obtain ⟨ts, l2, f2, k2, last2, g1, g2, g3, g4, g5⟩ := parts_go ps _ _ { l1 with lastType := .Newline }
        { out := t' :: (if resumes .Newline then popNewlines f.out else f.out), skip := continues .Newline, lastDoc := d } tr (a4 _) a6 hf nofun nofun (.inr rfl) rfl
      by_cases hd : resumed ps = true
      · refine ⟨ts, l2, f2, k2, last2, ?_, hg.trans g2, ?_, g4, g5⟩
        · rw [visible]
          simp only [hd, Bool.or_true, if_true, e]
          exact g1
        · rw [g3, if_pos hd, show resumed (.line sp :: ps) = resumed ps from rfl, if_pos hd, popNewlines_cons e2]
          rfl
      · refine ⟨t' :: ts, l2, f2, k2, last2, ?_, hg.trans g2, ?_, g4, g5⟩
        · rw [visible]
          simp only [hc', hd, Bool.or_self, e]
          exact .cons ⟨e2, e3.trans a1.1, e4.trans a1.2.1, e5.trans a1.2.2⟩ g1
        · rw [g3, if_neg hd, show resumed (.line sp :: ps) = resumed ps from rfl, if_neg hd]
          simp [resumes]
  | .note sp s :: ps, k, last, l, f, tr, hl, hr, hf, h1, h2, hv, h3 => by
    obtain ⟨⟨hb, hs, hn, hp⟩, hf⟩ := hf
    obtain ⟨t, l1, -, a2, a3, a4, a5, a6⟩ := at_fires l hl (sp := sp) (s := '#' :: (s ++ (text ps ++ tr))) (n := s.length + 1)
      (Q := fun _ => True) (ty := .Comment) hb
      (by rw [hr]; simp [text, Part.text]) (by show TokenStart '#'; unfold TokenStart; decide) (fun m b1 b2 _ => by
        refine ⟨m.openTernary, m.tk .Comment, (hash_dispatch m _ b1).trans ?_, trivial, ?_⟩
        · unfold Lx.lexHash
          rw [if_neg (by rw [lineBegins_first hv m b2.last]; exact hn), b1, note_len s _ hs hp]
          rfl
        · rfl) nofun ⟨nofun, nofun⟩
    have hst : f.step t = (f, none) := by
      unfold Filt.step
      rw [if_pos a2]
    obtain ⟨ts, l2, f2, k2, last2, g1, g2, g3, g4, g5⟩ := parts_go ps _ _ l1 f tr (At.same a4 a5 rfl)
      (by rw [a6]; simp) hf h1 h2 hv h3
    exact ⟨ts, l2, f2, k2, last2, g1, (Goes.drop a3 hst).trans g2, g3, g4, g5⟩
  | .doc sp ls :: ps, k, last, l, f, tr, hl, hr, hf, h1, h2, hv, h3 => by
    obtain ⟨⟨hb, hn, hne, hls, hp⟩, hf⟩ := hf
    obtain ⟨r, hlr⟩ : ∃ r, (ls.flatMap fun p => '#' :: p.1 ++ '\n' :: p.2) = '#' :: r := by
      cases ls with
      | nil => exact absurd rfl hne
      | cons a ls => exact ⟨_, rfl⟩
    obtain ⟨t, l1, -, a2, a3, a4, a5, a6⟩ := at_fires l hl (sp := sp)
      (s := (ls.flatMap fun p => '#' :: p.1 ++ '\n' :: p.2) ++ (text ps ++ tr))
      (n := (ls.flatMap fun p => '#' :: p.1 ++ '\n' :: p.2).length)
      (Q := fun _ => True) (ty := .Doc) hb
      (by rw [hr]; simp [text, Part.text]) (by rw [hlr]; show TokenStart '#'; unfold TokenStart; decide) (fun m b1 b2 _ => by
        refine ⟨m.openTernary, (m.opLit 0 .Doc (docCommentLoop true m.rest).1).tok, (hash_dispatch m (r ++ (text ps ++ tr)) (by rw [b1, hlr]; rfl)).trans ?_, trivial, ?_⟩
        · unfold Lx.lexHash
          rw [if_pos ((lineBegins_first hv m b2.last).2 hn)]
          simp only [b1]
          rw [doc_len _ hp true ls hls (fun h => absurd h hne)]
          rfl
        · rfl) nofun ⟨nofun, nofun⟩
    have hst : ∃ d, f.step t = ({ f with lastDoc := d }, none) := by
      unfold Filt.step
      rw [if_neg (by rw [a2]; nofun), if_pos a2]
      cases f.lastDoc <;> exact ⟨_, rfl⟩
    obtain ⟨d, hst⟩ := hst
    obtain ⟨ts, l2, f2, k2, last2, g1, g2, g3, g4, g5⟩ := parts_go ps _ _ l1 { f with lastDoc := d } tr (At.same a4 a5 rfl)
      (by rw [a6]; simp) hf h1 h2 hv h3
    exact ⟨ts, l2, f2, k2, last2, g1, (Goes.drop a3 hst).trans g2, g3, g4, g5⟩

/-- The end of the text. -/
theorem Goes.lexes {src : Str} {l : Lx} {f : Filt} (h : Goes (Lx.init src) {} l f) (hk : l.kind = .base) (hr : Spec.Blank l.rest) :
    ∃ e, ShowsEnd l.rest e ∧ Lexes src (f.out.reverse ++ [e]) := by
  have hsk : l.skipped = l.rest.length := by
    rw [show l.skipped = skipWs l.rest by rw [Lx.skipped, hk]]
    have := blank_skipWs hr [] (fun b r _ he => (List.append_eq_nil_iff.1 he.symm).1)
    rwa [List.append_nil] at this
  have hstep : l.step = .ok { tok := l.start.tkCur .Eof, lx := l.start.post .Eof } := by
    unfold Lx.step Lx.build
    rw [Lx.start_kind, hk]
    simp only
    unfold Lx.buildBase
    rw [if_pos]
    · rfl
    · rw [Lx.start_input, Lx.start_cur, Cursor.nextN_index, hsk]
      unfold Lx.rest
      rw [List.length_drop]
      omega
  obtain ⟨n, h⟩ := h
  obtain ⟨d, t', e1, e2, e3, e4, e5⟩ := f.step_push (l.start.tkCur .Eof) ⟨nofun, nofun⟩ fun _ => nofun
  refine ⟨t', ⟨e2, e3, e4, e5.trans ?_⟩, n + 1, ?_, by simp⟩
  · show (l.skipped != 0) = _
    rw [hsk]
    cases l.rest <;> rfl
  have hl : tokensFuel (n + 1) src = tokensSt (n + 1) [Lx.init src] {} := rfl
  rw [hl, h 1 (by decide)]
  show tokensLoop 1 l [] f = _
  have hnext : nextToken l [] = .ok (l.start.tkCur .Eof, [l.start.post .Eof]) := by
    rw [nextToken, hstep]
    rfl
  rw [tokensLoop, hnext]
  simp only [e1]
  rw [if_pos (.inl e2), List.reverse_cons]
  rfl

theorem text_lexes (ps : List Part) (tr : Str) (hf : FitText 0 .Invalid ps tr) (ht : Spec.Blank tr) :
    ∃ ts e, List.Forall₂ Shows (visible .Invalid ps) ts ∧ ShowsEnd tr e ∧ Lexes (text ps ++ tr) (ts ++ [e]) := by
  obtain ⟨ts, l, f, k, last, h1, h2, h3, h4, h5⟩ := parts_go ps 0 .Invalid (Lx.init (text ps ++ tr)) {} tr
    ⟨rfl, rfl, rfl, rfl, rfl, rfl, rfl⟩ rfl hf nofun nofun (.inl rfl) rfl
  obtain ⟨e, he, hl⟩ := h2.lexes h4.kind (by rw [h5]; exact ht)
  rw [h5] at he
  refine ⟨ts, e, h1, he, ?_⟩
  rw [h3] at hl
  simpa [popNewlines] using hl

end NP
