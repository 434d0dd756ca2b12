import Verif.Props.Lexeme
import Verif.Props.Parse
import Verif.Proofs.Nesting
import Verif.Proofs.Open
import Verif.Props.Open
import Verif.Proofs.Layout
import Verif.Model.Visits

/-!
C53: code in an interpolation. The lexer decides from the last token whether `/` is a division, whether `a:` is a key and
whether `i` is a suffix; only the outermost lexer has a last token.
-/

namespace NP
open Spec

def Kind.isRegexp : Kind → Bool
  | .regexp .. => true
  | _ => false

/-- The plain lexers of the stack that read an interpolation of a string, a symbol, a shell command, a heredoc or a word
array have no last token, and count braces. -/
def Blind : List Lx → Prop
  | c :: p :: ps => (c.kind = .base → p.kind.isRegexp = false → c.lastType = .Invalid ∧ c.startChar = '{') ∧ Blind (p :: ps)
  | _ => True

/-- The lexer of an interpolation begins without last token, except in a regular expression. -/
theorem eval_child (l : Lx) (o : Out) (c : Lx) (hw : l.kind.WF) (h : l.step = .ok o) (hc : o.child = some c) (hb : c.kind = .base)
    (hr : l.kind.isRegexp = false) : c.lastType = .Invalid ∧ c.startChar = '{' := by
  have hn : l.kind ≠ .base := by
    intro hk
    rcases (step_nstep l o hw h).child c hc with ⟨-, h2, -⟩ | ⟨h2, -⟩
    · exact h2 hb
    · exact h2 hk
  obtain ⟨b, hb', rfl⟩ := l.step_eq o h
  have hk' : l.start.kind = l.kind := rfl
  change b.child = some c at hc
  unfold Lx.build at hb'
  rw [hk'] at hb'
  cases hk : l.kind with
  | base => exact absurd hk hn
  | regexp s o => rw [hk] at hr; cases hr
  | istr st e a =>
    rw [hk] at hb'
    simp only [Lx.buildIstr, Lx.istrConsume] at hb'
    repeat' split at hb'
    all_goals (cases hb' <;> cases hc <;> exact ⟨rfl, rfl⟩)
  | words st i s d bf =>
    rw [hk] at hb'
    simp only [Lx.buildWords, Lx.wordsConsume, Lx.wordsDynFinish, Lx.wordsFinish] at hb'
    repeat' split at hb'
    all_goals (cases hb' <;> cases hc <;> exact ⟨rfl, rfl⟩)

theorem Blind.replace {l l' : Lx} {ps : List Lx} (h : Blind (l :: ps)) (hk : l'.kind = .base → l.kind = .base)
    (ht : l'.lastType = l.lastType) (hs : l'.startChar = l.startChar) : Blind (l' :: ps) := by
  cases ps with
  | nil => trivial
  | cons p ps => exact ⟨fun a b => ⟨ht.trans (h.1 (hk a) b).1, hs.trans (h.1 (hk a) b).2⟩, h.2⟩

theorem kstep_facts {k k' : Kind} (h : KStep k k') : (k' = .base → k = .base) ∧ k'.isRegexp = k.isRegexp := by
  cases h <;> simp [Kind.isRegexp]

theorem Blind.step {src : Str} {l : Lx} {ps : List Lx} {o : Out} (h : Blind (l :: ps)) (hl : Reach src l) (hs : l.step = .ok o) :
    Blind (o.child.toList ++ o.lx :: ps) := by
  have s := hl.shape hs
  obtain ⟨k1, k2⟩ := kstep_facts s.kind
  have h1 : Blind (o.lx :: ps) := h.replace k1 s.last s.start
  cases hc : o.child with
  | none => simpa using h1
  | some c =>
    simp only [Option.toList_some, List.singleton_append]
    exact ⟨fun hb hr => eval_child l o c hl.wf hs hc hb (k2 ▸ hr), h1⟩

theorem Blind.setLast (t : Ttype) : ∀ {st : List Lx}, Blind st → Blind (setLast t st)
  | [], h => h
  | [_], _ => trivial
  | [_, _], h => ⟨h.1, trivial⟩
  | _ :: _ :: _ :: _, h => ⟨h.1, Blind.setLast t h.2⟩

theorem nextToken_blind {src : Str} (ps : List Lx) : ∀ (l : Lx) (t : Token) (st : List Lx), StackOk src (l :: ps) → Blind (l :: ps) →
    nextToken l ps = .ok (t, st) → Blind st := by
  induction ps with
  | nil =>
    intro l t st h hb hn
    unfold nextToken at hn
    split at hn <;> cases hn
    rename_i o ho
    exact hb.step h.head ho
  | cons p ps ih =>
    intro l t st h hb hn
    unfold nextToken at hn
    split at hn
    · rename_i o ho
      split at hn
      · refine ih _ _ _ ?_ ?_ hn
        · have s := h.1.shape ho
          have := h.step ho
          rw [(s.eof (by assumption)).1] at this
          exact this.pop
        · refine Blind.replace hb.2 (fun hk => ?_) ?_ ?_
          · rwa [Lx.sync_kind] at hk
          · unfold Lx.sync; split <;> rfl
          · unfold Lx.sync; split <;> rfl
      · cases hn
        exact hb.step h.head ho
    all_goals cases hn

theorem Visits.blind {src : Str} {st : List Lx} {f : Filt} (h : Visits src st f) : Blind st := by
  induction h with
  | init => trivial
  | dropped l ps st f f' t hv hn _ ih => exact nextToken_blind ps l t st hv.stackOk ih hn
  | pushed l ps st f f' t t' hv hn _ _ ih => exact (nextToken_blind ps l t st hv.stackOk ih hn).setLast _

/-- C53 is false for divisions, in all sources: the code of an interpolation of a string, symbol, shell command, heredoc or
word array has no division. A `/` there always begins a regular expression. -/
theorem C53_division_false (src : Str) (c p : Lx) (ps : List Lx) (f : Filt) (hv : Visits src (c :: p :: ps) f)
    (hk : c.kind = .base) (hp : p.kind.isRegexp = false) (o : Out) (h : c.step = .ok o) :
    o.tok.type ≠ .Slash ∧ o.tok.type ≠ .SlashEqual ∧
      ∀ pre post, c.rest = pre ++ '/' :: post → Spec.Blank pre → o.tok.type = .InterpolatedRegexpBegin := by
  have hl : c.lastType = .Invalid := (hv.blind.1 hk hp).1
  have hd : ∀ l' : Lx, l'.lastType = c.lastType → l'.ch 0 = '/' → l'.dispatch = .ok (l'.regexp 1 '/' '/') := by
    intro l' h1 h2
    simp [Lx.dispatch, h2, Lx.lexSlash, h1, hl, Ttype.isValid, Ttype.value]
  have hno : ∀ w r, w = '/' :: r → (w, o.tok.type) ∉ fixedSpelling ∨ o.tok.type = .InterpolatedRegexpBegin := by
    intro w r hw
    by_cases hm : (w, o.tok.type) ∈ fixedSpelling
    · right
      rcases base_step c o hk h with ⟨h1, -⟩ | ⟨pre, l', o', hR, h1, h2, -⟩
      · rw [h1] at hm; exact absurd hm (not_fixed rfl)
      · rw [h2] at hm
        obtain ⟨⟨post, hpost⟩, -⟩ := Spelled.dispatch l' o' h1 w hm
        have h3 : l'.ch 0 = '/' := by unfold Lx.ch; rw [← hpost, hw]; rfl
        rw [hd l' hR.last h3] at h1
        cases h1
        rw [h2]
        rfl
    · exact .inl hm
  refine ⟨fun ht => ?_, fun ht => ?_, fun pre post hr hb => ?_⟩
  · rcases hno (cs! "/") [] rfl with h1 | h1
    · rw [ht] at h1; exact h1 (by decide)
    · rw [ht] at h1; cases h1
  · rcases hno (cs! "/=") _ rfl with h1 | h1
    · rw [ht] at h1; exact h1 (by decide)
    · rw [ht] at h1; cases h1
  · rcases base_at c o hk h pre _ hr hb (NoBlank.of_head _ '/' rfl (by decide)) (.inr (by show '/' ≠ _; decide)) with
      ⟨h1, h2⟩ | ⟨l', o', hR, h1, h2, h3, -⟩
    · rcases h2 with h2 | ⟨h2, h3⟩
      · cases h2
      · rcases hv.stackOk.head.stop hk with h4 | h4
        · exact absurd h4 h2
        · rw [h4] at h3; exact absurd (show '/' = '}' from h3) (by decide)
    · have h4 : l'.ch 0 = '/' := by unfold Lx.ch; rw [h1]; rfl
      rw [hd l' hR.last h4] at h2
      cases h2
      rw [h3]
      rfl

/-- A token that fits without last token is found. -/
theorem fit_dispatch (m : Lx) (i : Item) (post : Str) (a : m.rest = i.p.spell ++ post) (hf : FitOne m.remaining .Invalid i post)
    (b : m.lastType = .Invalid) (c : m.ws = i.ws) :
    TokenStart ((i.p.spell ++ post).ch 0) ∧
    ∃ b t, m.dispatch = .ok { tok := t, lx := { m.adv i.p.spell.length with openTernary := b } } ∧ Reads i t := by
  obtain ⟨ws, p⟩ := i
  cases p with
  | name x =>
    obtain ⟨h1, h2, h3⟩ := hf
    exact ⟨name_start h1 post, m.openTernary, m.tkLit .BareName x,
      name_dispatch' m x post a h1 h2 (by rw [b]; rfl), rfl, rfl, rfl, c⟩
  | const x =>
    obtain ⟨h1, h2⟩ := hf
    exact ⟨const_start h1 post, m.openTernary, m.tkLit .Constant x, const_dispatch' m x post a h1 h2, rfl, rfl, rfl, c⟩
  | int n =>
    obtain ⟨h1, h2⟩ := hf
    refine ⟨?_, m.openTernary, { m.tk .Fixnum with fix := n }, int_dispatch m n post a h1 h2, rfl, rfl, rfl, c⟩
    have hdec := (toDigits_intLit n).first post
    show TokenStart ((Nat.toDigits 10 n ++ post).ch 0)
    generalize (Nat.toDigits 10 n ++ post).ch 0 = c at hdec
    refine ⟨?_, ?_, ?_, ?_, ?_⟩ <;> (rintro rfl; exact absurd hdec (by decide))
  | str s =>
    obtain ⟨h1, h2⟩ := hf
    refine ⟨by show TokenStart '\''; unfold TokenStart; decide, m.openTernary, m.tkLit .String s, ?_, rfl, rfl, rfl, c⟩
    rw [string_dispatch m s post a h1 h2]
    show _ = Res.ok (m.opLit (Piece.str s).spell.length .String s)
    simp [Piece.spell]
  | sym x =>
    refine ⟨by show TokenStart ':'; unfold TokenStart; decide, m.openTernary, m.tkLit .Symbol x, ?_, rfl, rfl, rfl, c⟩
    rw [symbol_dispatch m x post a hf (by rw [b]; decide)]
    rfl
  | ivar x =>
    obtain ⟨h1, h2, h3⟩ := hf
    exact ⟨by show TokenStart '@'; unfold TokenStart; decide, m.openTernary, m.tkLit .InstanceVariable ('@' :: x),
      ivar_dispatch m x post a h1 h2 h3, rfl, rfl, rfl, c⟩
  | cvar x =>
    obtain ⟨h1, h2, h3⟩ := hf
    exact ⟨by show TokenStart '@'; unfold TokenStart; decide, m.openTernary, m.tkLit .ClassVariable ('@' :: '@' :: x),
      cvar_dispatch m x post a h1 h3, rfl, rfl, rfl, c⟩
  | gvar x =>
    obtain ⟨h1, h2⟩ := hf
    exact ⟨by show TokenStart '$'; unfold TokenStart; decide, m.openTernary, m.tkLit .GlobalVariable ('$' :: x),
      gvar_dispatch m x post a h1 h2, rfl, rfl, rfl, c⟩
  | key x => exact absurd hf.2.2.1 (by decide)
  | fixed w t =>
    obtain ⟨f1, f2⟩ := fixed_facts
    rcases hf with ⟨h1, h2, h3, h4, h5, h6⟩ | ⟨cs, h1, h2, h3⟩ | ⟨h1, h2, h3, r, rfl⟩ | ⟨h1, h2, -⟩ | ⟨h1, h2, -⟩ | ⟨h1, h2, -⟩
    · obtain ⟨g1, g2, g3⟩ := f1 _ h1
      exact ⟨fixed_start g1 g2 _, m.openTernary, m.tk t, keyword_dispatch' m w post t a
          ((keywords_mem _ _).2 h1) (keyword_all w t h1 h2) h6 h5, rfl, rfl, rfl, c⟩
    · obtain ⟨g1, g2, g3, g4⟩ := f2 _ h1
      exact ⟨fixed_start g1 g2 _, m.openTernary, m.tk t, operator_dispatch m w post t cs h1 a h2 h3, rfl, rfl, rfl, c⟩
    · have g : TokenStart (w.ch 0) ∧ w ≠ [] := by
        unfold TokenStart
        simp only [List.mem_cons, Prod.mk.injEq, List.not_mem_nil, or_false] at h1
        rcases h1 with ⟨rfl, rfl⟩ | ⟨rfl, rfl⟩ | ⟨rfl, rfl⟩ | ⟨rfl, rfl⟩ <;> decide
      obtain ⟨bb, hb⟩ := context_dispatch m w r t h1 a h2 (c.trans h3)
      exact ⟨fixed_start g.1 g.2 _, bb, m.tk t, hb, rfl, rfl, rfl, c⟩
    · exact absurd h2 (by decide)
    · exact absurd h2 (by decide)
    · exact absurd h2 (by decide)

/-- C53 where the last token is not needed: in the code of an interpolation, names, constants, integers, strings, symbols,
variables, keywords and operators are read as they are written. `_partial`: divisions, keys, braces and suffixes of numbers are
left out. -/
theorem C53_partial (src : Str) (c p : Lx) (ps : List Lx) (f : Filt) (hv : Visits src (c :: p :: ps) f)
    (hk : c.kind = .base) (hp : p.kind.isRegexp = false) (i : Item) (post : Str) (hr : c.rest = i.text ++ post)
    (hb : Spec.Blank i.sp) (hf : FitOne c.remaining .Invalid i post)
    (hbr : (i.p.spell ++ post).ch 0 ≠ '{' ∧ (i.p.spell ++ post).ch 0 ≠ '}') :
    ∃ o, c.step = .ok o ∧ Reads i o.tok ∧ o.child = none ∧ o.lx.rest = post := by
  have hl : c.lastType = .Invalid := (hv.blind.1 hk hp).1
  have hst := hv.stackOk.head.stop hk
  have hr' : c.rest = i.sp ++ (i.p.spell ++ post) := by rw [hr, Item.text, List.append_assoc]
  obtain ⟨g, -⟩ := fit_dispatch { c with cur := c.cur.nextN c.input i.sp.length, ws := i.ws } i post
    (by rw [show i.p.spell ++ post = c.rest.drop i.sp.length by rw [hr', List.drop_left]]
        simp only [Lx.rest, Cursor.nextN_index, List.drop_drop]) hf hl rfl
  obtain ⟨h1, h2, h3⟩ := base_start c hk hst i.sp _ hr' hb (NoBlank.of_head _ _ rfl ⟨g.1, g.2.1, g.2.2.1⟩)
    (by intro h; rw [h] at g; exact g.2.2.2.2 rfl) g.2.2.2.1 hbr.2
    (.inr (by rw [(hv.blind.1 hk hp).2]; exact hbr.1))
  have h4 : c.start.ws = i.ws := by
    show (c.skipped != 0) = _
    rw [h3]
    unfold Item.ws
    cases i.sp <;> rfl
  obtain ⟨-, b, t, h5, h6⟩ := fit_dispatch c.start i post h2 hf hl h4
  refine ⟨_, step_of_build c _ (h1.trans h5), h6, rfl, ?_⟩
  have h7 : c.start.rest.drop i.p.spell.length = post := by rw [h2, List.drop_left]
  rw [← h7]
  simp only [Lx.rest, Lx.post_cur, Lx.post_input, Lx.adv, Cursor.nextN_index, List.drop_drop]

theorem nokey_dispatch (l : Lx) (x post : Str) (hr : l.rest = x ++ ':' :: post) (hx : IsName x) (hl : l.lastType = .Invalid) :
    l.dispatch = .ok (l.opLit x.length .BareName x) := by
  obtain ⟨c, n, rfl, hc, hn, hk⟩ := hx
  have h0 : l.ch 0 = c := by unfold Lx.ch; rw [hr]; rfl
  have hs := lower_facts c hc
  have he : NameEnds (':' :: post) := fun c' r h => by cases h; decide
  have e0 : l.ch (n.length + 1) = ':' := ch_after l (c :: n) _ hr 0
  have e1 : l.ch (n.length + 1 + 1) = post.ch 0 := ch_after l (c :: n) _ hr 1
  have h1 : l.lexWord = l.opLit (c :: n).length .BareName (c :: n) := by
    unfold Lx.lexWord
    rw [keywordAt_none' l _ _ hr (by simpa using ⟨hs.2.2.2.1, hn⟩) he rfl hk]
    simp only [h0, hs.1, if_true]
    unfold Lx.bareName
    rw [hr, List.cons_append, consumeWord_name c n _ hn he]
    simp only [e0, e1]
    rw [if_neg (by decide), if_neg (by decide), if_neg (by rw [hl]; simp [Ttype.canPrecedeSymbolKey])]
    rfl
  have hd := dispatch_disp l
  generalize hr : l.dispatch = r at hd
  cases hd
  case word => rw [h1]
  case i h => unfold Lx.lexI; rw [if_neg (by rw [hl]; exact fun h => absurd h.1 (by decide)), h1]
  case r h => unfold Lx.lexR; rw [if_neg (by rw [hl]; decide), h1]
  case digit h => rw [h0, hs.2.2.1] at h; cases h
  all_goals (rename_i h; rw [← h0, h] at hs; cases hs.2.1)

/-- C53 is false for keys, in all sources: in the code of an interpolation, a name in front of a colon is never a key. -/
theorem C53_key_false (src : Str) (c p : Lx) (ps : List Lx) (f : Filt) (hv : Visits src (c :: p :: ps) f)
    (hk : c.kind = .base) (hp : p.kind.isRegexp = false) (pre x post : Str) (hr : c.rest = pre ++ (x ++ ':' :: post))
    (hb : Spec.Blank pre) (hx : IsName x) :
    ∃ o, c.step = .ok o ∧ o.tok.type = .BareName ∧ o.tok.lit = some x ∧ o.lx.rest = ':' :: post := by
  obtain ⟨hl, hsc⟩ := hv.blind.1 hk hp
  have g := name_start hx (':' :: post)
  have hbr : (x ++ ':' :: post).ch 0 ≠ '}' ∧ (x ++ ':' :: post).ch 0 ≠ '{' := by
    obtain ⟨d, n, rfl, hd, -⟩ := hx
    have := (lower_facts d hd).2.1
    constructor <;> (intro h; change d = _ at h; subst h; cases this)
  obtain ⟨h1, h2, h3⟩ := base_start c hk (hv.stackOk.head.stop hk) pre _ hr hb (NoBlank.of_head _ _ rfl ⟨g.1, g.2.1, g.2.2.1⟩)
    (by simp) g.2.2.2.1 hbr.1 (.inr (by rw [hsc]; exact hbr.2))
  have h5 := nokey_dispatch c.start x post h2 hx hl
  refine ⟨_, step_of_build c _ (h1.trans h5), rfl, rfl, ?_⟩
  have h7 : c.start.rest.drop x.length = ':' :: post := by rw [h2, List.drop_left]
  rw [← h7]
  simp only [Lx.opLit, Lx.rest, Lx.post_cur, Lx.post_input, Lx.adv, Cursor.nextN_index, List.drop_drop]

/-- C53 is false for the suffixes of numbers, in all sources: in the code of an interpolation they are names, whatever is in
front of them. -/
theorem C53_suffix_false (src : Str) (c p : Lx) (ps : List Lx) (f : Filt) (hv : Visits src (c :: p :: ps) f)
    (hk : c.kind = .base) (hp : p.kind.isRegexp = false) (x post : Str) (hx : x ∈ [cs! "i", cs! "r", cs! "ri"])
    (hr : c.rest = x ++ post) (hw : WordStops post) :
    ∃ o, c.step = .ok o ∧ o.tok.type = .BareName ∧ o.tok.lit = some x ∧ o.lx.rest = post := by
  have h : IsName x ∧ (x ++ post).ch 0 ≠ '{' ∧ (x ++ post).ch 0 ≠ '}' := by
    simp only [List.mem_cons, List.not_mem_nil, or_false] at hx
    have tab : ∀ y ∈ [cs! "i", cs! "r", cs! "ri"], ∀ q ∈ keywordTable, q.1 ≠ y := by decide +kernel
    rcases hx with rfl | rfl | rfl
    · exact ⟨⟨'i', [], rfl, .inl (by decide), nofun, fun t ht => tab _ (by simp) _ ht rfl⟩, by show 'i' ≠ _; decide, by show 'i' ≠ _; decide⟩
    · exact ⟨⟨'r', [], rfl, .inl (by decide), nofun, fun t ht => tab _ (by simp) _ ht rfl⟩, by show 'r' ≠ _; decide, by show 'r' ≠ _; decide⟩
    · exact ⟨⟨'r', ['i'], rfl, .inl (by decide), by decide, fun t ht => tab _ (by simp) _ ht rfl⟩, by show 'r' ≠ _; decide, by show 'r' ≠ _; decide⟩
  obtain ⟨o, h1, h2, -, h3⟩ := C53_partial src c p ps f hv hk hp ⟨[], .name x⟩ post hr .nil ⟨h.1, hw, by decide⟩ h.2
  exact ⟨o, h1, h2.type, h2.lit, h3⟩

/-- Non-vacuity for `C53_division_false` and `C53_partial`: the lexer in front of `/` and of `b`. -/
example : ∃ c p ps f, Visits (cs! "\"#{a / b}\"") (c :: p :: ps) f ∧ c.kind = .base ∧ p.kind.isRegexp = false ∧
    c.rest = (cs! " / b}\"") := by
  have h : (visitN (cs! "\"#{a / b}\"") 3).any (fun r => match r.1 with
    | c :: p :: _ => decide (c.kind = .base ∧ p.kind.isRegexp = false ∧ c.rest = (cs! " / b}\""))
    | _ => false) = true := by decide +kernel
  obtain ⟨h1, h2⟩ := (Option.any_eq_true_iff_get _ _).1 h
  generalize hg : Option.get _ h1 = r at h2
  have hv := visitN_visits _ 3 r (by rw [← hg]; exact (Option.some_get _).symm)
  obtain ⟨st, f⟩ := r
  match st, h2, hv with
  | c :: p :: ps, h2, hv => exact ⟨c, p, ps, f, hv, of_decide_eq_true h2⟩

example : ∃ c p ps f, Visits (cs! "\"#{a + b}\"") (c :: p :: ps) f ∧ c.kind = .base ∧ p.kind.isRegexp = false ∧
    c.rest = Item.text ⟨cs! " ", .fixed (cs! "+") .Plus⟩ ++ (cs! " b}\"") ∧ c.remaining = 0 := by
  have h : (visitN (cs! "\"#{a + b}\"") 3).any (fun r => match r.1 with
    | c :: p :: _ => decide (c.kind = .base ∧ p.kind.isRegexp = false ∧
        c.rest = Item.text ⟨cs! " ", .fixed (cs! "+") .Plus⟩ ++ (cs! " b}\"") ∧ c.remaining = 0)
    | _ => false) = true := by decide +kernel
  obtain ⟨h1, h2⟩ := (Option.any_eq_true_iff_get _ _).1 h
  generalize hg : Option.get _ h1 = r at h2
  have hv := visitN_visits _ 3 r (by rw [← hg]; exact (Option.some_get _).symm)
  obtain ⟨st, f⟩ := r
  match st, h2, hv with
  | c :: p :: ps, h2, hv => exact ⟨c, p, ps, f, hv, of_decide_eq_true h2⟩

example : FitOne 0 .Invalid ⟨cs! " ", .fixed (cs! "+") .Plus⟩ (cs! " b}\"") :=
  .inr (.inl ⟨['='], by decide, rfl, by intro c r h; cases h; decide⟩)

/-- Non-vacuity for `C53_key_false`. -/
example : ∃ c p ps f, Visits (cs! "\"#{f(a: 1)}\"") (c :: p :: ps) f ∧ c.kind = .base ∧ p.kind.isRegexp = false ∧
    c.rest = [] ++ ((cs! "a") ++ ':' :: (cs! " 1)}\"")) := by
  have h : (visitN (cs! "\"#{f(a: 1)}\"") 4).any (fun r => match r.1 with
    | c :: p :: _ => decide (c.kind = .base ∧ p.kind.isRegexp = false ∧ c.rest = [] ++ ((cs! "a") ++ ':' :: (cs! " 1)}\"")))
    | _ => false) = true := by decide +kernel
  obtain ⟨h1, h2⟩ := (Option.any_eq_true_iff_get _ _).1 h
  generalize hg : Option.get _ h1 = r at h2
  have hv := visitN_visits _ 4 r (by rw [← hg]; exact (Option.some_get _).symm)
  obtain ⟨st, f⟩ := r
  match st, h2, hv with
  | c :: p :: ps, h2, hv => exact ⟨c, p, ps, f, hv, of_decide_eq_true h2⟩

/-- Non-vacuity for `C53_suffix_false`. -/
example : ∃ c p ps f, Visits (cs! "\"#{3ri}\"") (c :: p :: ps) f ∧ c.kind = .base ∧ p.kind.isRegexp = false ∧
    c.rest = (cs! "ri") ++ (cs! "}\"") := by
  have h : (visitN (cs! "\"#{3ri}\"") 3).any (fun r => match r.1 with
    | c :: p :: _ => decide (c.kind = .base ∧ p.kind.isRegexp = false ∧ c.rest = (cs! "ri") ++ (cs! "}\""))
    | _ => false) = true := by decide +kernel
  obtain ⟨h1, h2⟩ := (Option.any_eq_true_iff_get _ _).1 h
  generalize hg : Option.get _ h1 = r at h2
  have hv := visitN_visits _ 3 r (by rw [← hg]; exact (Option.some_get _).symm)
  obtain ⟨st, f⟩ := r
  match st, h2, hv with
  | c :: p :: ps, h2, hv => exact ⟨c, p, ps, f, hv, of_decide_eq_true h2⟩

/-- The parser reports a syntax error. -/
def refused (fuel : Nat) (src : Str) : Bool :=
  match runSource fuel src with
  | some (.err _) => true
  | _ => false

theorem refused_parses {fuel : Nat} {src : Str} (h : refused fuel src = true) : ∃ e, Parses src [] (.err e) := by
  unfold refused at h
  split at h
  · exact ⟨_, runSource_parses (by assumption)⟩
  · cases h

/-- C53 is false of the code: `6/2` and `f(a: 1)` are accepted, their interpolations are not; and the
interpolation of `a / b / c` has no division. -/
theorem C53_false :
    (refused 60 (cs! "6/2") = false ∧ ∃ e, Parses (cs! "\"#{6/2}\"") [] (.err e)) ∧
    (refused 60 (cs! "f(a: 1)") = false ∧ ∃ e, Parses (cs! "\"#{f(a: 1)}\"") [] (.err e)) ∧
    (tokensFuel 60 (cs! "a / b / c")).types = [.BareName, .Slash, .BareName, .Slash, .BareName, .Eof] ∧
    (tokensFuel 60 (cs! "\"#{a / b / c}\"")).types = [.InterpolatedStringBegin, .EvaluateToStringBegin, .BareName,
      .InterpolatedRegexpBegin, .String, .InterpolatedRegexpEnd, .BareName, .EvaluateToStringEnd, .InterpolatedStringEnd, .Eof] :=
  ⟨⟨by decide +kernel, refused_parses (fuel := 60) (by decide +kernel)⟩,
    ⟨by decide +kernel, refused_parses (fuel := 60) (by decide +kernel)⟩, by decide +kernel, by decide +kernel⟩

end NP
