import Verif.Proofs.HeredocText

/-! The tokens of heredocs. -/

namespace NP

open Spec

/-- `consume_heredoc` from the identifier on (src/lexer.cpp:1151-1200); see `Lx.heredoc`. -/
def Lx.hdTail (l : Lx) (dash dedent : Bool) (c : Char) (name : Str) : Out :=
  match l.heredocBegin with
  | none => { tok := l.tkLit .UnterminatedString (cs! "heredoc"), lx := l }
  | some start =>
    match heredocBody dash name [] (l.input.drop start) with
    | (none, _) => { tok := l.tkLit .UnterminatedString (l.input.drop start), lx := l }
    | (some doc, k) =>
      let doc := stripTrailingSpaces (doc.take (doc.length - name.length))
      let doc := if dedent then dedentHeredoc doc else doc
      let l := { l with heredocStack := (start + k) :: l.heredocStack }
      if c = '\'' then { tok := l.tkLit .String doc, lx := l }
      else
        let shell : Bool := c == '`'
        { tok := l.tk (if shell then .InterpolatedShellBegin else .InterpolatedStringBegin), lx := l,
          child := some { input := doc, cur := { index := 0, line := l.cur.line + 1, col := 0 },
                          kind := .istr .InProgress
                            (if shell then .InterpolatedShellEnd else .InterpolatedStringEnd) false } }

/-- `consume_heredoc` from the quote of the identifier on. -/
def Lx.hdName (l : Lx) (dash dedent : Bool) : Out :=
  let r : Option Str × Nat := if (l.ch 0 == '"' || l.ch 0 == '`' || l.ch 0 == '\'') = true then
      ((heredocQuotedName (l.ch 0) (l.rest.drop 1)).1, (heredocQuotedName (l.ch 0) (l.rest.drop 1)).2 + 1)
    else (some (consumeWord l.rest).1, (consumeWord l.rest).2)
  match r.1 with
  | none => { tok := (l.adv r.2).tkLit .UnterminatedString (cs! "heredoc identifier"), lx := l.adv r.2 }
  | some name => (l.adv r.2).hdTail dash dedent (l.ch 0) name

theorem heredoc_form (m : Lx) : m.heredoc =
    (if (m.ch 0 == '-' || m.ch 0 == '~') = true then m.adv 1 else m).hdName (m.ch 0 == '-' || m.ch 0 == '~')
      (m.ch 0 == '~') := by
  unfold Lx.heredoc Lx.hdName Lx.hdTail
  rfl

theorem heredocQuotedName_spec (q : Char) (id post : Str) (hn : ∀ c ∈ id, c ≠ q ∧ c ≠ '\n' ∧ c ≠ '\r' ∧ c ≠ NUL) :
    heredocQuotedName q (id ++ q :: post) = (some id, id.length + 1) := by
  induction id with
  | nil => simp [heredocQuotedName]
  | cons c id ih =>
    obtain ⟨h1, h2, h3, h4⟩ := hn c List.mem_cons_self
    rw [List.cons_append, heredocQuotedName, if_neg h1, if_neg (by simp [h2, h3, h4]),
      ih fun d hd => hn d (List.mem_cons_of_mem _ hd)]
    rfl

theorem consumeWord_name (c : Char) (id post : Str) (hn : ∀ b ∈ id, nameByte b = true) (hp : NameEnds post) :
    consumeWord (c :: (id ++ post)) = (c :: id, id.length + 1) := by
  have h0 : post.takeWhile isIdent = [] := by
    cases post with
    | nil => rfl
    | cons b r =>
      have := hp b r rfl
      rw [nameByte_eq] at this
      rw [List.takeWhile_cons, this]
      rfl
  have : (id ++ post).takeWhile isIdent = id := by
    rw [List.takeWhile_append_of_pos (fun b hb => by rw [← nameByte_eq]; exact hn b hb), h0, List.append_nil]
  show ((c :: (id ++ post)).ch 0 :: (id ++ post).takeWhile isIdent, ((id ++ post).takeWhile isIdent).length + 1) = _
  rw [this]
  rfl

/-- The sign of a heredoc: is an indented terminator allowed, is the text dedented. -/
def dashOf (sign : Str) : Bool := sign ≠ []
def tildeOf (sign : Str) : Bool := sign = ['~']

/-- Behind the `<<` of an opener. -/
theorem heredoc_opener (m : Lx) (sign : Str) (q : Char) (id text post : Str) (h : Opener sign q id ('<' :: '<' :: text))
    (hr : m.rest = text ++ post) (hp : q = ' ' → NameEnds post) :
    ∃ c, (c = '\'' ↔ q = '\'') ∧ (c == '`') = (q == '`') ∧
      m.heredoc = (m.adv text.length).hdTail (dashOf sign) (tildeOf sign) c id := by
  generalize ht : '<' :: '<' :: text = t at h
  have key : ∀ (r : Str) (c : Char) (w : Str), sign ∈ [[], ['-'], ['~']] → text = sign ++ r → r = c :: w →
      c ≠ '-' ∧ c ≠ '~' →
      (if (c == '"' || c == '`' || c == '\'') = true then
        ((heredocQuotedName c (w ++ post)).1, (heredocQuotedName c (w ++ post)).2 + 1)
        else (some (consumeWord (c :: (w ++ post))).1, (consumeWord (c :: (w ++ post))).2)) = (some id, r.length) →
      m.heredoc = (m.adv text.length).hdTail (dashOf sign) (tildeOf sign) c id := by
    rintro r c w hs rfl rfl ⟨hc1, hc2⟩ he
    simp only [List.mem_cons, List.not_mem_nil, or_false] at hs
    rcases hs with rfl | rfl | rfl
    · have h0 : m.ch 0 = c := by unfold Lx.ch; rw [hr]; rfl
      have hrest : m.rest = c :: (w ++ post) := by rw [hr]; rfl
      have hd : (m.ch 0 == '-' || m.ch 0 == '~') = false := by rw [h0]; simp [hc1, hc2]
      have hd2 : (m.ch 0 == '~') = false := by rw [h0]; simp [hc2]
      rw [heredoc_form, hd, hd2, if_neg (by simp)]
      unfold Lx.hdName
      rw [h0, hrest]
      simp only [List.drop_succ_cons, List.drop_zero, he]
      rfl
    · have h0 : m.ch 0 = '-' := by unfold Lx.ch; rw [hr]; rfl
      have hrest : (m.adv 1).rest = c :: (w ++ post) := by rw [Lx.adv_rest, hr]; rfl
      have h1 : (m.adv 1).ch 0 = c := by unfold Lx.ch; rw [hrest]; rfl
      have hd : (m.ch 0 == '-' || m.ch 0 == '~') = true := by rw [h0]; decide
      have hd2 : (m.ch 0 == '~') = false := by rw [h0]; decide
      rw [heredoc_form, hd, hd2, if_pos rfl]
      unfold Lx.hdName
      rw [h1, hrest]
      simp only [List.drop_succ_cons, List.drop_zero, he, Lx.adv_adv]
      rw [show (['-'] ++ c :: w).length = 1 + (c :: w).length by simp; omega]
      rfl
    · have h0 : m.ch 0 = '~' := by unfold Lx.ch; rw [hr]; rfl
      have hrest : (m.adv 1).rest = c :: (w ++ post) := by rw [Lx.adv_rest, hr]; rfl
      have h1 : (m.adv 1).ch 0 = c := by unfold Lx.ch; rw [hrest]; rfl
      have hd : (m.ch 0 == '-' || m.ch 0 == '~') = true := by rw [h0]; decide
      have hd2 : (m.ch 0 == '~') = true := by rw [h0]; decide
      rw [heredoc_form, hd, hd2, if_pos rfl]
      unfold Lx.hdName
      rw [h1, hrest]
      simp only [List.drop_succ_cons, List.drop_zero, he, Lx.adv_adv]
      rw [show (['~'] ++ c :: w).length = 1 + (c :: w).length by simp; omega]
      rfl
  cases h with
  | quoted q id hs hq hn =>
    refine ⟨q, Iff.rfl, rfl, key (q :: id ++ [q]) q (id ++ [q]) hs ?_ rfl ?_ ?_⟩
    · simpa using ht
    · simp only [List.mem_cons, List.not_mem_nil, or_false] at hq
      rcases hq with rfl | rfl | rfl <;> decide
    · rw [if_pos, show id ++ [q] ++ post = id ++ q :: post by simp, heredocQuotedName_spec q id post hn]
      · simp
      · simp only [List.mem_cons, List.not_mem_nil, or_false] at hq
        rcases hq with rfl | rfl | rfl <;> decide
  | bare c id hs hc hn =>
    have hq : c ≠ '\'' ∧ c ≠ '"' ∧ c ≠ '`' ∧ c ≠ '-' ∧ c ≠ '~' := by
      refine ⟨?_, ?_, ?_, ?_, ?_⟩ <;> (rintro rfl; revert hc; decide)
    refine ⟨c, by simp [hq.1], by simp [hq.2.2.1], key (c :: id) c id hs ?_ rfl ⟨hq.2.2.2.1, hq.2.2.2.2⟩ ?_⟩
    · simpa using ht
    · rw [if_neg (by simp [hq]), consumeWord_name c id post hn (hp rfl)]
      rfl

/-- Where heredocs without a sign are recognised: behind white space, at the beginning of a line, and behind these. -/
def heredocAfter : List Ttype := [.Invalid, .Newline, .Equal, .LBracket, .LParen]

theorem dispatch_less (l : Lx) (h : l.ch 0 = '<') : l.dispatch = .ok l.lexLess := by
  unfold Lx.dispatch
  rw [h]
  rfl

theorem opener_start {sign : Str} {q : Char} {id text : Str} (h : Opener sign q id text) :
    ∃ c w, text = '<' :: '<' :: sign ++ c :: w ∧ Lx.heredocStart c = true ∧ sign ∈ [[], ['-'], ['~']] ∧ c ≠ '~' ∧
      c ≠ '-' ∧ c ≠ '=' := by
  cases h with
  | quoted q id hs hq hn =>
    refine ⟨q, id ++ [q], by simp, ?_, hs, ?_⟩
    · simp only [List.mem_cons, List.not_mem_nil, or_false] at hq
      rcases hq with rfl | rfl | rfl <;> decide
    · simp only [List.mem_cons, List.not_mem_nil, or_false] at hq
      rcases hq with rfl | rfl | rfl <;> decide
  | bare c id hs hc hn =>
    refine ⟨c, id, by simp, ?_, hs, ?_, ?_, ?_⟩
    · unfold Lx.heredocStart
      rcases hc with hc | rfl
      · have : isAlpha c = true := by simpa [letter, isAlpha, between, char_le] using hc
        simp [this]
      · decide
    all_goals (rintro rfl; revert hc; decide)

theorem lexLess_opener (l : Lx) (sign : Str) (q : Char) (id text post : Str) (h : Opener sign q id text)
    (hr : l.rest = text ++ post) (hctx : l.ws = true ∨ sign ≠ [] ∨ l.lastType ∈ heredocAfter) :
    l.lexLess = (l.adv 2).heredoc := by
  obtain ⟨c, w, rfl, hc, hs, h1, h2, h3⟩ := opener_start h
  have hch : ∀ k x, (('<' :: '<' :: sign ++ c :: w) ++ post).ch k = x → l.ch k = x := by
    intro k x hx; unfold Lx.ch; rw [hr]; exact hx
  unfold Lx.lexLess
  rw [if_pos (hch 1 '<' rfl)]
  simp only [List.mem_cons, List.not_mem_nil, or_false] at hs
  rcases hs with rfl | rfl | rfl
  · have e : l.ch 2 = c := hch 2 c rfl
    rw [if_neg (by rw [e]; simp [h1, h2]), if_neg (by rw [e]; exact h3)]
    cases hw : l.ws with
    | true => rw [if_neg (by simp), if_pos (by rw [e]; exact hc)]
    | false =>
      rw [if_pos (by simp)]
      rcases hctx with h | h | h
      · rw [hw] at h; cases h
      · exact absurd rfl h
      · simp only [heredocAfter, List.mem_cons, List.not_mem_nil, or_false] at h
        have hf : l.firstOnLine = true ∨ l.lastType.canPrecedeHeredoc = true := by
          unfold Lx.firstOnLine
          rcases h with h | h | h | h | h <;> rw [h] <;> decide
        rcases hf with hf | hf
        · rw [if_pos hf]
        · rw [if_pos hf, ite_self]
  · rw [if_pos (by right; exact hch 2 '-' rfl), if_pos (by rw [hch 3 c rfl]; exact hc)]
  · rw [if_pos (by left; exact hch 2 '~' rfl), if_pos (by rw [hch 3 c rfl]; exact hc)]

/-- Where the text of a heredoc begins: on the next line, or behind the last heredoc of this line. -/
inductive BodyAt (l : Lx) (post body : Str) : Prop where
  | nextLine (tail : Str) (h : l.heredocStack = []) (ht : '\n' ∉ tail) (hp : post = tail ++ '\n' :: body) : BodyAt l post body
  | behind (k : Nat) (r : List Nat) (h : l.heredocStack = k :: r) (hk : l.input.drop k = body) : BodyAt l post body

theorem lineLen_spec (t b : Str) (h : '\n' ∉ t) : lineLen (t ++ '\n' :: b) = some (t.length + 1) := by
  induction t with
  | nil => rfl
  | cons c t ih =>
    have hc : c ≠ '\n' := by rintro rfl; simp at h
    rw [List.cons_append, lineLen, if_neg hc, ih (fun h' => h (List.mem_cons_of_mem _ h'))]
    rfl

theorem BodyAt.begin {l m : Lx} {post body : Str} (h : BodyAt l post body) (hh : m.heredocStack = l.heredocStack)
    (hi : m.input = l.input) (hr : m.rest = post) :
    ∃ start, m.heredocBegin = some start ∧ m.input.drop start = body ∧
      (∀ t b, l.heredocStack = [] → '\n' ∉ t → post = t ++ '\n' :: b → m.cur.index + t.length < start) ∧
      ∀ k ∈ l.heredocStack.head?, k ≤ start := by
  cases h with
  | nextLine tail h ht hp =>
    subst hp
    refine ⟨m.cur.index + (tail.length + 1), ?_, ?_, ?_, by rw [h]; nofun⟩
    · unfold Lx.heredocBegin
      rw [hh, h, hr]
      simp only [lineLen_spec tail body ht]
      rfl
    · rw [← List.drop_drop, show m.input.drop m.cur.index = m.rest from rfl, hr,
        show tail ++ '\n' :: body = (tail ++ ['\n']) ++ body by simp, List.drop_left' (by simp)]
    · intro t b _ ht' hp'
      have e1 := lineLen_spec tail body ht
      rw [hp', lineLen_spec t b ht'] at e1
      have := Option.some.inj e1
      omega
  | behind k r h hk =>
    refine ⟨k, ?_, by rw [hi]; exact hk, ?_, ?_⟩
    rotate_left
    · intro t b h0; rw [h] at h0; cases h0
    · rw [h]; intro j hj; cases hj; exact Nat.le_refl _
    unfold Lx.heredocBegin
    rw [hh, h]

/-- The value of a heredoc. -/
def heredocValue (sign : Str) (ls : List Str) : Str :=
  if tildeOf sign then dedentHeredoc (joinLines ls) else joinLines ls

/-- What is left to do behind the identifier. -/
theorem hdTail_lines (l m : Lx) (sign : Str) (c : Char) (id post z t after : Str) (n : Nat) (ls : List Str)
    (hid : '\n' ∉ id) (hz : ∃ sp, z = sp ++ id ∧ (∀ b ∈ sp, b = ' ') ∧ (sign = [] → sp = []))
    (hl : ∀ x ∈ ls, '\n' ∉ x ∧ ¬Closes (dashOf sign) id x) (ht : LineEnd t after n)
    (hb : BodyAt l post (joinLines ls ++ (z ++ t))) (hh : m.heredocStack = l.heredocStack)
    (hi : m.input = l.input) (hr : m.rest = post) :
    ∃ k, m.input.drop k = after ∧
      (∀ t b, l.heredocStack = [] → '\n' ∉ t → post = t ++ '\n' :: b → m.cur.index + t.length < k) ∧
      (∀ j ∈ l.heredocStack.head?, j ≤ k) ∧
    m.hdTail (dashOf sign) (tildeOf sign) c id =
      (let l := { m with heredocStack := k :: m.heredocStack }
      if c = '\'' then { tok := l.tkLit .String (heredocValue sign ls), lx := l }
      else
        let shell : Bool := c == '`'
        { tok := l.tk (if shell then .InterpolatedShellBegin else .InterpolatedStringBegin), lx := l,
          child := some { input := heredocValue sign ls, cur := { index := 0, line := l.cur.line + 1, col := 0 },
                          kind := .istr .InProgress
                            (if shell then .InterpolatedShellEnd else .InterpolatedStringEnd) false } }) := by
  obtain ⟨start, h1, h2, h3, h4⟩ := hb.begin hh hi hr
  obtain ⟨sp, rfl, hsp, hsp0⟩ := hz
  have hzn : '\n' ∉ sp ++ id := by
    intro h
    rcases List.mem_append.1 h with h | h
    · exact absurd (hsp _ h) (by decide)
    · exact hid h
  have hcl : Closes (dashOf sign) id (sp ++ id) := by
    rcases List.eq_nil_or_concat sp with rfl | ⟨q, w, rfl⟩
    · exact .inl rfl
    · rw [List.concat_eq_append] at *
      refine .inr ⟨?_, q, w, ?_, by simp⟩
      · unfold dashOf
        simp only [ne_eq, decide_eq_true_eq]
        intro h0
        simpa using hsp0 h0
      · rw [hsp w (by simp)]; rfl
  have hbody := heredocBody_lines (dashOf sign) id (sp ++ id) t after n hid hzn hcl ht ls hl []
  rw [joinLines_nil, List.nil_append, ← h2] at hbody
  refine ⟨start + ((joinLines ls).length + (sp ++ id).length + n), ?_, ?_, ?_, ?_⟩
  · rw [← List.drop_drop, h2]
    cases ht with
    | newline =>
      rw [show joinLines ls ++ (sp ++ id ++ '\n' :: after) = (joinLines ls ++ (sp ++ id) ++ ['\n']) ++ after by simp]
      exact List.drop_left' (by simp; omega)
    | input => exact List.drop_eq_nil_of_le (by simp)
  · intro t b e1 e2 e3; have := h3 t b e1 e2 e3; omega
  · intro j hj; have := h4 j hj; omega
  · unfold Lx.hdTail
    rw [h1]
    simp only
    rw [hbody]
    simp only
    have htake : (joinLines ls ++ (sp ++ id)).take ((joinLines ls ++ (sp ++ id)).length - id.length) =
        joinLines ls ++ sp := by
      rw [← List.append_assoc]
      exact List.take_left' (by simp; omega)
    rw [htake, strip_spaces _ sp hsp (joinLines_end ls)]
    rfl

/-- `l'` is the object `l` after `n` further bytes with one more heredoc, whose terminator line ends at `k`. -/
def OpensAt (l l' : Lx) (n k : Nat) : Prop :=
  Continues l { l' with heredocStack := l.heredocStack } n ∧ l'.heredocStack = k :: l.heredocStack

/-- An object that does not move its parent is removed. -/
theorem Emits.finished' {d p : Lx} {ps : List Lx} (t : Ttype) (hb : d.start.build = .ok { tok := d.start.tkCur .Eof, lx := d.start })
    (ha : d.alters = false) : Emits (d :: setLast t (p :: ps)) [] (setLast t (p :: ps)) := by
  have h2 := Emits.pop (p := p) (ps := ps) t (step_of_build d _ hb) rfl
  have e2 : (Lx.post d.start Ttype.Eof).alters = false := by
    rw [← ha]; unfold Lx.alters; rw [Lx.post_kind, Lx.start_kind]
  change Emits _ _ (setLast t (p.sync (Lx.post d.start Ttype.Eof) :: ps)) at h2
  unfold Lx.sync at h2
  rwa [if_neg (by rw [e2]; simp)] at h2

/-- The object of an interpolating heredoc. -/
theorem heredoc_child (c p : Lx) (ps : List Lx) (e : Ttype) (hk : c.kind = .istr .InProgress e false)
    (he : plainType e = true) (bs : Str) (h : Content NUL NUL c.rest bs []) (h1 : c.startChar = NUL)
    (h2 : c.stopChar = NUL) (h3 : c.pairDepth = 0) :
    ∃ ts, ts.map Token.key = [(.String, some bs), (e, none)] ∧ Emits (c :: p :: ps) ts (setLast e (p :: ps)) := by
  have hnb : c.kind ≠ .base := by rw [hk]; simp
  have hs := nested_start c hnb
  have hrest : c.start.rest = c.rest := by rw [hs]; rfl
  obtain ⟨f', g1, g2⟩ := interpLoop_content h (c.start.rest.length + 1) 0 [] 0 (by rw [hrest]; simp)
  have hloop : interpLoop c.start.startChar c.start.stopChar (c.start.rest.length + 1) c.start.pairDepth [] 0
      c.start.rest = .eos bs 0 c.rest.length := by
    rw [Lx.start_startChar, Lx.start_stopChar, Lx.start_pairDepth, h1, h2, h3]
    rw [List.append_nil] at g2
    rw [hrest] at g2 ⊢
    rw [g2]
    obtain ⟨f, rfl⟩ : ∃ f, f' = f + 1 := ⟨f' - 1, by simp at g1; omega⟩
    rw [interpLoop]
    simp [List.ch_nil]
  have hbuild : c.start.build = c.start.istrConsume e false := by
    unfold Lx.build
    rw [Lx.start_kind, hk]
    rfl
  generalize hl1 : ({ c.start.adv c.rest.length with pairDepth := 0 } : Lx) = l1
  have hcons : c.start.istrConsume e false =
      .ok { tok := l1.tkLit .String bs, lx := { l1.adv 1 with kind := .istr .EndToken e false } } := by
    unfold Lx.istrConsume
    rw [hloop]
    simp only
    rw [if_pos (show (c.start.adv c.rest.length).stopChar = NUL by rw [Lx.adv_stopChar, Lx.start_stopChar, h2]), ← hl1]
  have e1 := Emits.child (c := c) (P := p :: ps) (by simp) _ (hbuild.trans hcons) rfl
    (show plainType .String = true from rfl)
  change Emits _ [l1.tkLit .String bs] (Lx.post { l1.adv 1 with kind := .istr .EndToken e false } .String ::
    setLast .String (p :: ps)) at e1
  generalize hd : Lx.post { l1.adv 1 with kind := .istr .EndToken e false } .String = d at e1
  have dk : d.kind = .istr .EndToken e false := by rw [← hd]; simp
  have hdb : d.start.build = .ok (d.start.istrFinish e false) := by
    unfold Lx.build
    rw [Lx.start_kind, dk]
    rfl
  have e2 := Emits.child (c := d) (setLast_ne .String (p :: ps) (by simp)) _ hdb rfl (show plainType e = true from he)
  rw [show (d.start.istrFinish e false).tok.type = e from rfl, setLast_setLast] at e2
  generalize hd' : ((d.start.istrFinish e false).lx.post e) = d' at e2
  have dk' : d'.kind = .istr .Done e false := by rw [← hd']; simp [Lx.istrFinish]
  have e3 := Emits.finished' (d := d') (p := p) (ps := ps) e (by
    unfold Lx.build
    rw [Lx.start_kind, dk']
    rfl) (by unfold Lx.alters; rw [dk'])
  exact ⟨[l1.tkLit .String bs, (d.start.istrFinish e false).tok], rfl, e1.trans (e2.trans e3)⟩

/-- A heredoc, with all that follows from its text. -/
theorem heredoc_emits (l : Lx) (ps : List Lx) (hk : l.kind = .base) (hst : l.stopChar = NUL ∨ l.stopChar = '}')
    (hsc : l.startChar ≠ '<') (pre sign : Str) (q : Char) (id op post z t after : Str) (n : Nat) (ls : List Str)
    (hr : l.rest = pre ++ (op ++ post)) (hb : Spec.Blank pre) (ho : Opener sign q id op) (hp : q = ' ' → NameEnds post)
    (hctx : pre ≠ [] ∨ sign ≠ [] ∨ l.lastType ∈ heredocAfter) (hbody : BodyAt l post (joinLines ls ++ (z ++ t)))
    (hl : ∀ x ∈ ls, '\n' ∉ x ∧ ¬Closes (dashOf sign) id x) (ht : LineEnd t after n)
    (hz : ∃ sp, z = sp ++ id ∧ (∀ b ∈ sp, b = ' ') ∧ (sign = [] → sp = []))
    (bs : Str) (hv : q = '\'' ∧ bs = heredocValue sign ls ∨ q ≠ '\'' ∧ Content NUL NUL (heredocValue sign ls) bs []) :
    ∃ ts l' k, ts.map Token.key = (if q = '\'' then [(.String, some bs)]
        else if q = '`' then [(.InterpolatedShellBegin, none), (.String, some bs), (.InterpolatedShellEnd, none)]
        else [(.InterpolatedStringBegin, none), (.String, some bs), (.InterpolatedStringEnd, none)]) ∧
      Emits (l :: ps) ts (setLast ((ts.map (·.type)).getLastD .Invalid) (l' :: ps)) ∧
      OpensAt l l' (pre.length + op.length) k ∧ l.input.drop k = after ∧
      (∀ t b, l.heredocStack = [] → '\n' ∉ t → post = t ++ '\n' :: b → l'.cur.index + t.length < k) ∧
      ∀ j ∈ l.heredocStack.head?, j ≤ k := by
  obtain ⟨c0, w0, hop, -⟩ := opener_start ho
  obtain ⟨text, rfl⟩ : ∃ text, op = '<' :: '<' :: text := ⟨sign ++ c0 :: w0, by rw [hop]; simp⟩
  have hid : '\n' ∉ id := by
    cases ho with
    | quoted _ _ hs hq hn => exact fun h => (hn _ h).2.1 rfl
    | bare c id hs hc hn =>
      intro h
      rcases List.mem_cons.1 h with h | h
      · subst h; revert hc; decide
      · exact absurd (hn _ h) (by decide)
  obtain ⟨h1, h2, h3, h4⟩ := base_start' l hk hst '<' hsc pre _ hr hb rfl (by decide)
  have hws : l.start.ws = true ∨ sign ≠ [] ∨ l.start.lastType ∈ heredocAfter := by
    rcases hctx with h | h | h
    · left
      show (l.skipped != 0) = true
      rw [h3]
      simpa using h
    · exact .inr (.inl h)
    · exact .inr (.inr h)
  rw [dispatch_less _ h4, lexLess_opener l.start sign q id _ post ho h2 hws] at h1
  obtain ⟨c, hc1, hc2, hc3⟩ := heredoc_opener (l.start.adv 2) sign q id text post ho (by rw [Lx.adv_rest, h2]; rfl) hp
  rw [hc3, Lx.adv_adv] at h1
  generalize hm : l.start.adv (2 + text.length) = m at h1
  have mh : m.heredocStack = l.heredocStack := by rw [← hm]; rfl
  have mi : m.input = l.input := by rw [← hm]; rfl
  have mr : m.rest = post := by
    rw [← hm, Lx.adv_rest, h2, show '<' :: '<' :: text ++ post = ('<' :: '<' :: text) ++ post by simp]
    exact List.drop_left' (by simp; omega)
  obtain ⟨k, k1, k2, k3, k4⟩ := hdTail_lines l m sign c id post z t after n ls hid hz hl ht hbody mh mi mr
  rw [k4] at h1
  have hcont : ∀ lt, OpensAt l (Lx.post { m with heredocStack := k :: m.heredocStack } lt)
      (pre.length + ('<' :: '<' :: text).length) k := by
    intro lt
    refine ⟨?_, by simp [mh]⟩
    constructor
    · simp [mi]
    · show Lx.cur _ = _
      simp only [Lx.post_cur]
      rw [← hm, Cursor.nextN_add l.input pre.length, ← h3, show ('<' :: '<' :: text).length = 2 + text.length by simp; omega]
      rfl
    all_goals first | rfl | (rw [← hm]; simp)
  have hidx : ∀ lt, (Lx.post { m with heredocStack := k :: m.heredocStack } lt).cur.index = m.cur.index := by
    intro lt; simp
  by_cases hq : q = '\''
  · rw [if_pos hq]
    have hc' : c = '\'' := hc1.2 hq
    simp only [if_pos hc'] at h1
    obtain ⟨-, rfl⟩ | ⟨h, -⟩ := hv
    · refine ⟨[_], _, k, ?_, Emits.one (next_step l ps _ (step_of_build l _ h1) (fun h => by cases h)) rfl, hcont _, by rw [← mi]; exact k1, ?_, k3⟩
      · rfl
      · intro t b e1 e2 e3
        rw [hidx]
        exact k2 t b e1 e2 e3
    · exact absurd hq h
  · rw [if_neg hq]
    have hc' : ¬c = '\'' := fun h => hq (hc1.1 h)
    simp only [if_neg hc', hc2] at h1
    obtain ⟨h, -⟩ | ⟨-, hv⟩ := hv
    · exact absurd h hq
    have key : ∀ (bt e : Ttype) (child : Lx), plainType bt = true → plainType e = true →
        child.kind = .istr .InProgress e false → child.rest = heredocValue sign ls → child.startChar = NUL →
        child.stopChar = NUL → child.pairDepth = 0 →
        l.start.build = .ok (Out.mk (Lx.tk { m with heredocStack := k :: m.heredocStack } bt)
          { m with heredocStack := k :: m.heredocStack } (some child)) →
        ∃ ts l' k, ts.map Token.key = [(bt, none), (.String, some bs), (e, none)] ∧
          Emits (l :: ps) ts (setLast ((ts.map (·.type)).getLastD .Invalid) (l' :: ps)) ∧
          OpensAt l l' (pre.length + ('<' :: '<' :: text).length) k ∧ l.input.drop k = after ∧
          (∀ t b, l.heredocStack = [] → '\n' ∉ t → post = t ++ '\n' :: b → l'.cur.index + t.length < k) ∧
          ∀ j ∈ l.heredocStack.head?, j ≤ k := by
      intro bt e child hbt he ck cr c1 c2 c3 hb'
      have e1 := Emits.one (next_step l ps _ (step_of_build l _ hb') (plain_facts hbt).2.2.2.1) hbt
      change Emits (l :: ps) [Lx.tk { m with heredocStack := k :: m.heredocStack } bt]
        (setLast bt (child :: Lx.post { m with heredocStack := k :: m.heredocStack } bt :: ps)) at e1
      rw [setLast_cons _ _ _ (by simp)] at e1
      obtain ⟨lt, qs, f1, f2⟩ := setLast_head bt (Lx.post { m with heredocStack := k :: m.heredocStack } bt) ps
      obtain ⟨ts, g1, g2⟩ := heredoc_child child { (Lx.post { m with heredocStack := k :: m.heredocStack } bt) with lastType := lt } qs e ck he bs (by rw [cr]; exact hv) c1 c2 c3
      rw [← f1, setLast_setLast] at g2
      refine ⟨Lx.tk { m with heredocStack := k :: m.heredocStack } bt :: ts, Lx.post { m with heredocStack := k :: m.heredocStack } bt, k, ?_, ?_, hcont _, by rw [← mi]; exact k1, ?_, k3⟩
      · rw [List.map_cons, g1]; rfl
      · have : ((Lx.tk { m with heredocStack := k :: m.heredocStack } bt :: ts).map (·.type)).getLastD .Invalid = e := by
          obtain ⟨a, b, rfl⟩ : ∃ a b, ts = [a, b] := by
            rcases ts with _ | ⟨a, _ | ⟨b, _ | ⟨d, ts⟩⟩⟩
            · simp at g1
            · simp at g1
            · exact ⟨a, b, rfl⟩
            · simp at g1
          simp only [List.map_cons, List.map_nil, List.cons.injEq, and_true] at g1
          exact congrArg Prod.fst g1.2
        rw [this]
        exact e1.trans g2
      · intro t b e1 e2 e3
        rw [hidx]
        exact k2 t b e1 e2 e3
    by_cases hsh : q = '`'
    · rw [if_pos hsh]
      have hb' : (q == '`') = true := by simp [hsh]
      simp only [hb', if_true] at h1
      exact key _ _ _ rfl rfl rfl rfl rfl rfl rfl h1
    · rw [if_neg hsh]
      have hb' : (q == '`') = false := by simp [hsh]
      simp only [hb', Bool.false_eq_true, if_false] at h1
      exact key _ _ _ rfl rfl rfl rfl rfl rfl rfl h1

end NP
