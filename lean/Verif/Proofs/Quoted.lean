import Verif.Proofs.Emit
import Verif.Proofs.Escape

/-! Literals with their own lexer object. -/

namespace NP

open Spec

/-- What an object of another class than `Lexer` starts a step with. -/
theorem nested_start (c : Lx) (hk : c.kind ≠ .base) :
    c.start = { c with ws := false, tokenLine := c.cur.line, tokenCol := c.cur.col } := by
  have hs : c.skipped = 0 := by
    unfold Lx.skipped
    split
    · rename_i h; exact absurd h hk
    · rfl
  unfold Lx.start
  rw [hs]
  rfl

/-- The parent of an object that has finished. -/
theorem sync_cur (p c : Lx) (ha : c.alters = true) : p.sync c = { p with cur := c.cur } := by
  unfold Lx.sync; rw [if_pos ha]

theorem step_of_build (c : Lx) (o : Out) (h : c.start.build = .ok o) :
    c.step = .ok { o with lx := o.lx.post o.tok.type } := by
  unfold Lx.step; rw [h]

/-- A child token: the object stays on top of the stack. -/
theorem Emits.child {c : Lx} {P : List Lx} (hP : P ≠ []) (o : Out) (h : c.start.build = .ok o)
    (hc : o.child = none) (hp : plainType o.tok.type = true) :
    Emits (c :: P) [o.tok] (o.lx.post o.tok.type :: setLast o.tok.type P) := by
  have h1 := next_step c P _ (step_of_build c o h) (plain_facts hp).2.2.2.1
  have := Emits.one h1 hp
  simp only [hc, Option.toList_none, List.nil_append] at this
  rwa [setLast_cons _ _ _ hP] at this

/-- An object that has finished is removed, its parent goes on at the same place. -/
theorem Emits.finished {d p : Lx} {ps : List Lx} (t : Ttype) (hnb : d.kind ≠ .base)
    (hb : d.start.build = .ok { tok := d.start.tkCur .Eof, lx := d.start }) (ha : d.alters = true) :
    Emits (d :: setLast t (p :: ps)) [] (setLast t ({ p with cur := d.cur } :: ps)) := by
  have h2 := Emits.pop (p := p) (ps := ps) t (step_of_build d _ hb) rfl
  have hs := nested_start d hnb
  have e1 : (Lx.post d.start Ttype.Eof).cur = d.cur := by rw [Lx.post_cur, hs]
  have e2 : (Lx.post d.start Ttype.Eof).alters = true := by
    rw [← ha]; unfold Lx.alters; rw [Lx.post_kind, Lx.start_kind]
  change Emits _ _ (setLast t (p.sync (Lx.post d.start Ttype.Eof) :: ps)) at h2
  rw [sync_cur _ _ e2, e1] at h2
  exact h2

theorem istr_done (d : Lx) (e : Ttype) (dk : d.kind = .istr .Done e true) :
    d.kind ≠ .base ∧ d.start.build = .ok { tok := d.start.tkCur .Eof, lx := d.start } ∧ d.alters = true := by
  refine ⟨by rw [dk]; simp, ?_, by unfold Lx.alters; rw [dk]⟩
  unfold Lx.build
  rw [Lx.start_kind, dk]
  rfl

/-- The end of a string object. -/
theorem istr_end (c p : Lx) (ps : List Lx) (e u : Ttype) (hk : c.kind = .istr .EndToken e true)
    (he : plainType e = true) :
    ∃ t, t.key = (e, none) ∧
      Emits (c :: setLast u (p :: ps)) [t] (setLast e ({ p with cur := c.cur } :: ps)) := by
  have hnb : c.kind ≠ .base := by rw [hk]; simp
  have hs := nested_start c hnb
  have hb : c.start.build = .ok (c.start.istrFinish e true) := by
    unfold Lx.build
    rw [Lx.start_kind, hk]
    rfl
  refine ⟨c.start.tkCur e, rfl, ?_⟩
  have h1 := Emits.child (setLast_ne u (p :: ps) (by simp)) _ hb rfl (show plainType e = true from he)
  rw [setLast_setLast] at h1
  change Emits _ [c.start.tkCur e] _ at h1
  generalize hd : ((c.start.istrFinish e true).lx.post (c.start.istrFinish e true).tok.type) = d at h1
  have dk : d.kind = .istr .Done e true := by rw [← hd]; simp [Lx.istrFinish]
  have dc : d.cur = c.cur := by rw [← hd, hs]; simp [Lx.istrFinish]
  obtain ⟨d1, d2, d3⟩ := istr_done d e dk
  have h2 := h1.trans (Emits.finished (p := p) (ps := ps) e d1 d2 d3)
  rw [dc] at h2
  exact h2

/-- A string object in front of a content and its closing delimiter. -/
theorem istr_content (c p : Lx) (ps : List Lx) (e : Ttype) (hk : c.kind = .istr .InProgress e true)
    (he : plainType e = true) (text bs post : Str) (hr : c.rest = text ++ c.stopChar :: post)
    (h : Content c.startChar c.stopChar text bs (c.stopChar :: post)) (hd : c.pairDepth = 0)
    (hstop : c.stopChar ≠ NUL) (hstop2 : c.startChar ≠ c.stopChar)
    (hhash : c.stopChar = '#' → post.head? ≠ some '{') :
    ∃ ts, ts.map Token.key = (if bs = [] then [] else [(.String, some bs)]) ++ [(e, none)] ∧
      Emits (c :: p :: ps) ts
        (setLast e ({ p with cur := c.cur.nextN c.input (text.length + 1) } :: ps)) := by
  have hnb : c.kind ≠ .base := by rw [hk]; simp
  have hs := nested_start c hnb
  have hrest : c.start.rest = text ++ c.stopChar :: post := by rw [hs]; exact hr
  -- the loop
  obtain ⟨f', g1, g2⟩ := interpLoop_content h (c.start.rest.length + 1) 0 [] 0 (by rw [hrest]; simp)
  have hloop : interpLoop c.start.startChar c.start.stopChar (c.start.rest.length + 1) c.start.pairDepth [] 0
      c.start.rest = .stop bs 0 (text.length + 1) := by
    rw [Lx.start_startChar, Lx.start_stopChar, Lx.start_pairDepth, hd]
    rw [hrest] at g2 ⊢
    rw [g2]
    obtain ⟨f, rfl⟩ : ∃ f, f' = f + 1 := ⟨f' - 1, by omega⟩
    rw [interpLoop]
    have e0 : List.ch (c.stopChar :: post) 0 = c.stopChar := rfl
    simp only [e0]
    rw [if_neg hstop, if_neg (fun h => h.2 h.1), if_neg, if_neg (fun h => hstop2 h.1.symm), if_pos trivial]
    · simp
    · rintro ⟨h1, h2⟩
      apply hhash h1
      obtain ⟨r, hr⟩ := List.ch_zero_cons post '{' h2 (by decide)
      rw [hr]; rfl
  have hbuild : c.start.build = c.start.istrConsume e true := by
    unfold Lx.build
    rw [Lx.start_kind, hk]
    rfl
  generalize hl1 : ({ c.start.adv (text.length + 1) with pairDepth := 0 } : Lx) = l1
  have l1cur : l1.cur = c.cur.nextN c.input (text.length + 1) := by
    rw [← hl1, hs]; rfl
  have hcons : c.start.istrConsume e true = if bs = [] then .ok (l1.istrFinish e true)
      else .ok { tok := l1.tkLit .String bs, lx := { l1 with kind := .istr .EndToken e true } } := by
    unfold Lx.istrConsume
    rw [hloop]
    rw [← hl1]
  by_cases hbs : bs = []
  · rw [if_pos hbs] at hcons ⊢
    refine ⟨[l1.tkCur e], rfl, ?_⟩
    have h1 := Emits.child (c := c) (P := p :: ps) (by simp) _ (hbuild.trans hcons) rfl (show plainType e = true from he)
    change Emits _ [l1.tkCur e] _ at h1
    generalize hdd : ((l1.istrFinish e true).lx.post (l1.istrFinish e true).tok.type) = d at h1
    have dk : d.kind = .istr .Done e true := by rw [← hdd]; simp [Lx.istrFinish]
    have dc : d.cur = l1.cur := by rw [← hdd]; simp [Lx.istrFinish]
    obtain ⟨d1, d2, d3⟩ := istr_done d e dk
    have h2 := h1.trans (Emits.finished (p := p) (ps := ps) e d1 d2 d3)
    rw [dc, l1cur] at h2
    exact h2
  · rw [if_neg hbs] at hcons ⊢
    have h1 := Emits.child (c := c) (P := p :: ps) (by simp) _ (hbuild.trans hcons) rfl
      (show plainType .String = true from rfl)
    obtain ⟨t, ht, h2⟩ := istr_end (Lx.post { l1 with kind := .istr .EndToken e true } .String) p ps e .String
      (by simp) he
    refine ⟨[l1.tkLit .String bs, t], ?_, ?_⟩
    · simp only [List.map_cons, List.map_nil, ht]; rfl
    · have h3 := h1.trans h2
      rw [show (Lx.post { l1 with kind := .istr .EndToken e true } .String).cur = l1.cur by simp, l1cur] at h3
      exact h3

/-- `l'` is the object `l` after `n` further bytes, apart from its memory of the last token and of method names. -/
structure Continues (l l' : Lx) (n : Nat) : Prop where
  input : l'.input = l.input
  cur : l'.cur = l.cur.nextN l.input n
  kind : l'.kind = l.kind
  stop : l'.stopChar = l.stopChar
  start : l'.startChar = l.startChar
  depth : l'.pairDepth = l.pairDepth
  heredocs : l'.heredocStack = l.heredocStack
  ternary : l'.openTernary = l.openTernary

theorem Continues.rest {l l' : Lx} {n : Nat} (h : Continues l l' n) : l'.rest = l.rest.drop n := by
  unfold Lx.rest
  rw [h.input, h.cur, Cursor.nextN_index, List.drop_drop]

theorem NoBlank.of_head (s : Str) (c : Char) (h : s.ch 0 = c) (hc : c ≠ ' ' ∧ c ≠ '\t' ∧ c ≠ '\\' ) : NoBlank s := by
  intro b r hb he
  subst h
  cases hb with
  | nil => rfl
  | space b _ => subst he; exact absurd rfl hc.1
  | tab b _ => subst he; exact absurd rfl hc.2.1
  | line b _ => subst he; exact absurd rfl hc.2.2

/-- `base_start` for a text with a given first byte. -/
theorem base_start' (l : Lx) (hk : l.kind = .base) (hst : l.stopChar = NUL ∨ l.stopChar = '}') (c : Char)
    (hsc : l.startChar ≠ c) (pre s : Str) (hr : l.rest = pre ++ s) (hb : Blank pre) (h0 : s.ch 0 = c)
    (hc : c ≠ ' ' ∧ c ≠ '\t' ∧ c ≠ '\\' ∧ c ≠ '\xEF' ∧ c ≠ '}' ∧ c ≠ NUL) :
    l.start.build = l.start.dispatch ∧ l.start.rest = s ∧ l.skipped = pre.length ∧ l.start.ch 0 = c := by
  obtain ⟨h1, h2, h3⟩ := base_start l hk hst pre s hr hb (NoBlank.of_head _ c h0 ⟨hc.1, hc.2.1, hc.2.2.1⟩)
    (by rintro rfl; exact hc.2.2.2.2.2 h0.symm) (by rw [h0]; exact hc.2.2.2.1) (by rw [h0]; exact hc.2.2.2.2.1)
    (by rw [h0]; exact .inr hsc.symm)
  exact ⟨h1, h2, h3, by unfold Lx.ch; rw [h2]; exact h0⟩

/-- A literal with its own string object, in a plain lexer. -/
theorem quoted_emits (l : Lx) (ps : List Lx) (k n : Nat) (start stop : Char) (b e : Ttype)
    (hsk : l.skipped = k)
    (hb : l.start.build = .ok (l.start.doubleQuoted n start stop b e)) (hbt : plainType b = true)
    (he : plainType e = true) (text bs post : Str) (hr : l.start.rest.drop n = text ++ stop :: post)
    (h : Content (if start = stop then NUL else start) stop text bs (stop :: post)) (hd : l.pairDepth = 0)
    (hstop : stop ≠ NUL) (hhash : stop = '#' → post.head? ≠ some '{') :
    ∃ ts l', ts.map Token.key = (b, some [start]) :: (if bs = [] then [] else [(.String, some bs)]) ++ [(e, none)] ∧
      Emits (l :: ps) ts (setLast e (l' :: ps)) ∧ Continues l l' (k + n + (text.length + 1)) := by
  generalize hs0 : (if start = stop then NUL else start) = s0 at h
  have hs1 : s0 ≠ stop := by
    rw [← hs0]; split_ifs with hc
    · exact hstop.symm
    · exact hc
  have hstep := step_of_build l _ hb
  have h1 := Emits.one (next_step l ps _ hstep (plain_facts hbt).2.2.2.1) hbt
  -- the object of the literal and this one
  generalize hc : ({ l.start.adv n with startChar := s0, stopChar := stop, kind := .istr .InProgress e true } : Lx) = c
  generalize hp : (l.start.adv n).post b = p
  have h1' : Emits (l :: ps) [l.start.tkLit b [start]] (c :: setLast b (p :: ps)) := by
    rw [← setLast_cons _ _ _ (by simp), ← hc, ← hp, ← hs0]
    exact h1
  obtain ⟨lt, qs, e1, e2⟩ := setLast_head b p ps
  rw [e1] at h1'
  have pk : c.rest = text ++ c.stopChar :: post := by
    rw [← hc]
    show (l.start.adv n).rest = _
    rw [Lx.adv_rest]
    exact hr
  have ck : c.kind = .istr .InProgress e true := by rw [← hc]
  have cd : c.pairDepth = 0 := by rw [← hc]; exact hd
  have cst : c.stopChar = stop := by rw [← hc]
  have css : c.startChar = s0 := by rw [← hc]
  obtain ⟨ts, t1, t2⟩ := istr_content c { p with lastType := lt } qs e ck he text bs post pk
    (by rw [cst, css]; exact h) cd (by rw [cst]; exact hstop) (by rw [cst, css]; exact hs1) (by rw [cst]; exact hhash)
  have h3 := h1'.trans t2
  refine ⟨l.start.tkLit b [start] :: ts, { p with cur := c.cur.nextN c.input (text.length + 1) }, ?_, ?_, ?_⟩
  · rw [List.map_cons, t1]; rfl
  · have e3 := e2 { p with cur := c.cur.nextN c.input (text.length + 1) } rfl
    have : setLast e (setLast b ({ p with cur := c.cur.nextN c.input (text.length + 1) } :: ps)) =
        setLast e ({ p with cur := c.cur.nextN c.input (text.length + 1) } :: ps) := setLast_setLast _ _ _
    rw [← this, e3]
    exact h3
  · have ccur : c.cur = (l.cur.nextN l.input k).nextN l.input n := by
      rw [← hc, ← hsk]; rfl
    have cin : c.input = l.input := by rw [← hc]; rfl
    constructor
    · rw [← hp]; simp
    · show c.cur.nextN c.input _ = _
      rw [ccur, cin, Cursor.nextN_add l.input (k + n), Cursor.nextN_add l.input k n]
    all_goals (rw [← hp]; simp)

/-- A literal that is all of a source but for blanks. -/
theorem Emits.source {pre lit tail : Str} {ts : List Token} {e : Ttype} {l' : Lx} {n : Nat}
    (h : Emits [Lx.init (pre ++ (lit ++ tail))] ts (setLast e [l']))
    (hc : Continues (Lx.init (pre ++ (lit ++ tail))) l' n) (hn : n = pre.length + lit.length) (ht : Blank tail) :
    ∃ e, Lexes (pre ++ (lit ++ tail)) (ts ++ [e]) ∧ e.type = .Eof := by
  obtain ⟨e, he, hl⟩ := h.lexes hc.kind (by
    show Blank l'.rest
    rw [hc.rest]
    show Blank (List.drop _ (pre ++ (lit ++ tail)))
    rw [← List.append_assoc, List.drop_left' (by rw [hn]; simp)]
    exact ht)
  exact ⟨e, hl, he⟩

theorem Content.append {start stop : Char} {t b t' b' post : Str} (h : Content start stop t b (t' ++ post))
    (h' : Content start stop t' b' post) : Content start stop (t ++ t') (b ++ b') post := by
  generalize hp : t' ++ post = q at h
  induction h with
  | nil q => exact h'
  | plain c t bs q h0 h1 h2 h3 h4 ht ih =>
    subst hp
    refine .plain c _ _ _ h0 h1 h2 h3 ?_ (ih rfl)
    show c = '#' → (t ++ t' ++ post).head? ≠ _
    rw [List.append_assoc]; exact h4
  | escape e bs t bs' q hs he ht ih =>
    subst hp
    rw [List.append_assoc, List.append_assoc]
    refine .escape e bs _ _ _ hs ?_ (ih rfl)
    rw [List.append_assoc]; exact he
  | pair t bs t2 bs2 q h hne h1 h2 h3 ht ht' _ ih =>
    subst hp
    have := Content.pair t bs (t2 ++ t') (bs2 ++ b') post h hne h1 h2 h3 (by
      rw [List.cons_append, List.append_assoc]; exact ht) (ih rfl)
    simpa using this

theorem valueOf_hex_lt (ds : Str) (h : ∀ c ∈ ds, isHex c = true) : valueOf 16 ds < 16 ^ ds.length := by
  induction ds with
  | nil => simp [valueOf]
  | cons c ds ih =>
    have h1 := ih (fun d hd => h d (List.mem_cons_of_mem _ hd))
    have h2 : digitOf c < 16 := by
      have := ascii_forall (p := fun c => !isHex c || decide (digitOf c < 16)) (by decide +kernel) c
        (isHex_ascii c (h c List.mem_cons_self))
      simpa [h c List.mem_cons_self] using this
    rw [valueOf, List.length_cons, pow_succ]
    have : digitOf c * 16 ^ ds.length ≤ 15 * 16 ^ ds.length := Nat.mul_le_mul_right _ (by omega)
    omega

theorem Spec.Utf8.exists (n : Nat) (h : n < 0x200000) : ∃ bs, Utf8 n bs := by
  obtain ⟨bs, -, hb⟩ := utf8Encode_spec n h
  exact ⟨bs, hb⟩

theorem Spec.Utf8.nonempty {n : Nat} {bs : Str} (h : Utf8 n bs) : bs ≠ [] := by
  generalize n = m at h
  cases h <;> simp

/-! ### Literals without interpolation -/

theorem sq_plain {start stop c : Char} {depth : Nat} {s : Str} (h0 : c ≠ NUL) (h1 : c ≠ '\\') (h2 : c ≠ start)
    (h3 : c ≠ stop) : singleQuoted start stop depth (c :: s) =
      ((singleQuoted start stop depth s).1.map (c :: ·), (singleQuoted start stop depth s).2 + 1) := by
  rw [singleQuoted.eq_def]
  simp only
  rw [if_neg h0, if_neg (fun h => h1 h.1), if_neg (fun h => h2 h.1), if_neg h3]

theorem sq_escape {start stop c : Char} {depth : Nat} {s : Str} (h : stop ≠ '\\') :
    singleQuoted start stop depth ('\\' :: c :: s) =
      if c = stop ∨ c = '\\' then
        ((singleQuoted start stop depth s).1.map (c :: ·), (singleQuoted start stop depth s).2 + 2)
      else ((singleQuoted start stop depth s).1.map ('\\' :: c :: ·), (singleQuoted start stop depth s).2 + 2) := by
  rw [singleQuoted.eq_def]
  simp only
  rw [if_neg (by decide), if_pos ⟨trivial, h⟩]

theorem sq_start {start stop : Char} {depth : Nat} {s : Str} (h0 : start ≠ NUL) (h1 : start ≠ '\\')
    (h2 : start ≠ stop) : singleQuoted start stop depth (start :: s) =
      ((singleQuoted start stop (depth + 1) s).1.map (start :: ·), (singleQuoted start stop (depth + 1) s).2 + 1) := by
  rw [singleQuoted.eq_def]
  simp only
  rw [if_neg h0, if_neg (fun h => h1 h.1), if_pos ⟨trivial, h2⟩]

theorem sq_stop_succ {start stop : Char} {depth : Nat} {s : Str} (h0 : stop ≠ NUL) :
    singleQuoted start stop (depth + 1) (stop :: s) =
      ((singleQuoted start stop depth s).1.map (stop :: ·), (singleQuoted start stop depth s).2 + 1) := by
  rw [singleQuoted.eq_def]
  simp only
  rw [if_neg h0, if_neg (fun h => h.2 h.1), if_neg (fun h => h.2 h.1.symm), if_pos trivial]

theorem sq_stop_zero {start stop : Char} {s : Str} (h0 : stop ≠ NUL) :
    singleQuoted start stop 0 (stop :: s) = (some [], 1) := by
  rw [singleQuoted.eq_def]
  simp only
  rw [if_neg h0, if_neg (fun h => h.2 h.1), if_neg (fun h => h.2 h.1.symm), if_pos trivial]

/-- The loop of `consume_single_quoted_string` over a content. -/
theorem singleQuoted_content {start stop : Char} {text bs : Str} (h : Single start stop text bs) :
    ∀ (depth : Nat) (post : Str), singleQuoted start stop depth (text ++ post) =
      ((singleQuoted start stop depth post).1.map (bs ++ ·), text.length + (singleQuoted start stop depth post).2) := by
  induction h with
  | nil => intro depth post; simp
  | plain c t bs h0 h1 h2 h3 ht ih =>
    intro depth post
    rw [List.cons_append, sq_plain h0 h1 h2 h3, ih]
    simp only [Option.map_map, List.length_cons]
    refine Prod.ext rfl ?_
    simp only; omega
  | escaped c t bs hs h ht ih =>
    intro depth post
    rw [List.cons_append, List.cons_append, sq_escape hs, if_pos h, ih]
    simp only [Option.map_map, List.length_cons]
    refine Prod.ext rfl ?_
    simp only; omega
  | backslash c t bs hs h ht ih =>
    intro depth post
    rw [List.cons_append, List.cons_append, sq_escape hs, if_neg (by rw [not_or]; exact h), ih]
    simp only [Option.map_map, List.length_cons]
    refine Prod.ext rfl ?_
    simp only; omega
  | pair t bs t' bs' h hne h1 h2 ht ht' ih ih' =>
    intro depth post
    have e1 : start :: t ++ stop :: t' ++ post = start :: (t ++ (stop :: (t' ++ post))) := by simp
    rw [e1, sq_start h h1 hne, ih, sq_stop_succ h2.1, ih']
    simp only [Option.map_map, List.length_cons, List.length_append]
    refine Prod.ext ?_ ?_
    · simp only
      congr 1
      funext x
      simp
    · simp only; omega

theorem singleQuoted_stop (start stop : Char) (text bs post : Str) (h : Single start stop text bs)
    (h0 : stop ≠ NUL) : singleQuoted start stop 0 (text ++ stop :: post) = (some bs, text.length + 1) := by
  rw [singleQuoted_content h, sq_stop_zero h0]
  simp

theorem single_quoteSingle (start stop : Char) (s : Str) (hs : NUL ∉ s) (hst : stop ≠ '\\')
    (hstart : start = stop ∨ start ∉ s) : Single start stop (quoteSingle stop s) s := by
  induction s with
  | nil => exact .nil
  | cons c s ih =>
    have ih := ih (fun h => hs (List.mem_cons_of_mem _ h))
      (hstart.imp id (fun h1 h2 => h1 (List.mem_cons_of_mem _ h2)))
    have h0 : c ≠ NUL := fun h => hs (h ▸ List.mem_cons_self)
    unfold quoteSingle
    split_ifs with hc
    · exact .escaped c _ _ hst hc.symm ih
    · rw [not_or] at hc
      refine .plain c _ _ h0 hc.1 ?_ hc.2 ih
      rcases hstart with h | h
      · rw [h]; exact hc.2
      · exact fun he => h (he ▸ List.mem_cons_self)

/-- A token with a literal and no nested lexer, in a plain lexer. -/
theorem one_emits (l : Lx) (ps : List Lx) (k n : Nat) (t : Token) (hsk : l.skipped = k)
    (hb : l.start.build = .ok { tok := t, lx := l.start.adv n }) (hp : plainType t.type = true) :
    ∃ l', Emits (l :: ps) [t] (setLast t.type (l' :: ps)) ∧ Continues l l' (k + n) := by
  have h1 := Emits.one (next_step l ps _ (step_of_build l _ hb) (plain_facts hp).2.2.2.1) hp
  refine ⟨(l.start.adv n).post t.type, h1, ?_⟩
  constructor
  · simp
  · rw [Lx.post_cur, Cursor.nextN_add l.input k n, ← hsk]; rfl
  all_goals simp

/-! ### `%` literals -/

theorem delims_facts {a b : Char} (h : Delims a b) : a ≠ NUL ∧ b ≠ NUL ∧ (a = b ∨ a ≠ '\\' ∧ b ≠ '\\' ∧ a ≠ '#' ∧ b ≠ '#') := by
  cases h with
  | same c h => refine ⟨?_, ?_, .inl rfl⟩ <;> (rintro rfl; exact absurd h (by decide))
  | _ => decide

theorem percentString_delims (l : Lx) (n : Nat) (k : Lx.PKind) (a b : Char) (hr : l.remaining = 0)
    (ha : l.ch (n - 1) = a) (h : Delims a b) : l.percentString n k = l.percentConsumer n k a b := by
  unfold Lx.percentString
  rw [if_neg (by omega)]
  simp only
  rw [ha]
  cases h with
  | same c h =>
    simp only [List.mem_cons, List.not_mem_nil, or_false] at h
    rcases h with h | h | h | h | h | h | h | h | h | h | h | h | h | h | h | h | h | h | h | h | h | h | h | h | h <;>
      (subst h; rfl)
  | _ => rfl

end NP
