import Verif.Proofs.Quoted

/-!
C15 to C18, C38: quoted literals. `Emits (l :: ps) ts (setLast e (l' :: ps))`: the lexer object `l` inside `ps` produces
the tokens `ts` and goes on as `l'`; `Continues l l' n`: `l'` is `n` bytes further.
-/

namespace NP

open Spec

theorem dispatch_quote (l : Lx) (h : l.ch 0 = '"') :
    l.dispatch = .ok (l.doubleQuoted 1 '"' '"' .InterpolatedStringBegin .InterpolatedStringEnd) := by
  unfold Lx.dispatch; rw [h]; rfl

/-- A double-quoted string at program level or in an interpolation. -/
theorem double_quoted (l : Lx) (ps : List Lx) (hk : l.kind = .base) (hst : l.stopChar = NUL ∨ l.stopChar = '}')
    (hsc : l.startChar ≠ '"') (hd : l.pairDepth = 0) (pre text bs post : Str)
    (hr : l.rest = pre ++ ('"' :: text ++ '"' :: post)) (hb : Blank pre) (h : Content NUL '"' text bs ('"' :: post)) :
    ∃ ts l', ts.map Token.key = (.InterpolatedStringBegin, some ['"']) ::
        (if bs = [] then [] else [(.String, some bs)]) ++ [(.InterpolatedStringEnd, none)] ∧
      Emits (l :: ps) ts (setLast .InterpolatedStringEnd (l' :: ps)) ∧
      Continues l l' (pre.length + (text.length + 2)) := by
  obtain ⟨h1, h2, h3, h4⟩ := base_start' l hk hst '"' hsc pre _ hr hb rfl (by decide)
  rw [dispatch_quote _ h4] at h1
  obtain ⟨ts, l', t1, t2, t3⟩ := quoted_emits l ps pre.length 1 '"' '"' _ _ h3 h1 rfl rfl text bs post
    (by rw [h2]; rfl) h hd (by decide) (by intro h; exact absurd h (by decide))
  exact ⟨ts, l', t1, t2, by rwa [show pre.length + (text.length + 2) = pre.length + 1 + (text.length + 1) by omega]⟩

theorem content_quoteDouble (s : Str) (hs : NUL ∉ s) (post : Str) : Content NUL '"' (quoteDouble s) s ('"' :: post) := by
  induction s with
  | nil => exact .nil _
  | cons c s ih =>
    have ih := ih (fun h => hs (List.mem_cons_of_mem _ h))
    have h0 : c ≠ NUL := fun h => hs (h ▸ List.mem_cons_self)
    unfold quoteDouble
    split_ifs with hc
    · refine Content.escape [c] [c] _ _ _ (by decide) (.itself _ _ ?_) ih
      rcases hc with rfl | rfl | rfl <;> decide
    · simp only [not_or] at hc
      exact Content.plain c _ _ _ h0 hc.1 h0 hc.2.1 (fun h => absurd h hc.2.2) ih

/-! ### C16 -/

/-- C16: a double-quoted string, with backslash, quote and `#` escaped, yields exactly the bytes it was made from. -/
theorem C16_double_quoted (l : Lx) (ps : List Lx) (hk : l.kind = .base) (hst : l.stopChar = NUL ∨ l.stopChar = '}')
    (hsc : l.startChar ≠ '"') (hd : l.pairDepth = 0) (pre s post : Str)
    (hr : l.rest = pre ++ ('"' :: quoteDouble s ++ '"' :: post)) (hb : Blank pre) (hs : NUL ∉ s) :
    ∃ ts l', ts.map Token.key = (.InterpolatedStringBegin, some ['"']) ::
        (if s = [] then [] else [(.String, some s)]) ++ [(.InterpolatedStringEnd, none)] ∧
      Emits (l :: ps) ts (setLast .InterpolatedStringEnd (l' :: ps)) ∧
      Continues l l' (pre.length + ((quoteDouble s).length + 2)) :=
  double_quoted l ps hk hst hsc hd pre _ s post hr hb (content_quoteDouble s hs post)

/-- C16 for a whole source. -/
theorem C16_source (s pre tail : Str) (hs : NUL ∉ s) (hb : Blank pre) (ht : Blank tail) :
    ∃ ts e, Lexes (pre ++ ('"' :: quoteDouble s ++ '"' :: tail)) (ts ++ [e]) ∧ e.type = .Eof ∧
      ts.map Token.key = (.InterpolatedStringBegin, some ['"']) ::
        (if s = [] then [] else [(.String, some s)]) ++ [(.InterpolatedStringEnd, none)] := by
  obtain ⟨ts, l', h1, h2, h3⟩ := C16_double_quoted (Lx.init (pre ++ ('"' :: quoteDouble s ++ '"' :: tail))) [] rfl
    (.inl rfl) (show NUL ≠ '"' by decide) rfl pre s tail rfl hb hs
  have e1 : pre ++ ('"' :: quoteDouble s ++ '"' :: tail) = pre ++ (('"' :: quoteDouble s ++ ['"']) ++ tail) := by simp
  rw [e1] at h2 h3 ⊢
  obtain ⟨e, hl, he⟩ := h2.source h3 (by simp) ht
  exact ⟨ts, e, hl, he, h1⟩

/-- Non-vacuity for C16. -/
example : NUL ∉ cs! "a\"b\\#{c}\n" ∧ quoteDouble (cs! "a\"b\\#{c}\n") = cs! "a\\\"b\\\\\\#{c}\n" ∧
    (tokensFuel 20 ('"' :: quoteDouble (cs! "a\"b\\#{c}\n") ++ cs! "\"")).lits =
      [(.InterpolatedStringBegin, some (cs! "\"")), (.String, some (cs! "a\"b\\#{c}\n")), (.InterpolatedStringEnd, none),
       (.Eof, none)] := by decide +kernel

/-! ### C17, C18, C38: escapes

`t` and `t'`: any contents before and behind the escape. -/

/-- An escape inside a double-quoted string appends the bytes it denotes, and nothing else is read for it. -/
theorem escape_in_string (l : Lx) (ps : List Lx) (hk : l.kind = .base) (hst : l.stopChar = NUL ∨ l.stopChar = '}')
    (hsc : l.startChar ≠ '"') (hd : l.pairDepth = 0) (pre t b e bs t' b' post : Str)
    (hr : l.rest = pre ++ ('"' :: (t ++ ('\\' :: e ++ t')) ++ '"' :: post)) (hb : Blank pre)
    (ht : Content NUL '"' t b ('\\' :: e ++ t' ++ '"' :: post)) (he : Escape e bs (t' ++ '"' :: post))
    (ht' : Content NUL '"' t' b' ('"' :: post)) :
    ∃ ts l', ts.map Token.key = (.InterpolatedStringBegin, some ['"']) ::
        (if b ++ (bs ++ b') = [] then [] else [(.String, some (b ++ (bs ++ b')))]) ++ [(.InterpolatedStringEnd, none)] ∧
      Emits (l :: ps) ts (setLast .InterpolatedStringEnd (l' :: ps)) ∧
      Continues l l' (pre.length + ((t ++ ('\\' :: e ++ t')).length + 2)) :=
  double_quoted l ps hk hst hsc hd pre _ _ post hr hb (Content.append ht (.escape e bs t' b' _ (by decide) he ht'))

/-- C17: `\uXXXX` appends the UTF-8 encoding of the code point. -/
theorem C17_unicode (l : Lx) (ps : List Lx) (hk : l.kind = .base) (hst : l.stopChar = NUL ∨ l.stopChar = '}')
    (hsc : l.startChar ≠ '"') (hd : l.pairDepth = 0) (pre t b ds t' b' post : Str)
    (hr : l.rest = pre ++ ('"' :: (t ++ ('\\' :: 'u' :: ds ++ t')) ++ '"' :: post)) (hb : Blank pre)
    (ht : Content NUL '"' t b ('\\' :: 'u' :: ds ++ t' ++ '"' :: post)) (ht' : Content NUL '"' t' b' ('"' :: post))
    (hds : ∀ c ∈ ds, isHex c = true) (hl : ds.length = 4) :
    ∃ ts l' bs, Utf8 (valueOf 16 ds) bs ∧
      ts.map Token.key = [(.InterpolatedStringBegin, some ['"']), (.String, some (b ++ (bs ++ b'))),
        (.InterpolatedStringEnd, none)] ∧
      Emits (l :: ps) ts (setLast .InterpolatedStringEnd (l' :: ps)) ∧
      Continues l l' (pre.length + ((t ++ ('\\' :: 'u' :: ds ++ t')).length + 2)) := by
  obtain ⟨bs, hbs⟩ := Utf8.exists (valueOf 16 ds) (by
    have := valueOf_hex_lt ds hds; rw [hl] at this; omega)
  obtain ⟨ts, l', h1, h2, h3⟩ := escape_in_string l ps hk hst hsc hd pre t b ('u' :: ds) bs t' b' post hr hb ht
    (.unicode ds bs _ hl hds hbs) ht'
  rw [if_neg (by simp [hbs.nonempty])] at h1
  exact ⟨ts, l', bs, hbs, h1, h2, h3⟩

/-- C17: `\u{...}` with one or more code points up to 10FFFF appends the encodings of all of them. -/
theorem C17_code_points (l : Lx) (ps : List Lx) (hk : l.kind = .base) (hst : l.stopChar = NUL ∨ l.stopChar = '}')
    (hsc : l.startChar ≠ '"') (hd : l.pairDepth = 0) (pre t b cps bs t' b' post : Str)
    (hr : l.rest = pre ++ ('"' :: (t ++ ('\\' :: 'u' :: '{' :: cps ++ t')) ++ '"' :: post)) (hb : Blank pre)
    (ht : Content NUL '"' t b ('\\' :: 'u' :: '{' :: cps ++ t' ++ '"' :: post))
    (ht' : Content NUL '"' t' b' ('"' :: post)) (hc : CodePoints cps bs) :
    ∃ ts l', ts.map Token.key = [(.InterpolatedStringBegin, some ['"']), (.String, some (b ++ (bs ++ b'))),
        (.InterpolatedStringEnd, none)] ∧
      Emits (l :: ps) ts (setLast .InterpolatedStringEnd (l' :: ps)) ∧
      Continues l l' (pre.length + ((t ++ ('\\' :: 'u' :: '{' :: cps ++ t')).length + 2)) := by
  obtain ⟨ts, l', h1, h2, h3⟩ := escape_in_string l ps hk hst hsc hd pre t b ('u' :: '{' :: cps) bs t' b' post hr hb ht
    (.codePoints cps bs _ hc) ht'
  have hne : bs ≠ [] := by
    cases hc with
    | last ds sp bs _ _ _ _ _ hb => exact hb.nonempty
    | cons ds sp bs t bs' _ _ _ _ _ _ hb _ => intro h; exact hb.nonempty (List.append_eq_nil_iff.1 h).1
  rw [if_neg (by simp [hne])] at h1
  exact ⟨ts, l', h1, h2, h3⟩

/-- Every code point has an encoding (so `C17_code_points` applies to all code points up to 10FFFF), and only one. -/
theorem C17_encoding (n : Nat) (h : n < 0x110000) : ∃! bs, Utf8 n bs := by
  obtain ⟨bs, hb⟩ := Utf8.exists n (by omega)
  exact ⟨bs, hb, fun _ h' => h'.unique hb⟩

/-- Non-vacuity for C17. -/
example : CodePoints (cs! "e9 1F600}") [byte 0xC3, byte 0xA9, byte 0xF0, byte 0x9F, byte 0x98, byte 0x80] :=
  .cons (cs! "e9") (cs! " ") [byte 0xC3, byte 0xA9] (cs! "1F600}") _ (by decide) (by decide) (by decide) (by decide)
    (by decide) (by decide) (.two 3 0x29 (by decide) (by decide) (by decide))
    (.last (cs! "1F600") [] _ (by decide) (by decide) (by decide) (by decide) (by decide)
      (.four 0 0x1F 0x18 0 (by decide) (by decide) (by decide) (by decide) (by decide)))

/-- C18: `\ooo` appends the byte with that octal number modulo 256, whatever follows. -/
theorem C18_octal (l : Lx) (ps : List Lx) (hk : l.kind = .base) (hst : l.stopChar = NUL ∨ l.stopChar = '}')
    (hsc : l.startChar ≠ '"') (hd : l.pairDepth = 0) (pre t b ds t' b' post : Str)
    (hr : l.rest = pre ++ ('"' :: (t ++ ('\\' :: ds ++ t')) ++ '"' :: post)) (hb : Blank pre)
    (ht : Content NUL '"' t b ('\\' :: ds ++ t' ++ '"' :: post)) (ht' : Content NUL '"' t' b' ('"' :: post))
    (hds : ∀ c ∈ ds, isOct c = true) (hne : ds ≠ []) (hl : ds.length ≤ 3)
    (hend : ds.length < 3 → ∀ c r, t' = c :: r → isOct c = false) :
    ∃ ts l', ts.map Token.key = [(.InterpolatedStringBegin, some ['"']),
        (.String, some (b ++ ([byte (valueOf 8 ds % 256)] ++ b'))), (.InterpolatedStringEnd, none)] ∧
      Emits (l :: ps) ts (setLast .InterpolatedStringEnd (l' :: ps)) ∧
      Continues l l' (pre.length + ((t ++ ('\\' :: ds ++ t')).length + 2)) := by
  obtain ⟨ts, l', h1, h2, h3⟩ := escape_in_string l ps hk hst hsc hd pre t b ds _ t' b' post hr hb ht
    (.octal ds _ hne hl hds (by
      intro h c r hc
      cases t' with
      | nil => cases hc; decide
      | cons x t' => cases hc; exact hend h _ _ rfl)) ht'
  rw [if_neg (by simp)] at h1
  exact ⟨ts, l', h1, h2, h3⟩

/-- C18: `\xHH` appends the byte with that hexadecimal number. -/
theorem C18_hex (l : Lx) (ps : List Lx) (hk : l.kind = .base) (hst : l.stopChar = NUL ∨ l.stopChar = '}')
    (hsc : l.startChar ≠ '"') (hd : l.pairDepth = 0) (pre t b ds t' b' post : Str)
    (hr : l.rest = pre ++ ('"' :: (t ++ ('\\' :: 'x' :: ds ++ t')) ++ '"' :: post)) (hb : Blank pre)
    (ht : Content NUL '"' t b ('\\' :: 'x' :: ds ++ t' ++ '"' :: post)) (ht' : Content NUL '"' t' b' ('"' :: post))
    (hds : ∀ c ∈ ds, isHex c = true) (hne : ds ≠ []) (hl : ds.length ≤ 2)
    (hend : ds.length < 2 → ∀ c r, t' = c :: r → isHex c = false) :
    ∃ ts l', ts.map Token.key = [(.InterpolatedStringBegin, some ['"']),
        (.String, some (b ++ ([byte (valueOf 16 ds)] ++ b'))), (.InterpolatedStringEnd, none)] ∧
      Emits (l :: ps) ts (setLast .InterpolatedStringEnd (l' :: ps)) ∧
      Continues l l' (pre.length + ((t ++ ('\\' :: 'x' :: ds ++ t')).length + 2)) := by
  obtain ⟨ts, l', h1, h2, h3⟩ := escape_in_string l ps hk hst hsc hd pre t b ('x' :: ds) _ t' b' post hr hb ht
    (.hex ds _ hne hl hds (by
      intro h c r hc
      cases t' with
      | nil => cases hc; decide
      | cons x t' => cases hc; exact hend h _ _ rfl)) ht'
  rw [if_neg (by simp)] at h1
  exact ⟨ts, l', h1, h2, h3⟩

/-- Non-vacuity for C17, C18, C38. -/
example : (tokensFuel 20 (cs! "\"\\u00e9\\u{41 1F600}\\1012\\x7g\\777\\C-a\\c?\\M-a\\M-\\C-a\"")).lits =
    [(.InterpolatedStringBegin, some (cs! "\"")),
     (.String, some [byte 0xC3, byte 0xA9, 'A', byte 0xF0, byte 0x9F, byte 0x98, byte 0x80, 'A', '2', byte 7, 'g',
       byte 255, byte 1, byte 127, byte 0xE1, byte 0x81]),
     (.InterpolatedStringEnd, none), (.Eof, none)] := by decide +kernel

/-- C38: control and meta escapes append the one byte they denote. -/
theorem C38_control_meta (l : Lx) (ps : List Lx) (hk : l.kind = .base) (hst : l.stopChar = NUL ∨ l.stopChar = '}')
    (hsc : l.startChar ≠ '"') (hd : l.pairDepth = 0) (pre t b e t' b' post : Str) (c : Char) (n : Nat)
    (hr : l.rest = pre ++ ('"' :: (t ++ ('\\' :: e ++ t')) ++ '"' :: post)) (hb : Blank pre)
    (ht : Content NUL '"' t b ('\\' :: e ++ t' ++ '"' :: post)) (ht' : Content NUL '"' t' b' ('"' :: post))
    (hc : ' ' ≤ c ∧ c ≤ '~') (hc1 : c ≠ '\\') (hc2 : c ≠ '-')
    (he : (e, n) ∈ [(['C', '-', c], controlOf c), (['c', c], controlOf c), (['M', '-', c], c.toNat + 128),
      (['M', '-', '\\', 'C', '-', c], controlOf c + 128), (['C', '-', '\\', 'M', '-', c], controlOf c + 128)]) :
    ∃ ts l', ts.map Token.key = [(.InterpolatedStringBegin, some ['"']), (.String, some (b ++ ([byte n] ++ b'))),
        (.InterpolatedStringEnd, none)] ∧
      Emits (l :: ps) ts (setLast .InterpolatedStringEnd (l' :: ps)) ∧
      Continues l l' (pre.length + ((t ++ ('\\' :: e ++ t')).length + 2)) := by
  have he' : ∀ post, Escape e [byte n] post := by
    intro post
    simp only [List.mem_cons, List.not_mem_nil, or_false, Prod.mk.injEq] at he
    rcases he with ⟨rfl, rfl⟩ | ⟨rfl, rfl⟩ | ⟨rfl, rfl⟩ | ⟨rfl, rfl⟩ | ⟨rfl, rfl⟩
    · exact .control c _ hc hc1
    · exact .control' c _ hc hc1 hc2
    · exact .meta_ c _ hc hc1
    · exact .metaControl c _ hc hc1
    · exact .controlMeta c _ hc hc1
  obtain ⟨ts, l', h1, h2, h3⟩ := escape_in_string l ps hk hst hsc hd pre t b e _ t' b' post hr hb ht (he' _) ht'
  rw [if_neg (by simp)] at h1
  exact ⟨ts, l', h1, h2, h3⟩

/-! ### C15 -/

theorem dispatch_single (l : Lx) (h : l.ch 0 = '\'') : l.dispatch = .ok (l.singleQuotedString 1 '\'' '\'') := by
  unfold Lx.dispatch; rw [h]; rfl

theorem dispatch_percent (l : Lx) (h : l.ch 0 = '%') : l.dispatch = .ok l.lexPercent := by
  unfold Lx.dispatch; rw [h]; rfl

theorem single_out (l : Lx) (n : Nat) (a b : Char) (text bs post : Str) (hr : l.rest.drop n = text ++ b :: post)
    (h : Single a b text bs) (hb : b ≠ NUL) (hp : post.head? ≠ some ':' ∨ l.openTernary = true) :
    l.singleQuotedString n a b = l.opLit (n + (text.length + 1)) .String bs := by
  unfold Lx.singleQuotedString
  rw [hr, singleQuoted_stop a b text bs post h hb]
  simp only
  rw [if_neg]
  rintro ⟨h1, h2⟩
  rcases hp with hp | hp
  · apply hp
    unfold Lx.ch at h1
    have e : l.rest.ch (n + (text.length + 1)) = post.ch 0 := by
      rw [show post = l.rest.drop (n + (text.length + 1)) by
        rw [← List.drop_drop, hr, show text ++ b :: post = (text ++ [b]) ++ post by simp, List.drop_left' (by simp)]]
      simp [List.ch]
    rw [e] at h1
    obtain ⟨r, hr⟩ := List.ch_zero_cons post ':' h1 (by decide)
    rw [hr]; rfl
  · rw [hp] at h2; simp at h2

theorem single_key_out (l : Lx) (n : Nat) (a b : Char) (text bs post : Str)
    (hr : l.rest.drop n = text ++ b :: ':' :: post) (h : Single a b text bs) (hb : b ≠ NUL)
    (hp : l.openTernary = false) :
    l.singleQuotedString n a b = l.opLit (n + (text.length + 1) + 1) .SymbolKey bs := by
  unfold Lx.singleQuotedString
  rw [hr, singleQuoted_stop a b text bs _ h hb]
  simp only
  rw [if_pos]
  refine ⟨?_, by rw [hp]; rfl⟩
  unfold Lx.ch
  have e : l.rest.ch (n + (text.length + 1)) = (':' :: post).ch 0 := by
    rw [show ':' :: post = l.rest.drop (n + (text.length + 1)) by
      rw [← List.drop_drop, hr, show text ++ b :: ':' :: post = (text ++ [b]) ++ ':' :: post by simp,
        List.drop_left' (by simp)]]
    simp [List.ch]
  rw [e]
  rfl

/-- C15, quoted keys: a single-quoted string with a `:` directly behind it is one key token with the content of the
string, outside of conditionals; the `:` belongs to the token. -/
theorem C15_key (l : Lx) (ps : List Lx) (hk : l.kind = .base) (hst : l.stopChar = NUL ∨ l.stopChar = '}')
    (hsc : l.startChar ≠ '\'') (pre s post : Str)
    (hr : l.rest = pre ++ ('\'' :: quoteSingle '\'' s ++ '\'' :: ':' :: post)) (hb : Blank pre) (hs : NUL ∉ s)
    (hp : l.openTernary = false) :
    ∃ t l', t.key = (.SymbolKey, some s) ∧ Emits (l :: ps) [t] (setLast .SymbolKey (l' :: ps)) ∧
      Continues l l' (pre.length + ((quoteSingle '\'' s).length + 3)) := by
  obtain ⟨h1, h2, h3, h4⟩ := base_start' l hk hst '\'' hsc pre _ hr hb rfl (by decide)
  rw [dispatch_single _ h4, single_key_out l.start 1 _ _ _ s post (by rw [h2]; rfl)
    (single_quoteSingle _ _ s hs (by decide) (.inl rfl)) (by decide) hp] at h1
  obtain ⟨l', e1, e2⟩ := one_emits l ps pre.length _ _ h3 h1 rfl
  exact ⟨_, l', rfl, e1, by rwa [show pre.length + ((quoteSingle '\'' s).length + 3) =
    pre.length + (1 + ((quoteSingle '\'' s).length + 1) + 1) by omega]⟩

/-- Non-vacuity of `C15_key`. -/
example : (tokensFuel 30 (cs! "{ 'a\\'b': 1 }")).lits =
    [(.LCurlyBrace, none), (.SymbolKey, some (cs! "a'b")), (.Fixnum, none), (.RCurlyBrace, none), (.Eof, none)] := by
  decide +kernel

/-- A single-quoted string at program level or in an interpolation. -/
theorem C15_content (l : Lx) (ps : List Lx) (hk : l.kind = .base) (hst : l.stopChar = NUL ∨ l.stopChar = '}')
    (hsc : l.startChar ≠ '\'') (pre text bs post : Str) (hr : l.rest = pre ++ ('\'' :: text ++ '\'' :: post))
    (hb : Blank pre) (h : Single '\'' '\'' text bs) (hp : post.head? ≠ some ':' ∨ l.openTernary = true) :
    ∃ t l', t.key = (.String, some bs) ∧ Emits (l :: ps) [t] (setLast .String (l' :: ps)) ∧
      Continues l l' (pre.length + (text.length + 2)) := by
  obtain ⟨h1, h2, h3, h4⟩ := base_start' l hk hst '\'' hsc pre _ hr hb rfl (by decide)
  rw [dispatch_single _ h4, single_out l.start 1 _ _ text bs post (by rw [h2]; rfl) h (by decide) hp] at h1
  obtain ⟨l', e1, e2⟩ := one_emits l ps pre.length _ _ h3 h1 rfl
  exact ⟨_, l', rfl, e1, by rwa [show pre.length + (text.length + 2) = pre.length + (1 + (text.length + 1)) by omega]⟩

/-- C15 for `'...'`: escaping backslashes and quotes gives back any text without NUL. -/
theorem C15_single_quoted (l : Lx) (ps : List Lx) (hk : l.kind = .base) (hst : l.stopChar = NUL ∨ l.stopChar = '}')
    (hsc : l.startChar ≠ '\'') (pre s post : Str) (hr : l.rest = pre ++ ('\'' :: quoteSingle '\'' s ++ '\'' :: post))
    (hb : Blank pre) (hs : NUL ∉ s) (hp : post.head? ≠ some ':' ∨ l.openTernary = true) :
    ∃ t l', t.key = (.String, some s) ∧ Emits (l :: ps) [t] (setLast .String (l' :: ps)) ∧
      Continues l l' (pre.length + ((quoteSingle '\'' s).length + 2)) :=
  C15_content l ps hk hst hsc pre _ s post hr hb (single_quoteSingle _ _ s hs (by decide) (.inl rfl)) hp

/-- C15 for `'...'` and a whole source. -/
theorem C15_source (s pre tail : Str) (hs : NUL ∉ s) (hb : Blank pre) (ht : Blank tail) :
    ∃ t e, Lexes (pre ++ ('\'' :: quoteSingle '\'' s ++ '\'' :: tail)) [t, e] ∧ t.key = (.String, some s) ∧
      e.type = .Eof := by
  obtain ⟨t, l', h1, h2, h3⟩ := C15_single_quoted (Lx.init (pre ++ ('\'' :: quoteSingle '\'' s ++ '\'' :: tail))) [] rfl
    (.inl rfl) (show NUL ≠ '\'' by decide) pre s tail rfl hb hs
    (.inl (by cases ht <;> simp))
  have e1 : pre ++ ('\'' :: quoteSingle '\'' s ++ '\'' :: tail) = pre ++ (('\'' :: quoteSingle '\'' s ++ ['\'']) ++ tail) := by
    simp
  rw [e1] at h2 h3 ⊢
  obtain ⟨e, hl, he⟩ := h2.source h3 (by simp) ht
  exact ⟨t, e, hl, h1, he⟩

/-- `%q` with any content: escapes of the closing delimiter and of backslashes, other escapes, pairs of delimiters. -/
theorem C15_percent_content (l : Lx) (ps : List Lx) (hk : l.kind = .base) (hst : l.stopChar = NUL ∨ l.stopChar = '}')
    (hsc : l.startChar ≠ '%') (hrem : l.remaining = 0) (a b : Char) (hab : Delims a b) (pre text bs post : Str)
    (hr : l.rest = pre ++ ('%' :: 'q' :: a :: text ++ b :: post)) (hb : Blank pre) (h : Single a b text bs)
    (hp : post.head? ≠ some ':' ∨ l.openTernary = true) :
    ∃ t l', t.key = (.String, some bs) ∧ Emits (l :: ps) [t] (setLast .String (l' :: ps)) ∧
      Continues l l' (pre.length + (text.length + 4)) := by
  obtain ⟨h1, h2, h3, h4⟩ := base_start' l hk hst '%' hsc pre _ hr hb rfl (by decide)
  have h5 : l.start.lexPercent = l.start.percentString 3 .q := by
    unfold Lx.lexPercent
    rw [show l.start.ch 1 = 'q' by unfold Lx.ch; rw [h2]; rfl]
    rfl
  have h6 := percentString_delims l.start 3 .q a b hrem (by unfold Lx.ch; rw [h2]; rfl) hab
  rw [dispatch_percent _ h4, h5, h6, Lx.percentConsumer,
    single_out l.start 3 _ _ text bs post (by rw [h2]; rfl) h (delims_facts hab).2.1 hp] at h1
  obtain ⟨l', e1, e2⟩ := one_emits l ps pre.length _ _ h3 h1 rfl
  exact ⟨_, l', rfl, e1, by rwa [show pre.length + (text.length + 4) = pre.length + (3 + (text.length + 1)) by omega]⟩

/-- C15 for `%q`. `_partial`: the text must not contain the opening delimiter of a pair (`C15_false`; it may stand there
unescaped in pairs, see `C15_percent_content`), and the delimiter must not be a backslash. -/
theorem C15_percent_q_partial (l : Lx) (ps : List Lx) (hk : l.kind = .base)
    (hst : l.stopChar = NUL ∨ l.stopChar = '}') (hsc : l.startChar ≠ '%') (hrem : l.remaining = 0) (a b : Char)
    (hab : Delims a b) (pre s post : Str) (hr : l.rest = pre ++ ('%' :: 'q' :: a :: quoteSingle b s ++ b :: post))
    (hb : Blank pre) (hs : NUL ∉ s) (hbs : b ≠ '\\') (ha : a = b ∨ a ∉ s)
    (hp : post.head? ≠ some ':' ∨ l.openTernary = true) :
    ∃ t l', t.key = (.String, some s) ∧ Emits (l :: ps) [t] (setLast .String (l' :: ps)) ∧
      Continues l l' (pre.length + ((quoteSingle b s).length + 4)) :=
  C15_percent_content l ps hk hst hsc hrem a b hab pre _ s post hr hb (single_quoteSingle a b s hs hbs ha) hp

/-- The full C15 is false: there is no way to write an opening delimiter alone in a `%q(...)` literal; escaped, it keeps
its backslash. -/
theorem C15_false : (tokensFuel 20 (cs! "%q(\\()")).lits = [(.String, some (cs! "\\(")), (.Eof, none)] := by
  decide +kernel

/-- Non-vacuity for C15. -/
example : Single '(' ')' (cs! "a(b\\)c)\\n") (cs! "a(b)c)\\n") :=
  .plain _ _ _ (by decide) (by decide) (by decide) (by decide)
    (.pair (cs! "b\\)c") (cs! "b)c") (cs! "\\n") _ (by decide) (by decide) (by decide) (by decide)
      (.plain _ _ _ (by decide) (by decide) (by decide) (by decide) (.escaped _ _ _ (by decide) (.inl rfl)
        (.plain _ _ _ (by decide) (by decide) (by decide) (by decide) .nil)))
      (.backslash _ _ _ (by decide) (by decide) .nil))

example : quoteSingle '\'' (cs! "it's \\ \\n") = cs! "it\\'s \\\\ \\\\n" ∧
    (tokensFuel 20 (cs! " 'it\\'s \\\\ \\\\n' ")).lits = [(.String, some (cs! "it's \\ \\n")), (.Eof, none)] ∧
    (tokensFuel 20 (cs! "%q(a(b\\)c)\\n)")).lits = [(.String, some (cs! "a(b)c)\\n")), (.Eof, none)] := by
  decide +kernel

/-! ### C39: the other literals with the same contents -/

/-- The letters of `%` literals with interpolation, with the types of their begin and end tokens. -/
def percentInterp : List (Str × Ttype × Ttype) := [
  ([], .InterpolatedStringBegin, .InterpolatedStringEnd), (['Q'], .InterpolatedStringBegin, .InterpolatedStringEnd),
  (['x'], .InterpolatedShellBegin, .InterpolatedShellEnd)]

theorem lexPercent_plain (l : Lx) (a b : Char) (h1 : l.ch 1 = a) (hab : Delims a b) (hqa : a ≠ '=') :
    l.lexPercent = l.percentString 2 .Q := by
  unfold Lx.lexPercent
  rw [h1]
  cases hab with
  | same c h =>
    simp only [List.mem_cons, List.not_mem_nil, or_false] at h
    rcases h with h | h | h | h | h | h | h | h | h | h | h | h | h | h | h | h | h | h | h | h | h | h | h | h | h <;>
      first | exact absurd h hqa | (subst h; rfl)
  | _ => rfl

/-- C39: `%(...)`, `%Q(...)` and `%x(...)` with any delimiters have the contents of double-quoted strings; pairs of
delimiters nest. -/
theorem C39_percent (l : Lx) (ps : List Lx) (hk : l.kind = .base) (hst : l.stopChar = NUL ∨ l.stopChar = '}')
    (hsc : l.startChar ≠ '%') (hd : l.pairDepth = 0) (hrem : l.remaining = 0) (q : Str) (tb te : Ttype)
    (hq : (q, tb, te) ∈ percentInterp) (a b : Char) (hab : Delims a b) (hqa : q = [] → a ≠ '=')
    (pre text bs post : Str) (hr : l.rest = pre ++ ('%' :: q ++ a :: text ++ b :: post)) (hb : Blank pre)
    (h : Content (if a = b then NUL else a) b text bs (b :: post)) (hh : b = '#' → post.head? ≠ some '{') :
    ∃ ts l', ts.map Token.key = (tb, some [a]) :: (if bs = [] then [] else [(.String, some bs)]) ++ [(te, none)] ∧
      Emits (l :: ps) ts (setLast te (l' :: ps)) ∧ Continues l l' (pre.length + (q.length + text.length + 3)) := by
  obtain ⟨h1, h2, h3, h4⟩ := base_start' l hk hst '%' hsc pre _ hr hb rfl (by decide)
  have key : l.start.lexPercent = l.start.doubleQuoted (q.length + 2) a b tb te ∧ plainType tb = true ∧
      plainType te = true ∧ l.start.rest.drop (q.length + 2) = text ++ b :: post := by
    simp only [percentInterp, List.mem_cons, List.not_mem_nil, or_false, Prod.mk.injEq] at hq
    rcases hq with ⟨rfl, rfl, rfl⟩ | ⟨rfl, rfl, rfl⟩ | ⟨rfl, rfl, rfl⟩
    · refine ⟨?_, rfl, rfl, by rw [h2]; rfl⟩
      have e1 : l.start.ch 1 = a := by unfold Lx.ch; rw [h2]; rfl
      have e2 := percentString_delims l.start 2 .Q a b hrem e1 hab
      have e3 := lexPercent_plain l.start a b e1 hab (hqa rfl)
      rw [e3, e2]; rfl
    · refine ⟨?_, rfl, rfl, by rw [h2]; rfl⟩
      have e2 := percentString_delims l.start 3 .Q a b hrem (by unfold Lx.ch; rw [h2]; rfl) hab
      have e3 : l.start.lexPercent = l.start.percentString 3 .Q := by
        unfold Lx.lexPercent
        rw [show l.start.ch 1 = 'Q' by unfold Lx.ch; rw [h2]; rfl]
        rfl
      rw [e3, e2]; rfl
    · refine ⟨?_, rfl, rfl, by rw [h2]; rfl⟩
      have e2 := percentString_delims l.start 3 .x a b hrem (by unfold Lx.ch; rw [h2]; rfl) hab
      have e3 : l.start.lexPercent = l.start.percentString 3 .x := by
        unfold Lx.lexPercent
        rw [show l.start.ch 1 = 'x' by unfold Lx.ch; rw [h2]; rfl]
        rfl
      rw [e3, e2]; rfl
  rw [dispatch_percent _ h4, key.1] at h1
  obtain ⟨ts, l', t1, t2, t3⟩ := quoted_emits l ps pre.length (q.length + 2) a b _ _ h3 h1 key.2.1 key.2.2.1 text bs post
    key.2.2.2 h hd (delims_facts hab).2.1 hh
  refine ⟨ts, l', t1, t2, ?_⟩
  rwa [show pre.length + (q.length + text.length + 3) = pre.length + (q.length + 2) + (text.length + 1) by omega]

/-- C39: shell commands in backticks, where no method name is expected. -/
theorem C39_backtick (l : Lx) (ps : List Lx) (hk : l.kind = .base) (hst : l.stopChar = NUL ∨ l.stopChar = '}')
    (hsc : l.startChar ≠ '`') (hd : l.pairDepth = 0) (hrem : l.remaining = 0) (pre text bs post : Str)
    (hr : l.rest = pre ++ ('`' :: text ++ '`' :: post)) (hb : Blank pre) (h : Content NUL '`' text bs ('`' :: post)) :
    ∃ ts l', ts.map Token.key = (.InterpolatedShellBegin, some ['`']) ::
        (if bs = [] then [] else [(.String, some bs)]) ++ [(.InterpolatedShellEnd, none)] ∧
      Emits (l :: ps) ts (setLast .InterpolatedShellEnd (l' :: ps)) ∧
      Continues l l' (pre.length + (text.length + 2)) := by
  obtain ⟨h1, h2, h3, h4⟩ := base_start' l hk hst '`' hsc pre _ hr hb rfl (by decide)
  have h5 : l.start.dispatch = .ok (l.start.doubleQuoted 1 '`' '`' .InterpolatedShellBegin .InterpolatedShellEnd) := by
    unfold Lx.dispatch
    rw [h4]
    show Res.ok l.start.lexBacktick = _
    unfold Lx.lexBacktick
    rw [if_neg (by show ¬ l.remaining > 0; omega)]
  rw [h5] at h1
  obtain ⟨ts, l', t1, t2, t3⟩ := quoted_emits l ps pre.length 1 '`' '`' _ _ h3 h1 rfl rfl text bs post
    (by rw [h2]; rfl) h hd (by decide) (by intro h; exact absurd h (by decide))
  exact ⟨ts, l', t1, t2, by rwa [show pre.length + (text.length + 2) = pre.length + 1 + (text.length + 1) by omega]⟩

/-- C39: double-quoted symbols. -/
theorem C39_symbol (l : Lx) (ps : List Lx) (hk : l.kind = .base) (hst : l.stopChar = NUL ∨ l.stopChar = '}')
    (hsc : l.startChar ≠ ':') (hd : l.pairDepth = 0)
    (hlast : l.lastType ≠ .InterpolatedStringEnd ∨ l.openTernary = true) (pre text bs post : Str)
    (hr : l.rest = pre ++ (':' :: '"' :: text ++ '"' :: post)) (hb : Blank pre)
    (h : Content NUL '"' text bs ('"' :: post)) :
    ∃ ts l', ts.map Token.key = (.InterpolatedSymbolBegin, some ['"']) ::
        (if bs = [] then [] else [(.String, some bs)]) ++ [(.InterpolatedSymbolEnd, none)] ∧
      Emits (l :: ps) ts (setLast .InterpolatedSymbolEnd (l' :: ps)) ∧
      Continues l l' (pre.length + (text.length + 3)) := by
  obtain ⟨h1, h2, h3, h4⟩ := base_start' l hk hst ':' hsc pre _ hr hb rfl (by decide)
  have h5 : l.start.dispatch = .ok (l.start.doubleQuoted 2 '"' '"' .InterpolatedSymbolBegin .InterpolatedSymbolEnd) := by
    unfold Lx.dispatch
    rw [h4]
    show Res.ok l.start.lexColon = _
    unfold Lx.lexColon
    rw [show l.start.ch 1 = '"' by unfold Lx.ch; rw [h2]; rfl]
    simp only
    rw [if_neg (by decide), if_neg, if_pos trivial]
    rintro ⟨e1, -, e2⟩
    rcases hlast with hl | hl
    · exact hl e1
    · rw [show l.start.openTernary = true from hl] at e2; exact absurd e2 (by decide)
  rw [h5] at h1
  obtain ⟨ts, l', t1, t2, t3⟩ := quoted_emits l ps pre.length 2 '"' '"' _ _ h3 h1 rfl rfl text bs post
    (by rw [h2]; rfl) h hd (by decide) (by intro h; exact absurd h (by decide))
  exact ⟨ts, l', t1, t2, by rwa [show pre.length + (text.length + 3) = pre.length + 2 + (text.length + 1) by omega]⟩

/-- Non-vacuity for C39. -/
example : (tokensFuel 40 (cs! "%<a<b>\\n> %x|l\\|s| :\"\\x41b\" `c\\``")).lits =
    [(.InterpolatedStringBegin, some (cs! "<")), (.String, some (cs! "a<b>\n")), (.InterpolatedStringEnd, none),
     (.InterpolatedShellBegin, some (cs! "|")), (.String, some (cs! "l|s")), (.InterpolatedShellEnd, none),
     (.InterpolatedSymbolBegin, some (cs! "\"")), (.String, some (cs! "Ab")), (.InterpolatedSymbolEnd, none),
     (.InterpolatedShellBegin, some (cs! "`")), (.String, some (cs! "c`")), (.InterpolatedShellEnd, none),
     (.Eof, none)] := by decide +kernel

example : Content '<' '>' (cs! "a<b>\\n") (cs! "a<b>\n") (cs! ">") :=
  .plain _ _ _ _ (by decide) (by decide) (by decide) (by decide) (by decide)
    (.pair (cs! "b") (cs! "b") (cs! "\\n") (cs! "\n") _ (by decide) (by decide) (by decide) (by decide) (by decide)
      (.plain _ _ _ _ (by decide) (by decide) (by decide) (by decide) (by decide) (.nil _))
      (.escape (cs! "n") _ [] [] _ (by decide) (.letter _ _ _ (by decide)) (.nil _)))

/-! ### C28 -/

/-- C28. `_partial`: in any two contexts in which no brace of an interpolation is open, a double-quoted literal yields the
same tokens and ends at the same byte. Inside braces in an interpolation it does not (`C28_false`). -/
theorem C28_same_everywhere_partial (text bs : Str) (l l2 : Lx) (ps ps2 : List Lx) (pre pre2 post post2 : Str)
    (hk : l.kind = .base) (hk2 : l2.kind = .base) (hst : l.stopChar = NUL ∨ l.stopChar = '}')
    (hst2 : l2.stopChar = NUL ∨ l2.stopChar = '}') (hsc : l.startChar ≠ '"') (hsc2 : l2.startChar ≠ '"')
    (hd : l.pairDepth = 0) (hd2 : l2.pairDepth = 0) (hr : l.rest = pre ++ ('"' :: text ++ '"' :: post))
    (hr2 : l2.rest = pre2 ++ ('"' :: text ++ '"' :: post2)) (hb : Blank pre) (hb2 : Blank pre2)
    (h : Content NUL '"' text bs ('"' :: post)) (h2 : Content NUL '"' text bs ('"' :: post2)) :
    ∃ ts ts2 l' l2', ts.map Token.key = ts2.map Token.key ∧
      Emits (l :: ps) ts (setLast .InterpolatedStringEnd (l' :: ps)) ∧
      Emits (l2 :: ps2) ts2 (setLast .InterpolatedStringEnd (l2' :: ps2)) ∧
      Continues l l' (pre.length + (text.length + 2)) ∧ Continues l2 l2' (pre2.length + (text.length + 2)) := by
  obtain ⟨ts, l', h1, h2, h3⟩ := double_quoted l ps hk hst hsc hd pre text bs post hr hb h
  obtain ⟨ts2, l2', i1, i2, i3⟩ := double_quoted l2 ps2 hk2 hst2 hsc2 hd2 pre2 text bs post2 hr2 hb2 (by assumption)
  exact ⟨ts, ts2, l', l2', by rw [h1, i1], h2, i2, h3, i3⟩

/-- C28 is false: inside braces in an interpolation the literal `"b"` does not end at its closing quote. -/
theorem C28_false :
    (tokensFuel 20 (cs! "\"#{ \"b\" }\"")).lits = [(.InterpolatedStringBegin, some (cs! "\"")),
      (.EvaluateToStringBegin, none), (.InterpolatedStringBegin, some (cs! "\"")), (.String, some (cs! "b")),
      (.InterpolatedStringEnd, none), (.EvaluateToStringEnd, none), (.InterpolatedStringEnd, none), (.Eof, none)] ∧
    (tokensFuel 20 (cs! "\"#{{\"b\"}}\"")).lits = [(.InterpolatedStringBegin, some (cs! "\"")),
      (.EvaluateToStringBegin, none), (.LCurlyBrace, none), (.InterpolatedStringBegin, some (cs! "\"")),
      (.String, some (cs! "b\"}}")), (.InterpolatedStringEnd, none), (.EvaluateToStringEnd, none),
      (.UnterminatedString, some [])] := by
  decide +kernel

end NP
