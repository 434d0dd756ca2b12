import Verif.Proofs.Names

/-! Keywords and operators. -/

namespace NP

open Spec Lx

/-! ### Keywords -/

theorem keywords_mem (w : Str) (t : Ttype) : (w, t) ∈ keywords ↔ (w, t) ∈ keywordTable := by
  have h1 : ∀ p ∈ keywords, p ∈ keywordTable := by decide +kernel
  have h2 : ∀ p ∈ keywordTable, p ∈ keywords := by decide +kernel
  exact ⟨h1 _, h2 _⟩

theorem keywords_unique : ∀ p ∈ keywords, ∀ q ∈ keywords, p.1 = q.1 → p = q := by decide +kernel

/-- A keyword is name bytes, possibly followed by one `?`. -/
theorem keywords_form : ∀ p ∈ keywords, p.1 = cs! "defined?" ∨ p.1.all nameByte = true := by decide +kernel

def addSuffix (n : Str) : Str → Str
  | '?' :: _ => n ++ ['?']
  | '!' :: _ => n ++ ['!']
  | _ => n

theorem wordOf_append (n post : Str) (hn : n.all nameByte = true) (he : NameEnds post) :
    wordOf (n ++ post) = addSuffix n post := by
  have h : (n ++ post).takeWhile nameByte = n := by
    rw [List.takeWhile_append_of_pos (by simpa using hn)]
    cases post with
    | nil => simp
    | cons c r => simp [he c r rfl]
  unfold wordOf
  simp only [h, List.drop_left, addSuffix]
  rfl

theorem split_name (s : Str) : ∃ n post, s = n ++ post ∧ n.all nameByte = true ∧ NameEnds post := by
  refine ⟨s.takeWhile nameByte, s.dropWhile nameByte, List.takeWhile_append_dropWhile.symm, List.all_takeWhile, ?_⟩
  intro c r hr
  have := List.head?_dropWhile_not nameByte s
  rw [hr] at this
  simpa using this

/-- The keyword test of the lexer and the word at the beginning of the text. -/
theorem matchWord_iff (s w : Str) (t : Ttype) (hw : (w, t) ∈ keywords) :
    matchWord s w = true ↔
      wordOf s = w ∧ (w = cs! "defined?" → isIdentOrSuffix (s.ch 8) = false) := by
  have hnn : ∀ c, isSuffix c = true → nameByte c = false := by
    intro c hc
    simp only [isSuffix, Bool.or_eq_true, beq_iff_eq] at hc
    rcases hc with rfl | rfl <;> decide
  have hsplit : ∀ c, isIdentOrSuffix c = false ↔ nameByte c = false ∧ c ≠ '?' ∧ c ≠ '!' := by
    intro c
    rw [nameByte_eq]
    simp [isIdentOrSuffix, isSuffix]
  simp only [matchWord, Bool.and_eq_true, List.isPrefixOf_iff_prefix, Bool.not_eq_true']
  rcases keywords_form _ hw with hd | hall
  · simp only at hd
    subst hd
    constructor
    · rintro ⟨⟨r, rfl⟩, h⟩
      refine ⟨?_, fun _ => h⟩
      have := wordOf_append (cs! "defined") ('?' :: r) (by decide) (by rintro c r ⟨⟩; decide)
      exact this
    · rintro ⟨h1, h2⟩
      refine ⟨?_, h2 rfl⟩
      obtain ⟨n, post, rfl, hn, he⟩ := split_name s
      rw [wordOf_append n post hn he] at h1
      have hnq : n ≠ cs! "defined?" := by
        rintro rfl; exact absurd hn (by decide)
      unfold addSuffix at h1
      split at h1
      · rename_i r
        have : n = cs! "defined" := List.append_inj_left' (h1.trans (show cs! "defined?" = cs! "defined" ++ ['?'] from rfl)) rfl
        subst this
        exact ⟨r, rfl⟩
      · have h3 := congrArg List.getLast? h1
        simp at h3
      · exact absurd h1 hnq
  · have hne : w ≠ cs! "defined?" := by
      intro h
      simp only at hall
      rw [h] at hall
      exact absurd hall (by decide)
    constructor
    · rintro ⟨⟨r, rfl⟩, h⟩
      refine ⟨?_, fun h => absurd h hne⟩
      have hr : (w ++ r).ch w.length = r.ch 0 := by
        have := (List.ch_drop (w ++ r) w.length 0).symm
        simpa using this
      rw [hr] at h
      have h' := (hsplit _).1 h
      have he : NameEnds r := by
        rw [nameEnds_iff, ← nameByte_eq]; exact h'.1
      rw [wordOf_append w r hall he]
      unfold addSuffix
      split
      · rename_i r'; exact absurd rfl h'.2.1
      · rename_i r'; exact absurd rfl h'.2.2
      · rfl
    · rintro ⟨h1, -⟩
      obtain ⟨n, post, rfl, hn, he⟩ := split_name s
      rw [wordOf_append n post hn he] at h1
      have hlast : ∀ c : Char, isSuffix c = true → n ++ [c] ≠ w := by
        rintro c hc rfl
        simp only [List.all_append, Bool.and_eq_true] at hall
        have h2 := hall.2
        simp [hnn c hc] at h2
      unfold addSuffix at h1
      split at h1
      · exact absurd h1 (hlast _ (by decide))
      · exact absurd h1 (hlast _ (by decide))
      · rename_i hq hb
        subst h1
        refine ⟨⟨post, rfl⟩, ?_⟩
        have hr : (n ++ post).ch n.length = post.ch 0 := by
          have := (List.ch_drop (n ++ post) n.length 0).symm
          simpa using this
        rw [hr, hsplit]
        refine ⟨?_, ?_, ?_⟩
        · rw [nameByte_eq]; exact (nameEnds_iff _).1 he
        · intro h; obtain ⟨r, rfl⟩ := post.ch_zero_cons _ h (by decide); exact hq r rfl
        · intro h; obtain ⟨r, rfl⟩ := post.ch_zero_cons _ h (by decide); exact hb r rfl

/-- `keywordAt` finds exactly the keyword that is the whole word. -/
theorem keywordAt_iff (l : Lx) (hrem : l.remaining = 0) (w : Str) (t : Ttype) (hw : (w, t) ∈ keywords) :
    l.keywordAt = some (t, w.length) ↔
      wordOf l.rest = w ∧ (w = cs! "defined?" → isIdentOrSuffix (l.ch 8) = false) := by
  have hm := matchWord_iff l.rest w t hw
  have hfind : matchWord l.rest w = true → keywords.find? (fun k => matchWord l.rest k.1) = some (w, t) := by
    intro h
    cases hf : keywords.find? (fun k => matchWord l.rest k.1) with
    | none =>
      rw [List.find?_eq_none] at hf
      exact absurd h (hf _ hw)
    | some p =>
      have h1 := List.mem_of_find?_eq_some hf
      have h2 : matchWord l.rest p.1 = true := by simpa using List.find?_some hf
      have h3 := ((matchWord_iff l.rest p.1 p.2 h1).1 h2).1
      have h4 := (hm.1 h).1
      rw [keywords_unique p h1 (w, t) hw (by rw [← h3, ← h4])]
  constructor
  · intro h
    obtain ⟨w', h1, h2, h3⟩ := Spelled.keywordAt_spec l t _ h
    have e1 := Spelled.keywords_value _ h1
    have e2 := Spelled.keywords_value _ hw
    have : w' = w := by rw [e1] at e2; exact Option.some.inj e2
    subst this
    exact hm.1 h2
  · intro h
    have hmw := hm.2 h
    unfold Lx.keywordAt
    split_ifs with hs
    · have hself : matchWord l.rest (cs! "self") = true := hs.2.2.1
      have h1 := ((matchWord_iff l.rest (cs! "self") .SelfKeyword (by decide)).1 hself).1
      rw [h.1] at h1
      subst h1
      have := keywords_unique _ hw (cs! "self", .SelfKeyword) (by decide) rfl
      cases this
      rfl
    · rw [hfind hmw]; rfl

/-! ### Operators -/

theorem prefix_ch {w s : Str} (h : w <+: s) (k : Nat) (hk : k < w.length) : s.ch k = w.ch k := by
  obtain ⟨r, rfl⟩ := h
  simp only [List.ch]
  rw [List.getD_eq_getElem?_getD, List.getD_eq_getElem?_getD, List.getElem?_append_left hk]

/-- The operator token produced is the longest one. -/
def Munch (l : Lx) (o : Out) : Prop :=
  ∀ w t, (w, t) ∈ operatorTable → LongestOperator w l.rest →
    l.remaining = 0 → ¬ (w = cs! "=" ∧ cs! "=begin" <+: l.rest) → ¬ (w = cs! "<" ∧ cs! "<<" <+: l.rest) → o.tok.type = t

theorem operator_group (s : Str) (c : Char) (h : s.ch 0 = c) (w : Str) (t : Ttype) (hw : (w, t) ∈ operatorTable)
    (hp : w <+: s) : (w, t) ∈ operatorTable.filter (fun p => p.1.ch 0 == c) := by
  rw [List.mem_filter]
  refine ⟨hw, ?_⟩
  have hne : ∀ p ∈ operatorTable, 0 < p.1.length := by decide +kernel
  have := prefix_ch hp 0 (hne _ hw)
  simp [← this, h]

theorem munch_of_group (l : Lx) (o : Out) (c : Char) (h : l.ch 0 = c) (g : List (Str × Ttype))
    (hg : operatorTable.filter (fun p => p.1.ch 0 == c) = g)
    (hall : ∀ p ∈ g, LongestOperator p.1 l.rest →
      l.remaining = 0 → ¬ (p.1 = cs! "=" ∧ cs! "=begin" <+: l.rest) → ¬ (p.1 = cs! "<" ∧ cs! "<<" <+: l.rest) →
      o.tok.type = p.2) : Munch l o := by
  intro w t hw hl h1 h2 h3
  have := operator_group l.rest c h w t hw hl.1
  rw [hg] at this
  exact hall _ this hl h1 h2 h3

theorem longer {w v s : Str} (hl : LongestOperator w s) (hp : v <+: s) (hv : v ∈ operatorTable.map (·.1))
    (hlen : w.length < v.length) : False := by
  obtain ⟨p, hp1, rfl⟩ := List.mem_map.1 hv
  have := hl.2 _ hp1 hp
  omega

theorem group_equal : operatorTable.filter (fun p => p.1.ch 0 == '=') =
    [(cs! "=", .Equal), (cs! "==", .EqualEqual), (cs! "===", .EqualEqualEqual), (cs! "=>", .HashRocket), (cs! "=~", .Match)] := by decide +kernel

theorem group_plus : operatorTable.filter (fun p => p.1.ch 0 == '+') =
    [(cs! "+", .Plus), (cs! "+=", .PlusEqual)] := by decide +kernel

theorem group_minus : operatorTable.filter (fun p => p.1.ch 0 == '-') =
    [(cs! "-", .Minus), (cs! "-=", .MinusEqual), (cs! "->", .Arrow)] := by decide +kernel

theorem group_star : operatorTable.filter (fun p => p.1.ch 0 == '*') =
    [(cs! "*", .Star), (cs! "*=", .StarEqual), (cs! "**", .StarStar), (cs! "**=", .StarStarEqual)] := by decide +kernel

theorem group_bang : operatorTable.filter (fun p => p.1.ch 0 == '!') =
    [(cs! "!", .Not), (cs! "!=", .NotEqual), (cs! "!~", .NotMatch)] := by decide +kernel

theorem group_less : operatorTable.filter (fun p => p.1.ch 0 == '<') =
    [(cs! "<", .LessThan), (cs! "<=", .LessThanOrEqual), (cs! "<=>", .Comparison), (cs! "<<=", .LeftShiftEqual)] := by decide +kernel

theorem group_greater : operatorTable.filter (fun p => p.1.ch 0 == '>') =
    [(cs! ">", .GreaterThan), (cs! ">=", .GreaterThanOrEqual), (cs! ">>", .RightShift), (cs! ">>=", .RightShiftEqual)] := by decide +kernel

theorem group_ampersand : operatorTable.filter (fun p => p.1.ch 0 == '&') =
    [(cs! "&", .Ampersand), (cs! "&=", .AmpersandEqual), (cs! "&&", .AmpersandAmpersand), (cs! "&&=", .AmpersandAmpersandEqual), (cs! "&.", .SafeNavigation)] := by decide +kernel

theorem group_pipe : operatorTable.filter (fun p => p.1.ch 0 == '|') =
    [(cs! "|", .Pipe), (cs! "|=", .PipeEqual), (cs! "||", .PipePipe), (cs! "||=", .PipePipeEqual)] := by decide +kernel

theorem group_caret : operatorTable.filter (fun p => p.1.ch 0 == '^') =
    [(cs! "^", .Caret), (cs! "^=", .CaretEqual)] := by decide +kernel

theorem group_tilde : operatorTable.filter (fun p => p.1.ch 0 == '~') =
    [(cs! "~", .Tilde)] := by decide +kernel

theorem group_colon : operatorTable.filter (fun p => p.1.ch 0 == ':') =
    [(cs! "::", .ConstantResolution)] := by decide +kernel

theorem group_dot : operatorTable.filter (fun p => p.1.ch 0 == '.') =
    [(cs! ".", .Dot), (cs! "..", .DotDot), (cs! "...", .DotDotDot)] := by decide +kernel

theorem group_lcurly : operatorTable.filter (fun p => p.1.ch 0 == '{') =
    [(cs! "{", .LCurlyBrace)] := by decide +kernel

theorem group_lbracket : operatorTable.filter (fun p => p.1.ch 0 == '[') =
    [(cs! "[", .LBracket), (cs! "[]", .LBracketRBracket), (cs! "[]=", .LBracketRBracketEqual)] := by decide +kernel

theorem group_lparen : operatorTable.filter (fun p => p.1.ch 0 == '(') =
    [(cs! "(", .LParen)] := by decide +kernel

theorem group_rcurly : operatorTable.filter (fun p => p.1.ch 0 == '}') =
    [(cs! "}", .RCurlyBrace)] := by decide +kernel

theorem group_rbracket : operatorTable.filter (fun p => p.1.ch 0 == ']') =
    [(cs! "]", .RBracket)] := by decide +kernel

theorem group_rparen : operatorTable.filter (fun p => p.1.ch 0 == ')') =
    [(cs! ")", .RParen)] := by decide +kernel

theorem group_newline : operatorTable.filter (fun p => p.1.ch 0 == '\n') =
    [(cs! "\n", .Newline)] := by decide +kernel

theorem group_semicolon : operatorTable.filter (fun p => p.1.ch 0 == ';') =
    [(cs! ";", .Semicolon)] := by decide +kernel

theorem group_comma : operatorTable.filter (fun p => p.1.ch 0 == ',') =
    [(cs! ",", .Comma)] := by decide +kernel

/-- Closes the goal for one candidate at a leaf: it is the right one, or a byte differs, or a longer operator is there,
or the leaf is excluded. -/
syntax "munch_case" ident ident : tactic
macro_rules
  | `(tactic| munch_case $hl:ident $hc:ident) => `(tactic| first
    | rfl
    | (exfalso; exact longer $hl (prefix3 $hc (by assumption) (by assumption) (by decide) (by decide) (by decide)) (by decide) (by decide))
    | (exfalso; exact longer $hl (prefix2 $hc (by assumption) (by decide) (by decide)) (by decide) (by decide))
    | (exfalso
       have h0 := prefix_ch (And.left $hl) 1 (by decide)
       simp_all [Lx.ch]
       done)
    | (exfalso
       have h0 := prefix_ch (And.left $hl) 2 (by decide)
       simp_all [Lx.ch]
       done)
    | (exfalso
       have h0 := prefix_ch (And.left $hl) 2 (by decide)
       have h1 := prefix_ch (And.left $hl) 1 (by decide)
       simp_all [Lx.ch]
       done)
    | (exfalso; simp_all; done))

/-- Goes through the operators with the same first byte. -/
syntax "munch_leaf" ident term:max : tactic
macro_rules
  | `(tactic| munch_leaf $hc:ident $g) => `(tactic|
      (refine munch_of_group _ _ _ $hc _ $g ?_
       simp only [List.forall_mem_cons]
       repeat' apply And.intro
       all_goals first
        | (intro hl h1 h2 h3; munch_case hl $hc)
        | (intro p hp; cases hp)))

theorem Munch.noGroup (l : Lx) (o : Out) (c : Char) (h : l.ch 0 = c)
    (hg : operatorTable.filter (fun p => p.1.ch 0 == c) = []) : Munch l o :=
  munch_of_group l o c h [] hg (by intro p hp; cases hp)

attribute [local irreducible] Lx.heredoc in
theorem Munch.lexLess (l : Lx) (hc : l.ch 0 = '<') : Munch l l.lexLess := by
  by_cases h1 : l.ch 1 = '<'
  · have h2 : l.ch 2 = '=' → l.lexLess = l.op 3 .LeftShiftEqual := by
      intro h2
      unfold Lx.lexLess
      simp [h1, h2]
    refine munch_of_group _ _ _ hc _ group_less ?_
    have hp := prefix2 (s := l.rest) hc h1 (by decide) (by decide)
    simp only [List.forall_mem_cons]
    refine ⟨?_, ?_, ?_, ?_, fun p hp => by cases hp⟩
    · intro _ _ _ h; exact absurd ⟨trivial, hp⟩ h
    · intro hl
      have := prefix_ch hl.1 1 (by decide)
      exact absurd (h1.symm.trans this) (by decide)
    · intro hl
      have := prefix_ch hl.1 1 (by decide)
      exact absurd (h1.symm.trans this) (by decide)
    · intro hl _ _ _
      rw [h2 (prefix_ch hl.1 2 (by decide))]; rfl
  · unfold Lx.lexLess
    rw [if_neg h1]
    repeat' split
    all_goals munch_leaf hc group_less

theorem Munch.lexEqual (l : Lx) (hc : l.ch 0 = '=') : Munch l l.lexEqual := by
  unfold Lx.lexEqual
  split
  · split <;> munch_leaf hc group_equal
  split
  · munch_leaf hc group_equal
  split
  · munch_leaf hc group_equal
  split
  · rename_i hb
    have hbp : cs! "=begin" <+: l.rest := by
      have h := hb.2
      simp only [matchWord, Bool.and_eq_true, List.isPrefixOf_iff_prefix] at h
      exact prefix_cons hc (by decide) h.1
    munch_leaf hc group_equal
  · munch_leaf hc group_equal

theorem Munch.dispatch (l : Lx) (o : Out) (h : l.dispatch = .ok o) : Munch l o := by
  have hd := dispatch_disp l
  rw [h] at hd
  generalize hr : Res.ok o = r at hd
  cases hd
  case question hc => exact .noGroup l o _ hc (by decide +kernel)
  case dollar hc => exact .noGroup l o _ hc (by decide +kernel)
  all_goals (obtain rfl : o = _ := by simpa using hr)
  case less hc => exact lexLess l hc
  case equal hc => exact lexEqual l hc
  case plus hc => unfold Lx.lexPlus; repeat' split
                  all_goals munch_leaf hc group_plus
  case minus hc => unfold Lx.lexMinus; repeat' split
                   all_goals munch_leaf hc group_minus
  case star hc => unfold Lx.lexStar; repeat' split
                  all_goals munch_leaf hc group_star
  case bang hc => unfold Lx.lexBang; repeat' split
                  all_goals munch_leaf hc group_bang
  case greater hc => unfold Lx.lexGreater; repeat' split
                     all_goals munch_leaf hc group_greater
  case ampersand hc => unfold Lx.lexAmpersand; repeat' split
                       all_goals munch_leaf hc group_ampersand
  case pipe hc => unfold Lx.lexPipe; repeat' split
                  all_goals munch_leaf hc group_pipe
  case caret hc => unfold Lx.lexCaret; repeat' split
                   all_goals munch_leaf hc group_caret
  case tilde hc => unfold Lx.lexTilde; repeat' split
                   all_goals munch_leaf hc group_tilde
  case dot hc => unfold Lx.lexDot; repeat' split
                 all_goals munch_leaf hc group_dot
  case lbracket hc => unfold Lx.lexLBracket; repeat' split
                      all_goals munch_leaf hc group_lbracket
  case newline hc => unfold Lx.lexNewline; split <;> munch_leaf hc group_newline
  case colon hc =>
    unfold Lx.lexColon
    extract_lets c o
    split
    · munch_leaf hc group_colon
    · rename_i hne
      refine munch_of_group _ _ _ hc _ group_colon ?_
      simp only [List.forall_mem_cons]
      refine ⟨?_, fun p hp => by cases hp⟩
      intro hl
      exact absurd (prefix_ch hl.1 1 (by decide)) hne
  case digit hc =>
    intro w t hw hl
    have hne : ∀ p ∈ operatorTable, 0 < p.1.length ∧ isDigit (p.1.ch 0) = false := by decide +kernel
    have h0 := prefix_ch hl.1 0 (hne _ hw).1
    have h1 := (hne _ hw).2
    simp only at h1
    rw [← h0] at h1
    rw [show l.rest.ch 0 = l.ch 0 from rfl, hc] at h1
    cases h1
  case word hp _ _ _ =>
    intro w t hw hl
    have hne : ∀ p ∈ operatorTable, 0 < p.1.length ∧ isPunct (p.1.ch 0) = true := by decide +kernel
    have h0 := prefix_ch hl.1 0 (hne _ hw).1
    have h1 := (hne _ hw).2
    simp only at h1
    rw [← h0] at h1
    rw [show l.rest.ch 0 = l.ch 0 from rfl, hp] at h1
    cases h1
  case lcurly hc => munch_leaf hc group_lcurly
  case lparen hc => munch_leaf hc group_lparen
  case rcurly hc => munch_leaf hc group_rcurly
  case rbracket hc => munch_leaf hc group_rbracket
  case rparen hc => munch_leaf hc group_rparen
  case semicolon hc => munch_leaf hc group_semicolon
  case comma hc => munch_leaf hc group_comma
  all_goals (rename_i hc; exact .noGroup l _ _ hc (by decide +kernel))

/-! ### Keywords -/

/-- In front of a keyword `build_next_token` gets to the keywords. -/
theorem dispatch_keyword (l : Lx) (w : Str) (t : Ttype) (hw : (w, t) ∈ keywords) (hp : w <+: l.rest) :
    l.dispatch = .ok l.lexWord := by
  have tab : ∀ p ∈ keywords, 2 ≤ p.1.length ∧ isPunct (p.1.ch 0) = false ∧ isDigit (p.1.ch 0) = false ∧
      (p.1.ch 0 = 'i' → isAlnum (p.1.ch 1) = true) ∧ (p.1.ch 0 = 'r' → p.1.ch 1 = 'e') := by decide +kernel
  obtain ⟨h1, h2, h3, h4, h5⟩ := tab _ hw
  have e0 : l.ch 0 = w.ch 0 := prefix_ch hp 0 (by simp only at h1; omega)
  have e1 : l.ch 1 = w.ch 1 := prefix_ch hp 1 (by simp only at h1; omega)
  simp only [← e0, ← e1] at h2 h3 h4 h5
  have hd := dispatch_disp l
  generalize hr : l.dispatch = r at hd
  cases hd
  case word => rfl
  case i h => unfold Lx.lexI; rw [if_neg (by rw [h4 h]; simp)]
  case r h =>
    unfold Lx.lexR
    have ha : isAlnum 'e' = true := by decide
    simp [h5 h, ha]
  case digit h => rw [h] at h3; cases h3
  all_goals (rename_i h; rw [h] at h2; cases h2)

end NP
