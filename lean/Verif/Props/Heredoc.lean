import Verif.Proofs.HeredocOut
import Verif.Proofs.Setter
import Verif.Props.Quoted
import Verif.Props.Tokens
import Verif.Props.Nesting

/-!
C23 to C25: heredocs. See Verif/Props/Quoted.lean for the notation; `OpensAt l l' n k`: `l'` is `n` bytes further than
`l` and has noted that the heredocs of this line end at `k`.
-/

namespace NP

open Spec

/-! ### C23 -/

/-- The text of a heredoc with lines `ls`. -/
def Spec.heredocText (sign : Str) (ls : List Str) : Str :=
  if sign = ['~'] then joinLines (dedentLines ls) else joinLines ls

/-- What is left out of C24: texts of blank lines only. -/
def Spec.Dedentable (sign : Str) (ls : List Str) : Prop :=
  sign = ['~'] → commonIndent ls ≠ none ∧ (joinLines ls).length < 2 ^ 63

theorem heredocValue_text (sign : Str) (ls : List Str) (hl : ∀ x ∈ ls, '\n' ∉ x) (hd : Dedentable sign ls) :
    heredocValue sign ls = heredocText sign ls := by
  unfold heredocValue heredocText tildeOf
  by_cases h : sign = ['~']
  · simp only [h, decide_true, if_true]
    exact dedentHeredoc_lines ls hl (hd h).1 (hd h).2
  · simp only [h, decide_false, if_false, Bool.false_eq_true]

/-- C23 is false of the code: with `<<-` a line also ends the heredoc if the identifier is its last word, and what stands
before the identifier on the last line becomes part of the text, unless it is made of spaces. -/
theorem C23_false :
    (∃ ts, Lexes (cs! "<<-'A'\nx A\nA\n") ts ∧ (ts.map Token.key).head? = some (.String, some (cs! "x"))) ∧
    ∃ ts, Lexes (cs! "<<-'A'\nx\n\tA\n") ts ∧ (ts.map Token.key).head? = some (.String, some (cs! "x\n\t")) := by
  refine ⟨⟨_, .of_toks 40 _ ?_, ?_⟩, ⟨_, .of_toks 40 _ ?_, ?_⟩⟩
  all_goals decide +kernel

/-- The tokens of a heredoc with text `bs`. -/
def Spec.heredocKeys (q : Char) (bs : Str) : List (Ttype × Option Str) :=
  if q = '\'' then [(.String, some bs)]
  else if q = '`' then [(.InterpolatedShellBegin, none), (.String, some bs), (.InterpolatedShellEnd, none)]
  else [(.InterpolatedStringBegin, none), (.String, some bs), (.InterpolatedStringEnd, none)]

/-- C23: the text of a heredoc is that of the lines before the first one that is the identifier, or, with a sign, spaces
and the identifier; escapes are replaced unless the identifier is in single quotes. `_partial`: missing are lines that
end in white space and the identifier but have more before it, terminators indented otherwise than with spaces
(see `C23_false`) and interpolation in the text. -/
theorem C23_text_partial (l : Lx) (ps : List Lx) (hk : l.kind = .base) (hst : l.stopChar = NUL ∨ l.stopChar = '}')
    (hsc : l.startChar ≠ '<') (pre sign : Str) (q : Char) (id op post z t after : Str) (n : Nat) (ls : List Str)
    (hr : l.rest = pre ++ (op ++ post)) (hb : Spec.Blank pre) (ho : Opener sign q id op) (hp : q = ' ' → NameEnds post)
    (hctx : pre ≠ [] ∨ sign ≠ [] ∨ l.lastType ∈ heredocAfter) (hbody : BodyAt l post (joinLines ls ++ (z ++ t)))
    (hl : ∀ x ∈ ls, '\n' ∉ x ∧ ¬Closes (dashOf sign) id x) (ht : LineEnd t after n)
    (hz : ∃ sp, z = sp ++ id ∧ (∀ b ∈ sp, b = ' ') ∧ (sign = [] → sp = [])) (hd : Dedentable sign ls)
    (bs : Str) (hv : q = '\'' ∧ bs = heredocText sign ls ∨ q ≠ '\'' ∧ Content NUL NUL (heredocText sign ls) bs []) :
    ∃ ts l' k, ts.map Token.key = heredocKeys q bs ∧
      Emits (l :: ps) ts (setLast ((ts.map (·.type)).getLastD .Invalid) (l' :: ps)) ∧
      OpensAt l l' (pre.length + op.length) k ∧ l.input.drop k = after ∧
      (∀ t b, l.heredocStack = [] → '\n' ∉ t → post = t ++ '\n' :: b → l'.cur.index + t.length < k) ∧
      ∀ j ∈ l.heredocStack.head?, j ≤ k := by
  rw [← heredocValue_text sign ls (fun x hx => (hl x hx).1) hd] at hv
  exact heredoc_emits l ps hk hst hsc pre sign q id op post z t after n ls hr hb ho hp hctx hbody hl ht hz bs hv

/-- C23: a heredoc none of whose lines can end it is reported as unterminated, with the whole rest of the source. -/
theorem C23_unterminated (l : Lx) (ps : List Lx) (hk : l.kind = .base) (hst : l.stopChar = NUL ∨ l.stopChar = '}')
    (hsc : l.startChar ≠ '<') (pre sign : Str) (q : Char) (id op post z : Str) (ls : List Str)
    (hr : l.rest = pre ++ (op ++ post)) (hb : Spec.Blank pre) (ho : Opener sign q id op) (hp : q = ' ' → NameEnds post)
    (hctx : pre ≠ [] ∨ sign ≠ [] ∨ l.lastType ∈ heredocAfter) (hbody : BodyAt l post (joinLines ls ++ z))
    (hl : ∀ x ∈ z :: ls, '\n' ∉ x ∧ ¬Closes (dashOf sign) id x) :
    ∃ t st, next (l :: ps) = .ok (t, st) ∧ t.key = (.UnterminatedString, some (joinLines ls ++ z)) := by
  obtain ⟨c0, w0, hop, -⟩ := opener_start ho
  obtain ⟨text, rfl⟩ : ∃ text, op = '<' :: '<' :: text := ⟨sign ++ c0 :: w0, by rw [hop]; simp⟩
  have hid : '\n' ∉ id := by
    cases ho with
    | quoted _ _ hs hq hn => exact fun h => (hn _ h).2.1 rfl
    | bare c id hs hc hn =>
      intro h
      rcases List.mem_cons.1 h with h | h
      · subst h; revert hc; decide
      · exact absurd (hn _ h) (by decide)
  obtain ⟨h1, h2, h3, h4⟩ := base_start' l hk hst '<' hsc pre _ hr hb rfl (by decide)
  have hws : l.start.ws = true ∨ sign ≠ [] ∨ l.start.lastType ∈ heredocAfter := by
    rcases hctx with h | h | h
    · left
      show (l.skipped != 0) = true
      rw [h3]
      simpa using h
    · exact .inr (.inl h)
    · exact .inr (.inr h)
  rw [dispatch_less _ h4, lexLess_opener l.start sign q id _ post ho h2 hws] at h1
  obtain ⟨c, hc1, hc2, hc3⟩ := heredoc_opener (l.start.adv 2) sign q id text post ho (by rw [Lx.adv_rest, h2]; rfl) hp
  rw [hc3, Lx.adv_adv] at h1
  have mr : (l.start.adv (2 + text.length)).rest = post := by
    rw [Lx.adv_rest, h2, show '<' :: '<' :: text ++ post = ('<' :: '<' :: text) ++ post by simp]
    exact List.drop_left' (by simp; omega)
  obtain ⟨start, b1, b2, -⟩ := hbody.begin (m := l.start.adv (2 + text.length)) rfl rfl mr
  have hn := heredocBody_none (dashOf sign) id z hid (hl z (by simp)).1 (hl z (by simp)).2 ls
    (fun x hx => hl x (List.mem_cons_of_mem _ hx)) []
  rw [joinLines_nil, ← b2] at hn
  have e : (l.start.adv (2 + text.length)).hdTail (dashOf sign) (tildeOf sign) c id =
      { tok := (l.start.adv (2 + text.length)).tkLit .UnterminatedString (joinLines ls ++ z),
        lx := l.start.adv (2 + text.length) } := by
    unfold Lx.hdTail
    rw [b1]
    simp only
    cases hb : heredocBody (dashOf sign) id [] ((l.start.adv (2 + text.length)).input.drop start) with
    | mk d k =>
      rw [hb] at hn
      simp only at hn
      subst hn
      simp only [b2]
  rw [e] at h1
  exact ⟨_, _, next_step l ps _ (step_of_build l _ h1) (fun h => by cases h), rfl⟩

/-- Non-vacuity for C23: a heredoc with a sign. -/
example :
    Opener ['-'] ' ' (cs! "A_1") (cs! "<<-A_1") ∧ (∀ x ∈ [cs! " A_", cs! "xA_1"], '\n' ∉ x ∧ ¬Closes true (cs! "A_1") x) ∧
    BodyAt (Lx.init (cs! "<<-A_1\n A_\nxA_1\n  A_1\nb")) (cs! "\n A_\nxA_1\n  A_1\nb")
      (joinLines [cs! " A_", cs! "xA_1"] ++ (cs! "  A_1" ++ cs! "\nb")) ∧
    Content NUL NUL (heredocText ['-'] [cs! " A_"]) (cs! " A_\n") [] := by
  refine ⟨.bare ['-'] 'A' (cs! "_1") (by decide) (by decide) (by decide), ?_, ?_, ?_⟩
  · intro x hx
    have key : ∀ x : Str, (∀ p w, isWs w = true → x ≠ p ++ w :: cs! "A_1") → x ≠ cs! "A_1" →
        ¬Closes true (cs! "A_1") x := by
      rintro x h1 h2 (h | ⟨-, p, w, hw, h⟩)
      · exact h2 h
      · exact h1 p w hw h
    simp only [List.mem_cons, List.not_mem_nil, or_false] at hx
    rcases hx with rfl | rfl
    · refine ⟨by decide, key _ ?_ (by decide)⟩
      intro p w hw h
      have := congrArg List.reverse h
      simp at this
    · refine ⟨by decide, key _ ?_ (by decide)⟩
      intro p w hw h
      have := congrArg List.reverse h
      simp at this
      rw [← this.1] at hw
      exact absurd hw (by decide)
  · exact .nextLine [] rfl (by decide) rfl
  · exact .plain _ _ _ _ (by decide) (by decide) (by decide) (by decide) (by decide)
      (.plain _ _ _ _ (by decide) (by decide) (by decide) (by decide) (by decide)
        (.plain _ _ _ _ (by decide) (by decide) (by decide) (by decide) (by decide)
          (.plain _ _ _ _ (by decide) (by decide) (by decide) (by decide) (by decide) (.nil _))))

/-- Non-vacuity for C23: its effect. -/
example : (tokensFuel 20 (cs! "<<-A_1\n A_\nxA_1\n  A_1\nb")).lits =
    [(.InterpolatedStringBegin, none), (.String, some (cs! " A_\nxA_1\n")), (.InterpolatedStringEnd, none),
     (.Newline, none), (.BareName, some (cs! "b")), (.Eof, none)] := by decide +kernel

/-- Non-vacuity for `C23_unterminated`. -/
example : (tokensFuel 20 (cs! "a = <<'A'\nx\nA b")).lits =
    [(.BareName, some (cs! "a")), (.Equal, none), (.UnterminatedString, some (cs! "x\nA b"))] := by decide +kernel

/-! ### C24 -/

/-- C24 is false of the code: if all lines are blank, the indentation is the greatest `size_t`, so that every line but the
first starts one byte too early, with the newline before it. -/
theorem C24_false : ∃ ts, Lexes (cs! "<<~'A'\n\n\nA\n") ts ∧ (ts.map Token.key).head? = some (.String, some (cs! "\n\n\n")) := by
  refine ⟨_, .of_toks 40 _ ?_, ?_⟩
  all_goals decide +kernel

/-- C24: with `<<~` every line loses as many bytes as the least indented line that is not blank has white space in front.
`_partial`: missing are texts of blank lines only (see `C24_false`), interpolation in the text, texts of 2^63 bytes or
more, and what is missing in C23. -/
theorem C24_squiggly_partial (l : Lx) (ps : List Lx) (hk : l.kind = .base) (hst : l.stopChar = NUL ∨ l.stopChar = '}')
    (hsc : l.startChar ≠ '<') (pre : Str) (q : Char) (id op post z t after : Str) (n : Nat) (ls : List Str)
    (hr : l.rest = pre ++ (op ++ post)) (hb : Spec.Blank pre) (ho : Opener ['~'] q id op) (hp : q = ' ' → NameEnds post)
    (hbody : BodyAt l post (joinLines ls ++ (z ++ t)))
    (hl : ∀ x ∈ ls, '\n' ∉ x ∧ ¬Closes true id x) (ht : LineEnd t after n)
    (hz : ∃ sp, z = sp ++ id ∧ (∀ b ∈ sp, b = ' ')) (hd : commonIndent ls ≠ none) (hlen : (joinLines ls).length < 2 ^ 63)
    (bs : Str) (hv : q = '\'' ∧ bs = joinLines (dedentLines ls) ∨
      q ≠ '\'' ∧ Content NUL NUL (joinLines (dedentLines ls)) bs []) :
    ∃ ts l' k, ts.map Token.key = heredocKeys q bs ∧
      Emits (l :: ps) ts (setLast ((ts.map (·.type)).getLastD .Invalid) (l' :: ps)) ∧
      OpensAt l l' (pre.length + op.length) k ∧ l.input.drop k = after := by
  obtain ⟨sp, h1, h2⟩ := hz
  obtain ⟨ts, l', k, g1, g2, g3, g4, -⟩ := C23_text_partial l ps hk hst hsc pre ['~'] q id op post z t after n ls hr hb ho
    hp (.inr (.inl (by simp))) hbody hl ht ⟨sp, h1, h2, fun h => by simp at h⟩ (fun _ => ⟨hd, hlen⟩) bs hv
  exact ⟨ts, l', k, g1, g2, g3, g4⟩

/-- Every line keeps all its bytes from the first one on that is no white space. -/
theorem C24_keeps (ls : List Str) (x : Str) (hx : x ∈ ls) (h : x.all isWs = false) :
    ∃ w, w.all isWs = true ∧ x = w ++ x.drop ((commonIndent ls).getD 0) := by
  refine ⟨x.take ((commonIndent ls).getD 0), ?_, (List.take_append_drop _ _).symm⟩
  have hi : indentOf x = some (x.takeWhile isWs).length := by
    unfold indentOf; rw [h]; rfl
  have hm : (x.takeWhile isWs).length ∈ ls.filterMap indentOf := List.mem_filterMap.2 ⟨x, hx, hi⟩
  have hle : (commonIndent ls).getD 0 ≤ (x.takeWhile isWs).length := by
    unfold commonIndent
    cases hmin : (ls.filterMap indentOf).min? with
    | none => exact Nat.zero_le _
    | some m => exact (List.min?_eq_some_iff.1 hmin).2 _ hm
  rw [List.all_eq_true]
  intro c hc
  have : x.take ((commonIndent ls).getD 0) = (x.takeWhile isWs).take ((commonIndent ls).getD 0) := by
    conv_lhs => rw [← List.takeWhile_append_dropWhile (p := isWs) (l := x)]
    rw [List.take_append_of_le_length hle]
  rw [this] at hc
  exact List.mem_takeWhile_imp (List.mem_of_mem_take hc)

/-- Non-vacuity for C24. -/
example : commonIndent [cs! "    a", cs! "", cs! "  b"] = some 2 ∧
    joinLines (dedentLines [cs! "    a", cs! "", cs! "  b"]) = cs! "  a\n\nb\n" ∧
    (tokensFuel 20 (cs! "<<~'A'\n    a\n\n  b\n A\n")).lits =
      [(.String, some (cs! "  a\n\nb\n")), (.Newline, none), (.Eof, none)] := by decide +kernel

/-! ### C25 -/

/-- C25 is false of the code: a literal or an escaped newline that goes on on the next line reads the text of the heredoc
again, as does the string around an interpolated section. -/
theorem C25_false :
    (∃ ts, Lexes (cs! "f(<<'A', 'x\ny')\nA\n") ts ∧ ts.map Token.key = [(.BareName, some (cs! "f")), (.LParen, none),
      (.String, some (cs! "y')\n")), (.Comma, none), (.String, some (cs! "x\ny")), (.RParen, none), (.Newline, none),
      (.Eof, none)]) ∧
    (∃ ts, Lexes (cs! "<<'A'+\\\n1\nA\n2") ts ∧ ts.map Token.key = [(.String, some (cs! "1\n")), (.Plus, none),
      (.Fixnum, none), (.Newline, none), (.Fixnum, none), (.Eof, none)]) ∧
    ∃ ts, Lexes (cs! "\"#{<<'A'}\nx\nA\n\"") ts ∧ ts.map Token.key = [(.InterpolatedStringBegin, some ['"']),
      (.EvaluateToStringBegin, none), (.String, some (cs! "x\n")), (.EvaluateToStringEnd, none),
      (.String, some (cs! "\nx\nA\n")), (.InterpolatedStringEnd, none), (.Eof, none)] := by
  refine ⟨⟨_, .of_toks 40 _ ?_, ?_⟩, ⟨_, .of_toks 40 _ ?_, ?_⟩, ⟨_, .of_toks 40 _ ?_, ?_⟩⟩
  all_goals decide +kernel

/-- C25: up to the next `Newline` token the lexer keeps in mind where the heredocs of the line end, whatever it
reads; further heredocs are put in front. `_partial`: the rest of the line can reach beyond it, see `C25_false`. -/
theorem C25_remembers_partial (l : Lx) (o : Out) (hk : l.kind = .base) (h : l.step = .ok o) :
    o.lx.heredocStack = l.heredocStack ∨ o.tok.type = .Newline ∨
      (o.tok.type = .String ∨ o.tok.type = .InterpolatedStringBegin ∨ o.tok.type = .InterpolatedShellBegin) ∧
        ∃ k, o.lx.heredocStack = k :: l.heredocStack := by
  obtain ⟨b, hb, rfl⟩ := l.step_eq o h
  have hbb : l.start.buildBase = .ok b := by
    unfold Lx.build at hb
    rw [Lx.start_kind, hk] at hb
    exact hb
  have := (Mode.buildBase _ _ hbb).stack
  unfold Pending at this
  simpa using this

/-- C25: at the end of the line lexing goes on at the first byte after the terminator of the last heredoc.
`_partial`: if that has not been passed by, see `C25_false`. -/
theorem C25_resumes_partial (l : Lx) (ps : List Lx) (hk : l.kind = .base) (hst : l.stopChar = NUL ∨ l.stopChar = '}')
    (hsc : l.startChar ≠ '\n') (pre post : Str) (k : Nat) (r : List Nat) (hr : l.rest = pre ++ '\n' :: post)
    (hb : Spec.Blank pre) (hh : l.heredocStack = k :: r) (hle : l.cur.index + pre.length + 1 ≤ k) :
    ∃ t l', next (l :: ps) = .ok (t, l' :: ps) ∧ t.key = (.Newline, none) ∧ l'.rest = l.input.drop k ∧
      l'.cur.index = k ∧ l'.heredocStack = [] ∧ l'.input = l.input ∧ l'.kind = .base := by
  obtain ⟨h1, h2, h3, h4⟩ := base_start' l hk hst '\n' hsc pre _ hr hb rfl (by decide)
  have h5 : l.start.dispatch = .ok l.start.lexNewline := by
    unfold Lx.dispatch
    rw [h4]
    rfl
  have h6 : l.start.lexNewline = Out.mk (l.start.tk .Newline)
      { ((l.start.adv 1).adv (k - (l.start.adv 1).cur.index)) with heredocStack := [] } none := by
    unfold Lx.lexNewline
    rw [show l.start.heredocStack = k :: r from hh]
  rw [h5, h6] at h1
  have hi : ((l.start.adv 1).adv (k - (l.start.adv 1).cur.index)).cur.index = k := by
    have : l.start.cur.index = l.cur.index + pre.length := by
      rw [Lx.start_cur, Cursor.nextN_index, h3]
    simp only [Lx.adv_index]
    omega
  refine ⟨_, _, next_step l ps _ (step_of_build l _ h1) (fun h => by cases h), rfl, ?_, ?_, ?_, ?_, ?_⟩
  · unfold Lx.rest
    simp only [Lx.post_cur, Lx.post_input]
    rw [hi]
    rfl
  · simp only [Lx.post_cur]; exact hi
  · simp
  · simp
  · simp [hk]

/-- C25, and C23, for a heredoc at the end of its line: its tokens, a newline, and then what follows the terminator.
`_partial` as C23 and C25. -/
theorem C25_line_partial (l : Lx) (ps : List Lx) (hk : l.kind = .base) (hst : l.stopChar = NUL ∨ l.stopChar = '}')
    (hsc : l.startChar = NUL) (pre sign : Str) (q : Char) (id op sp z t after : Str) (n : Nat) (ls : List Str)
    (hr : l.rest = pre ++ (op ++ (sp ++ '\n' :: (joinLines ls ++ (z ++ t))))) (hb : Spec.Blank pre)
    (hh : l.heredocStack = []) (ho : Opener sign q id op)
    (hctx : pre ≠ [] ∨ sign ≠ [] ∨ l.lastType ∈ heredocAfter) (hsp : ∀ c ∈ sp, c = ' ')
    (hl : ∀ x ∈ ls, '\n' ∉ x ∧ ¬Closes (dashOf sign) id x) (ht : LineEnd t after n)
    (hz : ∃ sp, z = sp ++ id ∧ (∀ b ∈ sp, b = ' ') ∧ (sign = [] → sp = [])) (hd : Dedentable sign ls)
    (bs : Str) (hv : q = '\'' ∧ bs = heredocText sign ls ∨ q ≠ '\'' ∧ Content NUL NUL (heredocText sign ls) bs []) :
    ∃ ts st t l' qs, ts.map Token.key = heredocKeys q bs ∧ Emits (l :: ps) ts st ∧
      next st = .ok (t, l' :: qs) ∧ t.key = (.Newline, none) ∧ l'.rest = after ∧ l'.heredocStack = [] := by
  have hspn : '\n' ∉ sp := fun h => absurd (hsp _ h) (by decide)
  have hbsp : ∀ sp : Str, (∀ c ∈ sp, c = ' ') → Spec.Blank sp := by
    intro sp hsp
    induction sp with
    | nil => exact .nil
    | cons c sp ih =>
      have hc := hsp c (by simp)
      subst hc
      exact .space _ (ih fun c hc => hsp c (List.mem_cons_of_mem _ hc))
  obtain ⟨ts, l', k, g1, g2, ⟨g3, g4⟩, g5, g6, -⟩ := C23_text_partial l ps hk hst (by rw [hsc]; decide) pre sign q id op
    (sp ++ '\n' :: (joinLines ls ++ (z ++ t))) z t after n ls hr hb ho (by
      intro _ c r hc
      cases sp with
      | nil => cases hc; decide
      | cons d sp =>
        have := hsp d (by simp)
        subst this
        cases hc
        decide) hctx (.nextLine sp hh hspn rfl) hl ht hz hd bs hv
  have hlt := g6 sp _ hh hspn rfl
  have hrest : l'.rest = sp ++ '\n' :: (joinLines ls ++ (z ++ t)) := by
    have := g3.rest
    rw [hr, ← List.append_assoc, List.drop_left' (by simp)] at this
    exact this
  obtain ⟨lt, qs, f1, f2⟩ := setLast_head ((ts.map (·.type)).getLastD .Invalid) l' ps
  rw [f1] at g2
  obtain ⟨t', l'', n1, n2, n3, n4, n5, -⟩ := C25_resumes_partial { l' with lastType := lt } qs (g3.kind.trans hk)
    (by rw [show l'.stopChar = l.stopChar from g3.stop]; exact hst)
    (by rw [show l'.startChar = l.startChar from g3.start, hsc]; decide)
    sp _ k l.heredocStack hrest (hbsp sp hsp) g4 (by simp only; omega)
  refine ⟨ts, _, t', l'', qs, g1, g2, n1, n2, ?_, n5⟩
  rw [n3, ← g5]
  exact congrArg (List.drop k) g3.input

/-- Non-vacuity for C25. -/
example : (tokensFuel 40 (cs! "f(<<A, <<-'B') \na\nA\nb\n B\nc")).lits =
    [(.BareName, some (cs! "f")), (.LParen, none), (.InterpolatedStringBegin, none), (.String, some (cs! "a\n")),
     (.InterpolatedStringEnd, none), (.Comma, none), (.String, some (cs! "b\n")), (.RParen, none), (.Newline, none),
     (.BareName, some (cs! "c")), (.Eof, none)] := by decide +kernel

end NP
