import Verif.Proofs.Open
import Verif.Proofs.Quoted
import Verif.Props.Quoted
import Verif.Props.Nesting

/-! Property C27: literals that are open at the end of the input are reported. -/

namespace NP
open Spec

/-- The vector ends in an error token. -/
def EndsInError (ts : List Token) : Prop := ∃ t, ts.getLast? = some t ∧ isError t.type = true

theorem Filt.step_bad (f : Filt) (t : Token) (h : t.type.isValid = false) :
    ∃ f' t', f.step t = (f', some t') ∧ t'.type = t.type ∧ f'.out.head? = some t' := by
  cases hf : f.step t with
  | mk f' o =>
    unfold Filt.step at hf
    have e1 : t.type ≠ .Comment := by intro e; rw [e] at h; cases h
    have e2 : t.type ≠ .Doc := by intro e; rw [e] at h; cases h
    have e3 : ¬ (f.skip = true ∧ t.type = .Newline) := by rintro ⟨-, e⟩; rw [e] at h; cases h
    rw [if_neg e1, if_neg e2, if_neg e3] at hf
    dsimp only at hf
    split at hf
    · split at hf
      · cases hf; exact ⟨_, _, rfl, rfl, rfl⟩
      · split at hf <;> cases hf <;> exact ⟨_, _, rfl, rfl, rfl⟩
    · cases hf; exact ⟨_, _, rfl, rfl, rfl⟩

/-- An error token ends the vector. -/
theorem Visits.bad {src : Str} {l : Lx} {ps st : List Lx} {f : Filt} {t : Token} {ts : List Token}
    (hv : Visits src (l :: ps) f) (hn : nextToken l ps = .ok (t, st)) (ht : t.type.isValid = false)
    (h : Lexes src ts) : ts.getLast?.map (·.type) = some t.type := by
  obtain ⟨fuel, h⟩ := hv.lexes h
  cases fuel with
  | zero => cases h
  | succ fuel =>
    obtain ⟨f', t', h1, h2, h3⟩ := f.step_bad t ht
    unfold tokensLoop at h
    simp only [hn, h1] at h
    rw [if_pos (.inr (by rw [h2, ht]; rfl))] at h
    cases h
    simp [h3, h2]

/-- C27 for all literals with a lexer of their own. Whenever, at some point of tokenising, such a literal is open and
its closing delimiter does not occur in the rest of the source any more, the vector ends in an error token; whatever
else stands there, in particular nested interpolated sections and literals in them. `_partial`: missing are literals
whose delimiter does occur, escaped, nested or in other literals (without interpolation they are covered by
`C27_content_partial` below), and the symbols of `C27_false`. -/
theorem C27_open_partial (src : Str) (st : List Lx) (f : Filt) (c : Lx) (ts : List Token) (hv : Visits src st f)
    (hc : c ∈ st) (hk : c.kind.isOpen = true) (hs : c.stopChar ≠ NUL) (hr : c.stopChar ∉ c.rest) (h : Lexes src ts) :
    EndsInError ts := by
  cases st with
  | nil => cases hc
  | cons l ps =>
    obtain ⟨fuel, h'⟩ := hv.lexes h
    obtain ⟨t, h1, h2⟩ := tokensLoop_open fuel l ps f ts hv.stackOk ⟨c, hc, hk, hs, hr⟩ h'
    exact ⟨t, h1, by rw [isError_eq, h2]; rfl⟩

/-- The letters of `%` literals with a lexer of their own. -/
def percentLetters : List Char := ['Q', 'r', 'x', 'w', 'W', 'i', 'I']

/-- How literals with a lexer of their own begin, and the byte that closes them. -/
inductive Opener : Str → Char → Prop where
  | double : Opener ['"'] '"'
  | symbol : Opener [':', '"'] '"'
  | percent (a b : Char) (h : Delims a b) (ha : a ≠ '=') : Opener ['%', a] b
  | letter (x a b : Char) (hx : x ∈ percentLetters) (h : Delims a b) : Opener ['%', x, a] b

theorem opener_child (l : Lx) (op text : Str) (b : Char) (h : Opener op b) (hrem : l.remaining = 0)
    (hr : l.rest = op ++ text) (hsym : op.head? = some ':' → l.lastType ≠ .InterpolatedStringEnd) :
    ∃ o c, l.dispatch = .ok o ∧ plainType o.tok.type = true ∧ o.child = some c ∧ c.kind.isOpen = true ∧
      c.stopChar = b ∧ c.rest = text := by
  have dq : ∀ n a b t e, n = op.length → plainType t = true → l.dispatch = .ok (l.doubleQuoted n a b t e) →
      ∃ o c, l.dispatch = .ok o ∧ plainType o.tok.type = true ∧ o.child = some c ∧ c.kind.isOpen = true ∧
      c.stopChar = b ∧ c.rest = text := by
    intro n a b t e hn ht hd
    refine ⟨_, _, hd, ht, rfl, rfl, rfl, ?_⟩
    show (l.adv n).rest = _
    rw [Lx.adv_rest, hr, hn, List.drop_left]
  have wa : ∀ n a b i t, n = op.length → plainType t = true → l.dispatch = .ok (l.wordArray n a b i t) →
      ∃ o c, l.dispatch = .ok o ∧ plainType o.tok.type = true ∧ o.child = some c ∧ c.kind.isOpen = true ∧
      c.stopChar = b ∧ c.rest = text := by
    intro n a b i t hn ht hd
    refine ⟨_, _, hd, ht, rfl, rfl, rfl, ?_⟩
    show (l.adv n).rest = _
    rw [Lx.adv_rest, hr, hn, List.drop_left]
  have re : ∀ n a b, n = op.length → l.dispatch = .ok (l.regexp n a b) →
      ∃ o c, l.dispatch = .ok o ∧ plainType o.tok.type = true ∧ o.child = some c ∧ c.kind.isOpen = true ∧
      c.stopChar = b ∧ c.rest = text := by
    intro n a b hn hd
    refine ⟨_, _, hd, rfl, rfl, rfl, rfl, ?_⟩
    show (l.adv n).rest = _
    rw [Lx.adv_rest, hr, hn, List.drop_left]
  have ch : ∀ k, l.ch k = (op ++ text).ch k := by intro k; unfold Lx.ch; rw [hr]
  cases h with
  | double => exact dq _ _ _ _ _ rfl rfl (dispatch_quote _ (ch 0))
  | symbol =>
    refine dq 2 '"' '"' .InterpolatedSymbolBegin .InterpolatedSymbolEnd rfl rfl ?_
    unfold Lx.dispatch
    rw [ch 0]
    show Res.ok l.lexColon = _
    unfold Lx.lexColon
    rw [ch 1, show List.ch ([':', '"'] ++ text) 1 = '"' from rfl]
    dsimp only
    rw [if_neg (show ¬ ('"' : Char) = ':' by decide), if_neg (fun h => hsym rfl h.1)]
    rfl
  | percent a b h ha =>
    refine dq 2 a b .InterpolatedStringBegin .InterpolatedStringEnd rfl rfl ?_
    rw [dispatch_percent _ (ch 0)]
    have e2 := percentString_delims l 2 .Q a b hrem (ch 1) h
    unfold Lx.lexPercent
    rw [e2, ch 1]
    have e : List.ch (['%', a] ++ text) 1 = a := rfl
    rw [e]
    have hd : ∀ x ∈ ['q', 'Q', 'r', 's', 'x', 'w', 'W', 'i', 'I'], a ≠ x := by
      intro x hx
      cases h with
      | same c h =>
        rintro rfl
        exact absurd h ((by decide : ∀ x ∈ ['q', 'Q', 'r', 's', 'x', 'w', 'W', 'i', 'I'], x ∉ ['!', '"', '#', '$', '%',
          '&', '\'', ')', '*', '+', ',', '-', '.', '/', ':', ';', '=', '?', '@', '\\', '^', '_', '`', '|', '~']) _ hx)
      | _ => rintro rfl; exact absurd hx (by decide)
    simp only
    rw [if_neg ha, if_neg (hd _ (by decide)), if_neg (hd _ (by decide)), if_neg (hd _ (by decide)),
      if_neg (hd _ (by decide)), if_neg (hd _ (by decide)), if_neg (hd _ (by decide)), if_neg (hd _ (by decide)),
      if_neg (hd _ (by decide)), if_neg (hd _ (by decide))]
    rfl
  | letter x a b hx h =>
    have e2 := fun k => percentString_delims l 3 k a b hrem (ch 2) h
    have hd := dispatch_percent l (ch 0)
    unfold Lx.lexPercent at hd
    rw [ch 1, show List.ch (['%', x, a] ++ text) 1 = x from rfl] at hd
    simp only [percentLetters, List.mem_cons, List.not_mem_nil, or_false] at hx
    rcases hx with rfl | rfl | rfl | rfl | rfl | rfl | rfl
    · exact dq 3 a b _ _ rfl rfl (hd.trans (congrArg Res.ok (e2 .Q)))
    · exact re 3 a b rfl (hd.trans (congrArg Res.ok (e2 .r)))
    · exact dq 3 a b _ _ rfl rfl (hd.trans (congrArg Res.ok (e2 .x)))
    · exact wa 3 a b _ _ rfl rfl (hd.trans (congrArg Res.ok (e2 .w)))
    · exact wa 3 a b _ _ rfl rfl (hd.trans (congrArg Res.ok (e2 .W)))
    · exact wa 3 a b _ _ rfl rfl (hd.trans (congrArg Res.ok (e2 .i)))
    · exact wa 3 a b _ _ rfl rfl (hd.trans (congrArg Res.ok (e2 .I)))

theorem Opener.head {op : Str} {b : Char} (h : Opener op b) (text : Str) :
    ∃ c, (op ++ text).ch 0 = c ∧ c ≠ ' ' ∧ c ≠ '\t' ∧ c ≠ '\\' ∧ c ≠ '\xEF' ∧ c ≠ '}' ∧ c ≠ NUL ∧ c ≠ '{' ∧
      op.head? = some c := by
  cases h with
  | double => exact ⟨'"', rfl, by decide⟩
  | symbol => exact ⟨':', rfl, by decide⟩
  | percent a b h ha => exact ⟨'%', rfl, by decide, by decide, by decide, by decide, by decide, by decide, by decide, rfl⟩
  | letter x a b hx h => exact ⟨'%', rfl, by decide, by decide, by decide, by decide, by decide, by decide, by decide, rfl⟩

/-- C27 read from the text: a literal begins where tokenising has come to, and its closing byte does not occur behind it.
The object `l` is the program's or an interpolated section's. -/
theorem C27_literal_partial (src : Str) (l : Lx) (ps : List Lx) (f : Filt) (pre op text : Str) (b : Char)
    (ts : List Token) (hv : Visits src (l :: ps) f) (hk : l.kind = .base) (hst : l.stopChar = NUL ∨ l.stopChar = '}')
    (hsc : l.startChar = NUL ∨ l.startChar = '{') (hrem : l.remaining = 0) (hr : l.rest = pre ++ (op ++ text))
    (hb : Spec.Blank pre) (ho : Opener op b) (hsym : op.head? = some ':' → l.lastType ≠ .InterpolatedStringEnd)
    (hm : b ∉ text) (hb0 : b ≠ NUL) (h : Lexes src ts) : EndsInError ts := by
  obtain ⟨c, hc0, hc1, hc2, hc3, hc4, hc5, hc6, hc7, hc8⟩ := ho.head text
  obtain ⟨h1, h2, h3, h4⟩ := base_start' l hk hst c
    (by rcases hsc with e | e <;> rw [e] <;> [exact hc6.symm; exact hc7.symm]) pre _ hr hb hc0
    ⟨hc1, hc2, hc3, hc4, hc5, hc6⟩
  obtain ⟨o, d, g1, g2, g3, g4, g5, g6⟩ := opener_child l.start op text b ho hrem h2 hsym
  rw [g1] at h1
  have hn := next_step l ps _ (step_of_build l _ h1) (plain_facts g2).2.2.2.1
  have hn' : nextToken l ps = _ := hn
  rw [show ({ o with lx := o.lx.post o.tok.type } : Out).child = some d from g3] at hn'
  have hf := f.step_plain o.tok g2
  have hv' : ∃ st f', Visits src st f' ∧ d ∈ st := by
    cases hs : f.step o.tok with
    | mk f' t' =>
      have hsome : ∃ t'', t' = some t'' ∧ t''.type = o.tok.type := by
        cases t' with
        | none =>
          obtain ⟨_, _, hf, -⟩ := hf
          rw [hs] at hf
          cases hf
        | some t'' => exact ⟨t'', rfl, Filt.step_type f o.tok t'' (by rw [hs])⟩
      obtain ⟨t'', rfl, hty⟩ := hsome
      refine ⟨_, f', .pushed l ps _ f f' o.tok t'' hv hn' hs ?_, ?_⟩
      · rw [hty]; exact ⟨(plain_facts g2).2.2.2.1, (plain_facts g2).2.2.2.2⟩
      · show d ∈ setLast _ (d :: _ :: ps)
        rw [setLast]
        exact List.mem_cons_self
  obtain ⟨st, f', hv', hd⟩ := hv'
  exact C27_open_partial src st f' d ts hv' hd g4 (by rw [g5]; exact hb0) (by rw [g5, g6]; exact hm) h

theorem singleQuoted_open (start stop : Char) (s : Str) (h : stop ∉ s) : ∀ depth, (singleQuoted start stop depth s).1 = none := by
  induction hl : s.length using Nat.strong_induction_on generalizing s with
  | _ n ih =>
    intro depth
    rw [singleQuoted.eq_def]
    split
    · rfl
    · rename_i c cs
      split
      · rfl
      split
      · split
        · rfl
        · rename_i d ds
          have := ih ds.length (by simp at hl; omega) ds (fun hm => h (by simp [hm])) rfl depth
          simp only
          split <;> simp [this]
      have h1 := fun dep => ih cs.length (by simp at hl; omega) cs (fun hm => h (by simp [hm])) rfl dep
      split
      · simp [h1]
      split
      · rename_i e
        exact absurd e (fun e => h (by simp [e]))
      · simp [h1]

/-- C27 for `'...'`. -/
theorem C27_single_partial (src : Str) (l : Lx) (ps : List Lx) (f : Filt) (pre text : Str)
    (ts : List Token) (hv : Visits src (l :: ps) f) (hk : l.kind = .base) (hst : l.stopChar = NUL ∨ l.stopChar = '}')
    (hsc : l.startChar ≠ '\'') (hr : l.rest = pre ++ '\'' :: text) (hb : Spec.Blank pre) (hm : '\'' ∉ text)
    (h : Lexes src ts) : ts.getLast?.map (·.type) = some .UnterminatedString := by
  obtain ⟨h1, h2, h3, h4⟩ := base_start' l hk hst '\'' hsc pre _ hr hb rfl (by decide)
  rw [dispatch_single _ h4] at h1
  have e : (singleQuoted '\'' '\'' 0 (l.start.rest.drop 1)).1 = none :=
    singleQuoted_open _ _ _ (by rw [h2]; exact hm) 0
  have e2 : ∃ k, l.start.singleQuotedString 1 '\'' '\'' = l.start.opLit k .UnterminatedString ['\''] := by
    unfold Lx.singleQuotedString
    cases hq : singleQuoted '\'' '\'' 0 (l.start.rest.drop 1) with
    | mk a k => rw [hq] at e; cases e; exact ⟨_, rfl⟩
  obtain ⟨k, e2⟩ := e2
  rw [e2] at h1
  have hn := next_step l ps _ (step_of_build l _ h1) (by simp [Lx.opLit, Lx.tkLit, Lx.tk])
  exact hv.bad hn rfl h

/-! ### Delimiters that do not close -/

/-- `Unclosed start stop text`: the text contains no interpolation and no unescaped closing delimiter except those that
close a pair opened in it. -/
inductive Unclosed (start stop : Char) : Str → Prop where
  | here (t bs : Str) (h : Content start stop t bs []) : Unclosed start stop t
  | deeper (t bs rest : Str) (h : Content start stop t bs (start :: rest))
      (hs : start ≠ NUL ∧ start ≠ '\\' ∧ start ≠ '#' ∧ start ≠ stop) (hr : Unclosed start stop rest) :
      Unclosed start stop (t ++ start :: rest)

theorem interpLoop_unclosed {start stop : Char} {text : Str} (h : Unclosed start stop text) :
    ∀ (fuel depth : Nat) (buf : Str) (n : Nat), text.length < fuel →
    ∃ b d m, interpLoop start stop fuel depth buf n text = .eos b d m := by
  induction h with
  | here t bs h =>
    intro fuel depth buf n hf
    obtain ⟨f', g1, g2⟩ := interpLoop_content h fuel depth buf n (by simpa using hf)
    rw [List.append_nil] at g2
    rw [g2]
    obtain ⟨f, rfl⟩ : ∃ f, f' = f + 1 := ⟨f' - 1, by simp at g1; omega⟩
    exact ⟨buf ++ bs, depth, n + t.length, by rw [interpLoop]; simp [List.ch_nil]⟩
  | deeper t bs rest h hs hr ih =>
    intro fuel depth buf n hf
    obtain ⟨f', g1, g2⟩ := interpLoop_content h fuel depth buf n (by simpa using hf)
    rw [g2]
    obtain ⟨f, rfl⟩ : ∃ f, f' = f + 1 := ⟨f' - 1, by simp at g1; omega⟩
    rw [interpLoop]
    simp only [List.ch_cons_zero]
    rw [if_neg hs.1, if_neg (fun h => hs.2.1 h.1), if_neg (fun h => hs.2.2.1 h.1), if_pos ⟨trivial, hs.2.2.2⟩]
    exact ih _ _ _ _ (by simp at g1 ⊢; omega)

/-- C27 for strings, shell strings and symbols with interpolation: the rest of the source contains closing delimiters
only escaped or in pairs. -/
theorem C27_content_partial (src : Str) (c : Lx) (ps : List Lx) (f : Filt) (e : Ttype) (a : Bool) (ts : List Token)
    (hv : Visits src (c :: ps) f) (hk : c.kind = .istr .InProgress e a) (hs : c.stopChar ≠ NUL)
    (hr : Unclosed c.startChar c.stopChar c.rest) (h : Lexes src ts) :
    ts.getLast?.map (·.type) = some .UnterminatedString := by
  have hnb : c.kind ≠ .base := by rw [hk]; simp
  have hst := nested_start c hnb
  have hrest : c.start.rest = c.rest := by rw [hst]; rfl
  obtain ⟨b, d, m, hl⟩ := interpLoop_unclosed hr (c.rest.length + 1) c.pairDepth [] 0 (by omega)
  have hb : ∃ o, c.start.build = .ok o ∧ o.tok.type = .UnterminatedString ∧ o.child = none := by
    unfold Lx.build
    rw [Lx.start_kind, hk]
    simp only [Lx.buildIstr, Lx.istrConsume]
    rw [hrest, show c.start.startChar = c.startChar from rfl, show c.start.stopChar = c.stopChar from rfl,
      show c.start.pairDepth = c.pairDepth from rfl, hl]
    simp only
    rw [if_neg (by simpa using hs)]
    exact ⟨_, rfl, rfl, rfl⟩
  obtain ⟨o, hb, ht, hc⟩ := hb
  have hn := next_step c ps _ (step_of_build c _ hb) (by simp [ht])
  rw [← ht]
  exact hv.bad hn (by simp only [ht]; rfl) h

/-- C27 fails for quoted symbols: `:'abc` and `%s(abc` are accepted. -/
theorem C27_false : (tokensFuel 20 (cs! ":'abc")).lits = [(.Symbol, some (cs! "'")), (.Eof, none)] ∧
    (tokensFuel 20 (cs! "%s(abc")).lits = [(.Symbol, some (cs! "(")), (.Eof, none)] := by decide +kernel

/-- The state of the loop of `tokens()` after some iterations (for examples). -/
def visitN (src : Str) : Nat → Option (List Lx × Filt)
  | 0 => some ([Lx.init src], {})
  | n + 1 =>
    match visitN src n with
    | some (l :: ps, f) =>
      match nextToken l ps with
      | .ok (t, st) =>
        match f.step t with
        | (f', none) => some (st, f')
        | (f', some t') => if t'.type ≠ .Eof ∧ t'.type.isValid = true then some (setLast t'.type st, f') else none
      | _ => none
    | _ => none

theorem visitN_visits (src : Str) (n : Nat) : ∀ r, visitN src n = some r → Visits src r.1 r.2 := by
  induction n with
  | zero => intro r h; cases h; exact .init
  | succ n ih =>
    intro r h
    unfold visitN at h
    split at h
    · rename_i l ps f hq
      split at h
      · rename_i t st hn
        split at h
        · rename_i f' hf
          cases h
          exact .dropped l ps st f f' t (ih _ hq) hn hf
        · rename_i f' t' hf
          split at h
          · rename_i hc
            cases h
            exact .pushed l ps st f f' t t' (ih _ hq) hn hf hc
          · cases h
      · cases h
    · cases h

/-- Non-vacuity for C27: an open literal that encloses an interpolated section with a string in it. -/
example : ∃ st f, Visits (cs! "%(a#{\"b\"") st f ∧ ∃ c ∈ st, c.kind.isOpen = true ∧ c.stopChar = ')' ∧
    c.stopChar ∉ c.rest := by
  have h : (visitN (cs! "%(a#{\"b\"") 4).any (fun r => r.1.any fun c => decide (c.kind.isOpen = true ∧ c.stopChar = ')' ∧
    c.stopChar ∉ c.rest)) = true := by decide +kernel
  obtain ⟨h1, h2⟩ := (Option.any_eq_true_iff_get _ _).1 h
  obtain ⟨c, hc, h3⟩ := List.any_eq_true.1 h2
  exact ⟨_, _, visitN_visits _ 4 _ (Option.some_get _).symm, c, hc, of_decide_eq_true h3⟩

example : (tokensFuel 20 (cs! "%(a#{\"b\"")).types = [.InterpolatedStringBegin, .String, .EvaluateToStringBegin,
    .InterpolatedStringBegin, .String, .InterpolatedStringEnd, .EvaluateToStringEnd, .UnterminatedString] := by
  decide +kernel

example : Unclosed '(' ')' (cs! "a((b)\\)") :=
  .deeper (cs! "a") (cs! "a") (cs! "(b)\\)") (.plain _ _ _ _ (by decide) (by decide) (by decide) (by decide) (by decide) (.nil _))
    (by decide) (.here _ _ (.pair (cs! "b") (cs! "b") (cs! "\\)") (cs! ")") _ (by decide) (by decide) (by decide) (by decide) (by decide)
      (.plain _ _ _ _ (by decide) (by decide) (by decide) (by decide) (by decide) (.nil _))
      (.escape (cs! ")") (cs! ")") _ _ _ (by decide) (.itself _ _ (by decide)) (.nil _))))

end NP
