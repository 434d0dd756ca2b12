import Verif.Spec.Ruby
import Verif.Props.Abort
import Verif.Props.Parse
import Verif.Props.Places

/-! C50: what `NatalieParser.tokens` gives to Ruby. Spec: Verif/Spec/Ruby.lean. -/

namespace NP
open Spec

theorem value_of_valid {t : Ttype} (h : isError t = false) : ∃ ty, t.value = some ty := by
  cases t <;> first | exact ⟨_, rfl⟩ | cases h

theorem validateError_isError (t : Token) : (t.validateError.isSome = true) ↔ isError t.type = true := by
  obtain ⟨ty, _, _, _, _, _, _, _⟩ := t
  cases ty <;> simp [Token.validateError, isError]

/-- The fields of `Describes` that speak about the literal. -/
def LitEntry (t : Token) (l : RHash) : Prop :=
  (l = [] ∧ t.type ∉ [Ttype.Bignum, .String] ∧ t.type ∉ namesThing ∧ t.type ∉ [Ttype.Fixnum, .NthRef] ∧ t.type ≠ .Float ∧
    (t.type = .InterpolatedRegexpEnd → t.lit = none)) ∨
  (∃ s, l = [(cs! "literal", .str s)] ∧ t.type ∈ [Ttype.Bignum, .String] ∧ t.lit = some s) ∨
  (∃ s, l = [(cs! "literal", .sym s)] ∧ t.type ∈ namesThing ∧ t.lit = some s) ∨
  (l = [(cs! "literal", .int t.fix)] ∧ t.type ∈ [Ttype.Fixnum, .NthRef]) ∨
  (l = [(cs! "literal", .float t.flt)] ∧ t.type = .Float) ∨
  ∃ s, l = [(cs! "options", .str s)] ∧ t.type = .InterpolatedRegexpEnd ∧ t.lit = some s

theorem literalEntry_ok (t : Token) (hl : LitOk t) (hd : t.type ≠ .Doc) :
    (∃ l, literalEntry t = .value l ∧ LitEntry t l ∧ ¬ BadName t) ∨ (literalEntry t = .encodingError ∧ BadName t) := by
  obtain ⟨ty, lit, _, _, _, _, _, _⟩ := t
  have hn : needsLit ty = true → lit ≠ none := hl
  cases lit with
  | none =>
    cases ty <;> first
      | exact absurd rfl hd
      | exact absurd rfl (hn rfl)
      | (refine .inl ⟨_, rfl, ?_⟩; simp [LitEntry, namesThing, BadName])
  | some s =>
    cases hu : isUtf8 s
    · cases ty <;> first
        | exact absurd rfl hd
        | (refine .inl ⟨_, rfl, ?_⟩; simp [LitEntry, namesThing, BadName])
        | exact .inr ⟨by simp [literalEntry, hu], by simp [namesThing], s, rfl, hu⟩
    · cases ty <;> first
        | exact absurd rfl hd
        | (refine .inl ⟨_, rfl, ?_⟩; simp [LitEntry, namesThing, BadName])
        | (refine .inl ⟨[(cs! "literal", .sym s)], by simp [literalEntry, hu], ?_⟩; simp [LitEntry, namesThing, BadName, hu])

theorem LitEntry.describes {loc : Bool} {t : Token} {ty : Str} {l : RHash} (hty : t.type.value = some ty) (h : LitEntry t l) :
    Describes loc t ((cs! "type", .sym ty) :: l ++
      if loc then [(cs! "line", .int t.line), (cs! "column", .int t.col)] else []) := by
  have h1 : namesThing = [.BackRef, .BareName, .ClassVariable, .Constant, .GlobalVariable, .InstanceVariable, .OperatorName,
    .Symbol, .SymbolKey] := rfl
  rcases h with ⟨rfl, h⟩ | ⟨s, rfl, h2, h3⟩ | ⟨s, rfl, h2, h3⟩ | ⟨rfl, h2⟩ | ⟨rfl, h2⟩ | ⟨s, rfl, h2, h3⟩
  · constructor <;> cases loc <;> simp [List.lookup, hty] <;> simp_all
  · constructor <;> cases loc <;> simp [List.lookup, hty, h3] <;> simp at h2 <;> rcases h2 with h2 | h2 <;> simp [h2, namesThing, eq_comm]
  · constructor <;> cases loc <;> simp [List.lookup, hty, h3] <;> simp only [h1, List.mem_cons, List.not_mem_nil, or_false] at h2 <;>
      rcases h2 with h2 | h2 | h2 | h2 | h2 | h2 | h2 | h2 | h2 <;> simp [h2, namesThing, eq_comm]
  · constructor <;> cases loc <;> simp [List.lookup, hty] <;> simp at h2 <;> rcases h2 with h2 | h2 <;> simp [h2, namesThing]
  · constructor <;> cases loc <;> simp [List.lookup, hty] <;> simp [h2, namesThing]
  · constructor <;> cases loc <;> simp [List.lookup, hty, h3] <;> simp [h2, namesThing, eq_comm]

/-- One token that is not the last: its hash describes it, or its name is not UTF-8. -/
theorem tokenToRuby_ok (loc : Bool) (t : Token) (ht : ¬ Terminal t.type) (hl : LitOk t) (hd : t.type ≠ .Doc) :
    (∃ h, tokenToRuby loc t = .value (some h) ∧ Describes loc t h ∧ ¬ BadName t) ∨ (tokenToRuby loc t = .encodingError ∧ BadName t) := by
  have he : t.type ≠ .Eof := fun e => ht (.inl e)
  have hi : isError t.type = false := by simpa using fun e => ht (.inr e)
  have hv : t.validateError = none := by
    have := validateError_isError t
    rw [hi] at this
    simpa using this
  obtain ⟨ty, hty⟩ := value_of_valid hi
  unfold tokenToRuby
  rw [if_neg he, hv, hty]
  rcases literalEntry_ok t hl hd with ⟨l, e, h, hb⟩ | ⟨e, h⟩
  · rw [e]
    exact .inl ⟨_, rfl, h.describes hty, hb⟩
  · rw [e]
    exact .inr ⟨rfl, h⟩

/-- The tokens before the last, and a rest. -/
theorem tokensToRuby_append (loc : Bool) (ts : List Token)
    (h : ∀ t ∈ ts, ¬ Terminal t.type ∧ LitOk t ∧ t.type ≠ .Doc) (us : List Token) :
    (∃ hs, List.Forall₂ (Describes loc) ts hs ∧ (∀ t ∈ ts, ¬ BadName t) ∧ tokensToRuby loc (ts ++ us) =
      match tokensToRuby loc us with
      | .value r => .value (hs ++ r)
      | r => r) ∨
    (tokensToRuby loc (ts ++ us) = .encodingError ∧ ∃ t ∈ ts, BadName t) := by
  induction ts with
  | nil =>
    refine .inl ⟨[], .nil, nofun, ?_⟩
    rw [List.nil_append]
    cases tokensToRuby loc us <;> rfl
  | cons t ts ih =>
    obtain ⟨h1, h2, h3⟩ := h t (by simp)
    rcases tokenToRuby_ok loc t h1 h2 h3 with ⟨x, e, hx, hb⟩ | ⟨e, hx⟩
    · rcases ih (fun u hu => h u (by simp [hu])) with ⟨hs, i1, i2, i3⟩ | ⟨i1, u, hu, i2⟩
      · refine .inl ⟨x :: hs, .cons hx i1, by simpa [hb] using i2, ?_⟩
        rw [List.cons_append, tokensToRuby, e]
        dsimp only
        rw [i3]
        cases tokensToRuby loc us <;> simp
      · refine .inr ⟨?_, u, by simp [hu], i2⟩
        rw [List.cons_append, tokensToRuby, e]
        dsimp only
        rw [i1]
    · refine .inr ⟨?_, t, by simp, hx⟩
      rw [List.cons_append, tokensToRuby, e]

/-- How the last token is treated. -/
theorem tokensToRuby_last (loc : Bool) (t : Token) (h : Terminal t.type) :
    (t.type = .Eof ∧ tokensToRuby loc [t] = .value []) ∨
    (isError t.type = true ∧ ∃ m, t.validateError = some m ∧ tokensToRuby loc [t] = .syntaxError m) := by
  rcases h with h | h
  · exact .inl ⟨h, by simp [tokensToRuby, tokenToRuby, h]⟩
  · have hv := (validateError_isError t).2 h
    obtain ⟨m, hm⟩ := Option.isSome_iff_exists.1 hv
    have he : t.type ≠ .Eof := by
      intro e
      rw [e] at h
      cases h
    exact .inr ⟨h, m, hm, by simp [tokensToRuby, tokenToRuby, he, hm]⟩

/-- C50: whenever the lexer returns a vector, `NatalieParser.tokens` returns the array of one hash for each of its tokens
but the last, in order, and the last token is the end of the source; or it raises `SyntaxError` because the last token is an
error token; or it raises `EncodingError` because of a name that is not UTF-8. The three cases exclude each other, and no
assertion fails. -/
theorem C50 (code : Str) (loc : Bool) (r : ROut (List RHash)) (ts : List Token) (h : RubyTokens code loc r)
    (hl : Lexes code ts) (hn : NUL ∉ code) :
    ∃ init last, ts = init ++ [last] ∧
      ((∃ hs, r = .value hs ∧ last.type = .Eof ∧ List.Forall₂ (Describes loc) init hs ∧ ∀ t ∈ init, ¬ BadName t) ∨
       (∃ m, r = .syntaxError m ∧ isError last.type = true ∧ last.validateError = some m ∧ ∀ t ∈ init, ¬ BadName t) ∨
       (r = .encodingError ∧ ∃ t ∈ init, BadName t)) := by
  obtain ⟨init, last, e, ht, hi⟩ := C02_one_terminal code ts hl
  refine ⟨init, last, e, ?_⟩
  have hr : r = tokensToRuby loc ts := by
    cases h with
    | nul h => exact absurd h hn
    | tokens _ us hu => rw [hl.unique hu]
    | abort _ hu => cases Ends.unique hl hu
    | ub _ hu => cases Ends.unique hl hu
  subst hr
  have ha : ∀ t ∈ init, ¬ Terminal t.type ∧ LitOk t ∧ t.type ≠ .Doc := fun t hm =>
    ⟨hi t hm, hl.litOk t (by simp [e, hm]), (C03_no_comments code ts hl t (by simp [e, hm])).2⟩
  subst e
  rcases tokensToRuby_append loc init ha [last] with ⟨hs, h1, h2, h3⟩ | h
  · rcases tokensToRuby_last loc last ht with ⟨h4, h5⟩ | ⟨h4, m, h5, h6⟩
    · rw [h5] at h3
      exact .inl ⟨hs, by simpa using h3, h4, h1, h2⟩
    · rw [h6] at h3
      exact .inr (.inl ⟨m, h3, h4, h5, h2⟩)
  · exact .inr (.inr h)

/-- C50: the call ends for every string, and in one way. `ArgumentError` is for strings with a NUL byte; failures of other
kinds than exceptions are those of the lexer (C19). -/
theorem C50_ends (code : Str) (loc : Bool) (hs : ∀ c ∈ code, c.toNat < 256) (hlen : code.length < 2 ^ 63) :
    ∃ r, RubyTokens code loc r ∧ (∀ r', RubyTokens code loc r' → r' = r) ∧ (r = .argumentError ↔ NUL ∈ code) ∧
      (r = .abort → HugeEscape code) ∧ (r = .ub → HugeRef code) := by
  have huniq : ∀ r r', RubyTokens code loc r → RubyTokens code loc r' → r' = r := by
    intro r r' h h'
    cases h <;> cases h' <;> first
      | rfl
      | contradiction
      | (rename_i h1 _ _ h2; cases Ends.unique h1 h2; rfl)
      | (rename_i h1 _ h2; cases Ends.unique h1 h2)
      | (rename_i h1 _ _ h2; cases Ends.unique h1 h2)
  by_cases hn : NUL ∈ code
  · exact ⟨_, .nul hn, fun r' h => huniq _ _ (.nul hn) h, by simpa using hn, nofun, nofun⟩
  · obtain ⟨q, hq, _⟩ := C01_terminates code hlen
    cases q with
    | ok ts =>
      have h := RubyTokens.tokens (loc := loc) hn ts hq
      refine ⟨_, h, fun r' h' => huniq _ _ h h', ?_⟩
      obtain ⟨_, _, _, h⟩ := C50 code loc _ ts h hq hn
      rcases h with ⟨hs, e, _⟩ | ⟨m, e, _⟩ | ⟨e, _⟩ <;> rw [e] <;> simp [hn]
    | abort =>
      have h := RubyTokens.abort (loc := loc) hn hq
      exact ⟨_, h, fun r' h' => huniq _ _ h h', by simpa using hn, fun _ => C19_abort_partial code hs hq, nofun⟩
    | ub =>
      have h := RubyTokens.ub (loc := loc) hn hq
      exact ⟨_, h, fun r' h' => huniq _ _ h h', by simpa using hn, nofun, fun _ => C19_ub_partial code hs hq⟩
    | fuel => obtain ⟨_, _, h⟩ := hq; exact absurd rfl h

/-- C50: a source that is parsed has tokens: if `tree()` returns, `NatalieParser.tokens` raises no `SyntaxError`, and
returns an array if the names are UTF-8. -/
theorem C50_parsed (code file : Str) (loc : Bool) (n : Node) (s : PS) (r : ROut (List RHash)) (hp : Parses code file (.ok n s))
    (h : RubyTokens code loc r) (hn : NUL ∉ code) :
    (∃ hs, r = .value hs) ∨ (r = .encodingError ∧ ∃ ts, Lexes code ts ∧ ∃ t ∈ ts, BadName t) := by
  obtain ⟨ts, hl, hr⟩ := hp.ok
  obtain ⟨init, last, e, hc⟩ := C50 code loc r ts h hl hn
  rcases hc with ⟨hs, e, _⟩ | ⟨m, _, he, _⟩ | ⟨e1, t, ht, hb⟩
  · exact .inl ⟨hs, e⟩
  · have hv := hl.vectorOk
    obtain ⟨i2, l2, e2, ht, hi⟩ := hv.shape
    rw [e2] at hv
    have hw := parse_run ⟨code, file⟩ i2 l2 hv ht hi (2 * ts.length + 2) (by rw [e2]; simp)
    unfold parseToks at hr
    unfold wp at hw
    rw [← e2, hr] at hw
    have hl2 : l2 = last := by
      rw [e] at e2
      exact (List.append_inj_right' e2 rfl |> List.cons.inj).1.symm
    rw [← hl2, hw.2.1] at he
    cases he
  · exact .inr ⟨e1, ts, hl, t, by simp [e, ht], hb⟩

/-- C50: asking for places changes nothing else. -/
theorem C50_places (code : Str) (r r' : ROut (List RHash)) (h : RubyTokens code true r) (h' : RubyTokens code false r') :
    r' = withoutPlaces r := by
  have ht : ∀ t, tokenToRuby false t = match tokenToRuby true t with
      | .value v => .value (v.map dropPlaces)
      | r => r := by
    intro t
    unfold tokenToRuby
    split
    · rfl
    · split
      · rfl
      · split
        · rfl
        · have hk : ∀ l, literalEntry t = .value l → l.filter (fun e => e.1 != cs! "line" && e.1 != cs! "column") = l := by
            intro l hl
            unfold literalEntry at hl
            repeat' split at hl
            all_goals cases hl
            all_goals rfl
          cases hl : literalEntry t with
          | value l => simp [dropPlaces, hk l hl]
          | _ => rfl
  have hts : ∀ ts, tokensToRuby false ts = withoutPlaces (tokensToRuby true ts) := by
    intro ts
    induction ts with
    | nil => rfl
    | cons t ts ih =>
      simp only [tokensToRuby, ht t]
      cases tokenToRuby true t with
      | value v =>
        dsimp only
        rw [ih]
        cases tokensToRuby true ts <;> cases v <;> simp [withoutPlaces]
      | _ => rfl
  cases h with
  | nul h => cases h' <;> first | rfl | contradiction
  | tokens hn ts hl =>
    cases h' with
    | nul h => exact absurd h hn
    | tokens _ us hu => rw [← hl.unique hu]; exact hts ts
    | abort _ hu => cases Ends.unique hl hu
    | ub _ hu => cases Ends.unique hl hu
  | abort hn hl =>
    cases h' with
    | nul h => exact absurd h hn
    | tokens _ us hu => cases Ends.unique hl hu
    | abort _ hu => rfl
    | ub _ hu => cases Ends.unique hl hu
  | ub hn hl =>
    cases h' with
    | nul h => exact absurd h hn
    | tokens _ us hu => cases Ends.unique hl hu
    | abort _ hu => cases Ends.unique hl hu
    | ub _ hu => rfl

/-- The types that look alike in Ruby: heredocs and strings with interpolation. -/
def Spec.AlikeTypes (t u : Ttype) : Prop :=
  t = u ∨
  (t ∈ [Ttype.InterpolatedHeredocBegin, .InterpolatedStringBegin] ∧
    u ∈ [Ttype.InterpolatedHeredocBegin, .InterpolatedStringBegin]) ∨
  (t ∈ [Ttype.InterpolatedHeredocEnd, .InterpolatedStringEnd] ∧
    u ∈ [Ttype.InterpolatedHeredocEnd, .InterpolatedStringEnd])

instance (t u : Ttype) : Decidable (AlikeTypes t u) := by unfold AlikeTypes; infer_instance

theorem alike_of_value {t u : Ttype} {x : Str} (h : t.value = some x) (h' : u.value = some x) : AlikeTypes t u := by
  have tab : ∀ i < 143, ∀ j < 143, (Ttype.ofNat i).value = (Ttype.ofNat j).value → (Ttype.ofNat i).value ≠ none →
      AlikeTypes (Ttype.ofNat i) (Ttype.ofNat j) := by decide +kernel
  have hof : ∀ v : Ttype, v.ctorIdx < 143 ∧ Ttype.ofNat v.ctorIdx = v := by intro v; cases v <;> decide
  have := tab _ (hof t).1 _ (hof u).1
  rw [(hof t).2, (hof u).2] at this
  exact this (by rw [h, h']) (by rw [h]; nofun)

theorem RubyTokens.noNul {code : Str} {loc : Bool} {r : ROut (List RHash)} (h : RubyTokens code loc r) (hr : r ≠ .argumentError) :
    NUL ∉ code := by
  cases h with
  | nul _ => exact absurd rfl hr
  | tokens h => exact h
  | abort h => exact h
  | ub h => exact h

/-- C50: the array tells the vector: sources with equal arrays have tokens of the same types (up to the spelling of strings as
heredocs). -/
theorem C50_types (code code' : Str) (loc : Bool) (hs : List RHash) (ts ts' : List Token) (h : RubyTokens code loc (.value hs))
    (h' : RubyTokens code' loc (.value hs)) (hl : Lexes code ts) (hl' : Lexes code' ts') :
    List.Forall₂ (fun t u => AlikeTypes t.type u.type) ts ts' := by
  obtain ⟨init, last, rfl, c⟩ := C50 code loc _ ts h hl (h.noNul nofun)
  obtain ⟨init', last', rfl, c'⟩ := C50 code' loc _ ts' h' hl' (h'.noNul nofun)
  rcases c with ⟨_, e, he, hd, -⟩ | ⟨_, e, _⟩ | ⟨e, _⟩ <;> cases e
  rcases c' with ⟨_, e, he', hd', -⟩ | ⟨_, e, _⟩ | ⟨e, _⟩ <;> cases e
  have hp : List.Forall₂ (fun t u => AlikeTypes t.type u.type) init init' := by
    clear h h' hl hl' he he'
    induction hd generalizing init' with
    | nil => cases hd'; exact .nil
    | cons a _ ih =>
      cases hd' with
      | cons b hb =>
        obtain ⟨x, h1, h2⟩ := a.type
        obtain ⟨y, h3, h4⟩ := b.type
        rw [h2] at h4
        cases h4
        exact .cons (alike_of_value h1 h3) (ih _ hb)
  have app : ∀ {l l' : List Token}, List.Forall₂ (fun t u => AlikeTypes t.type u.type) l l' →
      List.Forall₂ (fun t u => AlikeTypes t.type u.type) (l ++ [last]) (l' ++ [last']) := by
    intro l l' h
    induction h with
    | nil => exact .cons (.inl (by rw [he, he'])) .nil
    | cons a _ ih => exact .cons a ih
  exact app hp

theorem RubyTokens.lexes {code : Str} {loc : Bool} {r : ROut (List RHash)} (h : RubyTokens code loc r) (h1 : r ≠ .argumentError)
    (h2 : r ≠ .abort) (h3 : r ≠ .ub) : ∃ ts, Lexes code ts := by
  cases h with
  | nul _ => exact absurd rfl h1
  | tokens _ ts h => exact ⟨ts, h⟩
  | abort => exact absurd rfl h2
  | ub => exact absurd rfl h3

/-- C50: the places told are places of the source, and they never go back (in a source without heredocs). -/
theorem C50_located (code : Str) (hs : List RHash) (h : RubyTokens code true (.value hs)) (hc : ¬ cs! "<<" <:+: code) :
    Located code 0 hs := by
  obtain ⟨ts, hl⟩ := h.lexes nofun nofun nofun
  obtain ⟨init, last, rfl, c⟩ := C50 code true _ ts h hl (h.noNul nofun)
  rcases c with ⟨_, e, -, hd, -⟩ | ⟨_, e, _⟩ | ⟨e, _⟩ <;> cases e
  obtain ⟨fuel, ht, -⟩ := hl
  obtain ⟨us, hu, hsub, hp⟩ := C07_vector code _ fuel ht
  have hf : ∀ u ∈ us, u.2 = false := fun u hu => C07_no_heredoc code fuel hc u (hsub.subset hu)
  clear ht hsub h
  generalize (0 : Nat) = lo at hp ⊢
  induction hd generalizing us lo with
  | nil => trivial
  | @cons t x l l' a _ ih =>
    cases us with
    | nil => cases hu
    | cons u us =>
      obtain ⟨u, m⟩ := u
      have : m = false := hf _ (List.mem_cons_self ..)
      subst this
      obtain ⟨i, hi, hat, hp⟩ := hp
      obtain ⟨e1, e2⟩ := List.cons.inj hu
      have h1 : (undoc u).line = (undoc t).line := congrArg Token.line e1
      have h2 : (undoc u).col = (undoc t).col := congrArg Token.col e1
      refine ⟨i, hi, ?_, ?_, ih us e2 (fun v hv => hf v (List.mem_cons_of_mem _ hv)) i hp⟩
      · rw [a.line, if_pos rfl, ← hat.1]; exact congrArg (fun n : Nat => some (RVal.int n)) h1.symm
      · rw [a.column, if_pos rfl, ← hat.2]; exact congrArg (fun n : Nat => some (RVal.int n)) h2.symm

/-! ### Lines in messages -/

/-- How `NatalieParser.tokens` ends, for examples. -/
def rubyOf (src : Str) (loc : Bool) : Option (ROut (List RHash)) :=
  match tokensFuel 60 src with
  | .ok ts => some (tokensToRuby loc ts)
  | _ => none

theorem rubyOf_sound {src : Str} {loc : Bool} {r : ROut (List RHash)} (hn : NUL ∉ src) (h : rubyOf src loc = some r) :
    RubyTokens src loc r := by
  unfold rubyOf at h
  split at h
  · rename_i ts e
    cases h
    exact .tokens hn ts ⟨60, e, nofun⟩
  · cases h

/-- The lines in the messages of `NatalieParser.tokens` are not numbered uniformly: the string that is open at the end of the
second line is said to be in line 1 (`parse` says line 2), and the backslash in the second line is said to be in line 2. -/
theorem C50_lines_false :
    RubyTokens (cs! "\n'a") false (.syntaxError (cs! "unterminated string meets end of file at line 1 and column 0: '")) ∧
    (∃ e, Parses (cs! "\n'a") [] (.err e) ∧ cs! "#2: syntax error, unterminated string" <+: e.message []) ∧
    RubyTokens (cs! "a\n \\") false (.syntaxError (cs! "2: syntax error, unexpected '\\'")) := by
  refine ⟨rubyOf_sound (by decide) (by decide +kernel), ?_, rubyOf_sound (by decide) (by decide +kernel)⟩
  have h : (runSource 30 (cs! "\n'a")).any (fun r => match r with
    | .err e => decide (cs! "#2: syntax error, unterminated string" <+: e.message [])
    | _ => false) = true := by decide +kernel
  cases hr : runSource 30 (cs! "\n'a") with
  | none => rw [hr] at h; cases h
  | some r =>
    rw [hr] at h
    cases r with
    | err e => exact ⟨e, runSource_parses hr, of_decide_eq_true h⟩
    | _ => cases h

/-! ### Non-vacuity -/

example : RubyTokens (cs! "x = :a\n%r{a}i") true (.value [
    [(cs! "type", .sym (cs! "name")), (cs! "literal", .sym (cs! "x")), (cs! "line", .int 0), (cs! "column", .int 0)],
    [(cs! "type", .sym (cs! "=")), (cs! "line", .int 0), (cs! "column", .int 2)],
    [(cs! "type", .sym (cs! "symbol")), (cs! "literal", .sym (cs! "a")), (cs! "line", .int 0), (cs! "column", .int 4)],
    [(cs! "type", .sym (cs! "\n")), (cs! "line", .int 0), (cs! "column", .int 6)],
    [(cs! "type", .sym (cs! "dregx")), (cs! "line", .int 1), (cs! "column", .int 0)],
    [(cs! "type", .sym (cs! "string")), (cs! "literal", .str (cs! "a")), (cs! "line", .int 1), (cs! "column", .int 3)],
    [(cs! "type", .sym (cs! "dregxend")), (cs! "options", .str (cs! "i")), (cs! "line", .int 1), (cs! "column", .int 6)]]) :=
  rubyOf_sound (by decide) (by decide +kernel)

/-- A name with a byte that is not UTF-8, and one with a character of two bytes. -/
example : RubyTokens (cs! "1 + @\xff") false .encodingError ∧ ∃ hs, RubyTokens (cs! "1 + @\xc3\xa9") false (.value hs) :=
  ⟨rubyOf_sound (by decide) (by decide +kernel), _, rubyOf_sound (r := .value [
    [(cs! "type", .sym (cs! "fixnum")), (cs! "literal", .int 1)], [(cs! "type", .sym (cs! "+"))],
    [(cs! "type", .sym (cs! "ivar")), (cs! "literal", .sym (cs! "@\xc3\xa9"))]]) (by decide) (by decide +kernel)⟩

end NP
