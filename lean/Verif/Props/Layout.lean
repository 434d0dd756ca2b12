import Verif.Proofs.Layout

/-!
C40: a text that is put together from tokens, with or without blanks between them, is read back as these tokens, as long as
no two neighbours run together. Spec: Verif/Spec/Layout.lean.
-/

namespace NP
open Spec

/-- C40. -/
theorem C40 (is : List Item) (hf : Fit 0 .Invalid is []) :
    ∃ ts e, List.Forall₂ Reads is ts ∧ e.type = .Eof ∧ Lexes (layout is) (ts ++ [e]) := layout_lexes is hf

/-! ### Non-vacuity: a check for `Fit` -/

def nameB (lo hi : Char) (u : Bool) : Str → Bool
  | [] => false
  | c :: n => (decide (lo ≤ c ∧ c ≤ hi) || (u && c == '_')) && n.all nameByte && keywordTable.all (fun p => p.1 != c :: n)

def stopsB : Str → Bool
  | [] => true
  | c :: r => !nameByte c && !['?', '!', '='].contains c && (c != ':' || r.head? == some ':')

def notB (cs : List Char) : Str → Bool
  | [] => true
  | c :: _ => !cs.contains c

def nameEndsB : Str → Bool
  | [] => true
  | c :: _ => !nameByte c

def fitOneB (k : Nat) (last : Ttype) (i : Item) (post : Str) : Bool :=
  match i.p with
  | .name x => nameB 'a' 'z' true x && stopsB post && last != .Fixnum
  | .const x => nameB 'A' 'Z' false x && stopsB post
  | .int n => decide (n < 2 ^ 62) && nameEndsB post && notB ['.'] post
  | .str s => s.all (fun c => c != '\'' && c != '\\' && c != NUL) && notB [':'] post
  | .sym x => (nameB 'a' 'z' true x && stopsB post) || symbolEnd.any (fun p => p.1 == x && notB p.2 post)
  | .ivar x | .cvar x => x.all nameByte && x != [] && nameEndsB post
  | .gvar x => nameB 'a' 'z' true x && nameEndsB post
  | .key x => nameB 'a' 'z' true x && last != .Fixnum && beforeKey last && k == 0 && notB [':'] post
  | .fixed w t =>
    (keywordTable.contains (w, t) && t != .DefinedKeyword && t != .AliasKeyword && t != .UndefKeyword && k == 0 && stopsB post) ||
    (k == 0 && operatorEnd.any (fun p => p.1 == (w, t) && notB p.2 post)) ||
    (k == 0 && i.ws && (w, t) == (cs! "?", Ttype.TernaryQuestion) && post.head? == some ' ') ||
    (k == 0 && i.ws && (w, t) == (cs! ":", Ttype.TernaryColon) && post.head? == some ' ') ||
    (k == 0 && (w, t) == (cs! "/", Ttype.Slash) && endsValue last && post.head? == some ' ') ||
    ((w, t) == (cs! "self", Ttype.SelfKeyword) && last == .DefKeyword && post.head? == some '.') ||
    (k == 0 && i.ws && ((w, t) == (cs! "<<", Ttype.LeftShift) || (w, t) == (cs! "%", Ttype.Percent)) && post.head? == some ' ') ||
    (k == 0 && (w, t) == (cs! "/=", Ttype.SlashEqual) && endsValue last)

def blankB : Str → Bool
  | [] => true
  | ' ' :: s => blankB s
  | '\t' :: s => blankB s
  | '\\' :: '\n' :: s => blankB s
  | _ => false

theorem blankB_sound {s : Str} (h : blankB s = true) : Spec.Blank s := by
  fun_induction blankB s with
  | case1 => exact .nil
  | case2 _ ih => exact .space _ (ih h)
  | case3 _ ih => exact .tab _ (ih h)
  | case4 _ ih => exact .line _ (ih h)
  | case5 => cases h

def fitB (k : Nat) (last : Ttype) : List Item → Str → Bool
  | [], _ => true
  | i :: is, post => blankB i.sp && fitOneB k last i (layout is ++ post) && fitB (expects k i.p.type) i.p.type is post

theorem nameB_name {x : Str} (h : nameB 'a' 'z' true x = true) : IsName x := by
  cases x with
  | nil => cases h
  | cons c n =>
    simp only [nameB, Bool.and_eq_true, Bool.or_eq_true, decide_eq_true_eq, beq_iff_eq, List.all_eq_true, true_and, bne_iff_ne,
      ne_eq] at h
    exact ⟨c, n, rfl, h.1.1, h.1.2, fun t ht => h.2 _ ht rfl⟩

theorem nameB_const {x : Str} (h : nameB 'A' 'Z' false x = true) : IsConst x := by
  cases x with
  | nil => cases h
  | cons c n =>
    simp only [nameB, Bool.and_eq_true, Bool.or_eq_true, decide_eq_true_eq, beq_iff_eq, List.all_eq_true, Bool.false_eq_true,
      false_and, or_false, bne_iff_ne, ne_eq] at h
    exact ⟨c, n, rfl, h.1.1, h.1.2, fun t ht => h.2 _ ht rfl⟩

theorem stopsB_sound {post : Str} (h : stopsB post = true) : WordStops post := by
  intro c r he
  subst he
  simp only [stopsB, Bool.and_eq_true, Bool.or_eq_true, Bool.not_eq_true', bne_iff_ne, ne_eq, beq_iff_eq] at h
  refine ⟨h.1.1, by simpa using h.1.2, fun hc => ?_⟩
  rcases h.2 with h2 | h2
  · exact absurd hc h2
  · cases r with
    | nil => cases h2
    | cons d r => cases h2; exact ⟨r, rfl⟩

theorem notB_sound {cs : List Char} {post : Str} (h : notB cs post = true) : ∀ c r, post = c :: r → c ∉ cs := by
  rintro c r rfl
  simpa [notB] using h

theorem nameEndsB_sound {post : Str} (h : nameEndsB post = true) : NameEnds post := by
  rintro c r rfl
  simpa [nameEndsB] using h

theorem head_sound {c : Char} {post : Str} (h : post.head? = some c) : ∃ r, post = c :: r := by
  cases post with
  | nil => cases h
  | cons d r => cases h; exact ⟨r, rfl⟩

theorem fitOneB_sound {k : Nat} {last : Ttype} {i : Item} {post : Str} (h : fitOneB k last i post = true) :
    FitOne k last i post := by
  obtain ⟨ws, p⟩ := i
  cases p with
  | name x =>
    simp only [fitOneB, Bool.and_eq_true, bne_iff_ne] at h
    exact ⟨nameB_name h.1.1, stopsB_sound h.1.2, h.2⟩
  | const x =>
    simp only [fitOneB, Bool.and_eq_true] at h
    exact ⟨nameB_const h.1, stopsB_sound h.2⟩
  | int n =>
    simp only [fitOneB, Bool.and_eq_true, decide_eq_true_eq] at h
    refine ⟨h.1.1, fun c r he => ⟨.inl (nameEndsB_sound h.1.2 c r he), fun hc => ?_⟩⟩
    have := notB_sound h.2 c r he
    simp [hc] at this
  | str s =>
    simp only [fitOneB, Bool.and_eq_true, List.all_eq_true, bne_iff_ne] at h
    exact ⟨fun c hc => ⟨(h.1 c hc).1.1, (h.1 c hc).1.2, (h.1 c hc).2⟩, fun r he => notB_sound h.2 _ r he (by simp)⟩
  | sym x =>
    simp only [fitOneB, Bool.and_eq_true, Bool.or_eq_true, List.any_eq_true, beq_iff_eq] at h
    rcases h with h | ⟨p, h1, h2, h3⟩
    · exact SymbolText.of_name (.inl (nameB_name h.1)) (stopsB_sound h.2)
    · exact Spec.SymbolText.op (by rw [← h2]; exact h1) (notB_sound h3)
  | ivar x =>
    simp only [fitOneB, Bool.and_eq_true, List.all_eq_true, bne_iff_ne] at h
    exact ⟨h.1.1, h.1.2, nameEndsB_sound h.2⟩
  | cvar x =>
    simp only [fitOneB, Bool.and_eq_true, List.all_eq_true, bne_iff_ne] at h
    exact ⟨h.1.1, h.1.2, nameEndsB_sound h.2⟩
  | gvar x =>
    simp only [fitOneB, Bool.and_eq_true] at h
    exact ⟨nameB_name h.1, nameEndsB_sound h.2⟩
  | key x =>
    simp only [fitOneB, Bool.and_eq_true, bne_iff_ne, beq_iff_eq] at h
    exact ⟨nameB_name h.1.1.1.1, h.1.1.1.2, h.1.1.2, h.1.2, fun r he => notB_sound h.2 _ r he (by simp)⟩
  | fixed w t =>
    simp only [fitOneB, Bool.and_eq_true, Bool.or_eq_true, bne_iff_ne, beq_iff_eq, List.contains_iff_mem, List.any_eq_true] at h
    rcases h with ((((((h | h) | h) | h) | h) | h) | h) | h
    · exact .inl ⟨h.1.1.1.1.1, h.1.1.1.1.2, h.1.1.1.2, h.1.1.2, h.1.2, stopsB_sound h.2⟩
    · obtain ⟨h1, p, h2, h3, h4⟩ := h
      exact .inr (.inl ⟨p.2, by rw [← h3]; exact h2, h1, notB_sound h4⟩)
    · exact .inr (.inr (.inl ⟨by rw [h.1.2]; decide, h.1.1.1, h.1.1.2, head_sound h.2⟩))
    · exact .inr (.inr (.inl ⟨by rw [h.1.2]; decide, h.1.1.1, h.1.1.2, head_sound h.2⟩))
    · exact .inr (.inr (.inr (.inl ⟨h.1.1.2, h.1.2, h.1.1.1, head_sound h.2⟩)))
    · exact .inr (.inr (.inr (.inr (.inl ⟨h.1.1, h.1.2, head_sound h.2⟩))))
    · refine .inr (.inr (.inl ⟨?_, h.1.1.1, h.1.1.2, head_sound h.2⟩))
      rcases h.1.2 with e | e <;> (rw [e]; decide)
    · exact .inr (.inr (.inr (.inr (.inr ⟨h.1.2, h.2, h.1.1⟩))))

theorem fitB_sound : ∀ {k : Nat} {last : Ttype} {is : List Item} {post : Str}, fitB k last is post = true → Fit k last is post
  | _, _, [], _, _ => trivial
  | _, _, _ :: _, _, h => by
    simp only [fitB, Bool.and_eq_true] at h
    exact ⟨blankB_sound h.1.1, fitOneB_sound h.1.2, fitB_sound h.2⟩

example : ∃ is : List Item, Fit 0 .Invalid is [] ∧
    layout is = cs! "def self.f(ab, c: 1)ab =-12 / @d ? 'e' : :f;[A::B,$g]if true end" := by
  let kw (w : Str) (s : Str) (t : Ttype) : Item := ⟨w, .fixed s t⟩
  refine ⟨[kw [] (cs! "def") .DefKeyword, kw [' '] (cs! "self") .SelfKeyword, kw [] (cs! ".") .Dot,
    ⟨[], .name (cs! "f")⟩, kw [] (cs! "(") .LParen, ⟨[], .name (cs! "ab")⟩, kw [] (cs! ",") .Comma,
    ⟨[' '], .key (cs! "c")⟩, ⟨[' '], .int 1⟩, kw [] (cs! ")") .RParen, ⟨[], .name (cs! "ab")⟩, kw [' '] (cs! "=") .Equal,
    kw [] (cs! "-") .Minus, ⟨[], .int 12⟩, kw [' '] (cs! "/") .Slash, ⟨[' '], .ivar (cs! "d")⟩,
    kw [' '] (cs! "?") .TernaryQuestion, ⟨[' '], .str (cs! "e")⟩, kw [' '] (cs! ":") .TernaryColon, ⟨[' '], .sym (cs! "f")⟩,
    kw [] (cs! ";") .Semicolon, kw [] (cs! "[") .LBracket, ⟨[], .const (cs! "A")⟩,
    kw [] (cs! "::") .ConstantResolution, ⟨[], .const (cs! "B")⟩, kw [] (cs! ",") .Comma, ⟨[], .gvar (cs! "g")⟩,
    kw [] (cs! "]") .RBracket, kw [] (cs! "if") .IfKeyword, kw [' '] (cs! "true") .TrueKeyword,
    kw [' '] (cs! "end") .EndKeyword], fitB_sound (by decide +kernel), by decide +kernel⟩

end NP
