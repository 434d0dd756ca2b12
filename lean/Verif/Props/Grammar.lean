import Verif.Spec.GrammarText
import Verif.Proofs.Gram.Main
import Verif.Proofs.Gram.Fit
import Verif.Props.Parse
import Verif.Props.Lines
import Mathlib.Data.List.Forall2

/-!
C41: a program of a part of Ruby's grammar, written with any blanks, line ends and comments, is parsed to the S-expression that the grammar gives
it. Spec: Verif/Spec/Grammar.lean, Verif/Spec/GrammarText.lean.
-/

namespace NP
open Spec Gram

theorem Gram.accepts_refl (t : Ttype) : accepts t t = true := by
  cases t <;> rfl

theorem Gram.Fills.bears {w : Want} {p : Part} {t : Token} (h : Fills w p) (hs : Shows p t) : Bears w t := by
  cases p with
  | tok i =>
    obtain ⟨h1 | h1, h2⟩ := h
    · exact ⟨by rw [hs.type, h1]; exact accepts_refl _, by rw [hs.lit, h1], by rw [hs.fix, h1], fun b hb => by rw [hs.ws, h2 b hb]⟩
    · refine ⟨by rw [hs.type, h1.1, h1.2]; rfl, ?_, ?_, fun b hb => by rw [hs.ws, h2 b hb]⟩
      all_goals
        first | rw [hs.lit, h1.2] | rw [hs.fix, h1.2]
        have := h1.1
        cases hp : w.p <;> rw [hp] at this <;> first | rfl | cases this
  | line sp =>
    obtain ⟨h1, h2⟩ := h
    obtain ⟨s1, s2, s3, -⟩ := hs
    refine ⟨?_, ?_, ?_, fun b hb => by rw [h1] at hb; cases hb⟩
    · rcases h2 with h2 | h2 <;> rw [h2, s1] <;> rfl
    · rcases h2 with h2 | h2 <;> rw [h2, s2] <;> rfl
    · rcases h2 with h2 | h2 <;> rw [h2, s3] <;> rfl
  | _ => exact h.elim

theorem Gram.EndPart.eols {es : List Part} {ts : List Token} (h : ∀ e ∈ es, EndPart e) (hs : List.Forall₂ Shows es ts) : Eols ts := by
  induction hs with
  | nil => exact .nil
  | @cons e t es ts he _ ih =>
    intro u hu
    rcases List.mem_cons.1 hu with rfl | hu
    · have := h e (by simp)
      cases e with
      | tok i => rw [he.type, show i.p = semi.p from this]; rfl
      | line sp => rw [he.1]; rfl
      | _ => exact this.elim
    · exact ih (fun e he => h e (by simp [he])) u hu

theorem Gram.forall₂_append {α β : Type} {R : α → β → Prop} : ∀ {xs ys : List α} {ts : List β}, List.Forall₂ R (xs ++ ys) ts →
    ∃ us vs, ts = us ++ vs ∧ List.Forall₂ R xs us ∧ List.Forall₂ R ys vs
  | [], _, ts, h => ⟨[], ts, rfl, .nil, h⟩
  | _ :: xs, ys, _, .cons h hs => by
    obtain ⟨us, vs, rfl, h1, h2⟩ := forall₂_append hs
    exact ⟨_ :: us, vs, rfl, .cons h h1, h2⟩

theorem Gram.Match.ms {ws : List Want} {ps : List Part} (h : Match ws ps) :
    ∀ {ts : List Token}, List.Forall₂ Shows ps ts → Ms ws ts := by
  induction h with
  | nil => intro ts h; cases h; exact .nil
  | cons h he hb _ ih =>
    intro ts hs
    cases hs with
    | cons h1 h2 =>
      obtain ⟨us, vs, rfl, h3, h4⟩ := forall₂_append h2
      refine .cons (h.bears h1) (EndPart.eols he h3) ?_ (ih h4)
      rcases hb with rfl | hb
      · cases h3; exact .inl rfl
      · exact .inr hb

theorem Gram.visible_length : ∀ (ps : List Part) (last : Ttype), (visible last ps).length ≤ ps.length
  | [], _ => Nat.le_refl _
  | p :: ps, last => by
    have := visible_length ps (p.last last)
    unfold visible
    split
    · simpa using this
    · split
      · exact this.trans (by simp)
      · simpa using this
    · exact this.trans (by simp)

/-- C41: a program is parsed to its S-expression. `_partial`: where the parser departs from Ruby's grammar, `Program` asks
for parentheses that Ruby does not need (`C41_false`), and the grammar is a part of Ruby's. -/
theorem C41_partial (ss : Ex .sts) (h : Program ss) (ps : List Part) (hw : Writes ss ps) (tr : Str)
    (hf : FitText 0 .Invalid ps tr) (ht : Spec.Blank tr) (hs : ps.length < 2 ^ 32) (file : Str) :
    ∃ n s, Parses (text ps ++ tr) file (.ok n s) ∧ n.toSexp = some (prog ss) := by
  obtain ⟨ts, e, ht, he, hl⟩ := C42 ps tr hf ht
  obtain ⟨es, qs, hv, hes, hm⟩ := hw
  have hlen := visible_length ps .Invalid
  rw [hv] at ht hlen
  obtain ⟨us, vs, rfl, h1, h2⟩ := forall₂_append ht
  obtain ⟨n, s, hn, hev⟩ := prog_evals h.1 h.2 (hm.ms h2) (EndPart.eols hes h1) he.1 (by
    rw [← h2.length_eq]
    rw [List.length_append] at hlen
    omega) ⟨text ps ++ tr, file⟩
  refine ⟨n, s, ?_, hn⟩
  rw [List.append_assoc] at hl
  rw [← hev.parseToks hl.vectorOk]
  exact .tokens _ hl

theorem Gram.tok_visible : ∀ (is : List Item) (last : Ttype), visible last (is.map .tok) = is.map .tok
  | [], _ => rfl
  | i :: is, _ => by
    show Part.tok i :: visible _ (is.map .tok) = _
    rw [tok_visible is]
    rfl

theorem Gram.tok_text (is : List Item) : text (is.map .tok) = layout is := by
  unfold text layout
  rw [List.flatMap_map]
  rfl

theorem Gram.tok_fit {post : Str} : ∀ {is : List Item} {k : Nat} {last : Ttype}, Fit k last is post → FitText k last (is.map .tok) post
  | [], _, _, _ => trivial
  | _ :: is, _, _, h => ⟨⟨h.1, by rw [tok_text]; exact h.2.1⟩, tok_fit h.2.2⟩

theorem spaced_writes (ss : Ex .sts) : Writes ss ((spaced ss).map .tok) := by
  refine ⟨[], _, tok_visible _ _, nofun, ?_⟩
  unfold spaced
  generalize toks none ss = ws
  induction ws with
  | nil => exact .nil
  | cons w ws ih =>
    refine .cons (es := []) ⟨.inl rfl, fun b hb => ?_⟩ nofun (.inl rfl) ih
    unfold Item.ws
    simp only [hb]
    cases b <;> rfl

/-- C41, one layout that always fits: a program whose names, numbers and strings can be written is parsed to its
S-expression when it is written with blanks wherever they are allowed. `_partial`: as for `C41_partial`. -/
theorem C41_spaced_partial (ss : Ex .sts) (h : Program ss) (hl : ∀ w ∈ toks none ss, Legal w.p)
    (hs : (toks none ss).length < 2 ^ 32) (file : Str) :
    ∃ n s, Parses (layout (spaced ss)) file (.ok n s) ∧ n.toSexp = some (prog ss) := by
  have := C41_partial ss h _ (spaced_writes ss) [] (tok_fit (spaced_fit h hl)) .nil (by unfold spaced; rw [List.length_map, List.length_map]; exact hs) file
  rwa [tok_text, List.append_nil] at this

/-- C41, a consequence for the grammar itself: two programs with one text have one S-expression. -/
theorem C41_unambiguous (ss ss' : Ex .sts) (h : Program ss) (h' : Program ss') (ps ps' : List Part) (hw : Writes ss ps)
    (hw' : Writes ss' ps') (hf : FitText 0 .Invalid ps []) (hf' : FitText 0 .Invalid ps' []) (hs : ps.length < 2 ^ 32)
    (hs' : ps'.length < 2 ^ 32) (ht : text ps = text ps') : prog ss = prog ss' := by
  obtain ⟨n, s, hp, hn⟩ := C41_partial ss h ps hw [] hf .nil hs []
  obtain ⟨n', s', hp', hn'⟩ := C41_partial ss' h' ps' hw' [] hf' .nil hs' []
  obtain ⟨ts, hl, hr⟩ := hp.ok
  rw [← ht] at hp'
  obtain ⟨ts', hl', hr'⟩ := hp'.ok
  cases hl.unique hl'
  rw [hr] at hr'
  cases hr'
  rw [hn] at hn'
  exact Option.some.inj hn'

/-! ### Non-vacuity -/

theorem Gram.FitOne.legal {k : Nat} {last : Ttype} {i : Item} {post : Str} (h : FitOne k last i post) : Legal i.p := by
  unfold FitOne at h
  unfold Legal
  split at h <;> simp_all
  exact SymbolText.alone h

theorem Gram.Fit.legal {post : Str} : ∀ {k : Nat} {last : Ttype} {is : List Item}, Fit k last is post → ∀ i ∈ is, Legal i.p
  | _, _, [], _, _, h => nomatch h
  | _, _, _ :: is, h, j, hj => by
    rcases List.mem_cons.1 hj with rfl | hj
    · exact FitOne.legal h.2.1
    · exact Fit.legal h.2.2 j hj

/-- `class Stack < Base; def self.make(a, b); @x, y = a, b; a.each do |i| puts i + 1; end; …` -/
def sample : Ex .sts :=
  let x (s : Str) : Ex .ex := .var (.loc s)
  let body : Ex .sts :=
    .scons (.masgnL (.ivar (cs! "x")) (.loc (cs! "y")) [] (x (cs! "a")) (.acons (x (cs! "b")) .anil)) <|
    .scons (.block true (.send false (x (cs! "a")) (cs! "each")) (.qname (cs! "i") .qnil)
      (.scons (.cmd (cs! "puts") (.acons (.bin .add (x (cs! "i")) (.int 1)) .anil) .bnil) .snil)) <|
    .scons (.if_ (.bin .land (.bin .gt (x (cs! "y")) (.int (-3))) (.un .not (x (cs! "z"))))
      (.slast (.opasgn (.loc (cs! "y")) .sub (.index (.array (.acons (.str (cs! "s")) (.acons (.sym (cs! "t")) .anil)))
        (.acons (.int 0) .anil))))
      (.els (.slast (.ret (.hash (.pkey (cs! "k") (.var (.gvar (cs! "g"))) .pnil)))))) <|
    .scons (.begin_ (.scons (.fcall (cs! "f") (.asplat (x (cs! "a")) (.ablk (x (cs! "b"))))) .snil)
      (.resc (.acons (.colon2 (.var (.const (cs! "A"))) (cs! "B")) .anil) (some (.loc (cs! "e")))
        (.scons (.word .retry) .snil) .rnil)
      .tnil (.part (.scons (.case_ (x (cs! "e")) (.when_ (.acons (.int 1) .anil) (.scons .yield0 .snil) .wnil)
        (.part (.slast (.modi .unless_ (.jump0 .next) (.super0))))) .snil))) <|
    .slast (.tern (x (cs! "y")) (.word .nil) (.lam false .qnil .snil))
  .slast (.class_ (cs! "Stack") (some (cs! "Base")) (.scons (.def_ true (cs! "make") (.qname (cs! "a") (.qname (cs! "b") .qnil)) body) .snil))

example : Program sample ∧ Writes sample ((spaced sample).map .tok) ∧ FitText 0 .Invalid ((spaced sample).map .tok) [] ∧
    ((spaced sample).map Part.tok).length < 2 ^ 32 ∧ text ((spaced sample).map .tok) = cs! " class Stack < Base ; def self. make( a , b ) ; @x , y = a , b ; a . each do | i | puts i + 1 ; end ; if y > -3 && ! z then y -= [ 's' , :t ][ 0 ] else return { k: $g } end ; begin ; f( * a , & b ) ; rescue A:: B => e ; retry ; ensure ; case e ; when 1 then yield ; else next unless super end ; end ; y ? nil : -> { } end ; end" :=
  ⟨⟨by decide +kernel, by decide +kernel⟩, spaced_writes _, tok_fit (fitB_sound (by decide +kernel)), by decide +kernel, by decide +kernel⟩

example : Program sample ∧ (∀ w ∈ toks none sample, Legal w.p) ∧ (toks none sample).length < 2 ^ 32 :=
  ⟨⟨by decide +kernel, by decide +kernel⟩,
    fun w hw => Fit.legal (k := 0) (last := .Invalid) (post := []) (is := spaced sample) (fitB_sound (by decide +kernel)) ⟨_, w.p⟩ (List.mem_map.2 ⟨w, hw, rfl⟩), by decide +kernel⟩

/-! A program of several lines. -/

def lineEndB : Part → Bool
  | .line _ => true
  | .tok i => i.p == semi.p
  | _ => false

def fillsB (w : Want) : Part → Bool
  | .tok i => (i.p == w.p || w.p.type == .ThenKeyword && i.p == semi.p) && w.ws.all fun b => i.ws == b
  | .line _ => w.ws == none && (w.p == semi.p || w.p == .fixed (cs! "then") .ThenKeyword)
  | _ => false

def matchB : List Want → List Part → Bool
  | [], [] => true
  | w :: ws, p :: ps => fillsB w p && matchB ws (if breaks w ws then ps.dropWhile lineEndB else ps)
  | _, _ => false

theorem lineEndB_sound {p : Part} (h : lineEndB p = true) : EndPart p := by
  cases p <;> first | exact trivial | exact beq_iff_eq.1 h | exact (nomatch h)

theorem fillsB_sound {w : Want} {p : Part} (h : fillsB w p = true) : Fills w p := by
  cases p with
  | tok i =>
    simp only [fillsB, Bool.and_eq_true, Bool.or_eq_true, beq_iff_eq] at h
    exact ⟨h.1, fun b hb => by simpa [hb] using h.2⟩
  | line sp =>
    simp only [fillsB, Bool.and_eq_true, Bool.or_eq_true, beq_iff_eq] at h
    exact h
  | _ => cases h

theorem matchB_sound : ∀ {ws : List Want} {ps : List Part}, matchB ws ps = true → Match ws ps
  | [], [], _ => .nil
  | [], _ :: _, h => nomatch h
  | _ :: _, [], h => nomatch h
  | w :: ws, p :: ps, h => by
    simp only [matchB, Bool.and_eq_true] at h
    by_cases hb : breaks w ws = true
    · rw [if_pos hb] at h
      have := Match.cons (es := ps.takeWhile lineEndB) (fillsB_sound h.1) (fun e he => lineEndB_sound (List.mem_takeWhile_imp he)) (.inr hb) (matchB_sound h.2)
      rwa [List.takeWhile_append_dropWhile] at this
    · rw [if_neg hb] at h
      exact .cons (es := []) (fillsB_sound h.1) nofun (.inl rfl) (matchB_sound h.2)

theorem writes_of {ss : Ex .sts} {ps : List Part} (h : matchB (toks none ss) ((visible .Invalid ps).dropWhile lineEndB) = true) :
    Writes ss ps :=
  ⟨(visible .Invalid ps).takeWhile lineEndB, _, List.takeWhile_append_dropWhile.symm,
    fun _ he => lineEndB_sound (List.mem_takeWhile_imp he), matchB_sound h⟩

def block : List (Ex .ex) → Ex .sts
  | [] => .snil
  | e :: es => .scons e (block es)

def sample2 : Ex .sts :=
  let x (s : Str) : Ex .ex := .var (.loc s)
  let body : Ex .sts := block [
    .masgnL (.ivar (cs! "x")) (.loc (cs! "y")) [] (x (cs! "a")) (.acons (x (cs! "b")) .anil),
    .block true (.send false (x (cs! "a")) (cs! "each")) (.qname (cs! "i") .qnil)
      (block [.cmd (cs! "puts") (.acons (.bin .add (x (cs! "i")) (.int 1)) .anil) .bnil]),
    .if_ (.bin .land (.bin .gt (x (cs! "y")) (.int (-3))) (.un .not (x (cs! "z"))))
      (block [.opasgn (.loc (cs! "y")) .sub (.index (.array (.acons (.str (cs! "s")) (.acons (.sym (cs! "t")) .anil)))
        (.acons (.int 0) .anil))])
      (.els (block [.ret (.hash (.pkey (cs! "k") (.var (.gvar (cs! "g"))) .pnil))])),
    .begin_ (block [.send false (.fcall (cs! "f") (.asplat (x (cs! "a")) (.ablk (x (cs! "b"))))) (cs! "freeze")])
      (.resc (.acons (.colon2 (.var (.const (cs! "A"))) (cs! "B")) .anil) (some (.loc (cs! "e"))) (block [.word .retry]) .rnil)
      .tnil (.part (block [.case_ (x (cs! "e")) (.when_ (.acons (.int 1) .anil) (block [.yield0]) .wnil)
        (.part (block [.modi .unless_ (.jump0 .next) .super0]))])),
    .tern (x (cs! "y")) (.word .nil) (.lam false .qnil .snil)]
  block [.class_ (cs! "Stack") (some (cs! "Base")) (block [.def_ true (cs! "make") (.qname (cs! "a") (.qname (cs! "b") .qnil)) body])]

def sample2Text : List Part := [.doc [] [((cs! " A stack."), []), ((cs! " Not a queue."), [])], .tok ⟨[], .fixed (cs! "class") .ClassKeyword⟩,
  .tok ⟨[' '], .const (cs! "Stack")⟩, .tok ⟨[' '], .fixed ['<'] .LessThan⟩, .tok ⟨[' '], .const (cs! "Base")⟩, .line [],
  .line [], .doc (cs! "  ") [((cs! " Makes one."), (cs! "  "))], .tok ⟨[], .fixed (cs! "def") .DefKeyword⟩,
  .tok ⟨[' '], .fixed (cs! "self") .SelfKeyword⟩, .tok ⟨[], .fixed ['.'] .Dot⟩, .tok ⟨[], .name (cs! "make")⟩,
  .tok ⟨[], .fixed ['('] .LParen⟩, .tok ⟨[], .name ['a']⟩, .tok ⟨[], .fixed [','] .Comma⟩, .tok ⟨[' '], .name ['b']⟩,
  .tok ⟨[], .fixed [')'] .RParen⟩, .line [], .tok ⟨(cs! "    "), .ivar ['x']⟩, .tok ⟨[], .fixed [','] .Comma⟩,
  .tok ⟨[' '], .name ['y']⟩, .tok ⟨[' '], .fixed ['='] .Equal⟩, .tok ⟨[' '], .name ['a']⟩, .tok ⟨[], .fixed [','] .Comma⟩,
  .line [], .tok ⟨(cs! "      "), .name ['b']⟩, .note [' '] (cs! " two"), .line [], .tok ⟨(cs! "    "), .name ['a']⟩,
  .tok ⟨[], .fixed ['.'] .Dot⟩, .tok ⟨[], .name (cs! "each")⟩, .tok ⟨[' '], .fixed (cs! "do") .DoKeyword⟩,
  .tok ⟨[' '], .fixed ['|'] .Pipe⟩, .tok ⟨[], .name ['i']⟩, .tok ⟨[], .fixed ['|'] .Pipe⟩, .line [],
  .tok ⟨(cs! "      "), .name (cs! "puts")⟩, .tok ⟨[' '], .name ['i']⟩, .tok ⟨[' '], .fixed ['+'] .Plus⟩, .line [],
  .tok ⟨(cs! "        "), .int 1⟩, .line [], .tok ⟨(cs! "    "), .fixed (cs! "end") .EndKeyword⟩, .line [], .line [],
  .tok ⟨(cs! "    "), .fixed (cs! "if") .IfKeyword⟩, .tok ⟨[' '], .name ['y']⟩, .tok ⟨[' '], .fixed ['>'] .GreaterThan⟩,
  .tok ⟨[' '], .fixed ['-'] .Minus⟩, .tok ⟨[], .int 3⟩, .tok ⟨[' '], .fixed (cs! "&&") .AmpersandAmpersand⟩,
  .tok ⟨[' '], .fixed ['!'] .Not⟩, .tok ⟨[], .name ['z']⟩, .line [], .tok ⟨(cs! "      "), .name ['y']⟩,
  .tok ⟨[' '], .fixed (cs! "-=") .MinusEqual⟩, .tok ⟨[' '], .fixed ['['] .LBracket⟩, .tok ⟨[], .str ['s']⟩,
  .tok ⟨[], .fixed [','] .Comma⟩, .tok ⟨[' '], .sym ['t']⟩, .tok ⟨[], .fixed [']'] .RBracket⟩,
  .tok ⟨[], .fixed ['['] .LBracket⟩, .tok ⟨[], .int 0⟩, .tok ⟨[], .fixed [']'] .RBracket⟩, .line [],
  .tok ⟨(cs! "    "), .fixed (cs! "else") .ElseKeyword⟩, .tok ⟨[], .fixed [';'] .Semicolon⟩,
  .note [' '] (cs! " nothing to do"), .line [], .line [], .tok ⟨(cs! "      "), .fixed (cs! "return") .ReturnKeyword⟩,
  .tok ⟨[' '], .fixed ['{'] .LCurlyBrace⟩, .line [], .tok ⟨(cs! "        "), .key ['k']⟩, .tok ⟨[' '], .gvar ['g']⟩,
  .line [], .tok ⟨(cs! "      "), .fixed ['}'] .RCurlyBrace⟩, .line [],
  .tok ⟨(cs! "    "), .fixed (cs! "end") .EndKeyword⟩, .line [], .tok ⟨(cs! "    "), .fixed (cs! "begin") .BeginKeyword⟩,
  .line [], .tok ⟨(cs! "      "), .name ['f']⟩, .tok ⟨[], .fixed ['('] .LParen⟩, .line [],
  .tok ⟨(cs! "        "), .fixed ['*'] .Star⟩, .tok ⟨[], .name ['a']⟩, .tok ⟨[], .fixed [','] .Comma⟩, .line [],
  .tok ⟨(cs! "        "), .fixed ['&'] .Ampersand⟩, .tok ⟨[], .name ['b']⟩, .line [],
  .tok ⟨(cs! "      "), .fixed [')'] .RParen⟩, .line [], .tok ⟨(cs! "        "), .fixed ['.'] .Dot⟩,
  .tok ⟨[], .name (cs! "freeze")⟩, .line [], .tok ⟨(cs! "    "), .fixed (cs! "rescue") .RescueKeyword⟩,
  .tok ⟨[' '], .const ['A']⟩, .tok ⟨[], .fixed (cs! "::") .ConstantResolution⟩, .tok ⟨[], .const ['B']⟩,
  .tok ⟨[' '], .fixed (cs! "=>") .HashRocket⟩, .tok ⟨[' '], .name ['e']⟩, .line [],
  .tok ⟨(cs! "      "), .fixed (cs! "retry") .RetryKeyword⟩, .line [],
  .tok ⟨(cs! "    "), .fixed (cs! "ensure") .EnsureKeyword⟩, .line [],
  .tok ⟨(cs! "      "), .fixed (cs! "case") .CaseKeyword⟩, .tok ⟨[' '], .name ['e']⟩, .line [],
  .tok ⟨(cs! "      "), .fixed (cs! "when") .WhenKeyword⟩, .tok ⟨[' '], .int 1⟩, .line [],
  .tok ⟨(cs! "        "), .fixed (cs! "yield") .YieldKeyword⟩, .line [],
  .tok ⟨(cs! "      "), .fixed (cs! "else") .ElseKeyword⟩, .line [],
  .tok ⟨(cs! "        "), .fixed (cs! "next") .NextKeyword⟩, .tok ⟨[' '], .fixed (cs! "unless") .UnlessKeyword⟩,
  .tok ⟨[' '], .fixed (cs! "super") .SuperKeyword⟩, .line [], .tok ⟨(cs! "      "), .fixed (cs! "end") .EndKeyword⟩,
  .line [], .tok ⟨(cs! "    "), .fixed (cs! "end") .EndKeyword⟩, .tok ⟨[], .fixed [';'] .Semicolon⟩,
  .tok ⟨[], .fixed [';'] .Semicolon⟩, .line [], .tok ⟨(cs! "    "), .name ['y']⟩,
  .tok ⟨[' '], .fixed ['?'] .TernaryQuestion⟩, .tok ⟨[' '], .fixed (cs! "nil") .NilKeyword⟩,
  .tok ⟨[' '], .fixed [':'] .TernaryColon⟩, .tok ⟨[' '], .fixed (cs! "->") .Arrow⟩,
  .tok ⟨[' '], .fixed ['{'] .LCurlyBrace⟩, .tok ⟨[' '], .fixed ['}'] .RCurlyBrace⟩, .line [],
  .tok ⟨(cs! "  "), .fixed (cs! "end") .EndKeyword⟩, .note [' '] (cs! " of make"), .line [],
  .tok ⟨[], .fixed (cs! "end") .EndKeyword⟩, .line []]

example : Program sample2 ∧ Writes sample2 sample2Text ∧ FitText 0 .Invalid sample2Text [] ∧ sample2Text.length < 2 ^ 32 ∧
    text sample2Text = cs! "# A stack.\n# Not a queue.\nclass Stack < Base\n\n  # Makes one.\n  def self.make(a, b)\n    @x, y = a,\n      b # two\n    a.each do |i|\n      puts i +\n        1\n    end\n\n    if y > -3 && !z\n      y -= ['s', :t][0]\n    else; # nothing to do\n\n      return {\n        k: $g\n      }\n    end\n    begin\n      f(\n        *a,\n        &b\n      )\n        .freeze\n    rescue A::B => e\n      retry\n    ensure\n      case e\n      when 1\n        yield\n      else\n        next unless super\n      end\n    end;;\n    y ? nil : -> { }\n  end # of make\nend\n" :=
  ⟨⟨by decide +kernel, by decide +kernel⟩, writes_of (by decide +kernel), fitTextB_sound (by decide +kernel), by decide +kernel,
    by decide +kernel⟩

/-- A name. -/
def lv (x : Str) : Ex .ex := .var (.loc x)

/-- Parameters of all kinds. -/
def sample3 : Ex .sts :=
  .scons (.def_ false (cs! "m") (.qname (cs! "a") <| .qtup (.qname (cs! "b") (.qtup (.qsplat (some (cs! "c")) (.qname (cs! "d") .qnil)) .qnil)) <|
    .qdef (cs! "e") (.bin .add (lv (cs! "a")) (.int 1)) <| .qsplat (some (cs! "f")) <| .qname (cs! "g") <| .qkey (cs! "h") <|
    .qkeyd (cs! "i") (.array (.acons (lv (cs! "e")) .anil)) <| .qkws (some (cs! "j")) <| .qblk (cs! "k"))
    (.slast (.block false (lv (cs! "n")) (.qdef (cs! "x") (.int (-2)) (.qsplat none (.qkeyd (cs! "y") (lv (cs! "x")) (.qkws none .qnil))))
      (.slast (.bin .mul (lv (cs! "x")) (lv (cs! "y"))))))) <|
  .slast (.cmd (cs! "f") (.acons (.int 1) .anil) (.bdo (.qtup (.qname (cs! "p") .qnil) (.qkey (cs! "q") .qnil)) (.slast (lv (cs! "p")))))

example : Program sample3 ∧ (∀ w ∈ toks none sample3, Legal w.p) ∧ (toks none sample3).length < 2 ^ 32 ∧
    layout (spaced sample3) = cs! " def m( a , ( b , ( * c , d ) ) , e = a + 1 , * f , g , h: , i: [ e ] , ** j , & k ) ; n { | x = -2 , * , y: x , ** | x * y } end ; f 1 do | ( p ) , q: | p end" :=
  ⟨⟨by decide +kernel, by decide +kernel⟩,
    fun w hw => Fit.legal (k := 0) (last := .Invalid) (post := []) (is := spaced sample3) (fitB_sound (by decide +kernel)) ⟨_, w.p⟩ (List.mem_map.2 ⟨w, hw, rfl⟩), by decide +kernel, by decide +kernel⟩

/-- Patterns, lambdas with parameters, endless methods, singleton classes and `END`. -/
def sample4 : Ex .sts := block [
  .sclass (.word .self) (block [.defE false (cs! "m") (.qname (cs! "a") .qnil) (.bin .add (lv (cs! "a")) (.int 1))]),
  .asgn (.loc (cs! "r")) (.lam true (.qname (cs! "p") (.qdef (cs! "q") (.int 2) .qnil)) (block [.bin .mul (lv (cs! "p")) (lv (cs! "q"))])),
  .case_ (.send false (lv (cs! "r")) (cs! "to_a"))
    (.in_ (.list (.lcons (.range false (-1) 2) (.lsplat (some (cs! "r")) .lnil))) (block [lv (cs! "r")]) <|
     .in_ (.alts (.array (.lcons (.name (cs! "s")) (.lsplat none (.lcons (.pin (cs! "r")) .lnil))))
       (.lcons (.hash (.hkey (cs! "t") (.hpair (cs! "u") (.group (.const (cs! "U"))) .hnone))) (.lcons .nil .lnil)))
       (block [.bin .add (lv (cs! "s")) (lv (cs! "t"))]) <|
     .in_ (.list (.lcons (.bind (.array .lnil) (cs! "r")) .lnil)) (block [.word .nil]) .wnil)
    (.part (block [.postexe (block [lv (cs! "v")])]))]

example : Program sample4 ∧ (∀ w ∈ toks none sample4, Legal w.p) ∧ (toks none sample4).length < 2 ^ 32 ∧
    layout (spaced sample4) = cs! " class << self ; def m( a ) = a + 1 ; end ; r = -> ( p , q = 2 ) do p * q ; end ; case r . to_a ; in -1 .. 2 , * r then r ; in [ s , * , ^ r ] | { t: , u: ( U ) , ** nil } | nil then s + t ; in [] => r then nil ; else END { v ; } ; end ;" :=
  ⟨⟨by decide +kernel, by decide +kernel⟩,
    fun w hw => Fit.legal (k := 0) (last := .Invalid) (post := []) (is := spaced sample4) (fitB_sound (by decide +kernel)) ⟨_, w.p⟩ (List.mem_map.2 ⟨w, hw, rfl⟩), by decide +kernel, by decide +kernel⟩

/-- `a && b && c` is grouped to the right; `a && b && c && d` only by its first operator. -/
example :
    let x (s : Str) : Ex .ex := .var (.ivar s)
    let abc : Ex .ex := .bin .land (.bin .land (x (cs! "a")) (x (cs! "b"))) (x (cs! "c"))
    let v (s : Str) : Sexp := .node (cs! "ivar") [.sym ('@' :: s)]
    let and (a b : Sexp) : Sexp := .node (cs! "and") [a, b]
    Program (.slast abc) ∧ prog (.slast abc) = and (v (cs! "a")) (and (v (cs! "b")) (v (cs! "c"))) ∧
    Program (.slast (.bin .land abc (x (cs! "d")))) ∧
    prog (.slast (.bin .land abc (x (cs! "d")))) = and (v (cs! "a")) (and (and (v (cs! "b")) (v (cs! "c"))) (v (cs! "d"))) :=
  ⟨⟨by decide +kernel, by decide +kernel⟩, rfl, ⟨by decide +kernel, by decide +kernel⟩, rfl⟩

/-! ### Where the parser departs from Ruby -/

mutual
/-- A printed S-expression. -/
def showSx : Sexp → Str
  | .nil => cs! "nil"
  | .true_ => cs! "true"
  | .false_ => cs! "false"
  | .sym s => ':' :: s
  | .str s => '"' :: s
  | .int n => if n < 0 then '-' :: Nat.toDigits 10 n.natAbs else Nat.toDigits 10 n.natAbs
  | .node ty xs => '(' :: ty ++ showSxs xs
  | _ => cs! "?"

def showSxs : List Sexp → Str
  | [] => [')']
  | x :: xs => ' ' :: showSx x ++ showSxs xs
end

/-- The program, written with blanks, is not parsed to its S-expression: there is a syntax error or another
S-expression. -/
def Misread (ss : Ex .sts) : Prop :=
  Fit 0 .Invalid (spaced ss) [] ∧ ∃ r, Parses (layout (spaced ss)) [] r ∧ ((∃ e, r = .err e) ∨ ∃ n s, r = .ok n s ∧ n.toSexp ≠ some (prog ss))

/-- What the parser makes of it. -/
def reading (fuel : Nat) (ss : Ex .sts) : Option Str :=
  match runSource fuel (layout (spaced ss)) with
  | some (.ok n _) => n.toSexp.map showSx
  | some (.err _) => some (cs! "SyntaxError")
  | _ => none

theorem misread (fuel : Nat) (ss : Ex .sts) (hf : fitB 0 .Invalid (spaced ss) [] = true)
    (h : (reading fuel ss).any (fun x => x != showSx (prog ss)) = true) : Misread ss := by
  refine ⟨fitB_sound hf, ?_⟩
  unfold reading at h
  cases hr : runSource fuel (layout (spaced ss)) with
  | none => rw [hr] at h; cases h
  | some r =>
    rw [hr] at h
    refine ⟨r, runSource_parses hr, ?_⟩
    cases r with
    | ok n s =>
      refine .inr ⟨n, s, rfl, fun hn => ?_⟩
      simp [hn] at h
    | err e => exact .inl ⟨e, rfl⟩
    | _ => cases h

/-- C41 is false of Ruby's grammar without the restrictions of `Program`: these programs, which need no (further) parentheses
in Ruby, are not parsed to their S-expressions: `f(x = y = 1, 2)`, `!5.abs`, `2 ** 3.abs`, `-(5)`, `not a && b`, `a and b if
c`, `a if b if c`, `a rescue b if c`, `a ? b : c rescue d`, `[*a || b]`, `a[1] { |x| x }`, `private a do end`, `(a; b) while
c`, `break (1) + 2`, `(return)`, `if a then return else b end`, `case a; when 1 then b else c end`, `a = 1; a { }`, `def f(x = 1 << 2); end`, `f() { |x: 1 < 2| }`. -/
theorem C41_false :
    Misread (.slast (.fcall (cs! "f") (.acons (.asgn (.loc (cs! "x")) (.asgn (.loc (cs! "y")) (.int 1))) (.acons (.int 2) .anil)))) ∧
    Misread (.slast (.un .not (.send false (.int 5) (cs! "abs")))) ∧
    Misread (.slast (.bin .pow (.int 2) (.send false (.int 3) (cs! "abs")))) ∧
    Misread (.slast (.un .neg (.paren (.slast (.int 5))))) ∧
    Misread (.slast (.notE (.bin .land (lv (cs! "a")) (lv (cs! "b"))))) ∧
    Misread (.slast (.modi .if_ (.bin .kand (lv (cs! "a")) (lv (cs! "b"))) (lv (cs! "c")))) ∧
    Misread (.slast (.modi .if_ (.modi .if_ (lv (cs! "a")) (lv (cs! "b"))) (lv (cs! "c")))) ∧
    Misread (.slast (.modi .if_ (.rescueM (lv (cs! "a")) (lv (cs! "b"))) (lv (cs! "c")))) ∧
    Misread (.slast (.rescueM (.tern (lv (cs! "a")) (lv (cs! "b")) (lv (cs! "c"))) (lv (cs! "d")))) ∧
    Misread (.slast (.array (.asplat (.bin .lor (lv (cs! "a")) (lv (cs! "b"))) .anil))) ∧
    Misread (.slast (.block false (.index (lv (cs! "a")) (.acons (.int 1) .anil)) (.qname (cs! "x") .qnil) (.slast (.var (.loc (cs! "x")))))) ∧
    Misread (.slast (.cmd (cs! "private") (.acons (lv (cs! "a")) .anil) (.bdo .qnil .snil))) ∧
    Misread (.slast (.modi .while_ (.paren (.scons (lv (cs! "a")) (.slast (lv (cs! "b"))))) (lv (cs! "c")))) ∧
    Misread (.slast (.jump .break_ (.bin .add (.paren (.slast (.int 1))) (.int 2)))) ∧
    Misread (.slast (.paren (.slast .ret0))) ∧
    Misread (.slast (.if_ (lv (cs! "a")) (.slast .ret0) (.els (.slast (lv (cs! "b")))))) ∧
    Misread (.slast (.case_ (lv (cs! "a")) (.when_ (.acons (.int 1) .anil) (.slast (lv (cs! "b"))) .wnil) (.part (.slast (lv (cs! "c")))))) ∧
    Misread (.scons (.asgn (.loc (cs! "a")) (.int 1)) (.slast (.block false (lv (cs! "a")) .qnil .snil))) ∧
    Misread (.slast (.def_ false (cs! "f") (.qdef (cs! "x") (.bin .shl (.int 1) (.int 2)) .qnil) .snil)) ∧
    Misread (.slast (.block false (.fcall (cs! "f") .anil) (.qkeyd (cs! "x") (.bin .lt (.int 1) (.int 2)) .qnil) .snil)) := by
  refine ⟨?_, ?_, ?_, ?_, ?_, ?_, ?_, ?_, ?_, ?_, ?_, ?_, ?_, ?_, ?_, ?_, ?_, ?_, ?_, ?_⟩ <;> exact misread 200 _ (by decide +kernel) (by decide +kernel)

end NP
