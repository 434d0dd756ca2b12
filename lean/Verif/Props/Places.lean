import Verif.Proofs.Era.Main
import Verif.Proofs.Era.Conv
import Verif.Props.Lines
import Verif.Props.Tree

/-!
C47: where the tokens of a source are written does not count, and neither do the comments. The tree depends on the types, texts
and numbers of the tokens and on whether there is white space in front of them. Spec: Verif/Spec/Bare.lean.
-/

namespace NP
open Spec

/-- What is observable of how parsing ended, but for places and comments: the tree, or that there was a syntax error. -/
def Spec.Alike : PRes Node → PRes Node → Prop
  | .ok n _, .ok n' _ => bare n = bare n'
  | .err _, .err _ => True
  | .abort, .abort => True
  | .ub, .ub => True
  | .overrun, .overrun => True
  | .fuel, .fuel => True
  | _, _ => False

theorem Era.alike {r r' q : PRes Node} (h : Sim r q) (h' : Sim r' q) : Alike r r' := by
  unfold Sim at h h'
  cases r <;> cases r' <;> dsimp only at h h' <;> first
    | trivial
    | (obtain ⟨_, h⟩ := h; rw [h] at h'; cases h')
    | (rw [h] at h'; obtain ⟨_, h'⟩ := h'; cases h')
    | (rw [h] at h'; cases h')
    | (rw [h] at h'; exact (PRes.ok.inj h').1)

/-- Two runs that end end alike. -/
theorem Ends.unique {src : Str} {r r' : Res (List Token)} (h : Ends src r) (h' : Ends src r') : r = r' := by
  obtain ⟨n, hn, hr⟩ := h
  obtain ⟨m, hm, hr'⟩ := h'
  unfold tokensFuel at hn hm
  rcases Nat.le_total n m with hl | hl
  · have := tokensLoop_mono _ _ _ _ _ hl (by rw [hn]; exact hr)
    rw [hn, hm] at this
    exact this.symm
  · have := tokensLoop_mono _ _ _ _ _ hl (by rw [hm]; exact hr')
    rw [hn, hm] at this
    exact this

theorem Lexes.parses {src file : Str} {ts : List Token} {r : PRes Node} (h : Lexes src ts) (hr : Parses src file r) :
    r = parseToks ⟨src, file⟩ ts := by
  cases hr with
  | tokens ts' h' => rw [h.unique h']
  | abort h' => cases Ends.unique h h'
  | ub h' => cases Ends.unique h h'

/-- C47: when the tokens of two sources agree, but for places and comments, parsing the sources ends alike. -/
theorem C47 {src src' file : Str} {ts ts' : List Token} {r r' : PRes Node} (h : Lexes src ts) (h' : Lexes src' ts')
    (e : ts.map bareTok = ts'.map bareTok) (hr : Parses src file r) (hr' : Parses src' file r') : Alike r r' := by
  rw [h.parses hr, h'.parses hr']
  have hl : ts.length = ts'.length := by simpa using congrArg List.length e
  have k := Era.n_parseTree (Era.good_knot (2 * ts.length + 2)) ⟨src, file⟩ ⟨[], file⟩ { rest := ts } rfl
  have k' := Era.n_parseTree (Era.good_knot (2 * ts'.length + 2)) ⟨src', file⟩ ⟨[], file⟩ { rest := ts' } rfl
  have e2 : Era.er ({ rest := ts } : PS) = Era.er ({ rest := ts' } : PS) := by
    show PS.mk _ _ .. = PS.mk _ _ ..
    rw [e]
  rw [← hl, ← e2] at k'
  unfold parseToks
  rw [← hl]
  exact Era.alike k k'

/-- C47 for what is returned to Ruby: the S-expressions are the same, if there is no `__LINE__` in the tree. -/
theorem C47_sexp {src src' file : Str} {ts ts' : List Token} {n : Node} {s : PS} (h : Lexes src ts) (h' : Lexes src' ts')
    (e : ts.map bareTok = ts'.map bareTok) (hr : Parses src file (.ok n s))
    (hn : ∀ t v, NodeOf (.fixnum t v) n → t.type ≠ .LINEKeyword) :
    ∃ n' s', Parses src' file (.ok n' s') ∧ n'.toSexp = n.toSexp := by
  have hr' : Parses src' file _ := .tokens ts' h'
  have k := C47 h h' e hr hr'
  generalize parseToks ⟨src', file⟩ ts' = r' at hr' k
  cases r' <;> first
    | exact k.elim
    | exact ⟨_, _, hr', (Era.toSexp_eq (n := n) hn k).symm⟩

/-! ### Texts with different layout -/

/-- What counts in a part of a text: the token, and whether there are blanks in front of it. -/
def Spec.Part.gist : Part → Option Piece × Bool
  | .tok i => (some i.p, i.ws)
  | .line sp | .note sp _ | .doc sp _ => (none, sp != [])

theorem Era.visible_sub : ∀ (ps : List Part) (last : Ttype), ∀ p ∈ visible last ps, p ∈ ps
  | [], _, _, h => h
  | p :: ps, last, q, h => by
    have ih := visible_sub ps (p.last last) q
    unfold visible at h
    split at h
    · rcases List.mem_cons.1 h with rfl | h
      · exact .head _
      · exact .tail _ (ih h)
    · split at h
      · exact .tail _ (ih h)
      · rcases List.mem_cons.1 h with rfl | h
        · exact .head _
        · exact .tail _ (ih h)
    · exact .tail _ (ih h)

theorem Era.keyword_no_float : ∀ p ∈ keywordTable, p.2 ≠ .Float := by decide +kernel
theorem Era.operator_no_float : ∀ p ∈ operatorEnd, p.1.2 ≠ .Float := by decide +kernel

theorem Era.fit_no_float {k : Nat} {last : Ttype} {i : Item} {post : Str} (h : FitOne k last i post) :
    i.p.type ≠ .Float := by
  unfold FitOne at h
  cases hp : i.p <;> rw [hp] at h <;> first
    | (intro e; cases e; done)
    | skip
  show _ ≠ _
  rcases h with h | ⟨cs, h, -⟩ | h | h | h
  · exact keyword_no_float _ h.1
  · exact operator_no_float _ h
  · rintro rfl
    simp at h
  · rintro rfl
    simp at h
  · rintro rfl
    simp at h

theorem Era.text_no_float : ∀ {k : Nat} {last : Ttype} {ps : List Part} {post : Str}, FitText k last ps post →
    ∀ i, .tok i ∈ ps → i.p.type ≠ .Float
  | _, _, [], _, _, _, h => by cases h
  | _, _, p :: ps, _, hf, i, h => by
    rcases List.mem_cons.1 h with rfl | h
    · exact fit_no_float hf.1.2
    · exact text_no_float hf.2 i h

/-- A token is known from what counts in the part. -/
theorem Era.bare_of_gist {p p' : Part} {t t' : Token} (hf : ∀ i, p = .tok i → i.p.type ≠ .Float) (h : Shows p t)
    (h' : Shows p' t') (e : p.gist = p'.gist) : bareTok t = bareTok t' := by
  cases p <;> cases p' <;> first
    | exact h.elim
    | exact h'.elim
    | (cases e; done)
    | skip
  · rename_i i i'
    obtain ⟨e1, e2⟩ := Prod.mk.inj e
    have e1 : i.p = i'.p := Option.some.inj e1
    have n := hf i rfl
    have n1 : t.type ≠ .Float := by rw [h.type]; exact n
    have n2 : t'.type ≠ .Float := by rw [h'.type, ← e1]; exact n
    unfold bareTok
    rw [if_neg n1, if_neg n2, h.type, h.lit, h.fix, h.ws, h'.type, h'.lit, h'.fix, h'.ws, e1, e2]
  · have e2 := (Prod.mk.inj e).2
    obtain ⟨a1, a2, a3, a4⟩ := h
    obtain ⟨b1, b2, b3, b4⟩ := h'
    unfold bareTok
    rw [a1, a2, a3, a4, b1, b2, b3, b4, e2]
    rfl

theorem Era.bares_of_gist {ps ps' : List Part} {ts ts' : List Token} (hf : ∀ i, .tok i ∈ ps → i.p.type ≠ .Float)
    (h : List.Forall₂ Shows ps ts) (h' : List.Forall₂ Shows ps' ts') (e : ps.map Part.gist = ps'.map Part.gist) :
    ts.map bareTok = ts'.map bareTok := by
  induction h generalizing ps' ts' with
  | nil =>
    cases h' with
    | nil => rfl
    | cons => cases e
  | cons h _ ih =>
    cases h' with
    | nil => cases e
    | cons h' hs' =>
      obtain ⟨e1, e2⟩ := List.cons.inj e
      rw [List.map_cons, List.map_cons, bare_of_gist (fun i hi => hf i (by rw [hi]; exact .head _)) h h' e1,
        ih (fun i hi => hf i (.tail _ hi)) hs' e2]

/-- C47 for texts: when two texts have the same tokens and the same line ends that count, parsing them ends alike. The numbers
of blanks, the line ends that do not count and the comments are free; only whether there are blanks in front of a token or
line end is to be the same. -/
theorem C47_layout (ps ps' : List Part) (tr tr' : Str) (hf : FitText 0 .Invalid ps tr) (hf' : FitText 0 .Invalid ps' tr')
    (ht : Spec.Blank tr) (ht' : Spec.Blank tr') (he : (tr != []) = (tr' != []))
    (e : (visible .Invalid ps).map Part.gist = (visible .Invalid ps').map Part.gist) (file : Str) (r r' : PRes Node)
    (hr : Parses (text ps ++ tr) file r) (hr' : Parses (text ps' ++ tr') file r') : Alike r r' := by
  obtain ⟨ts, t, h1, h2, h3⟩ := C42 ps tr hf ht
  obtain ⟨ts', t', h1', h2', h3'⟩ := C42 ps' tr' hf' ht'
  refine C47 h3 h3' ?_ hr hr'
  rw [List.map_append, List.map_append,
    Era.bares_of_gist (fun i hi => Era.text_no_float hf i (Era.visible_sub _ _ _ hi)) h1 h1' e]
  obtain ⟨a1, a2, a3, a4⟩ := h2
  obtain ⟨b1, b2, b3, b4⟩ := h2'
  unfold bareTok
  simp only [List.map_cons, List.map_nil]
  rw [a1, a2, a3, a4, b1, b2, b3, b4, he]
  rfl

/-! ### Non-vacuity -/

def tokensOf (src : Str) : List Token :=
  match tokensFuel 99 src with
  | .ok ts => ts
  | _ => []

theorem lexes_tokensOf {src : Str} (h : (tokensOf src).isEmpty = false) : Lexes src (tokensOf src) := by
  unfold tokensOf at h ⊢
  split
  · rename_i ts e
    exact ⟨99, e, nofun⟩
  · rename_i e
    split at h
    · exact absurd ‹_› (e _)
    · cases h

/-- The same tokens on one line and on six, with comments and an unused line end. -/
example : ∃ ts ts', Lexes (cs! "f (1 + 2), [a, b]") ts ∧
    Lexes (cs! "# two\n# lines\nf   (1 + # one\n 2),\n\n  [a,\n b]") ts' ∧ ts ≠ ts' ∧ ts.map bareTok = ts'.map bareTok :=
  ⟨_, _, lexes_tokensOf (by decide +kernel), lexes_tokensOf (by decide +kernel), by decide +kernel, by decide +kernel⟩

/-- Two texts as in `C47_layout`. -/
example : ∃ ps ps' : List Part, FitText 0 .Invalid ps [] ∧ FitText 0 .Invalid ps' [] ∧
    text ps = cs! "foo(1, 2).bar\nx = -3" ∧
    text ps' = cs! "# One.\n # Two.\n\nfoo(1, # first\n  2\n)\n.bar # last\nx = \\\n  -3" ∧
    (visible .Invalid ps).map Part.gist = (visible .Invalid ps').map Part.gist := by
  let w (sp : Str) (s : Str) (t : Ttype) : Part := .tok ⟨sp, .fixed s t⟩
  refine ⟨[.tok ⟨[], .name (cs! "foo")⟩, w [] (cs! "(") .LParen, .tok ⟨[], .int 1⟩, w [] (cs! ",") .Comma,
    .tok ⟨cs! " ", .int 2⟩, w [] (cs! ")") .RParen, w [] (cs! ".") .Dot, .tok ⟨[], .name (cs! "bar")⟩, .line [],
    .tok ⟨[], .name (cs! "x")⟩, w [' '] (cs! "=") .Equal, w [' '] (cs! "-") .Minus, .tok ⟨[], .int 3⟩],
    [.doc [] [(cs! " One.", [' ']), (cs! " Two.", ['\n'])], .tok ⟨[], .name (cs! "foo")⟩, w [] (cs! "(") .LParen,
    .tok ⟨[], .int 1⟩, w [] (cs! ",") .Comma, .note [' '] (cs! " first"), .line [], .tok ⟨cs! "  ", .int 2⟩, .line [],
    w [] (cs! ")") .RParen, .line [], w [] (cs! ".") .Dot, .tok ⟨[], .name (cs! "bar")⟩, .note [' '] (cs! " last"),
    .line [], .tok ⟨[], .name (cs! "x")⟩, w [' '] (cs! "=") .Equal, w (cs! " \\\n  ") (cs! "-") .Minus,
    .tok ⟨[], .int 3⟩], fitTextB_sound (by decide +kernel), fitTextB_sound (by decide +kernel), by decide +kernel,
    by decide +kernel, by decide +kernel⟩

/-! ### What counts -/

/-- The message of a tree that is one call. -/
def onlyMessage : Node → Option Str
  | .call _ _ msg _ => some msg
  | _ => none

/-- The number of a tree that is one number. -/
def onlyNumber : Node → Option Int
  | .fixnum _ v => some v
  | _ => none

theorem parses_of_tree {src : Str} {fuel : Nat} {α : Type} {f : Node → Option α} {a : α}
    (h : ((runSource fuel src).bind fun r => r.tree?.bind f) = some a) :
    ∃ n s, Parses src [] (.ok n s) ∧ f n = some a := by
  cases hr : runSource fuel src with
  | none => rw [hr] at h; cases h
  | some r =>
    rw [hr] at h
    cases r with
    | ok n s => exact ⟨n, s, runSource_parses hr, h⟩
    | _ => cases h

/-- White space counts: `a [1]` calls `a` with an argument, and `a[1]` calls `[]`. -/
theorem C47_white_space :
    (∃ n s, Parses (cs! "a [1]") [] (.ok n s) ∧ onlyMessage n = some (cs! "a")) ∧
      ∃ n s, Parses (cs! "a[1]") [] (.ok n s) ∧ onlyMessage n = some (cs! "[]") :=
  ⟨parses_of_tree (fuel := 40) (by decide +kernel), parses_of_tree (fuel := 40) (by decide +kernel)⟩

/-- The place of `__LINE__` counts, although the tokens agree. -/
theorem C47_line :
    (∃ n s, Parses (cs! "__LINE__") [] (.ok n s) ∧ onlyNumber n = some 1) ∧
      (∃ n s, Parses (cs! "# c\n__LINE__") [] (.ok n s) ∧ onlyNumber n = some 2) ∧
      (tokensOf (cs! "__LINE__")).map bareTok = (tokensOf (cs! "# c\n__LINE__")).map bareTok :=
  ⟨parses_of_tree (fuel := 40) (by decide +kernel), parses_of_tree (fuel := 40) (by decide +kernel), by decide +kernel⟩

end NP
