import Verif.Spec.Regexp
import Verif.Proofs.ParseEval
import Verif.Props.Array

/-! Property C35: the options of regexps. -/

namespace NP
open Spec

theorem testBit_pow (j k : Nat) : (2 ^ j).testBit k = true ↔ j = k := by
  rw [Nat.testBit_two_pow, decide_eq_true_iff]

/-- One letter. -/
def regexpStep (o : Nat) (c : Char) : Nat :=
  match c with
  | 'i' => o ||| 1
  | 'x' => o ||| 2
  | 'm' => o ||| 4
  | 'e' | 's' | 'u' => o ||| 16
  | 'n' => o ||| 32
  | _ => o

theorem regexpStep_bits (o : Nat) (c : Char) (k : Nat) :
    (regexpStep o c).testBit k = true ↔ (o.testBit k = true ∨ optionBit c = some k) := by
  have hp : ∀ j, (o ||| 2 ^ j).testBit k = true ↔ (o.testBit k = true ∨ some j = some k) := by
    intro j
    rw [Nat.testBit_or, Bool.or_eq_true, testBit_pow, Option.some.injEq]
  unfold optionBit regexpStep
  split
  · exact hp 0
  · exact hp 1
  · exact hp 2
  · exact hp 4
  · exact hp 4
  · exact hp 4
  · exact hp 5
  · simp

theorem regexpBits_fold (s : Str) : ∀ o k,
    (s.foldl regexpStep o).testBit k = true ↔ o.testBit k = true ∨ ∃ c ∈ s, optionBit c = some k := by
  induction s with
  | nil => intro o k; simp
  | cons c cs ih =>
    intro o k
    rw [List.foldl_cons, ih, regexpStep_bits]
    simp only [List.mem_cons, exists_eq_or_imp, or_assoc]

/-- C35 for the function that reads the options: a bit is set iff one of its letters occurs, in any order and however
often. -/
theorem C35_bits (s : Str) : ExactBits s (regexpBits s) := by
  intro k
  show (s.foldl regexpStep 0).testBit k = true ↔ _
  rw [regexpBits_fold]
  simp

/-- The options of a regexp node. -/
def Node.options : Node → Option Nat
  | .regexp _ _ o => some o
  | .interpolatedRegexp _ _ o => some o
  | _ => none

theorem tokOptions_bits (t : Token) : ExactBits (t.lit.getD []) (tokOptions t) := by
  unfold tokOptions
  cases t.lit with
  | none => intro k; simp
  | some s => exact C35_bits s

theorem P.bind_ok {α β : Type} {p : P α} {f : α → P β} {c : Cx} {s s' : PS} {b : β} (h : (p >>= f) c s = .ok b s') :
    ∃ a s1, p c s = .ok a s1 ∧ f a c s1 = .ok b s' := by
  change P.bind p f c s = _ at h
  unfold P.bind at h
  revert h
  cases hp : p c s with
  | ok a s1 => exact fun h => ⟨a, s1, rfl, h⟩
  | _ => nofun

theorem advance_ok {c : Cx} {s s' : PS} (h : advance c s = .ok () s') : s'.prevTok = s.cur := by
  unfold advance at h
  split at h
  · cases h
  · rename_i t ts hr
    cases h
    unfold PS.cur
    rw [hr]
    rfl

theorem litOf_ok {t : Token} {c : Cx} {s s' : PS} {a : Str} (h : litOf t c s = .ok a s') : t.lit = some a ∧ s' = s := by
  unfold litOf at h
  cases hl : t.lit with
  | none => rw [hl] at h; cases h
  | some b => rw [hl] at h; cases h; exact ⟨rfl, rfl⟩

theorem throwUnterminated_fails {α : Type} (t u : Token) (c : Cx) (s s' : PS) (a : α) :
    throwUnterminated t u c s ≠ .ok a s' := by
  unfold throwUnterminated
  dsimp only
  split <;> nofun

theorem unterminated_fails {α : Type} (t : Token) (ty : Ttype) (c : Cx) (s s' : PS) (a : α) :
    (match ty with
    | .UnterminatedRegexp | .UnterminatedString | .UnterminatedWordArray => throwUnterminated t {}
    | _ => P.abort : P α) c s ≠ .ok a s' := by
  cases ty <;> first | exact throwUnterminated_fails _ _ _ _ _ _ | nofun

/-- C35 in the parser: wherever a regexp literal is parsed, whatever its parts are, the node has exactly the bits of the
letters of the end token, which is the last token of the literal. -/
theorem C35_node (R : Rec) (c : Cx) (s s' : PS) (n : Node) (h : parseInterpolatedRegexp R c s = .ok n s') :
    s'.prevTok.type = .InterpolatedRegexpEnd ∧ ∃ o, n.options = some o ∧ ExactBits (s'.prevTok.lit.getD []) o := by
  unfold parseInterpolatedRegexp at h
  obtain ⟨t, s1, h1, h⟩ := P.bind_ok h
  obtain ⟨_, s2, h2, h⟩ := P.bind_ok h
  obtain ⟨cc, s3, h3, h⟩ := P.bind_ok h
  obtain ⟨pk, s4, h4, h⟩ := P.bind_ok h
  cases h1; cases h3; cases h4
  split at h
  · rename_i hc
    obtain ⟨_, s5, h5, h⟩ := P.bind_ok h
    cases h
    rw [advance_ok h5]
    exact ⟨hc, _, rfl, tokOptions_bits _⟩
  · split at h
    · rename_i hc
      obtain ⟨str, s5, h5, h⟩ := P.bind_ok h
      obtain ⟨_, s6, h6, h⟩ := P.bind_ok h
      obtain ⟨e, s7, h7, h'⟩ := P.bind_ok h
      cases h7
      obtain ⟨_, s8, h8, h''⟩ := P.bind_ok h'
      cases h''
      rw [advance_ok h8]
      refine ⟨?_, _, rfl, tokOptions_bits _⟩
      obtain ⟨-, rfl⟩ := litOf_ok h5
      rw [← hc.2]
      unfold advance at h6
      split at h6
      · cases h6
      · rename_i t ts hr
        cases h6
        unfold PS.peek PS.cur
        rw [hr]
        rfl
    · obtain ⟨ns, s5, h5, h⟩ := P.bind_ok h
      obtain ⟨e, s6, h6, h'⟩ := P.bind_ok h
      cases h6
      obtain ⟨_, s7, h7, h''⟩ := P.bind_ok h'
      cases h''
      rw [advance_ok h7]
      refine ⟨?_, _, rfl, tokOptions_bits _⟩
      unfold parseInterpolatedBody at h5
      obtain ⟨ns', s8, -, h5⟩ := P.bind_ok h5
      obtain ⟨ty, s9, h9, h5⟩ := P.bind_ok h5
      cases h9
      split at h5
      · rename_i ht
        cases h5
        exact ht
      · exact absurd h5 (unterminated_fails _ _ _ _ _ _)

theorem prec_eof (z : Token) (hz : z.type = .Eof) (left : Node) (hl : left.isSymbolKey = false) (p : Prec) (ia : IterAllow)
    (c : Cx) (s : PS) (hs : s.cur = z) : higherPrecedence z left p ia c s = .ok false s := by
  have h1 : getPrec z (some left) s.cur = .LOWEST := by
    unfold getPrec
    rw [hz, hs]
    simp only [isFirstArg, hz]
    rw [show Ttype.Eof.canBeFirstArgOfImplicitCall = false from rfl, Bool.and_false]
    rfl
  unfold higherPrecedence
  simp only [h1, hl]
  cases p <;> rfl

/-- The parser on the tokens of a regexp literal without interpolation. -/
theorem parse_regexp_vector (c : Cx) (b t e z : Token) (bs : Str) (hb : b.type = .InterpolatedRegexpBegin)
    (ht : t.type = .String) (hl : t.lit = some bs) (he : e.type = .InterpolatedRegexpEnd) (hz : z.type = .Eof)
    (hv : VectorOk [b, t, e, z]) :
    ∃ s, parseToks c [b, t, e, z] = .ok (.regexp b bs (tokOptions e)) s := by
  refine ⟨_, Evals.parseToks hv (EvalsFrom.tree (s' := { prev := [e, t, b], rest := [z], precs := [.LOWEST] }) rfl
    (by rw [hb]; rfl) (by rw [hb]; decide) (by rw [hb]; rfl) ?_ rfl rfl hz)⟩
  refine .first parseInterpolatedRegexp (l := .regexp b bs (tokOptions e))
    (s1 := { prev := [e, t, b], rest := [z], precs := [.LOWEST] }) ?_ (.of fun R => ?_) (.stop ?_)
  · intro R
    show nullDenotation R b.type = _
    rw [hb]; rfl
  · unfold parseInterpolatedRegexp
    show (if t.type = .InterpolatedRegexpEnd then _ else if t.type = .String ∧ e.type = .InterpolatedRegexpEnd then _
      else _ : P Node) c _ = _
    rw [if_neg (by rw [ht]; decide), if_pos ⟨ht, he⟩]
    unfold litOf
    show (match t.lit with | some s => pure s | none => P.abort : P Str).bind _ c _ = _
    rw [hl]
    rfl
  · exact prec_eof z hz _ rfl _ _ _ _ rfl

/-- C35 for a whole source: a regexp literal with the options `o` is parsed to a regexp with exactly the bits of the
letters of `o`. -/
theorem C35_source (text bs o tail file : Str) (ho : ∀ x ∈ o, x ∈ optionLetters) (ht : Spec.Blank tail)
    (h : Pattern NUL '/' text bs ('/' :: (o ++ tail))) :
    ∃ t mask s, Parses ('/' :: text ++ '/' :: (o ++ tail)) file (.ok (.regexp t bs mask) s) ∧ ExactBits o mask := by
  obtain ⟨ts, z, hl, hz, hk⟩ := C21_source text bs o tail ho ht h
  obtain ⟨b, t, e, rfl⟩ : ∃ b t e, ts = [b, t, e] := by
    have := congrArg List.length hk
    simp only [List.length_map, List.length_cons, List.length_nil] at this
    match ts, this with
    | [b, t, e], _ => exact ⟨b, t, e, rfl⟩
  · simp only [List.map_cons, List.map_nil, List.cons.injEq, Token.key, Prod.mk.injEq, and_true] at hk
    obtain ⟨⟨hb, -⟩, ⟨h1, h2⟩, h3, h4⟩ := hk
    obtain ⟨s, hs⟩ := parse_regexp_vector ⟨'/' :: text ++ '/' :: (o ++ tail), file⟩ b t e z bs hb h1 h2 h3 hz hl.vectorOk
    refine ⟨b, tokOptions e, s, ?_, ?_⟩
    · rw [← hs]
      exact .tokens _ hl
    · have := tokOptions_bits e
      rw [h4] at this
      split at this
      · rename_i h0; rwa [h0]
      · exact this

/-- Non-vacuity: repeated letters, out of order; a regexp with interpolation. -/
example : ExactBits (cs! "mixi") 7 := C35_bits (cs! "mixi")
example : (runSource 30 (cs! "/ab/xmoxu")).any (fun r => match r with
    | .ok (.regexp _ bs o) _ => bs == cs! "ab" && o == 22
    | _ => false) = true := by decide +kernel
example : (runSource 30 (cs! "/a#{1}b/ni")).any (fun r => match r with
    | .ok n _ => n.options == some 33
    | _ => false) = true := by decide +kernel

end NP
