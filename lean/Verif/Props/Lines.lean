import Verif.Proofs.Lines
import Verif.Props.Layout

/-!
C42: a text of several lines that is put together from tokens, line ends and comments is read back as the tokens and the line
ends that count. Spec: Verif/Spec/Lines.lean.
-/

namespace NP
open Spec

/-- C42. -/
theorem C42 (ps : List Part) (tr : Str) (hf : FitText 0 .Invalid ps tr) (ht : Spec.Blank tr) :
    ∃ ts e, List.Forall₂ Shows (visible .Invalid ps) ts ∧ ShowsEnd tr e ∧ Lexes (text ps ++ tr) (ts ++ [e]) :=
  text_lexes ps tr hf ht

/-- C42 does not extend to line ends with a carriage return: a comment ends before it, and it is no token. (Behind a
comment on a line of its own it belongs to the comment.) -/
theorem C42_carriage_return :
    (tokensFuel 40 (cs! "a # c\r\nb")).types = [.BareName, .Invalid] ∧
      (tokensFuel 40 (cs! "a\r\nb")).types = [.BareName, .Invalid] ∧
      (tokensFuel 40 (cs! "# c\r\nb")).types = [.BareName, .Eof] := by decide +kernel

/-! ### Non-vacuity: a check for `FitText` -/

def oneLineB (s : Str) : Bool := s.all fun c => c != '\n' && c != '\r' && c != NUL

def beginsB (last : Ttype) : Bool := last == .Invalid || last == .Newline

def fitPartB (k : Nat) (last : Ttype) (post : Str) : Part → Bool
  | .tok i => blankB i.sp && fitOneB k last i post
  | .line sp => blankB sp
  | .note sp s => blankB sp && oneLineB s && !beginsB last && (post == [] || post.head? == some '\n')
  | .doc sp ls => blankB sp && beginsB last && ls != [] && ls.all (fun p => oneLineB p.1 && p.2.all isWhite) &&
      post.head?.all fun c => c != '#' && !isWhite c

def fitTextB (k : Nat) (last : Ttype) : List Part → Str → Bool
  | [], _ => true
  | p :: ps, post => fitPartB k last (text ps ++ post) p && fitTextB (p.expects k) (p.last last) ps post

theorem oneLineB_sound {s : Str} (h : oneLineB s = true) : OneLine s := by
  intro c hc
  simp only [oneLineB, List.all_eq_true, Bool.and_eq_true, bne_iff_ne] at h
  exact ⟨(h c hc).1.1, (h c hc).1.2, (h c hc).2⟩

theorem beginsB_iff {last : Ttype} : beginsB last = true ↔ lineBegins last := by
  simp [beginsB, lineBegins]

theorem fitPartB_sound {k : Nat} {last : Ttype} {post : Str} {p : Part} (h : fitPartB k last post p = true) :
    FitPart k last post p := by
  cases p with
  | tok i =>
    simp only [fitPartB, Bool.and_eq_true] at h
    exact ⟨blankB_sound h.1, fitOneB_sound h.2⟩
  | line sp => exact blankB_sound h
  | note sp s =>
    simp only [fitPartB, Bool.and_eq_true, Bool.or_eq_true, beq_iff_eq, Bool.not_eq_true'] at h
    refine ⟨blankB_sound h.1.1.1, oneLineB_sound h.1.1.2, fun hb => ?_, h.2.imp id head_sound⟩
    rw [beginsB_iff.2 hb] at h
    exact absurd h.1.2 nofun
  | doc sp ls =>
    simp only [fitPartB, Bool.and_eq_true, bne_iff_ne, List.all_eq_true] at h
    refine ⟨blankB_sound h.1.1.1.1, beginsB_iff.1 h.1.1.1.2, h.1.1.2, fun p hp => ⟨oneLineB_sound (h.1.2 p hp).1, (h.1.2 p hp).2⟩, ?_⟩
    rintro c r rfl
    simpa using h.2

theorem fitTextB_sound : ∀ {k : Nat} {last : Ttype} {ps : List Part} {post : Str}, fitTextB k last ps post = true →
    FitText k last ps post
  | _, _, [], _, _ => trivial
  | _, _, _ :: _, _, h => by
    simp only [fitTextB, Bool.and_eq_true] at h
    exact ⟨fitPartB_sound h.1, fitTextB_sound h.2⟩

example : ∃ ps : List Part, FitText 0 .Invalid ps (cs! " \t") ∧
    text ps = cs! "# One.\n # Two.\n\nfoo(1, # first\n  2\n) \n .bar # last\n\nx = \\\n\n -3" ∧
    (visible .Invalid ps).length = 14 ∧ ps.length = 21 := by
  let w (sp : Str) (s : Str) (t : Ttype) : Part := .tok ⟨sp, .fixed s t⟩
  refine ⟨[.doc [] [(cs! " One.", [' ']), (cs! " Two.", ['\n'])], .tok ⟨[], .name (cs! "foo")⟩, w [] (cs! "(") .LParen,
    .tok ⟨[], .int 1⟩, w [] (cs! ",") .Comma, .note [' '] (cs! " first"), .line [], .tok ⟨cs! "  ", .int 2⟩, .line [],
    w [] (cs! ")") .RParen, .line [' '], w [' '] (cs! ".") .Dot, .tok ⟨[], .name (cs! "bar")⟩, .note [' '] (cs! " last"),
    .line [], .line [], .tok ⟨[], .name (cs! "x")⟩, w [' '] (cs! "=") .Equal, .line (cs! " \\\n"), w [' '] (cs! "-") .Minus,
    .tok ⟨[], .int 3⟩], fitTextB_sound (by decide +kernel), by decide +kernel, by decide +kernel, by decide +kernel⟩

end NP
