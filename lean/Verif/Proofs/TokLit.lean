import Verif.Proofs.Filter
import Verif.Proofs.Setter

/-! Tokens whose literal the parser asks for have one. -/

namespace NP
open Spec

/-- The types of tokens whose text the parser reads without looking whether there is one. -/
def needsLit (t : Ttype) : Bool :=
  t == .Invalid || t == .BareName || t == .Constant || t == .OperatorName || t == .GlobalVariable ||
  t == .ClassVariable || t == .InstanceVariable || t == .Symbol || t == .SymbolKey || t == .String || t == .Bignum ||
  t == .BackRef

def LitOk (t : Token) : Prop := needsLit t.type = true → t.lit ≠ none

def HasLit (o : Out) : Prop := LitOk o.tok

theorem keyword_needsLit : ∀ t : Ttype, t.isKeyword = true → needsLit t = false := by
  intro t; cases t <;> decide

theorem needsLit_end {e : Ttype} (h : EndType e) : needsLit e = false := by
  rcases h with rfl | rfl | rfl <;> rfl

namespace HasLit


theorem plain {o : Out} (h : needsLit o.tok.type = false) : HasLit o := fun hs => by rw [h] at hs; cases hs

theorem lit (o : Out) (s : Str) (h : o.tok.lit = some s) : HasLit o := fun _ => by rw [h]; simp

theorem op (l : Lx) (n : Nat) (t : Ttype) (h : needsLit t = false) : HasLit (l.op n t) := plain h

theorem opLit (l : Lx) (n : Nat) (t : Ttype) (s : Str) : HasLit (l.opLit n t s) := lit _ s rfl

theorem doubleQuoted (l : Lx) (n : Nat) (a b : Char) (t e : Ttype) (h : needsLit t = false) :
    HasLit (l.doubleQuoted n a b t e) := plain h

theorem regexp (l : Lx) (n : Nat) (a b : Char) : HasLit (l.regexp n a b) := plain rfl

theorem wordArray (l : Lx) (n : Nat) (a b : Char) (i : Bool) (t : Ttype) (h : needsLit t = false) :
    HasLit (l.wordArray n a b i t) := plain h

theorem singleQuotedString (l : Lx) (n : Nat) (a b : Char) : HasLit (l.singleQuotedString n a b) := by
  unfold Lx.singleQuotedString
  split
  · split <;> exact opLit _ _ _ _
  · exact opLit _ _ _ _

theorem symbol (l : Lx) (n : Nat) (a b : Char) :
    HasLit { l.singleQuotedString n a b with tok := { (l.singleQuotedString n a b).tok with type := .Symbol } } := by
  unfold Lx.singleQuotedString
  split
  · split <;> exact lit _ _ rfl
  · exact lit _ _ rfl

theorem percentConsumer (l : Lx) (n : Nat) (k : Lx.PKind) (a b : Char) : HasLit (l.percentConsumer n k a b) := by
  cases k <;> simp only [Lx.percentConsumer]
  · exact singleQuotedString _ _ _ _
  · exact doubleQuoted _ _ _ _ _ _ rfl
  · exact regexp _ _ _ _
  · exact symbol _ _ _ _
  · exact doubleQuoted _ _ _ _ _ _ rfl
  · exact wordArray _ _ _ _ _ _ rfl
  · exact wordArray _ _ _ _ _ _ rfl
  · exact wordArray _ _ _ _ _ _ rfl
  · exact wordArray _ _ _ _ _ _ rfl

theorem percentString (l : Lx) (n : Nat) (k : Lx.PKind) : HasLit (l.percentString n k) := by
  unfold Lx.percentString
  split
  · exact op _ _ _ rfl
  · extract_lets c
    repeat' split
    all_goals first
      | exact op _ _ _ rfl
      | exact percentConsumer _ _ _ _ _

theorem heredoc {l : Lx} {o : Out} (h : HeredocOut (l.adv 2) o) : HasLit o := by
  cases h with
  | bad n s => exact lit _ _ rfl
  | raw n start k doc hn hd hs => exact lit _ _ rfl
  | interp n start k doc b e hn hd hs hbe =>
    refine plain (?_ : needsLit b = false)
    rcases hbe with ⟨rfl, rfl⟩ | ⟨rfl, rfl⟩ <;> rfl

theorem bareName (l : Lx) (t : Ttype) : HasLit (l.bareName t) := by
  unfold Lx.bareName
  extract_lets r c d
  repeat' split
  all_goals exact opLit _ _ _ _

theorem lexWord (l : Lx) : HasLit l.lexWord := by
  unfold Lx.lexWord
  split
  · rename_i t n hk
    obtain ⟨_, hkw, _⟩ := keywordAt_pos l t n hk
    split
    · exact opLit _ _ _ _
    · exact op _ _ _ (keyword_needsLit t hkw)
  · extract_lets c r
    split
    · exact bareName _ _
    split
    · exact bareName _ _
    · exact opLit _ _ _ _

attribute [local irreducible] Lx.heredoc in
theorem lexLess (l : Lx) : HasLit l.lexLess := by
  unfold Lx.lexLess
  repeat' split
  all_goals first
    | exact op _ _ _ rfl
    | exact heredoc (heredoc_out _)

theorem dispatch (l : Lx) (o : Out) (h : l.dispatch = .ok o) : HasLit o := by
  have hd := dispatch_disp l
  rw [h] at hd
  generalize hr : Res.ok o = r at hd
  cases hd
  case question =>
    unfold Lx.lexQuestion at hr
    replace hr := hr.symm
    extract_lets c at hr
    split at hr
    · cases hr; exact plain rfl
    split at hr
    · split at hr <;> cases hr
      · exact opLit _ _ _ _
      · rename_i t n he
        exact opLit _ _ _ _
    · cases hr; exact opLit _ _ _ _
  case dollar =>
    unfold Lx.lexDollar at hr
    replace hr := hr.symm
    split at hr
    · cases hr; exact opLit _ _ _ _
    split at hr
    · extract_lets ds at hr
      split at hr
      · cases hr; exact plain rfl
      · cases hr
    · cases hr
      unfold Lx.globalVariable
      repeat' split
      all_goals exact opLit _ _ _ _
  all_goals (obtain rfl : o = _ := by simpa using hr)
  case less hc => exact lexLess l
  case colon =>
    unfold Lx.lexColon
    extract_lets c o
    split
    · exact op _ _ _ rfl
    split
    · exact op _ _ _ rfl
    split
    · exact doubleQuoted _ _ _ _ _ _ rfl
    split
    · exact lit _ _ rfl
    split
    · exact plain rfl
    split
    · exact opLit _ _ _ _
    · exact opLit _ _ _ _
  case newline =>
    unfold Lx.lexNewline
    extract_lets l1
    split <;> exact plain rfl
  case digit hc =>
    unfold Lx.lexNumber
    extract_lets r l'
    split <;> first | exact plain rfl | exact lit _ _ rfl
  case word => exact lexWord l
  case squote => exact singleQuotedString _ _ _ _
  case dquote => exact doubleQuoted _ _ _ _ _ _ rfl
  case hash hc =>
    unfold Lx.lexHash
    split
    · exact opLit _ _ _ _
    · exact op _ _ _ rfl
  case percent =>
    unfold Lx.lexPercent
    extract_lets c
    repeat' split
    all_goals first
      | exact op _ _ _ rfl
      | exact percentString _ _ _
  case i =>
    unfold Lx.lexI
    split
    · exact op _ _ _ rfl
    · exact lexWord l
  case r =>
    unfold Lx.lexR
    repeat' split
    all_goals first
      | exact op _ _ _ rfl
      | exact lexWord l
  case slash =>
    unfold Lx.lexSlash
    repeat' split
    all_goals first
      | exact op _ _ _ rfl
      | exact regexp _ _ _ _
  case backtick =>
    unfold Lx.lexBacktick
    split
    · exact opLit _ _ _ _
    · exact doubleQuoted _ _ _ _ _ _ rfl
  all_goals
    try unfold Lx.lexAt
    try unfold Lx.lexEqual
    try unfold Lx.lexPlus
    try unfold Lx.lexMinus
    try unfold Lx.lexStar
    try unfold Lx.lexBang
    try unfold Lx.lexGreater
    try unfold Lx.lexAmpersand
    try unfold Lx.lexPipe
    try unfold Lx.lexCaret
    try unfold Lx.lexTilde
    try unfold Lx.lexDot
    try unfold Lx.lexLBracket
    repeat' split
    all_goals first
      | exact op _ _ _ rfl
      | exact opLit _ _ _ _

theorem buildBase (l : Lx) (o : Out) (h : l.buildBase = .ok o) : HasLit o := by
  unfold Lx.buildBase at h
  ite_at h as c0
  · cases h; exact plain rfl
  ite_at h as c1
  · exact dispatch _ _ h
  ite_at h as c2
  · ite_at h as c3
    · cases h; exact plain rfl
    · exact dispatch _ _ h
  ite_at h as c4
  · exact dispatch _ _ h
  · exact dispatch _ _ h

end HasLit

/-- Closes the branches of `build_hasLit`. -/
macro "has_lit" : tactic => `(tactic| first | exact HasLit.plain rfl | exact HasLit.lit _ _ rfl)

theorem build_hasLit (l : Lx) (o : Out) (hw : l.kind.WF) (h : l.build = .ok o) : HasLit o := by
  unfold Lx.build at h
  split at h
  · exact HasLit.buildBase _ _ h
  · rename_i e _ hkind
    have he : needsLit e = false := by rw [hkind] at hw; exact needsLit_end hw
    unfold Lx.buildIstr at h
    split at h
    · unfold Lx.istrConsume at h
      split at h
      · dsimp only at h; ite_at h as c <;> cases h <;> has_lit
      · dsimp only at h; ite_at h as c
        · cases h; exact .plain he
        · cases h; has_lit
      · dsimp only at h; ite_at h as c <;> cases h <;> has_lit
      · rename_i hq
        have := interpLoop_ends l.startChar l.stopChar (l.rest.length + 1) l.pairDepth [] 0 l.rest
        rw [hq] at this
        cases h
        rcases this.2 with h | h <;> subst h <;> has_lit
      · cases h
      · cases h
    · cases h; has_lit
    · cases h; has_lit
    · cases h; exact .plain he
    · cases h; has_lit
  · unfold Lx.buildRegexp at h
    split at h
    · unfold Lx.regexpConsume at h
      split at h <;> cases h <;> has_lit
    · cases h; has_lit
    · dsimp only at h; ite_at h as c <;> cases h <;> has_lit
    · cases h; has_lit
    · cases h; has_lit
  · unfold Lx.buildWords at h
    have hf : ∀ (l : Lx) i s d b, HasLit (l.wordsDynFinish i s d b) := by
      intro l i s d b; unfold Lx.wordsDynFinish; split <;> has_lit
    have hg : ∀ (l : Lx) i s d b, HasLit (l.wordsFinish i s d b) := by
      intro l i s d b; unfold Lx.wordsFinish; dsimp only; split <;> has_lit
    have hc : ∀ st i s d, l.wordsConsume st i s d = .ok o → HasLit o := by
      intro st i s d h
      unfold Lx.wordsConsume at h
      dsimp only at h
      split at h
      · ite_at h as c
        · cases h; exact hf _ _ _ _ _
        · cases h; has_lit
      · cases h; has_lit
      · ite_at h as c
        · cases h; exact hf _ _ _ _ _
        · cases h; exact hg _ _ _ _ _
      · cases h; has_lit
      · cases h
    split at h
    · exact hc _ _ _ _ h
    · exact hc _ _ _ _ h
    · cases h; has_lit
    · ite_at h as c <;> cases h <;> has_lit
    all_goals (cases h; has_lit)

theorem step_litOk (l : Lx) (o : Out) (hw : l.kind.WF) (h : l.step = .ok o) : LitOk o.tok := by
  obtain ⟨b, hb, rfl⟩ := l.step_eq o h
  exact build_hasLit l.start b hw hb

theorem Produced.litOk {src : Str} {t : Token} (h : Produced src t) : LitOk t := by
  obtain ⟨l, o, hl, ho, rfl⟩ := h
  exact step_litOk l o hl.wf ho

theorem annotate_mem_lit (seen raw : List Token) (t : Token) (h : t ∈ annotate seen raw) :
    ∃ t0 ∈ raw, t.type = t0.type ∧ t.lit = t0.lit := by
  have : (t.type, t.lit) ∈ (annotate seen raw).map (fun t => (t.type, t.lit)) := List.mem_map_of_mem h
  rw [annotate_map (fun t : Token => (t.type, t.lit)) (fun _ _ => rfl)] at this
  obtain ⟨t0, h0, h1⟩ := List.mem_map.1 this
  simp only [Prod.mk.injEq] at h1
  exact ⟨t0, h0, h1.1.symm, h1.2.symm⟩

/-- Every token of a source whose literal is needed has a literal. -/
theorem Lexes.litOk {src : Str} {ts : List Token} (h : Lexes src ts) : ∀ t ∈ ts, LitOk t := by
  obtain ⟨fuel, h, _⟩ := h
  obtain ⟨rfl, hp, _⟩ := lexes_raw h
  intro t ht
  have ht := (collapse_sublist _ _).mem ht
  simp only [List.mem_filter] at ht
  obtain ⟨t0, h0, h1, h2⟩ := annotate_mem_lit _ _ _ ht.1
  have := (hp t0 h0).litOk
  unfold LitOk at this ⊢
  rwa [h1, h2]

end NP
