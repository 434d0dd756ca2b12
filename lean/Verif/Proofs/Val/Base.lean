import Verif.Model.Parser
import Verif.Proofs.Val.Attr
import Verif.Proofs.Val.Tree
import Mathlib.Tactic.CasesM

/-!
Partial correctness of the functions of the parser with respect to the trees returned: rules for the primitive
operations and the tactics that run through a function.
-/

namespace NP.Val

open Spec

/-- The tokens the parser can see. -/
def AllT (W : Nat → Nat → Prop) (s : PS) : Prop := W 0 0 ∧ (∀ t ∈ s.prev, Tk W t) ∧ ∀ t ∈ s.rest, Tk W t

/-- The place an error message reports. -/
def errPlace (W : Nat → Nat → Prop) : SErr → Prop
  | .unexpected t _ _ _ => W t.line t.col
  | .unterminated t start _ _ => W t.line t.col ∧ W start.line start.col
  | .invalid t => W t.line t.col
  | .plain _ => True

/-- If `p` started in `s` returns, `Q` holds; if it throws an error, the error is at a place with `W`. -/
def okv {α : Type} (W : Nat → Nat → Prop) (p : P α) (c : Cx) (s : PS) (Q : α → PS → Prop) : Prop :=
  AllT W s →
    match p c s with
    | .ok a s' => AllT W s' ∧ Q a s'
    | .err e => errPlace W e
    | .abort => True
    | .ub => True
    | .overrun => True
    | .fuel => True

/-- A tree in order. (`ConstantNode` appears in patterns and before the name of a method only.) -/
def Ve (W : Nat → Nat → Prop) (n : Node) : Prop := wf W n ∧ isConst n = false
def Ves (W : Nat → Nat → Prop) (ns : List Node) : Prop := ∀ n ∈ ns, Ve W n
/-- A pattern. -/
def Vp (W : Nat → Nat → Prop) (n : Node) : Prop := wf W n ∧ isElem n = true
def Vps (W : Nat → Nat → Prop) (ns : List Node) : Prop := ∀ n ∈ ns, Vp W n
/-- Parameters. -/
def Pars (W : Nat → Nat → Prop) (ns : List Node) : Prop := ∀ n ∈ ns, wf W n ∧ isParam n = true

/-- What is a value in order, by type. -/
class Valid (α : Type) where
  ok : (Nat → Nat → Prop) → α → Prop

instance : Valid Node := ⟨Ve⟩
instance : Valid Token := ⟨Tk⟩
instance : Valid Unit := ⟨fun _ _ => True⟩
instance : Valid PUnit.{1} := ⟨fun _ _ => True⟩
instance : Valid Bool := ⟨fun _ _ => True⟩
instance : Valid Char := ⟨fun _ _ => True⟩
instance : Valid Nat := ⟨fun _ _ => True⟩
instance : Valid Ttype := ⟨fun _ _ => True⟩
instance {α : Type} [Valid α] : Valid (List α) := ⟨fun W l => ∀ x ∈ l, Valid.ok W x⟩
instance {α : Type} [Valid α] : Valid (Option α) := ⟨fun W o => ∀ x ∈ o, Valid.ok W x⟩
instance {α β : Type} [Valid α] [Valid β] : Valid (α × β) := ⟨fun W p => Valid.ok W p.1 ∧ Valid.ok W p.2⟩
instance : Valid Blk := ⟨fun W b => Tk W b.tok ∧ Ves W b.nodes⟩
instance {σ α : Type} [Valid σ] [Valid α] : Valid (Loop σ α) := ⟨fun W l =>
  match l with
  | .again x => Valid.ok W x
  | .done a => Valid.ok W a⟩

section
variable {W : Nat → Nat → Prop}
@[vok] theorem ok_node {n : Node} : Valid.ok W n ↔ Ve W n := .rfl
@[vok] theorem ok_tok {n : Token} : Valid.ok W n ↔ Tk W n := .rfl
@[vok] theorem ok_unit {n : Unit} : Valid.ok W n ↔ True := .rfl
@[vok] theorem ok_bool {n : Bool} : Valid.ok W n ↔ True := .rfl
@[vok] theorem ok_ty {n : Ttype} : Valid.ok W n ↔ True := .rfl
@[vok] theorem ok_nat {n : Nat} : Valid.ok W n ↔ True := .rfl
@[vok] theorem ok_str {n : Str} : Valid.ok W n ↔ True := ⟨fun _ => trivial, fun _ _ _ => trivial⟩
@[vok] theorem ok_strs {n : List Str} : Valid.ok W n ↔ True := ⟨fun _ => trivial, fun _ _ _ _ _ => trivial⟩
@[vok] theorem ok_ostr {n : Option Str} : Valid.ok W n ↔ True := ⟨fun _ => trivial, fun _ _ _ _ _ => trivial⟩
@[vok] theorem ok_nodes {n : List Node} : Valid.ok W n ↔ Ves W n := .rfl
@[vok] theorem ok_onode {n : Option Node} : Valid.ok W n ↔ ∀ x ∈ n, Ve W x := .rfl
@[vok] theorem ok_onodes {n : Option (List Node)} : Valid.ok W n ↔ ∀ x ∈ n, Ves W x := .rfl
@[vok] theorem ok_prod {α β : Type} [Valid α] [Valid β] {p : α × β} : Valid.ok W p ↔ Valid.ok W p.1 ∧ Valid.ok W p.2 := .rfl
@[vok] theorem ok_blk {b : Blk} : Valid.ok W b ↔ Tk W b.tok ∧ Ves W b.nodes := .rfl
@[vok] theorem ok_again {σ α : Type} [Valid σ] [Valid α] {x : σ} : Valid.ok W (Loop.again x : Loop σ α) ↔ Valid.ok W x := .rfl
@[vok] theorem ok_done {σ α : Type} [Valid σ] [Valid α] {x : α} : Valid.ok W (Loop.done x : Loop σ α) ↔ Valid.ok W x := .rfl

@[vok] theorem ves_nil : Ves W [] ↔ True := by simp [Ves]
@[vok] theorem ves_cons {n : Node} {l : List Node} : Ves W (n :: l) ↔ Ve W n ∧ Ves W l := by simp [Ves]
@[vok] theorem ves_append {l m : List Node} : Ves W (l ++ m) ↔ Ves W l ∧ Ves W m := by
  simp only [Ves, List.mem_append]
  exact ⟨fun h => ⟨fun n k => h n (.inl k), fun n k => h n (.inr k)⟩, fun h n k => k.elim (h.1 n) (h.2 n)⟩
@[vok] theorem vps_nil : Vps W [] ↔ True := by simp [Vps]
@[vok] theorem vps_cons {n : Node} {l : List Node} : Vps W (n :: l) ↔ Vp W n ∧ Vps W l := by simp [Vps]
@[vok] theorem pars_nil : Pars W [] ↔ True := by simp [Pars]
@[vok] theorem pars_cons {n : Node} {l : List Node} : Pars W (n :: l) ↔ (wf W n ∧ isParam n = true) ∧ Pars W l := by
  simp [Pars]
@[vok] theorem pars_append {l m : List Node} : Pars W (l ++ m) ↔ Pars W l ∧ Pars W m := by
  simp only [Pars, List.mem_append]
  exact ⟨fun h => ⟨fun n k => h n (.inl k), fun n k => h n (.inr k)⟩, fun h n k => k.elim (h.1 n) (h.2 n)⟩
@[vok] theorem mem_none {p : Node → Prop} : (∀ x ∈ (none : Option Node), p x) ↔ True := by simp
@[vok] theorem mem_some {p : Node → Prop} {n : Node} : (∀ x ∈ some n, p x) ↔ p n := by simp
@[vok] theorem mems_none {p : List Node → Prop} : (∀ x ∈ (none : Option (List Node)), p x) ↔ True := by simp
@[vok] theorem mems_some {p : List Node → Prop} {n : List Node} : (∀ x ∈ some n, p x) ↔ p n := by simp

@[vok] theorem elem_nil : (∀ x ∈ ([] : List Node), isElem x = true) ↔ True := by simp
@[vok] theorem param_nil : (∀ x ∈ ([] : List Node), isParam x = true) ↔ True := by simp

theorem Ve.intro {n : Node} (k : isConst n = false) (h : wf W n) : Ve W n := ⟨h, k⟩
theorem Vp.intro {n : Node} (k : isElem n = true) (h : wf W n) : Vp W n := ⟨h, k⟩
theorem Ve.not {n : Node} (h : Ve W n) : isConst n = false := h.2
theorem Vp.elem {n : Node} (h : Vp W n) : isElem n = true := h.2
theorem Ve.wf {n : Node} (h : Ve W n) : wf W n := h.1
theorem Vp.wf {n : Node} (h : Vp W n) : Val.wf W n := h.1
theorem Ves.wfs {l : List Node} (h : Ves W l) : wfs W l := wfs_iff.2 fun n k => (h n k).1
theorem Vps.wfs {l : List Node} (h : Vps W l) : Val.wfs W l := wfs_iff.2 fun n k => (h n k).1
theorem Vps.elem {l : List Node} (h : Vps W l) : ∀ n ∈ l, isElem n = true := fun n k => (h n k).2
theorem Pars.wfs {l : List Node} (h : Pars W l) : Val.wfs W l := wfs_iff.2 fun n k => (h n k).1
theorem Pars.all {l : List Node} (h : Pars W l) : ∀ n ∈ l, isParam n = true := fun n k => (h n k).2
theorem wfo_of {o : Option Node} (h : ∀ n ∈ o, Ve W n) : wfo W o := wfo_iff.2 fun n k => (h n k).1
theorem wfb_of {o : Option (List Node)} (h : ∀ n ∈ o, Ves W n) : wfb W o := by
  cases o with
  | none => simp only [wfb]
  | some ns => simp only [wfb]; exact (h ns rfl).wfs
theorem Ve.tok {n : Node} (h : Ve W n) : Tk W n.tok := wf_tok h.1
theorem wf.tok {n : Node} (h : Val.wf W n) : Tk W n.tok := wf_tok h

theorem AllT.cur {s : PS} (h : AllT W s) : Tk W s.cur := by
  unfold PS.cur
  cases e : s.rest with
  | nil => exact ⟨h.1, by simp⟩
  | cons t ts => exact h.2.2 t (by rw [e]; exact .head _)

theorem AllT.peek {s : PS} (h : AllT W s) : Tk W s.peek := by
  unfold PS.peek
  cases e : s.rest with
  | nil => exact ⟨h.1, by simp⟩
  | cons t ts =>
    cases ts with
    | nil => exact ⟨h.1, by simp⟩
    | cons u us => exact h.2.2 u (by rw [e]; exact .tail _ (.head _))

theorem AllT.prevTok {s : PS} (h : AllT W s) : Tk W s.prevTok := by
  unfold PS.prevTok
  cases e : s.prev with
  | nil => exact ⟨h.1, by simp⟩
  | cons t ts => exact h.2.1 t (by rw [e]; exact .head _)
end

section rules
variable {W : Nat → Nat → Prop} {α β σ : Type} {c : Cx} {s : PS}

theorem okv_mono {p : P α} {Q Q' : α → PS → Prop} (h : okv W p c s Q) (k : ∀ a s', Q a s' → Q' a s') :
    okv W p c s Q' := by
  intro hs
  have h := h hs
  revert h
  cases p c s <;> intro h <;> first | exact ⟨h.1, k _ _ h.2⟩ | exact h

theorem okv_bind {p : P α} {f : α → P β} {Q : β → PS → Prop} (h : okv W p c s fun a s' => okv W (f a) c s' Q) :
    okv W (p >>= f) c s Q := by
  show okv W (P.bind p f) c s Q
  intro hs
  have h := h hs
  unfold P.bind
  revert h
  cases p c s <;> intro h <;> first | exact h.2 h.1 | exact h

theorem okv_pure {a : α} {Q : α → PS → Prop} (h : Q a s) : okv W (pure a) c s Q := fun hs => ⟨hs, h⟩
theorem okv_cur {Q : Token → PS → Prop} (h : Tk W s.cur → Q s.cur s) : okv W cur c s Q := fun hs => ⟨hs, h hs.cur⟩
theorem okv_curTy {Q : Ttype → PS → Prop} (h : Q s.cur.type s) : okv W curTy c s Q := fun hs => ⟨hs, h⟩
theorem okv_peek {Q : Token → PS → Prop} (h : Tk W s.peek → Q s.peek s) : okv W peek c s Q := fun hs => ⟨hs, h hs.peek⟩
theorem okv_prevTok {Q : Token → PS → Prop} (h : Tk W s.prevTok → Q s.prevTok s) : okv W prevTok c s Q :=
  fun hs => ⟨hs, h hs.prevTok⟩
theorem okv_get {Q : PS → PS → Prop} (h : Q s s) : okv W P.get c s Q := fun hs => ⟨hs, h⟩
theorem okv_throw {x : Str} {Q : α → PS → Prop} : okv W (P.throw (.plain x)) c s Q := fun _ => trivial
theorem okv_throwE {x : SErr} {Q : α → PS → Prop} (h : errPlace W x) : okv W (P.throw x) c s Q := fun _ => h
theorem okv_abort {Q : α → PS → Prop} : okv W (P.abort) c s Q := fun _ => trivial
theorem okv_fuel {Q : α → PS → Prop} : okv W (P.fuel) c s Q := fun _ => trivial
theorem okv_throwTok {t : Token} {b : Bool} {m : Str} {Q : α → PS → Prop} (ht : Tk W t) : okv W (throwTok t b m) c s Q := by
  intro _
  unfold throwTok
  by_cases hc : t.type = .Invalid ∧ t.lit = none
  · rw [if_pos hc]; trivial
  · rw [if_neg hc]; exact ht.1
theorem okv_throwUnexpected {m : Str} {Q : α → PS → Prop} : okv W (throwUnexpected m) c s Q :=
  fun hs => okv_throwTok hs.cur hs
theorem okv_throwError {t : Token} {m : Str} {Q : α → PS → Prop} (ht : Tk W t) : okv W (NP.throwError t m) c s Q :=
  okv_throwTok ht
theorem okv_throwUnterminated {t u : Token} {Q : α → PS → Prop} (ht : Tk W t) (hu : u.type.isValid = true → Tk W u) :
    okv W (throwUnterminated t u) c s Q := by
  intro _
  unfold throwUnterminated
  dsimp only
  split <;> rename_i h <;> split at h <;> cases h
  · refine ⟨ht.1, ?_⟩
    split
    · exact (hu ‹_›).1
    · exact ht.1
  · trivial
theorem okv_throwUnterminated0 {t : Token} {Q : α → PS → Prop} (ht : Tk W t) : okv W (throwUnterminated t {}) c s Q :=
  okv_throwUnterminated ht (fun h => absurd h (by decide))
theorem okv_ite {p : Prop} [Decidable p] {x y : P α} {Q : α → PS → Prop} (h1 : p → okv W x c s Q)
    (h2 : ¬ p → okv W y c s Q) : okv W (if p then x else y) c s Q := by
  split
  · exact h1 ‹_›
  · exact h2 ‹_›
theorem okv_litOf {t : Token} {Q : Str → PS → Prop} (h : ∀ n, t.lit.isSome = true → Q n s) : okv W (litOf t) c s Q := by
  unfold litOf
  split
  · exact okv_pure (h _ (by simp_all))
  · exact okv_abort

theorem okv_advance {Q : Unit → PS → Prop} (k : ∀ s' : PS, Q () s') : okv W advance c s Q := by
  intro hs
  unfold advance
  cases h : s.rest with
  | nil => trivial
  | cons t ts =>
    refine ⟨⟨hs.1, ?_, ?_⟩, k _⟩
    · intro u hu
      rcases List.mem_cons.1 hu with rfl | hu
      · exact hs.2.2 _ (by rw [h]; exact .head _)
      · exact hs.2.1 _ hu
    · exact fun u hu => hs.2.2 _ (by rw [h]; exact .tail _ hu)

theorem okv_rewind {Q : Unit → PS → Prop} (k : ∀ s' : PS, Q () s') : okv W rewind c s Q := by
  intro hs
  unfold rewind
  cases h : s.prev with
  | nil => trivial
  | cons t ts =>
    refine ⟨⟨hs.1, ?_, ?_⟩, k _⟩
    · exact fun u hu => hs.2.1 _ (by rw [h]; exact .tail _ hu)
    · intro u hu
      rcases List.mem_cons.1 hu with rfl | hu
      · exact hs.2.1 _ (by rw [h]; exact .head _)
      · exact hs.2.2 _ hu

theorem okv_insertNewline {t : Token} {Q : Unit → PS → Prop} (ht : Tk W t) (k : ∀ s' : PS, Q () s') :
    okv W (insertNewline t) c s Q := by
  intro hs
  refine ⟨⟨hs.1, hs.2.1, ?_⟩, k _⟩
  intro u hu
  rcases List.mem_cons.1 hu with rfl | hu
  · exact ⟨ht.1, by simp⟩
  · exact hs.2.2 _ hu

theorem okv_modify {f : PS → PS} {Q : Unit → PS → Prop} (h : (f s).prev = s.prev ∧ (f s).rest = s.rest)
    (k : ∀ s', s'.cur = s.cur → Q () s') : okv W (P.modify f) c s Q := by
  intro hs
  refine ⟨⟨hs.1, ?_, ?_⟩, k _ ?_⟩
  · rw [h.1]; exact hs.2.1
  · rw [h.2]; exact hs.2.2
  · simp only [PS.cur, h.2]

theorem okv_pushDepth {Q : Unit → PS → Prop} (k : ∀ s' : PS, s'.cur = s.cur → Q () s') : okv W pushDepth c s Q :=
  okv_modify ⟨rfl, rfl⟩ k
theorem okv_pushPrec {p : Prec} {Q : Unit → PS → Prop} (k : ∀ s' : PS, s'.cur = s.cur → Q () s') :
    okv W (pushPrec p) c s Q := okv_modify ⟨rfl, rfl⟩ k
theorem okv_addLocal {n : Str} {Q : Unit → PS → Prop} (k : ∀ s' : PS, s'.cur = s.cur → Q () s') :
    okv W (addLocal n) c s Q := okv_modify ⟨rfl, rfl⟩ k
theorem okv_popDepth {Q : Unit → PS → Prop} (k : ∀ s' : PS, Q () s') : okv W popDepth c s Q := by
  intro hs
  unfold popDepth
  cases s.depth with
  | nil => trivial
  | cons d ds => exact ⟨hs, k _⟩
theorem okv_bumpDepth {n : Nat} {Q : Unit → PS → Prop} (k : ∀ s' : PS, Q () s') : okv W (bumpDepth n) c s Q := by
  intro hs
  unfold bumpDepth
  cases s.depth with
  | nil => trivial
  | cons d ds => exact ⟨hs, k _⟩
theorem okv_incDepth {Q : Unit → PS → Prop} (k : ∀ s' : PS, Q () s') : okv W incDepth c s Q := okv_bumpDepth k
theorem okv_decDepth {Q : Unit → PS → Prop} (k : ∀ s' : PS, Q () s') : okv W decDepth c s Q := okv_bumpDepth k
theorem okv_popPrec {Q : Unit → PS → Prop} (k : ∀ s' : PS, Q () s') : okv W popPrec c s Q := by
  intro hs
  unfold popPrec
  cases s.precs with
  | nil => trivial
  | cons d ds => exact ⟨hs, k _⟩
theorem okv_addNames {o : Option (List Str)} {Q : Unit → PS → Prop} (k : ∀ s' : PS, Q () s') :
    okv W (addNames o) c s Q := by
  cases o with
  | none => exact okv_abort
  | some ns => exact okv_modify ⟨rfl, rfl⟩ fun s' _ => k s'

theorem skip_all {p : Token → Prop} (ts : List Token) : ∀ pre, (∀ t ∈ pre, p t) → (∀ t ∈ ts, p t) →
    (∀ t ∈ (skipNewlines.go pre ts).1, p t) ∧ ∀ t ∈ (skipNewlines.go pre ts).2, p t := by
  induction ts with
  | nil => exact fun _ h k => ⟨h, k⟩
  | cons t ts ih =>
    intro pre h k
    unfold skipNewlines.go
    split
    · refine ih _ ?_ fun u hu => k u (.tail _ hu)
      intro u hu
      rcases List.mem_cons.1 hu with rfl | hu
      · exact k _ (.head _)
      · exact h _ hu
    · exact ⟨h, k⟩

theorem okv_skipNewlines {Q : Unit → PS → Prop} (k : ∀ s' : PS, Q () s') : okv W skipNewlines c s Q :=
  fun hs => ⟨⟨hs.1, skip_all _ _ hs.2.1 hs.2.2⟩, k _⟩

theorem okv_expect {ty : Ttype} {m : Str} {Q : Unit → PS → Prop} (k : s.cur.type = ty → Q () s) :
    okv W (expect ty m) c s Q := by
  unfold expect
  exact okv_bind (okv_curTy (okv_ite (fun h => okv_pure (k h)) fun _ => okv_throwUnexpected))

theorem okv_nextExpression {Q : Unit → PS → Prop} (k : ∀ s' : PS, Q () s') : okv W nextExpression c s Q := by
  unfold nextExpression
  exact okv_bind (okv_curTy (okv_ite (fun _ => okv_skipNewlines fun s' => k s') fun _ => okv_throwUnexpected))

theorem okv_validateCurrent {Q : Unit → PS → Prop} (k : Q () s) : okv W validateCurrent c s Q := by
  unfold validateCurrent
  refine okv_bind (okv_cur fun ht => ?_)
  split
  all_goals first
    | exact fun _ => ht.1
    | exact okv_throwUnterminated0 ht
    | exact okv_ite (fun _ => okv_pure k) fun _ => okv_abort

theorem okv_withLocals {ls : List Str} {p : P α} {Q : α → PS → Prop}
    (h : ∀ s' : PS, okv W p c s' fun a _ => ∀ s₃, Q a s₃) : okv W (withLocals ls p) c s Q := by
  unfold withLocals
  refine okv_bind (okv_get (okv_bind (okv_modify ⟨rfl, rfl⟩ fun s' _ => ?_)))
  refine okv_bind (okv_mono (h _) ?_)
  intro a s'' k
  exact okv_bind (okv_modify ⟨rfl, rfl⟩ fun s₃ _ => okv_pure (k s₃))

/-- A loop with an invariant. -/
theorem okv_loop {body : σ → P (Loop σ α)} {Q : α → PS → Prop} {n : Nat} {x : σ} (I : σ → Prop) (hI : I x)
    (h : ∀ y s', I y → okv W (body y) c s' fun r s'' =>
      match r with
      | .again z => I z
      | .done a => Q a s'') : okv W (loop body n x) c s Q := by
  induction n generalizing x s with
  | zero => exact okv_fuel
  | succ n ih =>
    unfold loop
    refine okv_bind (okv_mono (h x s hI) ?_)
    intro r s' hr
    cases r with
    | again y => exact ih hr
    | done a => exact okv_pure hr

/-- A loop over values that are in order. -/
theorem okv_loopV [Valid σ] [Valid α] {body : σ → P (Loop σ α)} {Q : α → PS → Prop} {n : Nat} {x : σ}
    (hI : Valid.ok W x) (h : ∀ y s', Valid.ok W y → okv W (body y) c s' fun r _ => Valid.ok W r)
    (k : ∀ a s', Valid.ok W a → Q a s') : okv W (loop body n x) c s Q := by
  refine okv_loop (fun y => Valid.ok W y) hI ?_
  intro y s' hy
  refine okv_mono (h y s' hy) ?_
  intro r s'' hr
  cases r with
  | again z => exact hr
  | done a => exact k a s'' hr

/-- What is shown of a continuation `jp` that several branches share. -/
def JP [Valid α] (W : Nat → Nat → Prop) (jp : α → P β) (c : Cx) (Q : β → PS → Prop) : Prop :=
  ∀ a s', Valid.ok W a → okv W (jp a) c s' Q

theorem okv_jp [Valid α] {p : P β} {Q : β → PS → Prop} (jp : α → P β) (h1 : JP W jp c Q)
    (h2 : JP W jp c Q → okv W p c s Q) : okv W p c s Q := h2 h1

theorem okv_callJP [Valid α] {jp : α → P β} {Q : β → PS → Prop} {a : α} (h : JP W jp c Q) (b : Valid.ok W a) :
    okv W (jp a) c s Q := h a s b

/-- The same with a stated condition. -/
def JPI (W : Nat → Nat → Prop) (I : α → Prop) (jp : α → P β) (c : Cx) (Q : β → PS → Prop) : Prop :=
  ∀ a s', I a → okv W (jp a) c s' Q

theorem okv_jpi {p : P β} {Q : β → PS → Prop} (I : α → Prop) (jp : α → P β) (h1 : JPI W I jp c Q)
    (h2 : JPI W I jp c Q → okv W p c s Q) : okv W p c s Q := h2 h1

theorem okv_callJPI {I : α → Prop} {jp : α → P β} {Q : β → PS → Prop} {a : α} (h : JPI W I jp c Q) (b : I a) :
    okv W (jp a) c s Q := h a s b

end rules

attribute [irreducible] Ve Vp
attribute [vwf] wf wfs wfo wfb wfs_append and_true true_and

theorem eq_goal {a b : Bool} (h : a = b) : a = b := h

/-- Closes goals about values. -/
syntax "vt" : tactic
macro_rules | `(tactic| vt) => `(tactic| first
  | (with_reducible assumption)
  | (with_reducible exact True.intro)
  | ((with_reducible apply Ve.wf); assumption)
  | ((with_reducible apply Vp.wf); assumption)
  | ((with_reducible apply Ves.wfs); assumption)
  | ((with_reducible apply Vps.wfs); assumption)
  | (with_reducible exact Vps.elem (by assumption))
  | ((with_reducible apply Pars.wfs); assumption)
  | (with_reducible exact Pars.all (by assumption))
  | ((with_reducible apply wfo_of); assumption)
  | ((with_reducible apply wfb_of); assumption)
  | ((with_reducible apply Ve.tok); assumption)
  | ((with_reducible apply wf.tok); assumption)
  | ((with_reducible refine And.intro ?_ ?_) <;> vt)
  | ((with_reducible apply eq_goal); exact rfl)
  | ((with_reducible refine Ve.intro ?_ ?_); (focus (exact rfl)); vt)
  | ((with_reducible refine Vp.intro ?_ ?_); (focus (exact rfl)); vt)
  | ((simp only [vok]); first | done | vt)
  | ((simp only [vwf]); first | done | vt))

/-- Closes goals about values. -/
macro "vd" : tactic => `(tactic| (
  (try simp only [vok])
  first
  | done
  | vt))

/-- Introduces a value that is in order. -/
macro "vin" : tactic => `(tactic| (
  intro _ _ h
  (try simp only [vok] at h)
  repeat (rcases h with ⟨_, h⟩)))

/-- Closes the side conditions of the lemma about a function that is called. -/
syntax "vside" : tactic

open Lean Elab Tactic Meta in
/-- A call of a function `f` already treated: the lemma is `v_f`. -/
elab "vcall" : tactic => do
  let g ← getMainGoal
  g.withContext do
    let t ← Core.betaReduce (← instantiateMVars (← g.getType)).consumeMData
    let (``okv, #[a, w, p, c, s, q]) := t.getAppFnArgs | Lean.throwError "no call"
    let some (.str _ f) := p.consumeMData.getAppFn.constName? | Lean.throwError "no call"
    let thm := `NP.Val ++ Name.mkSimple ("v_" ++ f)
    unless (← getEnv).contains thm do Lean.throwError "no lemma"
    let e ← mkConstWithFreshMVarLevels thm
    let (ms, _, r) ← forallMetaTelescope (← inferType e)
    let (``okv, #[_, w', p', c', s', q']) := r.getAppFnArgs | Lean.throwError "no call"
    unless ← withReducible (isDefEq w' w <&&> isDefEq p' p <&&> isDefEq c' c <&&> isDefEq s' s) do
      Lean.throwError "no match"
    let q' ← instantiateMVars q'
    let h ← mkAppOptM ``okv_mono #[w, a, c, s, p, q', q, mkAppN e ms]
    let .forallE _ kt _ _ ← whnfR (← inferType h) | Lean.throwError "no function"
    let k ← mkFreshExprSyntheticOpaqueMVar kt
    g.assign (mkApp h k)
    for m in ms do
      unless ← m.mvarId!.isAssigned do
        setGoals [m.mvarId!]
        evalTactic (← `(tactic| vside))
        unless (← getGoals).isEmpty do Lean.throwError "side condition"
    setGoals [k.mvarId!]

/-- One step of a function. -/
macro "vstep" : tactic => `(tactic| first
  | (with_reducible exact okv_abort)
  | (with_reducible exact okv_throw)
  | ((with_reducible refine okv_throwE ?_); assumption)
  | ((with_reducible refine okv_throwUnterminated0 ?_); vt)
  | ((with_reducible refine okv_throwUnterminated ?_ (fun _ => ?_)) <;> vt)
  | (with_reducible exact okv_throwUnexpected)
  | ((with_reducible refine okv_throwTok ?_); vt)
  | ((with_reducible refine okv_throwError ?_); vt)
  | (with_reducible refine okv_bind ?_)
  | ((with_reducible refine okv_pure ?_); try dsimp -zeta only)
  | ((with_reducible refine okv_cur ?_); intro _; try dsimp -zeta only)
  | ((with_reducible refine okv_curTy ?_); try dsimp -zeta only)
  | ((with_reducible refine okv_peek ?_); intro _; try dsimp -zeta only)
  | ((with_reducible refine okv_prevTok ?_); intro _; try dsimp -zeta only)
  | ((with_reducible refine okv_get ?_); try dsimp -zeta only)
  | ((with_reducible refine okv_litOf ?_); intro _ _)
  | ((with_reducible refine okv_advance ?_); intro _)
  | ((with_reducible refine okv_rewind ?_); intro _)
  | ((with_reducible refine okv_skipNewlines ?_); intro _)
  | ((with_reducible refine okv_nextExpression ?_); intro _)
  | ((with_reducible refine okv_expect ?_); intro _)
  | (with_reducible refine okv_validateCurrent ?_)
  | ((with_reducible refine okv_pushDepth ?_); intro _ _)
  | ((with_reducible refine okv_popDepth ?_); intro _)
  | ((with_reducible refine okv_incDepth ?_); intro _)
  | ((with_reducible refine okv_decDepth ?_); intro _)
  | ((with_reducible refine okv_pushPrec ?_); intro _ _)
  | ((with_reducible refine okv_popPrec ?_); intro _)
  | ((with_reducible refine okv_addLocal ?_); intro _ _)
  | ((with_reducible refine okv_addNames ?_); intro _)
  | ((with_reducible refine okv_insertNewline ?_ ?_); (focus vt); intro _)
  | ((with_reducible refine okv_ite ?_ ?_) <;> intro _)
  | ((with_reducible refine okv_loopV ?_ ?_ ?_); (focus vd); all_goals vin)
  | ((with_reducible refine okv_withLocals ?_); intro _)
  | (intro (_ : PS); try dsimp -zeta only)
  | (vcall; vin)
  | ((with_reducible apply okv_callJP); assumption; (focus vd))
  | ((with_reducible apply okv_callJPI); assumption; (focus ((try dsimp -zeta only); vd)))
  | (extract_lets +onlyGivenNames jp
     (with_reducible refine okv_jp jp ?_ ?_)
     (focus (vin; dsimp -zeta only [jp]))
     rotate_left; intro _; clear_value jp; rotate_left)
  | ((fail_if_success (with_reducible apply okv_mono)); focus vd)
  | split)

/-- Takes apart what is known of nodes that are written out. -/
macro "vopen" : tactic => `(tactic| (
  (try simp only [vok] at *)
  (try casesm* _ ∧ _)))

/-- Treats a shared continuation with a stated condition. -/
syntax "vjp " term : tactic
macro_rules | `(tactic| vjp $t) => `(tactic| (
  extract_lets +onlyGivenNames jp
  (with_reducible refine okv_jpi $t jp ?_ ?_)
  (focus (intro _ _ h; dsimp -zeta only [jp]; (try dsimp -zeta only at h); (repeat (rcases h with ⟨_, h⟩))))
  rotate_left; intro _; clear_value jp))

macro "vgo" : tactic => `(tactic| (repeat' vstep))

macro_rules | `(tactic| vside) => `(tactic| first
  | assumption
  | vd
  | (simp only [*]; rfl)
  | (intro _; vgo; done))

/-- Strings. -/
def isStr : Node → Bool
  | .string .. | .interpolatedString .. | .symbolKey .. | .interpolatedSymbolKey .. => true
  | _ => false

/-- What is assumed of the functions called recursively. -/
structure GoodV (W : Nat → Nat → Prop) (R : Rec) : Prop where
  expr : ∀ p ia c s, okv W (R.expr p ia) c s fun a _ => Ve W a
  pattern : ∀ c s, okv W R.pattern c s fun a _ => Vp W a
  assignIdent : ∀ b c s, okv W (R.assignIdent b) c s fun a _ => Ve W a
  argDefault : ∀ ia c s, okv W (R.argDefault ia) c s fun a _ => Ve W a
  defSingleArg : ∀ l x ia c s, Pars W l → okv W (R.defSingleArg l x ia) c s fun a _ => Pars W a
  ifBranch : ∀ b c s, okv W (R.ifBranch b) c s fun a _ => Ve W a
  string : ∀ c s, okv W R.string c s fun a _ => Ve W a ∧ isStr a = true
  istring : ∀ c s, okv W R.istring c s fun a _ => Ve W a ∧ isStr a = true

section
variable {W : Nat → Nat → Prop} {R : Rec} {c : Cx} {s : PS}
theorem v_expr (g : GoodV W R) {p : Prec} {ia : IterAllow} : okv W (R.expr p ia) c s fun a _ => Ve W a := g.expr _ _ _ _
theorem v_exp (g : GoodV W R) {p : Prec} : okv W (R.exp p) c s fun a _ => Ve W a := g.expr _ _ _ _
theorem v_pattern (g : GoodV W R) : okv W R.pattern c s fun a _ => Vp W a := g.pattern _ _
theorem v_assignIdent (g : GoodV W R) {b : Bool} : okv W (R.assignIdent b) c s fun a _ => Ve W a := g.assignIdent _ _ _
theorem v_argDefault (g : GoodV W R) {ia : IterAllow} : okv W (R.argDefault ia) c s fun a _ => Ve W a := g.argDefault _ _ _
theorem v_ifBranch (g : GoodV W R) {b : Bool} : okv W (R.ifBranch b) c s fun a _ => Ve W a := g.ifBranch _ _ _
theorem v_defSingleArg (g : GoodV W R) {l : List Node} {x : ArgsContext} {ia : IterAllow} (h : Pars W l) :
    okv W (R.defSingleArg l x ia) c s fun a _ => Pars W a := g.defSingleArg _ _ _ _ _ h
theorem v_string (g : GoodV W R) : okv W R.string c s fun a _ => Ve W a ∧ isStr a = true := g.string _ _
theorem v_istring (g : GoodV W R) : okv W R.istring c s fun a _ => Ve W a ∧ isStr a = true := g.istring _ _
end

end NP.Val
