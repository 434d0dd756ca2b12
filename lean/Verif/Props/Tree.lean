import Verif.Spec.Tree
import Verif.Proofs.Val.Conv
import Verif.Proofs.Val.Main
import Verif.Props.Parse
import Verif.Props.Position

/-!
C44: trees can be converted to S-expressions. C45: positions of the nodes of a tree.

`NodeOf m n`: `m` is a node of the tree `n`; `IsCallUpdate m`: `m` is an operator assignment to a call with arguments
(Verif/Spec/Tree.lean). `Node.toSexp n = none` stands for a failed assertion in a `transform` function.
-/

namespace NP

open Spec

/-- The tree of an accepted source is in order, for any condition on positions that the tokens of the source meet. -/
theorem Parses.wf {src file : Str} {n : Node} {s : PS} (W : Nat → Nat → Prop) (h : Parses src file (.ok n s))
    (h0 : W 0 0) (hW : ∀ ts, Lexes src ts → ∀ t ∈ ts, W t.line t.col) : Val.wf W n := by
  obtain ⟨ts, hl, hp⟩ := h.ok
  refine Val.wf_parseToks hp h0 fun t ht => ⟨hW ts hl t ht, fun e => ?_⟩
  have := hl.litOk t ht (by rcases e with e | e <;> rw [e] <;> rfl)
  exact Option.isSome_iff_ne_none.2 this

/-- C44: the tree of every accepted source can be converted, unless one of its nodes is an operator assignment to a
call with arguments. -/
theorem C44_convertible {src file : Str} {n : Node} {s : PS} (h : Parses src file (.ok n s))
    (hc : ∀ m, NodeOf m n → ¬ IsCallUpdate m) : ∃ x, n.toSexp = some x := by
  obtain ⟨r, hr⟩ := Val.tr_some (P := fun _ _ => True) n (h.wf _ True.intro fun _ _ _ _ => True.intro) hc false
  exact ⟨r.sx, by unfold Node.toSexp; rw [hr]; rfl⟩

/-- The operator assignments in question cannot be converted, wherever they stand as a statement of their own. -/
theorem C44_update_not_convertible {n : Node} (h : IsCallUpdate n) : n.toSexp = none := by
  unfold IsCallUpdate at h
  split at h
  · rename_i args safe
    have e : args.isEmpty = false := by
      cases args
      · exact absurd rfl h.2
      · rfl
    unfold Node.toSexp
    simp only [tr, Option.bind_eq_bind, if_neg h.1, e, Bool.false_eq_true, if_false]
    cases tr false _ <;> [rfl; skip]
    cases tr false _ <;> [rfl; skip]
    cases trList false _ <;> rfl
  · exact h.elim

def PRes.tree? {α : Type} : PRes α → Option α
  | .ok a _ => some a
  | _ => none

/-- C44 without the exception is false: `f(1) += 2` is accepted, and converting its tree fails an assertion. -/
theorem C44_refuted : ∃ n s, Parses (cs! "f(1) += 2") [] (.ok n s) ∧ n.toSexp = none := by
  have h : ((runSource 40 (cs! "f(1) += 2")).map fun r => r.tree?.map fun n => n.toSexp.isNone) = some (some true) := by
    decide +kernel
  cases hr : runSource 40 (cs! "f(1) += 2") with
  | none => rw [hr] at h; cases h
  | some r =>
    rw [hr] at h
    cases r with
    | ok n s =>
      refine ⟨n, s, runSource_parses hr, ?_⟩
      simpa [PRes.tree?] using h
    | _ => cases h

/-- C45: every node of the tree of an accepted source carries the position of one of the tokens of the source (or that
of the beginning of the source). -/
theorem C45_of_token {src file : Str} {n m : Node} {s : PS} (h : Parses src file (.ok n s)) (hm : NodeOf m n)
    {ts : List Token} (hl : Lexes src ts) :
    (∃ t ∈ ts, m.tok.line = t.line ∧ m.tok.col = t.col) ∨ m.tok.line = 0 ∧ m.tok.col = 0 :=
  (Val.wf_tok (Val.wf_node hm (h.wf (fun l k => (∃ t ∈ ts, l = t.line ∧ k = t.col) ∨ l = 0 ∧ k = 0)
    (.inr ⟨rfl, rfl⟩) fun _ hl' t ht => .inl ⟨t, hl'.unique hl ▸ ht, rfl, rfl⟩))).1

/-- The tokens of a source without `<<` carry positions of the source. -/
theorem tokens_at {src : Str} {ts : List Token} (hsrc : ¬ cs! "<<" <:+: src) (hl : Lexes src ts) :
    ∀ t ∈ ts, ∃ i, TokenAt src i t := by
  obtain ⟨fuel, ht, -⟩ := hl
  obtain ⟨us, hu, hsub, hp⟩ := C07_vector src ts fuel ht
  have hf := C07_no_heredoc src fuel hsrc
  have key : ∀ (us : List (Token × Bool)) (lo : Nat), (∀ u ∈ us, u.2 = false) → Positions src lo us →
      ∀ u ∈ us, ∃ i, TokenAt src i u.1 := by
    intro us
    induction us with
    | nil => intro _ _ _ u hu; cases hu
    | cons v us ih =>
      intro lo hb hp u hu
      obtain ⟨t, m⟩ := v
      have : m = false := hb _ (List.mem_cons_self ..)
      subst this
      obtain ⟨i, -, hi, hp⟩ := hp
      rcases List.mem_cons.1 hu with rfl | hu
      · exact ⟨i, hi⟩
      · exact ih i (fun u hu => hb u (List.mem_cons_of_mem _ hu)) hp u hu
  intro t ht
  have : undoc t ∈ us.map fun u => undoc u.1 := by rw [hu]; exact List.mem_map_of_mem ht
  obtain ⟨u, hu', he⟩ := List.mem_map.1 this
  obtain ⟨i, hi⟩ := key us 0 (fun u hu => hf u (hsub.subset hu)) hp u hu'
  have h1 : (undoc u.1).line = (undoc t).line := congrArg Token.line he
  have h2 : (undoc u.1).col = (undoc t).col := congrArg Token.col he
  exact ⟨i, h1.symm.trans hi.1, h2.symm.trans hi.2⟩

/-- C45 for sources without `<<` (hence without heredocs): every node of the tree carries the line and column of an
offset of the source. -/
theorem C45_source_position {src file : Str} {n m : Node} {s : PS} (hsrc : ¬ cs! "<<" <:+: src)
    (h : Parses src file (.ok n s)) (hm : NodeOf m n) : ∃ i, TokenAt src i m.tok :=
  (Val.wf_tok (Val.wf_node hm (h.wf (fun l k => ∃ i, l = lineAt src i ∧ k = colAt src i)
    ⟨0, by simp [lineAt], by simp [colAt]⟩ fun _ hl t ht => tokens_at hsrc hl t ht))).1

/-- A test that a tree of depth less than `k` has no operator assignment to a call with arguments (for the example). -/
def noUpdate : Nat → Node → Bool
  | 0, _ => false
  | k + 1, n => (match n with
      | .opAssignAccessor _ _ _ msg _ args _ => msg == cs! "[]=" || args.isEmpty
      | _ => true) && (kids n).all (noUpdate k)

theorem noUpdate_spec {n m : Node} (hm : NodeOf m n) : ∀ k, noUpdate k n = true → ¬ IsCallUpdate m := by
  induction hm with
  | root =>
    intro k h hu
    unfold IsCallUpdate at hu
    split at hu
    · cases k with
      | zero => cases h
      | succ k =>
        simp only [noUpdate, Bool.and_eq_true, Bool.or_eq_true, beq_iff_eq, List.isEmpty_iff] at h
        exact h.1.elim hu.1 hu.2
    · exact hu
  | inside hk _ ih =>
    intro k h
    cases k with
    | zero => cases h
    | succ k =>
      simp only [noUpdate, Bool.and_eq_true, List.all_eq_true] at h
      exact ih k (h.2 _ hk)

/-- Non-vacuity for C44 and C45: a source of two lines that is accepted and has no operator assignment to a call with
arguments (but one to a call without). -/
example : ∃ n s, Parses (cs! "a = 1\nb.c += a") [] (.ok n s) ∧ ∀ m, NodeOf m n → ¬ IsCallUpdate m := by
  have h : ((runSource 60 (cs! "a = 1\nb.c += a")).map fun r => r.tree?.map (noUpdate 9)) = some (some true) := by
    decide +kernel
  cases hr : runSource 60 (cs! "a = 1\nb.c += a") with
  | none => rw [hr] at h; cases h
  | some r =>
    rw [hr] at h
    cases r with
    | ok n s =>
      refine ⟨n, s, runSource_parses hr, fun m hm => noUpdate_spec hm 9 ?_⟩
      simpa [PRes.tree?] using h
    | _ => cases h

example : ¬ cs! "<<" <:+: cs! "a = 1\nb.c += a" := by decide +kernel

example : IsCallUpdate (.opAssignAccessor {} ['+'] (.nil {}) (cs! "f=") (.fixnum {} 2) [.fixnum {} 1] false) :=
  ⟨by decide, by decide⟩

end NP
