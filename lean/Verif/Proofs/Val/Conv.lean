import Verif.Proofs.Val.Tree

/-! Conversion of the trees of Tree.lean to S-expressions does not fail. -/

namespace NP.Val

attribute [local semireducible] wf wfs wfo wfb

open Spec

/-- No operator assignment to a call with arguments. -/
def Clean (n : Node) : Prop := ∀ m, NodeOf m n → ¬ IsCallUpdate m

def Cleans (ns : List Node) : Prop := ∀ n ∈ ns, Clean n

theorem Clean.kids {n : Node} (h : Clean n) : Cleans (kids n) := fun _ hk _ hm => h _ (.inside hk hm)

theorem cleans_cons {n : Node} {ns : List Node} : Cleans (n :: ns) ↔ Clean n ∧ Cleans ns := by simp [Cleans]
theorem cleans_append {l m : List Node} : Cleans (l ++ m) ↔ Cleans l ∧ Cleans m := by
  simp only [Cleans, List.mem_append]
  exact ⟨fun h => ⟨fun n k => h n (.inl k), fun n k => h n (.inr k)⟩, fun h n k => k.elim (h.1 n) (h.2 n)⟩
theorem cleans_nil : Cleans [] := by simp [Cleans]

theorem some_bind {α β : Type} {x : Option α} {f : α → Option β} (h : ∃ a, x = some a)
    (k : ∀ a, ∃ b, f a = some b) : ∃ b, (x >>= f) = some b := by
  obtain ⟨a, rfl⟩ := h
  exact k a

theorem methodArgs_some : ∀ (ns : List Node) (rs : List TR), (∀ n ∈ ns, isParam n = true) →
    ∃ xs, methodArgs ns rs = some xs := by
  intro ns
  induction ns with
  | nil => exact fun _ _ => ⟨_, rfl⟩
  | cons n ns ih =>
    intro rs h
    cases rs with
    | nil => exact ⟨_, rfl⟩
    | cons r rs =>
      refine some_bind ?_ fun _ => some_bind (ih _ fun m k => h m (.tail _ k)) fun _ => ⟨_, rfl⟩
      have := h n (.head _)
      cases n <;> first
        | exact ⟨_, rfl⟩
        | (cases this; done)
        | (rename_i o; cases o <;> exact ⟨_, rfl⟩)

theorem patArgs_some : ∀ (ns : List Node) (rs : List TR), (∀ n ∈ ns, isElem n = true) →
    ∃ xs, patArgs ns rs = some xs := by
  intro ns
  induction ns with
  | nil => exact fun _ _ => ⟨_, rfl⟩
  | cons n ns ih =>
    intro rs h
    cases rs with
    | nil => exact ⟨_, rfl⟩
    | cons r rs =>
      refine some_bind ?_ fun _ => some_bind (ih _ fun m k => h m (.tail _ k)) fun _ => ⟨_, rfl⟩
      have := h n (.head _)
      unfold isElem at this
      unfold patArg
      split at this <;> first
        | exact ⟨_, rfl⟩
        | (cases this; done)
        | (split <;> first | exact ⟨_, rfl⟩ | simp_all)

theorem numSexp_some {v : Node} (h : v.isNumeric = true) : ∃ x, numSexp v = some x := by
  cases v <;> first | exact ⟨_, rfl⟩ | (cases h; done)

theorem assignTo_some {v : Node} {r : TR} {x : Sexp} (h : v.isTarget = true) : ∃ y, assignTo v r x = some y := by
  unfold assignTo
  rw [if_pos h]
  exact ⟨_, rfl⟩

theorem identSexp_some {asg lvar : Bool} {t : Token} (h : t.lit.isSome = true) (k : identTy t.type = true) :
    ∃ y, identSexp asg t lvar = some y := by
  obtain ⟨s, hs⟩ := Option.isSome_iff_exists.1 h
  unfold identSexp
  refine some_bind ⟨s, hs⟩ fun _ => ?_
  cases ht : t.type <;> rw [ht] at k <;> first
    | (cases k; done)
    | exact ⟨_, rfl⟩
    | (dsimp only; split <;> first | exact ⟨_, rfl⟩ | (split <;> exact ⟨_, rfl⟩))

theorem nameSexp_some {P : Nat → Nat → Prop} {n : Node} {r : TR} (w : wf P n) : ∃ y, nameSexp n r = some y := by
  unfold nameSexp
  split
  · simp only [wf] at w
    obtain ⟨s, hs⟩ := Option.isSome_iff_exists.1 w.2.1
    rw [hs]
    exact ⟨_, rfl⟩
  · exact ⟨_, rfl⟩

variable {P : Nat → Nat → Prop}

theorem trName_some {o : Option Node} {asg : Bool} (h : ∀ asg, ∃ r, trOpt asg o = some r)
    (k : ∀ n ∈ o, n.isTarget = true) : ∃ r, trName asg o = some r := by
  cases o with
  | none => exact ⟨_, rfl⟩
  | some n =>
    unfold trName
    refine some_bind ?_ fun _ => some_bind (assignTo_some (k _ rfl)) fun _ => ⟨_, rfl⟩
    obtain ⟨r, h⟩ := h true
    unfold trOpt at h
    cases e : tr true n with
    | none => rw [e] at h; cases h
    | some r => exact ⟨_, rfl⟩

theorem tr_some (n : Node) : wf P n → Clean n → ∀ asg, ∃ r, tr asg n = some r := by
  refine Node.rec
    (motive_1 := fun n => wf P n → Clean n → ∀ asg, ∃ r, tr asg n = some r)
    (motive_2 := fun o => wfo P o → Cleans o.toList → ∀ asg, ∃ r, trOpt asg o = some r)
    (motive_3 := fun ns => wfs P ns → Cleans ns → ∀ asg, ∃ r, trList asg ns = some r)
    (motive_4 := fun o => wfb P o → Cleans (o.getD []) → ∀ asg, ∃ r, trBody asg o = some r)
    ?_ ?_ ?_ ?_ ?_ ?_ ?_ ?_ ?_ ?_ ?_ ?_ ?_ ?_ ?_ ?_ ?_ ?_ ?_ ?_ ?_ ?_ ?_ ?_ ?_ ?_ ?_ ?_ ?_ ?_ ?_ ?_ ?_ ?_ ?_ ?_ ?_ ?_
    ?_ ?_ ?_ ?_ ?_ ?_ ?_ ?_ ?_ ?_ ?_ ?_ ?_ ?_ ?_ ?_ ?_ ?_ ?_ ?_ ?_ ?_ ?_ ?_ ?_ ?_ ?_ ?_ ?_ ?_ ?_ ?_ ?_ ?_ ?_ ?_ ?_ ?_
    ?_ ?_ ?_ ?_ ?_ ?_ ?_ ?_ ?_ ?_ ?_ ?_ ?_ ?_ ?_ ?_ ?_ ?_ ?_ n
  all_goals try (intros; exact ⟨_, rfl⟩)
  all_goals intros
  all_goals rename_i w cl asg
  all_goals first
    | have hk := Clean.kids cl
    | have hk := cl
  all_goals try simp only [wf, wfs, wfo, wfb] at w
  all_goals try simp only [kids, cleans_cons, cleans_append, and_assoc] at hk
  all_goals repeat' (rcases w with ⟨_, w⟩)
  all_goals repeat' (rcases hk with ⟨_, hk⟩)
  all_goals try simp only [tr, trList, trOpt, trBody]
  all_goals repeat (refine some_bind (by first
    | solve_by_elim
    | exact patArgs_some _ _ (by assumption)
    | exact methodArgs_some _ _ (by assumption)
    | exact assignTo_some (by assumption)
    | exact nameSexp_some (by assumption)
    | exact numSexp_some (by assumption)
    | exact trName_some (by solve_by_elim) (by assumption)
    | exact identSexp_some (by assumption) (by assumption)
    | exact Option.isSome_iff_exists.1 (by assumption)) ?_; intro _)
  all_goals try exact ⟨_, rfl⟩
  case refine_21 t v ih _ =>
    cases v <;> simp only [wf] at w <;> first
      | exact some_bind (numSexp_some w.2.2) fun _ => ⟨_, rfl⟩
      | exact some_bind (numSexp_some w.2.2.2) fun _ => ⟨_, rfl⟩
      | (simp [Node.isNumeric] at w)
  case refine_27 t o ih _ =>
    obtain ⟨r, h⟩ := ih w hk asg
    cases o with
    | none => exact ⟨_, rfl⟩
    | some n =>
      unfold trOpt at h
      simp only [tr]
      cases e : tr asg n with
      | none => rw [e] at h; cases h
      | some r => exact ⟨_, rfl⟩
  case refine_38 =>
    split
    · exact some_bind (methodArgs_some _ _ (by assumption)) fun _ => some_bind (by solve_by_elim) fun _ => ⟨_, rfl⟩
    · exact some_bind ⟨_, rfl⟩ fun _ => some_bind (by solve_by_elim) fun _ => ⟨_, rfl⟩
  case refine_59 =>
    split <;> first
      | exact ⟨_, rfl⟩
      | (unfold isVar at w; split at w <;> first | (cases w; done) | (exfalso; solve_by_elim))
  case refine_60 =>
    split
    · exact ⟨_, rfl⟩
    · rename_i h1
      split
      · exact ⟨_, rfl⟩
      · rename_i h2
        exact absurd ⟨h1, by simpa using h2⟩ (cl _ .root)
  case refine_95 ih => exact ih w cl asg
  all_goals repeat' split
  all_goals exact ⟨_, rfl⟩

end NP.Val
