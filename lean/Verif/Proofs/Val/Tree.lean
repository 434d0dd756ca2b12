import Verif.Spec.Tree

/-!
Trees that can be converted: a condition on each node of a tree such that conversion to S-expressions does not fail.
-/

namespace NP.Val

open Spec

/-- What is required of the token of a node. -/
def Tk (P : Nat → Nat → Prop) (t : Token) : Prop :=
  P t.line t.col ∧ (t.type = .BareName ∨ t.type = .Constant → t.lit.isSome = true)

/-- The token types that `IdentifierNode` knows. -/
def identTy : Ttype → Bool
  | .BareName | .ClassVariable | .Constant | .GlobalVariable | .InstanceVariable => true
  | _ => false

/-- The nodes that can be parameters. -/
def isParam : Node → Bool
  | .arg .. | .forwardArgs .. | .keywordArg .. | .multipleAssignmentArg .. | .shadowArg .. | .nil .. => true
  | _ => false

/-- The nodes that can be elements of an array pattern. -/
def isElem : Node → Bool
  | .splat _ none => true
  | .splat _ (some (.symbol ..)) => true
  | .splat .. => false
  | _ => true

def isConst : Node → Bool
  | .constant .. => true
  | _ => false

/-- The nodes whose value `OpAssignNode` can compute. -/
def isVar : Node → Bool
  | .identifier .. | .colon2 .. | .colon3 .. => true
  | _ => false

mutual
def wf (P : Nat → Nat → Prop) : Node → Prop
  | .alias_ t a b => Tk P t ∧ wf P a ∧ wf P b
  | .arg t _ _ _ _ v => Tk P t ∧ wfo P v
  | .array t ns => Tk P t ∧ wfs P ns
  | .arrayPattern t ns => Tk P t ∧ wfs P ns ∧ (∀ n ∈ ns, isElem n = true)
  | .assignment t i v => Tk P t ∧ wf P i ∧ wf P v ∧ i.isTarget = true
  | .begin_ t body rescues els ens => Tk P t ∧ wfs P body ∧ wfs P rescues ∧ wfb P els ∧ wfb P ens
  | .beginRescue t exs name body =>
    Tk P t ∧ wfs P exs ∧ wfo P name ∧ wfs P body ∧ (∀ n ∈ name, n.isTarget = true)
  | .block t ns => Tk P t ∧ wfs P ns
  | .blockPass t n => Tk P t ∧ wf P n
  | .break_ t v => Tk P t ∧ wfo P v
  | .call t r _ args => Tk P t ∧ wf P r ∧ wfs P args
  | .case_ t s ns els => Tk P t ∧ wf P s ∧ wfs P ns ∧ wfb P els
  | .caseIn t p body => Tk P t ∧ wf P p ∧ wfs P body
  | .caseWhen t c body => Tk P t ∧ wf P c ∧ wfs P body
  | .class_ t n s body => Tk P t ∧ wf P n ∧ wf P s ∧ wfs P body
  | .colon2 t l _ => Tk P t ∧ wf P l
  | .complex t (.rational u v) => Tk P t ∧ Tk P u ∧ wf P v ∧ v.isNumeric = true
  | .complex t v => Tk P t ∧ wf P v ∧ v.isNumeric = true
  | .constant t => Tk P t ∧ t.lit.isSome = true
  | .def_ t self _ args body => Tk P t ∧ wfo P self ∧ wfs P args ∧ wfs P body ∧ (∀ n ∈ args, isParam n = true)
  | .defined t n => Tk P t ∧ wf P n
  | .evaluateToString t n => Tk P t ∧ wfo P n
  | .for_ t e v body => Tk P t ∧ wf P e ∧ wf P v ∧ wfs P body
  | .hash t _ ns => Tk P t ∧ wfs P ns
  | .hashPattern t ns => Tk P t ∧ wfs P ns
  | .identifier t _ => Tk P t ∧ t.lit.isSome = true ∧ identTy t.type = true
  | .if_ t c y n => Tk P t ∧ wf P c ∧ wf P y ∧ wf P n
  | .infixOp t l _ r => Tk P t ∧ wf P l ∧ wf P r
  | .iter t c _ args body => Tk P t ∧ wf P c ∧ wfs P args ∧ wfs P body ∧ (∀ n ∈ args, isParam n = true)
  | .interpolatedRegexp t ns _ => Tk P t ∧ wfs P ns
  | .interpolatedShell t ns => Tk P t ∧ wfs P ns
  | .interpolatedString t ns => Tk P t ∧ wfs P ns
  | .interpolatedSymbol t ns => Tk P t ∧ wfs P ns
  | .interpolatedSymbolKey t ns => Tk P t ∧ wfs P ns
  | .keywordArg t _ v => Tk P t ∧ wfo P v
  | .keywordSplat t n => Tk P t ∧ wf P n
  | .logicalAnd t l r => Tk P t ∧ wf P l ∧ wf P r
  | .logicalOr t l r => Tk P t ∧ wf P l ∧ wf P r
  | .match_ t re arg _ => Tk P t ∧ wf P re ∧ wfo P arg
  | .module_ t n body => Tk P t ∧ wf P n ∧ wfs P body
  | .multipleAssignment t ns _ => Tk P t ∧ wfs P ns
  | .multipleAssignmentArg t ns => Tk P t ∧ wfs P ns
  | .next t v => Tk P t ∧ wfo P v
  | .not_ t e => Tk P t ∧ wf P e
  | .notMatch t e => Tk P t ∧ wf P e
  | .opAssign t _ n v => Tk P t ∧ wf P n ∧ wf P v ∧ isVar n = true
  | .opAssignAccessor t _ r _ v args _ => Tk P t ∧ wf P r ∧ wf P v ∧ wfs P args
  | .opAssignAnd t n v => Tk P t ∧ wf P n ∧ wf P v ∧ n.isTarget = true
  | .opAssignOr t n v => Tk P t ∧ wf P n ∧ wf P v ∧ n.isTarget = true
  | .pin t i => Tk P t ∧ wf P i
  | .range t f l _ => Tk P t ∧ wf P f ∧ wf P l
  | .rational t v => Tk P t ∧ wf P v ∧ v.isNumeric = true
  | .return_ t v => Tk P t ∧ wf P v
  | .safeCall t r _ args => Tk P t ∧ wf P r ∧ wfs P args
  | .sclass t k body => Tk P t ∧ wf P k ∧ wfs P body
  | .splat t n => Tk P t ∧ wfo P n
  | .splatValue t v => Tk P t ∧ wf P v
  | .stabbyProc t _ args => Tk P t ∧ wfs P args ∧ (∀ n ∈ args, isParam n = true)
  | .super t _ args => Tk P t ∧ wfs P args
  | .toArray t v => Tk P t ∧ wf P v
  | .unaryOp t _ r => Tk P t ∧ wf P r
  | .undef t args => Tk P t ∧ wfs P args
  | .until_ t c body _ => Tk P t ∧ wf P c ∧ wfs P body
  | .while_ t c body _ => Tk P t ∧ wf P c ∧ wfs P body
  | .yield t args => Tk P t ∧ wfs P args
  | .backRef t _ | .beginBlock t | .bignum t _ | .colon3 t _ | .encoding t | .endBlock t | .false_ t
  | .fixnum t _ | .float t _ _ | .forwardArgs t | .keywordRestPattern t _ | .nil t | .nilSexp t
  | .nthRef t _ | .redo t | .regexp t _ _ | .retry t | .self t | .shadowArg t _ | .shell t _ | .string t _ | .symbol t _
  | .symbolKey t _ | .true_ t | .valias t _ _ => Tk P t
def wfs (P : Nat → Nat → Prop) : List Node → Prop
  | [] => True
  | n :: ns => wf P n ∧ wfs P ns
def wfo (P : Nat → Nat → Prop) : Option Node → Prop
  | none => True
  | some n => wf P n
def wfb (P : Nat → Nat → Prop) : Option (List Node) → Prop
  | none => True
  | some ns => wfs P ns
end

variable {P : Nat → Nat → Prop}

theorem wfs_iff {ns : List Node} : wfs P ns ↔ ∀ n ∈ ns, wf P n := by
  induction ns with
  | nil => simp [wfs]
  | cons n ns ih => simp [wfs, ih]

theorem wfo_iff {o : Option Node} : wfo P o ↔ ∀ n ∈ o, wf P n := by
  cases o <;> simp [wfo]

theorem wfs_append {l m : List Node} : wfs P (l ++ m) ↔ wfs P l ∧ wfs P m := by
  simp only [wfs_iff, List.mem_append]
  exact ⟨fun h => ⟨fun n k => h n (.inl k), fun n k => h n (.inr k)⟩, fun h n k => k.elim (h.1 n) (h.2 n)⟩

theorem wfb_getD {o : Option (List Node)} (h : wfb P o) : wfs P (o.getD []) := by
  cases o with
  | none => simp [wfs]
  | some ns => exact h

theorem wfo_toList {o : Option Node} (h : wfo P o) : wfs P o.toList := by
  cases o with
  | none => simp [wfs]
  | some n => exact ⟨h, trivial⟩

theorem wf_complex {t : Token} {v : Node} (h : wf P (.complex t v)) : Tk P t ∧ wf P v := by
  cases v <;> simp only [wf] at h <;> first
    | exact ⟨h.1, h.2.1⟩
    | exact ⟨h.1, by simp only [wf]; exact h.2⟩
    | (simp [Node.isNumeric] at h)

/-- The token of a node of a tree. -/
theorem wf_tok {n : Node} (h : wf P n) : Tk P n.tok := by
  cases n
  case complex => exact (wf_complex h).1
  all_goals first
    | exact h
    | (simp only [wf] at h; exact h.1)

/-- What holds of a node holds of the nodes it refers to. -/
theorem wf_kids {n : Node} (h : wf P n) : wfs P (kids n) := by
  cases n
  case complex => exact ⟨(wf_complex h).2, trivial⟩
  all_goals
    simp only [wf, kids, wfs, wfs_append, and_true] at *
    try simp_all [wfo_toList, wfb_getD]

theorem wf_node {m n : Node} (h : NodeOf m n) (w : wf P n) : wf P m := by
  induction h with
  | root => exact w
  | inside hk _ ih => exact ih (wfs_iff.1 (wf_kids w) _ hk)

theorem wfb_some {ns : List Node} : wfb P (some ns) ↔ wfs P ns := by simp only [wfb]

attribute [irreducible] wf wfs wfo wfb

end NP.Val
