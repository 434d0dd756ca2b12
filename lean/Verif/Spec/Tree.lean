import Verif.Model.Sexp

/-! The nodes of a syntax tree. -/

namespace NP.Spec

/-- The nodes that a node refers to, the node of each kind listed in the order of its members. -/
def kids : Node → List Node
  | .alias_ _ a b => [a, b]
  | .arg _ _ _ _ _ v => v.toList
  | .array _ ns => ns
  | .arrayPattern _ ns => ns
  | .assignment _ i v => [i, v]
  | .begin_ _ body rescues els ens => body ++ rescues ++ els.getD [] ++ ens.getD []
  | .beginRescue _ exs name body => exs ++ name.toList ++ body
  | .block _ ns => ns
  | .blockPass _ n => [n]
  | .break_ _ v => v.toList
  | .call _ r _ args => r :: args
  | .case_ _ s ns els => s :: ns ++ els.getD []
  | .caseIn _ p body => p :: body
  | .caseWhen _ c body => c :: body
  | .class_ _ n s body => n :: s :: body
  | .colon2 _ l _ => [l]
  | .complex _ v => [v]
  | .def_ _ self _ args body => self.toList ++ args ++ body
  | .defined _ n => [n]
  | .evaluateToString _ n => n.toList
  | .for_ _ e v body => e :: v :: body
  | .hash _ _ ns => ns
  | .hashPattern _ ns => ns
  | .if_ _ c y n => [c, y, n]
  | .infixOp _ l _ r => [l, r]
  | .iter _ c _ args body => c :: args ++ body
  | .interpolatedRegexp _ ns _ => ns
  | .interpolatedShell _ ns => ns
  | .interpolatedString _ ns => ns
  | .interpolatedSymbol _ ns => ns
  | .interpolatedSymbolKey _ ns => ns
  | .keywordArg _ _ v => v.toList
  | .keywordSplat _ n => [n]
  | .logicalAnd _ l r => [l, r]
  | .logicalOr _ l r => [l, r]
  | .match_ _ re arg _ => re :: arg.toList
  | .module_ _ n body => n :: body
  | .multipleAssignment _ ns _ => ns
  | .multipleAssignmentArg _ ns => ns
  | .next _ v => v.toList
  | .not_ _ e => [e]
  | .notMatch _ e => [e]
  | .opAssign _ _ n v => [n, v]
  | .opAssignAccessor _ _ r _ v args _ => r :: v :: args
  | .opAssignAnd _ n v => [n, v]
  | .opAssignOr _ n v => [n, v]
  | .pin _ i => [i]
  | .range _ f l _ => [f, l]
  | .rational _ v => [v]
  | .return_ _ v => [v]
  | .safeCall _ r _ args => r :: args
  | .sclass _ k body => k :: body
  | .splat _ n => n.toList
  | .splatValue _ v => [v]
  | .stabbyProc _ _ args => args
  | .super _ _ args => args
  | .toArray _ v => [v]
  | .unaryOp _ _ r => [r]
  | .undef _ args => args
  | .until_ _ c body _ => c :: body
  | .while_ _ c body _ => c :: body
  | .yield _ args => args
  | .backRef .. | .beginBlock .. | .bignum .. | .colon3 .. | .constant .. | .encoding .. | .endBlock .. | .false_ ..
  | .fixnum .. | .float .. | .forwardArgs .. | .identifier .. | .keywordRestPattern .. | .nil .. | .nilSexp ..
  | .nthRef .. | .redo .. | .regexp .. | .retry .. | .self .. | .shadowArg .. | .shell .. | .string .. | .symbol ..
  | .symbolKey .. | .true_ .. | .valias .. => []

/-- `m` is a node of the tree `n`. -/
inductive NodeOf (m : Node) : Node → Prop where
  | root : NodeOf m m
  | inside {n k : Node} (hk : k ∈ kids n) (h : NodeOf m k) : NodeOf m n

/-- An operator assignment such as `f(1) += 2` or `a.b(1) += 2`: to the result of a call with arguments. -/
def IsCallUpdate : Node → Prop
  | .opAssignAccessor _ _ _ msg _ args _ => msg ≠ cs! "[]=" ∧ args ≠ []
  | _ => False

end NP.Spec
