import Verif.Model.Sexp

/-! The numbers written in a source and the numbers in a tree. -/

namespace NP.Spec

/-- Tokens that are numbers. -/
def isNumber (t : Token) : Bool := t.type == .Fixnum || t.type == .Bignum || t.type == .Float

/-- A number in text form without its sign. -/
def unsigned : Str → Str
  | '-' :: ds => ds
  | ds => ds

mutual
/-- The numbers in a tree: for the nodes for numbers, from left to right, the token if the value of the node is that of the
token, up to the sign, and `none` for any other number. The numbers that `__LINE__` stands for are not listed. (The
parameters of `->(a = 1) { }` are referred to both by the node for `->` and by the node for the block; they are listed
once.) -/
def nums : Node → List (Option Token)
  | .alias_ _ newName oldName => nums newName ++ nums oldName
  | .arg _ _ _ _ _ value => numsO value
  | .array _ nodes => numsL nodes
  | .arrayPattern _ nodes => numsL nodes
  | .assignment _ ident value => nums ident ++ nums value
  | .begin_ _ body rescues els ens => numsL body ++ numsL rescues ++ numsB els ++ numsB ens
  | .beginRescue _ exceptions name body => numsL exceptions ++ numsO name ++ numsL body
  | .bignum t s => if t.type = .Bignum ∧ unsigned s = unsigned (t.lit.getD []) then [some t] else [none]
  | .block _ nodes => numsL nodes
  | .blockPass _ node => nums node
  | .break_ _ arg => numsO arg
  | .call _ recv _ args => nums recv ++ numsL args
  | .case_ _ subject nodes els => nums subject ++ numsL nodes ++ numsB els
  | .caseIn _ pattern body => nums pattern ++ numsL body
  | .caseWhen _ cond body => nums cond ++ numsL body
  | .class_ _ name super body => nums name ++ nums super ++ numsL body
  | .colon2 _ left _ => nums left
  | .complex _ value => nums value
  | .def_ _ self _ args body => numsO self ++ numsL args ++ numsL body
  | .defined _ arg => nums arg
  | .evaluateToString _ node => numsO node
  | .fixnum t v =>
    if t.type = .LINEKeyword ∧ v.natAbs = t.line + 1 then []
    else if t.type = .Fixnum ∧ v.natAbs = t.fix.natAbs then [some t] else [none]
  | .float t _ s => if t.type = .Float ∧ t.flt = s then [some t] else [none]
  | .for_ _ expr vars body => nums expr ++ nums vars ++ numsL body
  | .hash _ _ nodes => numsL nodes
  | .hashPattern _ nodes => numsL nodes
  | .if_ _ cond yes no => nums cond ++ nums yes ++ nums no
  | .infixOp _ left _ right => nums left ++ nums right
  | .iter _ (.stabbyProc ..) _ args body => numsL args ++ numsL body
  | .iter _ c _ args body => nums c ++ numsL args ++ numsL body
  | .interpolatedRegexp _ nodes _ => numsL nodes
  | .interpolatedShell _ nodes => numsL nodes
  | .interpolatedString _ nodes => numsL nodes
  | .interpolatedSymbol _ nodes => numsL nodes
  | .interpolatedSymbolKey _ nodes => numsL nodes
  | .keywordArg _ _ value => numsO value
  | .keywordSplat _ node => nums node
  | .logicalAnd _ left right => nums left ++ nums right
  | .logicalOr _ left right => nums left ++ nums right
  | .match_ _ regexp arg _ => nums regexp ++ numsO arg
  | .module_ _ name body => nums name ++ numsL body
  | .multipleAssignment _ nodes _ => numsL nodes
  | .multipleAssignmentArg _ nodes => numsL nodes
  | .next _ arg => numsO arg
  | .not_ _ expr => nums expr
  | .notMatch _ expr => nums expr
  | .opAssign _ _ name value => nums name ++ nums value
  | .opAssignAccessor _ _ recv _ value args _ => nums recv ++ nums value ++ numsL args
  | .opAssignAnd _ name value => nums name ++ nums value
  | .opAssignOr _ name value => nums name ++ nums value
  | .pin _ ident => nums ident
  | .range _ first last _ => nums first ++ nums last
  | .rational _ value => nums value
  | .return_ _ value => nums value
  | .safeCall _ recv _ args => nums recv ++ numsL args
  | .sclass _ klass body => nums klass ++ numsL body
  | .splat _ node => numsO node
  | .splatValue _ value => nums value
  | .stabbyProc _ _ args => numsL args
  | .super _ _ args => numsL args
  | .toArray _ value => nums value
  | .unaryOp _ _ right => nums right
  | .undef _ args => numsL args
  | .until_ _ cond body _ => nums cond ++ numsL body
  | .while_ _ cond body _ => nums cond ++ numsL body
  | .yield _ args => numsL args
  | .backRef .. | .beginBlock .. | .colon3 .. | .constant .. | .encoding .. | .endBlock .. | .false_ ..
  | .forwardArgs .. | .identifier .. | .keywordRestPattern .. | .nil .. | .nilSexp .. | .nthRef .. | .redo ..
  | .regexp .. | .retry .. | .self .. | .shadowArg .. | .shell .. | .string .. | .symbol .. | .symbolKey ..
  | .true_ .. | .valias .. => []

def numsL : List Node → List (Option Token)
  | [] => []
  | n :: ns => nums n ++ numsL ns

def numsO : Option Node → List (Option Token)
  | none => []
  | some n => nums n

def numsB : Option (List Node) → List (Option Token)
  | none => []
  | some ns => numsL ns
end

end NP.Spec
