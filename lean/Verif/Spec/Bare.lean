import Verif.Model.Node

/-! Trees without the places where things are written and without comments. -/

namespace NP.Spec

/-- What counts in a token: its type, text and number and whether there is white space in front of it; not line and column and
not the comments in front of it. (The text of a floating point number is left in tokens of other types when a number is read;
it does not count there.) -/
def bareTok (t : Token) : Token :=
  { t with line := 0, col := 0, doc := none, flt := if t.type = .Float then t.flt else [] }

mutual
/-- A tree without lines, columns and comments: those of the tokens, and the number that `__LINE__` stands for (of which the
sign is kept). -/
def bare : Node → Node
  | .alias_ t newName oldName => .alias_ (bareTok t) (bare newName) (bare oldName)
  | .arg t name block splat kwsplat value => .arg (bareTok t) name block splat kwsplat (bareO value)
  | .array t nodes => .array (bareTok t) (bareL nodes)
  | .arrayPattern t nodes => .arrayPattern (bareTok t) (bareL nodes)
  | .assignment t ident value => .assignment (bareTok t) (bare ident) (bare value)
  | .backRef t ref => .backRef (bareTok t) ref
  | .begin_ t body rescues els ens => .begin_ (bareTok t) (bareL body) (bareL rescues) (bareB els) (bareB ens)
  | .beginBlock t => .beginBlock (bareTok t)
  | .beginRescue t exceptions name body => .beginRescue (bareTok t) (bareL exceptions) (bareO name) (bareL body)
  | .bignum t num => .bignum (bareTok t) num
  | .block t nodes => .block (bareTok t) (bareL nodes)
  | .blockPass t node => .blockPass (bareTok t) (bare node)
  | .break_ t arg => .break_ (bareTok t) (bareO arg)
  | .call t recv msg args => .call (bareTok t) (bare recv) msg (bareL args)
  | .case_ t subject nodes els => .case_ (bareTok t) (bare subject) (bareL nodes) (bareB els)
  | .caseIn t pattern body => .caseIn (bareTok t) (bare pattern) (bareL body)
  | .caseWhen t cond body => .caseWhen (bareTok t) (bare cond) (bareL body)
  | .class_ t name super body => .class_ (bareTok t) (bare name) (bare super) (bareL body)
  | .colon2 t left name => .colon2 (bareTok t) (bare left) name
  | .colon3 t name => .colon3 (bareTok t) name
  | .complex t value => .complex (bareTok t) (bare value)
  | .constant t => .constant (bareTok t)
  | .def_ t self name args body => .def_ (bareTok t) (bareO self) name (bareL args) (bareL body)
  | .defined t arg => .defined (bareTok t) (bare arg)
  | .encoding t => .encoding (bareTok t)
  | .endBlock t => .endBlock (bareTok t)
  | .evaluateToString t node => .evaluateToString (bareTok t) (bareO node)
  | .false_ t => .false_ (bareTok t)
  | .fixnum t num => .fixnum (bareTok t) (if t.type = .LINEKeyword then num.sign else num)
  | .float t neg txt => .float (bareTok t) neg txt
  | .for_ t expr vars body => .for_ (bareTok t) (bare expr) (bare vars) (bareL body)
  | .forwardArgs t => .forwardArgs (bareTok t)
  | .hash t bare nodes => .hash (bareTok t) bare (bareL nodes)
  | .hashPattern t nodes => .hashPattern (bareTok t) (bareL nodes)
  | .identifier t lvar => .identifier (bareTok t) lvar
  | .if_ t cond yes no => .if_ (bareTok t) (bare cond) (bare yes) (bare no)
  | .infixOp t left op right => .infixOp (bareTok t) (bare left) op (bare right)
  | .iter t call hasArgs args body => .iter (bareTok t) (bare call) hasArgs (bareL args) (bareL body)
  | .interpolatedRegexp t nodes opts => .interpolatedRegexp (bareTok t) (bareL nodes) opts
  | .interpolatedShell t nodes => .interpolatedShell (bareTok t) (bareL nodes)
  | .interpolatedString t nodes => .interpolatedString (bareTok t) (bareL nodes)
  | .interpolatedSymbol t nodes => .interpolatedSymbol (bareTok t) (bareL nodes)
  | .interpolatedSymbolKey t nodes => .interpolatedSymbolKey (bareTok t) (bareL nodes)
  | .keywordArg t name value => .keywordArg (bareTok t) name (bareO value)
  | .keywordRestPattern t name => .keywordRestPattern (bareTok t) name
  | .keywordSplat t node => .keywordSplat (bareTok t) (bare node)
  | .logicalAnd t left right => .logicalAnd (bareTok t) (bare left) (bare right)
  | .logicalOr t left right => .logicalOr (bareTok t) (bare left) (bare right)
  | .match_ t regexp arg regexpOnLeft => .match_ (bareTok t) (bare regexp) (bareO arg) regexpOnLeft
  | .module_ t name body => .module_ (bareTok t) (bare name) (bareL body)
  | .multipleAssignment t nodes depth => .multipleAssignment (bareTok t) (bareL nodes) depth
  | .multipleAssignmentArg t nodes => .multipleAssignmentArg (bareTok t) (bareL nodes)
  | .next t arg => .next (bareTok t) (bareO arg)
  | .nil t => .nil (bareTok t)
  | .nilSexp t => .nilSexp (bareTok t)
  | .not_ t expr => .not_ (bareTok t) (bare expr)
  | .notMatch t expr => .notMatch (bareTok t) (bare expr)
  | .nthRef t num => .nthRef (bareTok t) num
  | .opAssign t op name value => .opAssign (bareTok t) op (bare name) (bare value)
  | .opAssignAccessor t op recv msg value args safe =>
    .opAssignAccessor (bareTok t) op (bare recv) msg (bare value) (bareL args) safe
  | .opAssignAnd t name value => .opAssignAnd (bareTok t) (bare name) (bare value)
  | .opAssignOr t name value => .opAssignOr (bareTok t) (bare name) (bare value)
  | .pin t ident => .pin (bareTok t) (bare ident)
  | .range t first last excl => .range (bareTok t) (bare first) (bare last) excl
  | .rational t value => .rational (bareTok t) (bare value)
  | .redo t => .redo (bareTok t)
  | .regexp t pattern opts => .regexp (bareTok t) pattern opts
  | .retry t => .retry (bareTok t)
  | .return_ t value => .return_ (bareTok t) (bare value)
  | .safeCall t recv msg args => .safeCall (bareTok t) (bare recv) msg (bareL args)
  | .sclass t klass body => .sclass (bareTok t) (bare klass) (bareL body)
  | .self t => .self (bareTok t)
  | .shadowArg t names => .shadowArg (bareTok t) names
  | .shell t str => .shell (bareTok t) str
  | .splat t node => .splat (bareTok t) (bareO node)
  | .splatValue t value => .splatValue (bareTok t) (bare value)
  | .stabbyProc t hasArgs args => .stabbyProc (bareTok t) hasArgs (bareL args)
  | .string t str => .string (bareTok t) str
  | .super t parens args => .super (bareTok t) parens (bareL args)
  | .symbol t name => .symbol (bareTok t) name
  | .symbolKey t name => .symbolKey (bareTok t) name
  | .toArray t value => .toArray (bareTok t) (bare value)
  | .true_ t => .true_ (bareTok t)
  | .unaryOp t op right => .unaryOp (bareTok t) op (bare right)
  | .undef t args => .undef (bareTok t) (bareL args)
  | .until_ t cond body pre => .until_ (bareTok t) (bare cond) (bareL body) pre
  | .valias t newName oldName => .valias (bareTok t) newName oldName
  | .while_ t cond body pre => .while_ (bareTok t) (bare cond) (bareL body) pre
  | .yield t args => .yield (bareTok t) (bareL args)

def bareL : List Node → List Node
  | [] => []
  | n :: ns => bare n :: bareL ns

def bareO : Option Node → Option Node
  | none => none
  | some n => some (bare n)

def bareB : Option (List Node) → Option (List Node)
  | none => none
  | some ns => some (bareL ns)
end

end NP.Spec
