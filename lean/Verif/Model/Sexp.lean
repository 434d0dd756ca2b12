import Verif.Model.Node

/-!
From syntax trees to the S-expressions returned to Ruby: `Node::transform` of include/natalie_parser/node/*.hpp and
src/node/*.cpp with the creator of ext/natalie_parser/mri_creator.hpp.

Only what `Sexp#==` compares is kept: the instance variables `@file`, `@line`, `@column` and `@comments` are dropped, and
so is the encoding of strings and symbols. Numbers stay as they were handed over: a `Bignum` by its text, a float by sign
and text. `none` is TM_UNREACHABLE or a failed assertion.
-/

namespace NP

/-- What Ruby sees. -/
inductive Sexp where
  | nil
  | true_
  | false_
  | sym (s : Str)
  | str (s : Str)
  | int (n : Int)
  | big (s : Str)
  | float (neg : Bool) (txt : Str)
  | regexp (pattern : Str) (opts : Nat)
  | range (first last : Int) (excl : Bool)
  | complex (n : Sexp)
  | rational (n : Sexp)
  | node (type : Str) (items : List Sexp)

/-- The result of `transform`. `solo`: see `InterpolatedStringNode::transform` (src/node/interpolated_string_node.cpp:
78-97); for an interpolated string with the only part `#{…}` it is the S-expression of that part, and for `#{…}` around
such a string it is the one of that string. -/
structure TR where
  sx : Sexp
  solo : Option Sexp := none

namespace Node

def isNil : Node → Bool
  | nil .. => true
  | _ => false

def isFixnum : Node → Bool
  | fixnum .. => true
  | _ => false

def isString : Node → Bool
  | string .. => true
  | _ => false

def isEvStr : Node → Bool
  | evaluateToString .. => true
  | _ => false

def isIString : Node → Bool
  | interpolatedString .. => true
  | _ => false

/-- The text of a `StringNode`. -/
def strOf : Node → Str
  | string _ s => s
  | _ => []

/-- src/node/assignment_node.cpp:10-29, the targets that `AssignmentNode::transform` knows. -/
def isTarget : Node → Bool
  | multipleAssignment .. | call .. | colon2 .. | colon3 .. | identifier .. | safeCall .. => true
  | _ => false

end Node

/-- ext/natalie_parser/mri_creator.hpp:43-51 `append`. -/
def appOf (n : Node) (r : TR) : Sexp := if n.isNil then .nil else r.sx

/-- `creator->append` onto a finished S-expression. -/
def Sexp.push : Sexp → Sexp → Sexp
  | .node ty xs, x => .node ty (xs ++ [x])
  | s, _ => s

/-- include/natalie_parser/node/arg_node.hpp:26-39 `append_name`. -/
def argName (name : Option Str) (block splat kwsplat : Bool) : Sexp :=
  let n := name.getD []
  .sym (if splat then '*' :: n else if kwsplat then '*' :: '*' :: n else if block then '&' :: n else n)

/-- src/node/node_with_args.cpp:8-33 `append_method_or_block_args`, for one argument. -/
def methodArg (n : Node) (r : TR) : Option Sexp :=
  match n with
  | .arg _ name b s k none => some (argName name b s k)
  | .arg .. | .forwardArgs .. | .keywordArg .. | .multipleAssignmentArg .. | .shadowArg .. => some r.sx
  | .nil .. => some .nil
  | _ => none

/-- The arguments of a definition or block. -/
def methodArgs : List Node → List TR → Option (List Sexp)
  | n :: ns, r :: rs => do
    let x ← methodArg n r
    let xs ← methodArgs ns rs
    some (x :: xs)
  | _, _ => some []

/-- include/natalie_parser/node/array_pattern_node.hpp:28-43, for one element. -/
def patArg (n : Node) (r : TR) : Option Sexp :=
  match n with
  | .splat _ none => some (.sym ['*'])
  | .splat _ (some (.symbol _ name)) => some (.sym ('*' :: name))
  | .splat .. => none
  | n => some (appOf n r)

def patArgs : List Node → List TR → Option (List Sexp)
  | n :: ns, r :: rs => do
    let x ← patArg n r
    let xs ← patArgs ns rs
    some (x :: xs)
  | _, _ => some []

/-- `creator->append` for each node. -/
def apps : List Node → List TR → List Sexp
  | n :: ns, r :: rs => appOf n r :: apps ns rs
  | _, _ => []

/-- `BlockNode::without_unnecessary_nesting` (include/natalie_parser/node/block_node.hpp:39-44), appended. -/
def bodySexp (ns : List Node) (rs : List TR) : Sexp :=
  match ns, rs with
  | [n], [r] => appOf n r
  | ns, rs => .node (cs! "block") (apps ns rs)

/-- The nodes of a body, or nil (include/natalie_parser/node/case_in_node.hpp:34-38 and the like). -/
def bodyOrNil (ns : List Node) (rs : List TR) : List Sexp :=
  if ns.isEmpty then [.nil] else apps ns rs

/-- `nil` as an S-expression: include/natalie_parser/creator.hpp:46-48. -/
def nilSexp : Sexp := .node (cs! "nil") []

/-- src/node/interpolated_shell_node.cpp:6-23 and interpolated_symbol_node.cpp:6-23. -/
def startString (ns : List Node) (rs : List TR) : List Sexp :=
  match ns, rs with
  | .string _ s :: ns, _ :: rs => .str s :: apps ns rs
  | [], _ => []
  | ns, rs => .str [] :: apps ns rs

/-- src/node/interpolated_string_node.cpp:78-99: one part that is not the first string. -/
def dstrPart (n : Node) (r : TR) : Sexp :=
  if n.isEvStr then r.solo.getD r.sx else appOf n r

def dstrParts : List Node → List TR → List Sexp
  | n :: ns, r :: rs => dstrPart n r :: dstrParts ns rs
  | _, _ => []

/-- src/node/interpolated_string_node.cpp:49-109 `InterpolatedStringNode::transform`. -/
def dstr (ns : List Node) (rs : List TR) : Sexp :=
  match ns with
  | .string .. :: _ =>
    let pre := ns.takeWhile Node.isString
    let post := ns.dropWhile Node.isString
    let items := .str (pre.map Node.strOf).flatten :: dstrParts post (rs.drop pre.length)
    .node (if post.isEmpty then cs! "str" else cs! "dstr") items
  | [] => .node (cs! "str") []
  | ns => .node (cs! "dstr") (.str [] :: dstrParts ns rs)

/-- The same string's only part, if that is an interpolation. -/
def dstrSolo : List Node → List TR → Option Sexp
  | [.evaluateToString ..], [r] => some r.sx
  | _, _ => none

/-- src/node/assignment_node.cpp:6-31 `AssignmentNode::transform`; `r` is the target transformed as one. -/
def assignTo (target : Node) (r : TR) (value : Sexp) : Option Sexp :=
  if target.isTarget then some (r.sx.push value) else none

/-- include/natalie_parser/node/identifier_node.hpp:63-118 `IdentifierNode::transform`. -/
def identSexp (asg : Bool) (t : Token) (lvar : Bool) : Option Sexp := do
  let name ← t.lit
  let one (ty : Str) : Option Sexp := some (.node ty [.sym name])
  match t.type with
  | .BareName =>
    if asg then one (cs! "lasgn")
    else if lvar then one (cs! "lvar")
    else some (.node (cs! "call") [.nil, .sym name])
  | .ClassVariable => one (if asg then cs! "cvdecl" else cs! "cvar")
  | .Constant => one (if asg then cs! "cdecl" else cs! "const")
  | .GlobalVariable => one (if asg then cs! "gasgn" else cs! "gvar")
  | .InstanceVariable => one (if asg then cs! "iasgn" else cs! "ivar")
  | _ => none

/-- include/natalie_parser/node/rational_node.hpp:26-40 and complex_node.hpp:26-46 `transform_number`. -/
def numSexp : Node → Option Sexp
  | .bignum _ s => some (.big s)
  | .fixnum _ n => some (.int n)
  | .float _ neg txt => some (.float neg txt)
  | _ => none

/-- `ModuleNode` and `ClassNode` (src/node/module_node.cpp:11-16): the name. -/
def nameSexp (n : Node) (r : TR) : Option Sexp :=
  match n with
  | .identifier t _ => t.lit.map .sym
  | n => some (appOf n r)

/-- A finished S-expression. -/
def mk (ty : Str) (items : List Sexp) : Option TR := some { sx := .node ty items }

/-- include/natalie_parser/node/multiple_assignment_arg_node.hpp:19-28: the parts of a destructuring argument. -/
def masgnArgs : List Node → List TR → List Sexp
  | .arg _ name b s k _ :: ns, _ :: rs => argName name b s k :: masgnArgs ns rs
  | n :: ns, r :: rs => appOf n r :: masgnArgs ns rs
  | _, _ => []

mutual

/-- `Node::transform` with a creator whose `assignment()` is `asg`. -/
def tr (asg : Bool) : Node → Option TR
  | .alias_ _ a b => do
    let x ← tr asg a
    let y ← tr asg b
    mk (cs! "alias") [appOf a x, appOf b y]
  | .arg _ name b s k v => do
    let xs ← trOpt asg v
    mk (cs! "lasgn") (argName name b s k :: xs)
  | .array _ ns => do
    let rs ← trList asg ns
    mk (cs! "array") (apps ns rs)
  | .arrayPattern _ ns => do
    let rs ← trList asg ns
    let xs ← patArgs ns rs
    mk (cs! "array_pat") (if ns.isEmpty then [] else .nil :: xs)
  | .assignment _ i v => do
    let x ← tr true i
    let y ← tr asg v
    let s ← assignTo i x (appOf v y)
    some { sx := s }
  | .backRef _ c => mk (cs! "back_ref") [.sym [c]]
  | .begin_ _ body rescues els ens => do
    let bs ← trList asg body
    let rs ← trList asg rescues
    let es ← trBody asg els
    let ns ← trBody asg ens
    let items := (if body.isEmpty then [] else [bodySexp body bs]) ++ apps rescues rs ++
      (match els with
        | some (e :: el) => [bodySexp (e :: el) es]
        | _ => [])
    match ens with
    | none => mk (cs! "rescue") items
    | some en =>
      let last := if en.isEmpty then nilSexp else bodySexp en ns
      if rescues.isEmpty then mk (cs! "ensure") (items ++ [last])
      else mk (cs! "ensure") [.node (cs! "rescue") items, last]
  | .beginBlock _ => mk (cs! "preexe") []
  | .beginRescue _ exs name body => do
    let es ← trList asg exs
    let nm ← trName asg name
    let bs ← trList asg body
    mk (cs! "resbody") (.node (cs! "array") (apps exs es ++ nm) :: bodyOrNil body bs)
  | .bignum _ s => mk (cs! "lit") [.big s]
  | .block _ ns => do
    let rs ← trList asg ns
    mk (cs! "block") (apps ns rs)
  | .blockPass _ n => do
    let r ← tr asg n
    mk (cs! "block_pass") [appOf n r]
  | .break_ _ v => do
    let xs ← trOpt asg v
    mk (cs! "break") xs
  | .call _ recv msg args => do
    let r ← tr false recv
    let as ← trList false args
    if asg then mk (cs! "attrasgn") (appOf recv r :: .sym (msg ++ ['=']) :: apps args as)
    else mk (cs! "call") (appOf recv r :: .sym msg :: apps args as)
  | .case_ _ subject ns els => do
    let s ← tr asg subject
    let rs ← trList asg ns
    let es ← trBody asg els
    mk (cs! "case") (appOf subject s :: apps ns rs ++ [match els with
      | some e => bodySexp e es
      | none => .nil])
  | .caseIn _ p body => do
    let r ← tr asg p
    let bs ← trList asg body
    mk (cs! "in") (appOf p r :: bodyOrNil body bs)
  | .caseWhen _ c body => do
    let r ← tr asg c
    let bs ← trList asg body
    mk (cs! "when") (appOf c r :: bodyOrNil body bs)
  | .class_ _ name sup body => do
    let n ← tr asg name
    let nm ← nameSexp name n
    let s ← tr asg sup
    let bs ← trList asg body
    mk (cs! "class") (nm :: appOf sup s :: apps body bs)
  | .colon2 _ l name => do
    let r ← tr false l
    let s := Sexp.node (cs! "colon2") [appOf l r, .sym name]
    some { sx := if asg then .node (cs! "cdecl") [s] else s }
  | .colon3 _ name =>
    let s := Sexp.node (cs! "colon3") [.sym name]
    some { sx := if asg then .node (cs! "cdecl") [s] else s }
  | .complex _ (.rational _ v) => do
    let x ← numSexp v
    mk (cs! "lit") [.complex x]
  | .complex _ v => do
    let x ← numSexp v
    mk (cs! "lit") [.complex x]
  | .constant t => do
    let name ← t.lit
    mk (cs! "const") [.sym name]
  | .def_ _ self name args body => do
    let s ← trOpt asg self
    let as ← trList false args
    let xs ← methodArgs args as
    let bs ← trList asg body
    mk (if self.isSome then cs! "defs" else cs! "defn")
      (s ++ [.sym name, .node (cs! "args") xs] ++ (if body.isEmpty then [nilSexp] else apps body bs))
  | .defined _ n => do
    let r ← tr asg n
    mk (cs! "defined") [appOf n r]
  | .encoding _ => mk (cs! "colon2") [.node (cs! "const") [.sym (cs! "Encoding")], .sym (cs! "UTF_8")]
  | .endBlock _ => mk (cs! "postexe") []
  | .evaluateToString _ none => mk (cs! "evstr") []
  | .evaluateToString _ (some n) => do
    let r ← tr asg n
    some { sx := .node (cs! "evstr") [appOf n r], solo := if n.isIString then r.solo else none }
  | .false_ _ => mk (cs! "false") []
  | .fixnum _ n => mk (cs! "lit") [.int n]
  | .float _ neg txt => mk (cs! "lit") [.float neg txt]
  | .for_ _ e v body => do
    let x ← tr asg e
    let y ← tr true v
    let bs ← trList asg body
    mk (cs! "for") ([appOf e x, appOf v y] ++ (if body.isEmpty then [] else [bodySexp body bs]))
  | .forwardArgs _ => mk (cs! "forward_args") []
  | .hash _ bare ns => do
    let rs ← trList asg ns
    mk (if bare then cs! "bare_hash" else cs! "hash") (apps ns rs)
  | .hashPattern _ ns => do
    let rs ← trList asg ns
    mk (cs! "hash_pat") (.nil :: apps ns rs)
  | .identifier t lvar => do
    let s ← identSexp asg t lvar
    some { sx := s }
  | .if_ _ c y n => do
    let c' ← tr asg c
    let y' ← tr asg y
    let n' ← tr asg n
    mk (cs! "if") [appOf c c', appOf y y', appOf n n']
  | .infixOp _ l op r => do
    let x ← tr asg l
    let y ← tr asg r
    mk (cs! "call") [appOf l x, .sym op, appOf r y]
  | .iter _ c hasArgs args body => do
    let x ← tr asg c
    let as ← trList false args
    let xs ← if hasArgs then methodArgs args as else some []
    let bs ← trList asg body
    mk (cs! "iter") ([appOf c x, if hasArgs then .node (cs! "args") xs else .int 0] ++
      (if body.isEmpty then [] else [bodySexp body bs]))
  | .interpolatedRegexp _ ns opts => do
    let rs ← trList asg ns
    mk (cs! "dregx") ((match ns, rs with
      | .string _ s :: ns, _ :: rs => .str s :: apps ns rs
      | ns, rs => apps ns rs) ++ (if opts = 0 then [] else [.int opts]))
  | .interpolatedShell _ ns => do
    let rs ← trList asg ns
    mk (cs! "dxstr") (startString ns rs)
  | .interpolatedString _ ns => do
    let rs ← trList asg ns
    some { sx := dstr ns rs, solo := dstrSolo ns rs }
  | .interpolatedSymbol _ ns => do
    let rs ← trList asg ns
    mk (cs! "dsym") (startString ns rs)
  | .interpolatedSymbolKey _ ns => do
    let rs ← trList asg ns
    mk (cs! "dsym") (startString ns rs)
  | .keywordArg _ name v => do
    let xs ← trOpt asg v
    mk (cs! "kwarg") (.sym name :: xs)
  | .keywordRestPattern _ name => mk (cs! "kwrest") [.sym (cs! "**" ++ name.getD [])]
  | .keywordSplat _ n => do
    let r ← tr asg n
    mk (cs! "kwsplat") [appOf n r]
  | .logicalAnd _ l r => do
    let x ← tr asg l
    let y ← tr asg r
    mk (cs! "and") [appOf l x, appOf r y]
  | .logicalOr _ l r => do
    let x ← tr asg l
    let y ← tr asg r
    mk (cs! "or") [appOf l x, appOf r y]
  | .match_ _ re arg left => do
    let x ← tr asg re
    let ys ← trOpt asg arg
    mk (if arg.isNone then cs! "match" else if left then cs! "match2" else cs! "match3") (appOf re x :: ys)
  | .module_ _ name body => do
    let n ← tr asg name
    let nm ← nameSexp name n
    let bs ← trList asg body
    mk (cs! "module") (nm :: apps body bs)
  | .multipleAssignment _ ns _ => do
    let rs ← trList true ns
    mk (cs! "masgn") [.node (cs! "array") (apps ns rs)]
  | .multipleAssignmentArg _ ns => do
    let rs ← trList asg ns
    mk (cs! "masgn") (masgnArgs ns rs)
  | .next _ v => do
    let xs ← trOpt asg v
    mk (cs! "next") xs
  | .nil _ => mk (cs! "nil") []
  | .nilSexp _ => mk (cs! "nil") []
  | .not_ _ e => do
    let r ← tr asg e
    mk (cs! "call") [appOf e r, .sym (cs! "!")]
  | .notMatch _ e => do
    let r ← tr asg e
    mk (cs! "not") [appOf e r]
  | .nthRef _ n => mk (cs! "nth_ref") [.int n]
  | .opAssign _ op name value => do
    let a ← tr true name
    let n ← tr asg name
    let n' ← tr false name
    let v ← tr asg value
    let v' ← tr false value
    match name with
    | .identifier .. => some { sx := a.sx.push (.node (if asg then cs! "attrasgn" else cs! "call")
        [appOf name n', .sym (if asg then op ++ ['='] else op), appOf value v']) }
    | .colon2 .. | .colon3 .. => mk (cs! "op_asgn") [appOf name n, .sym op, appOf value v]
    | _ => none
  | .opAssignAccessor _ op recv msg value args safe => do
    let r ← tr asg recv
    let v ← tr asg value
    let as ← trList false args
    if msg = cs! "[]=" then
      mk (cs! "op_asgn1") [appOf recv r, if args.isEmpty then .nil else .node (cs! "arglist") (apps args as), .sym op,
        appOf value v]
    else if args.isEmpty then
      mk (if safe then cs! "safe_op_asgn2" else cs! "op_asgn2") [appOf recv r, .sym msg, .sym op, appOf value v]
    else none
  | .opAssignAnd _ name value => do
    let n ← tr asg name
    let a ← tr true name
    let v ← tr asg value
    let s ← assignTo name a (appOf value v)
    mk (cs! "op_asgn_and") [appOf name n, s]
  | .opAssignOr _ name value => do
    let n ← tr asg name
    let a ← tr true name
    let v ← tr asg value
    let s ← assignTo name a (appOf value v)
    mk (cs! "op_asgn_or") [appOf name n, s]
  | .pin _ i => do
    let r ← tr asg i
    mk (cs! "pin") [appOf i r]
  | .range _ f l excl => do
    let x ← tr asg f
    let y ← tr asg l
    match f, l with
    | .fixnum _ a, .fixnum _ b => mk (cs! "lit") [.range a b excl]
    | f, l => mk (if excl then cs! "dot3" else cs! "dot2") [appOf f x, appOf l y]
  | .rational _ v => do
    let x ← numSexp v
    mk (cs! "lit") [.rational x]
  | .redo _ => mk (cs! "redo") []
  | .regexp _ p o => mk (cs! "lit") [.regexp p o]
  | .retry _ => mk (cs! "retry") []
  | .return_ _ v => do
    let r ← tr asg v
    mk (cs! "return") (if v.isNil then [] else [r.sx])
  | .safeCall _ recv msg args => do
    let r ← tr false recv
    let as ← trList false args
    if asg then mk (cs! "safe_attrasgn") (appOf recv r :: .sym (msg ++ ['=']) :: apps args as)
    else mk (cs! "safe_call") (appOf recv r :: .sym msg :: apps args as)
  | .sclass _ k body => do
    let r ← tr asg k
    let bs ← trList asg body
    mk (cs! "sclass") (appOf k r :: apps body bs)
  | .self _ => mk (cs! "self") []
  | .shadowArg _ names => mk (cs! "shadow") (names.map .sym)
  | .shell _ s => mk (cs! "xstr") [.str s]
  | .splat _ v => do
    let xs ← trOpt asg v
    mk (cs! "splat") xs
  | .splatValue _ v => do
    let r ← tr asg v
    mk (cs! "svalue") [appOf v r]
  | .stabbyProc .. => mk (cs! "lambda") []
  | .string _ s => mk (cs! "str") [.str s]
  | .super _ parens args => do
    let as ← trList asg args
    if args.isEmpty then mk (if parens then cs! "super" else cs! "zsuper") []
    else mk (cs! "super") (apps args as)
  | .symbol _ s => mk (cs! "lit") [.sym s]
  | .symbolKey _ s => mk (cs! "lit") [.sym s]
  | .toArray _ v => do
    let r ← tr asg v
    mk (cs! "to_ary") [appOf v r]
  | .true_ _ => mk (cs! "true") []
  | .unaryOp _ op r => do
    let x ← tr asg r
    mk (cs! "call") [appOf r x, .sym op]
  | .undef _ args => do
    let as ← trList asg args
    mk (cs! "undef") (apps args as)
  | .until_ _ c body pre => do
    let r ← tr asg c
    let bs ← trList asg body
    mk (cs! "until") [appOf c r, if body.isEmpty then .nil else bodySexp body bs, if pre then .true_ else .false_]
  | .valias _ a b => mk (cs! "valias") [.sym a, .sym b]
  | .while_ _ c body pre => do
    let r ← tr asg c
    let bs ← trList asg body
    mk (cs! "while") [appOf c r, if body.isEmpty then .nil else bodySexp body bs, if pre then .true_ else .false_]
  | .yield _ args => do
    let as ← trList asg args
    mk (cs! "yield") (apps args as)

def trList (asg : Bool) : List Node → Option (List TR)
  | [] => some []
  | n :: ns => do
    let r ← tr asg n
    let rs ← trList asg ns
    some (r :: rs)

/-- A node that may be absent: nothing, or its S-expression. -/
def trOpt (asg : Bool) : Option Node → Option (List Sexp)
  | none => some []
  | some n => do
    let r ← tr asg n
    some [appOf n r]

/-- A body that may be absent. -/
def trBody (asg : Bool) : Option (List Node) → Option (List TR)
  | none => some []
  | some ns => trList asg ns

/-- src/node/begin_rescue_node.cpp:8-16 `name_to_assignment`. -/
def trName (_asg : Bool) : Option Node → Option (List Sexp)
  | none => some []
  | some n => do
    let r ← tr true n
    let s ← assignTo n r (.node (cs! "gvar") [.sym (cs! "$!")])
    some [s]

end

/-- ext/natalie_parser/natalie_parser.cpp:31-35 `node_to_ruby`. -/
def Node.toSexp (n : Node) : Option Sexp := (tr false n).map (·.sx)

end NP
