import Verif.Model.Token

/-!
Syntax trees: include/natalie_parser/node/*.hpp. One constructor per class; the first field is the token of the node.

A `SharedPtr<BlockNode>` that is a part of another node (bodies of `def`, `class`, loops, …) is represented by the list
of its nodes; the token of such an inner block is dropped. A null `SharedPtr` is `none`. Floating point numbers are
represented by a sign and the character string handed to `atof` (see `Token.flt`).
-/

namespace NP

inductive Node where
  | alias_ (t : Token) (newName oldName : Node)
  | arg (t : Token) (name : Option Str) (block splat kwsplat : Bool) (value : Option Node)
  | array (t : Token) (nodes : List Node)
  | arrayPattern (t : Token) (nodes : List Node)
  | assignment (t : Token) (ident value : Node)
  | backRef (t : Token) (ref : Char)
  | begin_ (t : Token) (body : List Node) (rescues : List Node) (els ens : Option (List Node))
  | beginBlock (t : Token)
  | beginRescue (t : Token) (exceptions : List Node) (name : Option Node) (body : List Node)
  | bignum (t : Token) (num : Str)
  | block (t : Token) (nodes : List Node)
  | blockPass (t : Token) (node : Node)
  | break_ (t : Token) (arg : Option Node)
  | call (t : Token) (recv : Node) (msg : Str) (args : List Node)
  | case_ (t : Token) (subject : Node) (nodes : List Node) (els : Option (List Node))
  | caseIn (t : Token) (pattern : Node) (body : List Node)
  | caseWhen (t : Token) (cond : Node) (body : List Node)
  | class_ (t : Token) (name super : Node) (body : List Node)
  | colon2 (t : Token) (left : Node) (name : Str)
  | colon3 (t : Token) (name : Str)
  | complex (t : Token) (value : Node)
  | constant (t : Token)
  | def_ (t : Token) (self : Option Node) (name : Str) (args : List Node) (body : List Node)
  | defined (t : Token) (arg : Node)
  | encoding (t : Token)
  | endBlock (t : Token)
  | evaluateToString (t : Token) (node : Option Node)
  | false_ (t : Token)
  | fixnum (t : Token) (num : Int)
  | float (t : Token) (neg : Bool) (txt : Str)
  | for_ (t : Token) (expr vars : Node) (body : List Node)
  | forwardArgs (t : Token)
  | hash (t : Token) (bare : Bool) (nodes : List Node)
  | hashPattern (t : Token) (nodes : List Node)
  | identifier (t : Token) (lvar : Bool)
  | if_ (t : Token) (cond yes no : Node)
  | infixOp (t : Token) (left : Node) (op : Str) (right : Node)
  | iter (t : Token) (call : Node) (hasArgs : Bool) (args : List Node) (body : List Node)
  | interpolatedRegexp (t : Token) (nodes : List Node) (opts : Nat)
  | interpolatedShell (t : Token) (nodes : List Node)
  | interpolatedString (t : Token) (nodes : List Node)
  | interpolatedSymbol (t : Token) (nodes : List Node)
  | interpolatedSymbolKey (t : Token) (nodes : List Node)
  | keywordArg (t : Token) (name : Str) (value : Option Node)
  | keywordRestPattern (t : Token) (name : Option Str)
  | keywordSplat (t : Token) (node : Node)
  | logicalAnd (t : Token) (left right : Node)
  | logicalOr (t : Token) (left right : Node)
  | match_ (t : Token) (regexp : Node) (arg : Option Node) (regexpOnLeft : Bool)
  | module_ (t : Token) (name : Node) (body : List Node)
  | multipleAssignment (t : Token) (nodes : List Node) (depth : Nat)
  | multipleAssignmentArg (t : Token) (nodes : List Node)
  | next (t : Token) (arg : Option Node)
  | nil (t : Token)
  | nilSexp (t : Token)
  | not_ (t : Token) (expr : Node)
  | notMatch (t : Token) (expr : Node)
  | nthRef (t : Token) (num : Int)
  | opAssign (t : Token) (op : Str) (name value : Node)
  | opAssignAccessor (t : Token) (op : Str) (recv : Node) (msg : Str) (value : Node) (args : List Node) (safe : Bool)
  | opAssignAnd (t : Token) (name value : Node)
  | opAssignOr (t : Token) (name value : Node)
  | pin (t : Token) (ident : Node)
  | range (t : Token) (first last : Node) (excl : Bool)
  | rational (t : Token) (value : Node)
  | redo (t : Token)
  | regexp (t : Token) (pattern : Str) (opts : Nat)
  | retry (t : Token)
  | return_ (t : Token) (value : Node)
  | safeCall (t : Token) (recv : Node) (msg : Str) (args : List Node)
  | sclass (t : Token) (klass : Node) (body : List Node)
  | self (t : Token)
  | shadowArg (t : Token) (names : List Str)
  | shell (t : Token) (str : Str)
  | splat (t : Token) (node : Option Node)
  | splatValue (t : Token) (value : Node)
  | stabbyProc (t : Token) (hasArgs : Bool) (args : List Node)
  | string (t : Token) (str : Str)
  | super (t : Token) (parens : Bool) (args : List Node)
  | symbol (t : Token) (name : Str)
  | symbolKey (t : Token) (name : Str)
  | toArray (t : Token) (value : Node)
  | true_ (t : Token)
  | unaryOp (t : Token) (op : Str) (right : Node)
  | undef (t : Token) (args : List Node)
  | until_ (t : Token) (cond : Node) (body : List Node) (pre : Bool)
  | valias (t : Token) (newName oldName : Str)
  | while_ (t : Token) (cond : Node) (body : List Node) (pre : Bool)
  | yield (t : Token) (args : List Node)

namespace Node

instance : Inhabited Node := ⟨.nil {}⟩

/-- include/natalie_parser/node/node.hpp:136 `Node::token`. -/
def tok : Node → Token
  | alias_ t .. | arg t .. | array t .. | arrayPattern t .. | assignment t .. | backRef t .. | begin_ t ..
  | beginBlock t .. | beginRescue t .. | bignum t .. | block t .. | blockPass t .. | break_ t .. | call t ..
  | case_ t .. | caseIn t .. | caseWhen t .. | class_ t .. | colon2 t .. | colon3 t .. | complex t ..
  | constant t .. | def_ t .. | defined t .. | encoding t .. | endBlock t .. | evaluateToString t ..
  | false_ t .. | fixnum t .. | float t .. | for_ t .. | forwardArgs t .. | hash t .. | hashPattern t ..
  | identifier t .. | if_ t .. | infixOp t .. | iter t .. | interpolatedRegexp t .. | interpolatedShell t ..
  | interpolatedString t .. | interpolatedSymbol t .. | interpolatedSymbolKey t .. | keywordArg t ..
  | keywordRestPattern t .. | keywordSplat t .. | logicalAnd t .. | logicalOr t .. | match_ t .. | module_ t ..
  | multipleAssignment t .. | multipleAssignmentArg t .. | next t .. | nil t .. | nilSexp t .. | not_ t ..
  | notMatch t .. | nthRef t .. | opAssign t .. | opAssignAccessor t .. | opAssignAnd t .. | opAssignOr t ..
  | pin t .. | range t .. | rational t .. | redo t .. | regexp t .. | retry t .. | return_ t .. | safeCall t ..
  | sclass t .. | self t .. | shadowArg t .. | shell t .. | splat t .. | splatValue t .. | stabbyProc t ..
  | string t .. | super t .. | symbol t .. | symbolKey t .. | toArray t .. | true_ t .. | unaryOp t ..
  | undef t .. | until_ t .. | valias t .. | while_ t .. | yield t .. => t

/-- `is_callable`: include/natalie_parser/node/call_node.hpp:40, colon2_node.hpp:27, identifier_node.hpp:45-53,
super_node.hpp:20, yield_node.hpp:20 (false for every other class; `SafeCallNode` inherits from `CallNode`). -/
def isCallable : Node → Bool
  | call .. | safeCall .. | colon2 .. | super .. | yield .. => true
  | identifier t lvar => (t.type == .BareName || t.type == .Constant) && !lvar
  | _ => false

/-- `is_assignable`: include/natalie_parser/node/call_node.hpp:36-38, colon2_node.hpp:25, colon3_node.hpp:22,
identifier_node.hpp:22, multiple_assignment_node.hpp:20, splat_node.hpp:27. -/
def isAssignable : Node → Bool
  | call _ _ msg args | safeCall _ _ msg args => msg == cs! "[]" || args.isEmpty
  | colon2 .. | colon3 .. | identifier .. | multipleAssignment .. | splat .. => true
  | _ => false

/-- `is_numeric`: include/natalie_parser/node/bignum_node.hpp:21, fixnum_node.hpp:19, float_node.hpp:19. -/
def isNumeric : Node → Bool
  | bignum .. | fixnum .. | float .. => true
  | _ => false

/-- `is_symbol_key`: include/natalie_parser/node/symbol_key_node.hpp:18, interpolated_symbol_key_node.hpp:20. -/
def isSymbolKey : Node → Bool
  | symbolKey .. | interpolatedSymbolKey .. => true
  | _ => false

/-- `can_accept_a_block`: include/natalie_parser/node/begin_block_node.hpp:19, end_block_node.hpp:19,
call_node.hpp:42-46, identifier_node.hpp:23, super_node.hpp:22. -/
def canAcceptABlock : Node → Bool
  | beginBlock .. | endBlock .. | identifier .. | super .. => true
  | call _ _ msg _ | safeCall _ _ msg _ =>
    !(msg == cs! "private" || msg == cs! "protected" || msg == cs! "public")
  | _ => false

/-- `can_be_concatenated_to_a_string`: include/natalie_parser/node/string_node.hpp:23,
interpolated_string_node.hpp:22. -/
def canBeConcatenated : Node → Bool
  | string .. | interpolatedString .. => true
  | _ => false

/-- `type() == Node::Type::BlockPass`. -/
def isBlockPass : Node → Bool
  | blockPass .. => true
  | _ => false

/-- `type() == Node::Type::Splat`. -/
def isSplat : Node → Bool
  | splat .. => true
  | _ => false

/-- `type() == Node::Type::KeywordSplat`. -/
def isKeywordSplat : Node → Bool
  | keywordSplat .. => true
  | _ => false

/-- The arguments of a `NodeWithArgs` (include/natalie_parser/node/node_with_args.hpp); `none` for other classes. -/
def args? : Node → Option (List Node)
  | break_ .. => some []
  | call _ _ _ args | safeCall _ _ _ args | def_ _ _ _ args _ | iter _ _ _ args _ | opAssignAccessor _ _ _ _ _ args _
  | stabbyProc _ _ args | super _ _ args | undef _ args | yield _ args => some args
  | _ => none

/-- `has_block_pass`: include/natalie_parser/node/node_with_args.hpp:34-36. -/
def hasBlockPass (n : Node) : Bool :=
  match n.args? with
  | some args => (args.getLast?.map isBlockPass).getD false
  | none => false

/-- `NodeWithArgs::add_arg` (include/natalie_parser/node/node_with_args.hpp:29-32) for the classes that
`to_node_with_args` returns (src/parser.cpp:2380-2408). -/
def addArg (n arg : Node) : Node :=
  match n with
  | call t r m args => call t r m (args ++ [arg])
  | safeCall t r m args => safeCall t r m (args ++ [arg])
  | super t p args => super t p (args ++ [arg])
  | undef t args => undef t (args ++ [arg])
  | yield t args => yield t (args ++ [arg])
  | n => n

/-- `IdentifierNode::is_lvar` behind the check of include/natalie_parser/parser.hpp:199-201. -/
def isLvar : Node → Bool
  | identifier _ lvar => lvar
  | _ => false

end Node

end NP
