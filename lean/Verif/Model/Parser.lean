import Verif.Model.PState

/-!
src/parser.cpp, function by function.

The functions of the parser call each other recursively. Here each function takes the record `R` of those functions
through which every cycle of calls goes (`parse_expression` above all) together with a bound for loops; `knot` at the end
of the file ties them together, spending one unit of fuel per nested call. That the fuel of `parseTokens` is never
exhausted is proved, not assumed.
-/

namespace NP

/-- The functions through which the recursion goes. -/
structure Rec where
  fuel : Nat
  /-- `parse_expression` -/
  expr : Prec → IterAllow → P Node
  /-- `parse_case_in_pattern` -/
  pattern : P Node
  /-- `parse_assignment_identifier` -/
  assignIdent : Bool → P Node
  /-- `parse_arg_default_value` -/
  argDefault : IterAllow → P Node
  /-- `parse_def_single_arg` (returns the vector of arguments) -/
  defSingleArg : List Node → ArgsContext → IterAllow → P (List Node)
  /-- `parse_if_branch` -/
  ifBranch : Bool → P Node
  /-- `parse_string` -/
  string : P Node
  /-- `parse_interpolated_string` -/
  istring : P Node

/-- `parse_expression` with the default `IterAllow`. -/
abbrev Rec.exp (R : Rec) (p : Prec) : P Node := R.expr p .CURLY_AND_BLOCK

/-- `while (current_token().is_comma()) { advance(); <item> }` collecting the items. -/
def commaLoop {α : Type} (R : Rec) (item : P α) (acc : List α) : P (List α) :=
  loop (fun acc => do
    if (← curTy) = .Comma then
      advance
      let x ← item
      pure (.again (acc ++ [x]))
    else pure (.done acc)) R.fuel acc

/-- include/natalie_parser/parser.hpp:199-201 `treat_left_bracket_as_element_reference`. -/
def bracketIsRef (left : Node) (t : Token) : Bool := !t.ws || left.isLvar

/-- src/parser.cpp:3083-3085 `is_first_arg_of_call_without_parens`. -/
def isFirstArg (left : Node) (t : Token) : Bool := left.isCallable && t.type.canBeFirstArgOfImplicitCall

/-- src/parser.cpp:95-199 `get_precedence`; `cur` is the current token. -/
def getPrec (t : Token) (left : Option Node) (cur : Token) : Prec :=
  let dflt : Prec :=
    match left with
    | some l => if isFirstArg l cur then .CALL else .LOWEST
    | none => .LOWEST
  match t.type with
  | .Plus => if left.isSome then .SUM else .UNARY_PLUS
  | .Minus => if left.isSome then .SUM else .UNARY_MINUS
  | .Equal => .ASSIGNMENT_LHS
  | .AmpersandAmpersandEqual | .AmpersandEqual | .CaretEqual | .LeftShiftEqual | .MinusEqual | .PipePipeEqual
  | .PercentEqual | .PipeEqual | .PlusEqual | .RightShiftEqual | .SlashEqual | .StarEqual | .StarStarEqual =>
    .OP_ASSIGNMENT_LHS
  | .Ampersand => .BITWISE_AND
  | .Caret | .Pipe => .BITWISE_OR
  | .Comma => .ARRAY
  | .LeftShift | .RightShift => .BITWISE_SHIFT
  | .LParen => .CALL
  | .AndKeyword | .OrKeyword => .COMPOSITION
  | .ConstantResolution => .CONSTANT_RESOLUTION
  | .Dot | .SafeNavigation =>
    match left with
    | some l => if l.isNumeric then .NUMBER_DOT else .DOT
    | none => .DOT
  | .EqualEqual | .EqualEqualEqual | .NotEqual | .Match | .NotMatch => .EQUALITY
  | .StarStar => .EXPONENT
  | .IfKeyword | .UnlessKeyword | .WhileKeyword | .UntilKeyword => .EXPR_MODIFIER
  | .RescueKeyword => .INLINE_RESCUE
  | .DoKeyword => .ITER_BLOCK
  | .LCurlyBrace => .ITER_CURLY
  | .Comparison | .LessThan | .LessThanOrEqual | .GreaterThan | .GreaterThanOrEqual => .LESS_GREATER
  | .AmpersandAmpersand => .LOGICAL_AND
  | .NotKeyword => .LOGICAL_NOT
  | .PipePipe => .LOGICAL_OR
  | .Percent | .Slash | .Star => .PRODUCT
  | .DotDot | .DotDotDot => .RANGE
  | .LBracket | .LBracketRBracket =>
    match left with
    | some l => if bracketIsRef l cur then .REF else dflt
    | none => dflt
  | .TernaryQuestion => .TERNARY_QUESTION
  | .TernaryColon => .TERNARY_FALSE
  | .Not | .Tilde => .UNARY_PLUS
  | _ => dflt

/-- src/parser.cpp:49-93 `higher_precedence`. -/
def higherPrecedence (t : Token) (left : Node) (p : Prec) (ia : IterAllow) : P Bool := fun _ s =>
  let next := getPrec t (some left) s.cur
  if left.isSymbolKey then .ok false s
  else if next = .ITER_BLOCK then
    if ia = .CURLY_AND_BLOCK then
      match s.depth with
      | [] => .ub
      | d :: _ => .ok (d == 0) s
    else .ok false s
  else if next = .ITER_CURLY then .ok (ia != .NONE && left.isCallable) s
  else .ok (next.higher p) s

/-- A `BlockNode` that is being built: its token and nodes. -/
structure Blk where
  tok : Token
  nodes : List Node

def Blk.node (b : Blk) : Node := .block b.tok b.nodes

/-- src/parser.cpp:229-244, 439-444 and others: the single node of a block, or else the block. -/
def Blk.single (b : Blk) : Node :=
  match b.nodes with
  | [n] => n
  | _ => b.node

/-- `MultipleAssignmentNode::add_locals` (src/node/multiple_assignment_node.cpp:5-35) for one node of the list and for
the list: the names set (`none`: TM_UNREACHABLE). `IdentifierNode::add_to_locals` is
include/natalie_parser/node/identifier_node.hpp:58-61. -/
def identNames (t : Token) : Option (List Str) :=
  if t.type = .BareName then t.lit.map fun n => [n] else some []

mutual
def masgnNames : Node → Option (List Str)
  | .identifier t _ => identNames t
  | .call .. | .colon2 .. | .colon3 .. => some []
  | .splat _ (some (.identifier t _)) => identNames t
  | .splat .. => some []
  | .multipleAssignment _ ns _ => masgnNamesList ns
  | _ => none
def masgnNamesList : List Node → Option (List Str)
  | [] => some []
  | n :: ns => do
    let a ← masgnNames n
    let b ← masgnNamesList ns
    pure (a ++ b)
end

/-- Set the given names, or TM_UNREACHABLE. -/
def addNames : Option (List Str) → P Unit
  | some ns => P.modify fun s => { s with locals := ns ++ s.locals }
  | none => P.abort

/-- src/parser.cpp:2219-2240 `add_assignment_locals`. -/
def addAssignmentLocals (left : Node) : P Unit :=
  match left with
  | .identifier t _ => addNames (identNames t)
  | .call .. | .colon2 .. | .colon3 .. | .safeCall .. => pure ()
  | .multipleAssignment _ ns _ => addNames (masgnNamesList ns)
  | n => throwTok n.tok false (cs! "assignment identifier")

/-- src/parser.cpp:281-297 `reinsert_collapsed_newline`. -/
def reinsertCollapsedNewline : P Unit := do
  let t ← prevTok
  if t.type.canPrecedeCollapsibleNewline then insertNewline t else pure ()

/-! ## Bodies -/

/-- src/parser.cpp:451-503 `parse_rest_of_begin`; the `BeginNode` under construction is `begin_ t body …`. -/
def parseRestOfBegin (R : Rec) (parseBody : (Ttype → Bool) → P Blk) (t : Token) (body : List Node) : P Node := do
  let endRescue := fun ty : Ttype => ty == .RescueKeyword || ty == .ElseKeyword || ty == .EnsureKeyword || ty == .EndKeyword
  let endElse := fun ty : Ttype => ty == .EnsureKeyword || ty == .EndKeyword
  let (rescues, els, ens) ← loop (fun (x : List Node × Option (List Node) × Option (List Node)) => do
    let ct ← cur
    match ct.type with
    | .Eof | .EndKeyword => pure (Loop.done x)
    | .RescueKeyword =>
      advance
      let exs ← do
        let ty ← curTy
        if !ty.isEndOfLine && ty != .HashRocket then
          let e ← R.exp .BARE_CALL_ARG
          commaLoop R (R.exp .BARE_CALL_ARG) [e]
        else pure []
      let name ← do
        if (← curTy) = .HashRocket then
          advance
          let n ← R.exp .ASSIGNMENT_LHS
          addAssignmentLocals n
          pure (some n)
        else pure none
      nextExpression
      let b ← parseBody endRescue
      if endRescue (← curTy) then
        pure (Loop.again (x.1 ++ [.beginRescue ct exs name b.nodes], x.2.1, x.2.2))
      else throwUnexpected (cs! "begin: rescue, else, ensure, or end")
    | .ElseKeyword =>
      advance
      nextExpression
      let b ← parseBody endElse
      if endElse (← curTy) then pure (Loop.again (x.1, some b.nodes, x.2.2))
      else throwUnexpected (cs! "begin: ensure or end")
    | .EnsureKeyword =>
      advance
      nextExpression
      let b ← parseBody fun ty => ty == .EndKeyword
      pure (Loop.again (x.1, x.2.1, some b.nodes))
    | _ => throwUnexpected (cs! "begin end")) R.fuel ([], none, none)
  expect .EndKeyword (cs! "begin/rescue/ensure end")
  advance
  pure (.begin_ t body rescues els ens)

/-- src/parser.cpp:246-267 `parse_body` without `allow_rescue` (also 269-275 with an `is_end` that tests for one token
type). -/
def parseBody (R : Rec) (p : Prec) (isEnd : Ttype → Bool) : P Blk := do
  pushDepth
  let t ← cur
  validateCurrent
  skipNewlines
  let ns ← loop (fun ns => do
    let ty ← curTy
    if ty = .Eof ∨ isEnd ty then pure (Loop.done ns)
    else
      let e ← R.exp p
      if isEnd (← curTy) then pure (Loop.done (ns ++ [e]))
      else
        nextExpression
        pure (Loop.again (ns ++ [e]))) R.fuel []
  popDepth
  pure ⟨t, ns⟩

/-- src/parser.cpp:246-267 `parse_body` with `allow_rescue`. The path through `parse_rest_of_begin` returns without
popping `m_call_depth`. -/
def parseBodyRescue (R : Rec) (p : Prec) (isEnd : Ttype → Bool) : P Blk := do
  pushDepth
  let t ← cur
  validateCurrent
  skipNewlines
  let (ns, rescued) ← loop (fun ns => do
    let ty ← curTy
    if ty = .Eof ∨ isEnd ty then pure (Loop.done (ns, false))
    else if ty = .RescueKeyword ∨ ty = .EnsureKeyword then
      let b ← parseRestOfBegin R (parseBody R .LOWEST) t ns
      rewind
      pure (Loop.done ([b], true))
    else
      let e ← R.exp p
      if isEnd (← curTy) then pure (Loop.done (ns ++ [e], false))
      else
        nextExpression
        pure (Loop.again (ns ++ [e]))) R.fuel []
  if rescued then pure ⟨t, ns⟩
  else
    popDepth
    pure ⟨t, ns⟩

/-- `parse_body(locals, LOWEST)`: up to `end`. -/
def parseBodyEnd (R : Rec) : P Blk := parseBody R .LOWEST fun ty => ty == .EndKeyword

/-- src/parser.cpp:277-279 `parse_def_body`. -/
def parseDefBody (R : Rec) : P Blk := parseBodyRescue R .LOWEST fun ty => ty == .EndKeyword

/-! ## Names and literals -/

/-- src/parser.cpp:1754-1771 `parse_method_name`. -/
def parseMethodName : P Str := do
  let t ← cur
  match t.type with
  | .BareName | .Constant | .OperatorName =>
    let n ← litOf t
    advance
    pure n
  | ty =>
    if ty.isOperator || ty.isKeyword then
      advance
      pure (tyValue ty)
    else throwUnexpected (cs! "method name")

/-- src/parser.cpp:2045-2050 `parse_symbol`. -/
def parseSymbol : P Node := do
  let t ← cur
  let n ← litOf t
  advance
  pure (.symbol t n)

/-- src/parser.cpp:2052-2057 `parse_symbol_key`. -/
def parseSymbolKey : P Node := do
  let t ← cur
  let n ← litOf t
  advance
  pure (.symbolKey t n)

/-- src/parser.cpp:1512-1563 `parse_interpolated_body`: the nodes read; `start` is the token of the node. -/
def parseInterpolatedBody (R : Rec) (start : Token) (endTy : Ttype) : P (List Node) := do
  let ns ← loop (fun ns => do
    let t ← cur
    if !t.type.isValid || t.type == endTy then pure (Loop.done ns)
    else
      match t.type with
      | .EvaluateToStringBegin =>
        advance
        skipNewlines
        let bt ← cur
        let bs ← loop (fun bs => do
          if (← curTy) = .EvaluateToStringEnd then pure (Loop.done bs)
          else
            let e ← R.exp .LOWEST
            skipNewlines
            pure (Loop.again (bs ++ [e]))) R.fuel []
        advance
        let ct ← cur
        pure (Loop.again (ns ++ [match bs with
          | [] => .evaluateToString ct none
          | [.string st str] => .string st str
          | [n] => .evaluateToString ct (some n)
          | bs => .evaluateToString ct (some (.block bt bs))]))
      | .String =>
        let str ← litOf t
        advance
        pure (Loop.again (ns ++ [.string t str]))
      | _ => P.abort) R.fuel []
  let ty ← curTy
  if ty = endTy then pure ns
  else
    match ty with
    | .UnterminatedRegexp | .UnterminatedString | .UnterminatedWordArray => throwUnterminated start {}
    | _ => P.abort

/-- src/parser.cpp:1598-1625 `parse_regexp_options`. -/
def regexpBits (s : Str) : Nat :=
  s.foldl (fun o c =>
    match c with
    | 'i' => o ||| 1
    | 'x' => o ||| 2
    | 'm' => o ||| 4
    | 'e' | 's' | 'u' => o ||| 16
    | 'n' => o ||| 32
    | _ => o) 0

/-- src/parser.cpp:1567-1574 and the like: options from the end token. -/
def tokOptions (t : Token) : Nat :=
  match t.lit with
  | some s => regexpBits s
  | none => 0

/-- src/parser.cpp:1563-1596 `parse_interpolated_regexp`. -/
def parseInterpolatedRegexp (R : Rec) : P Node := do
  let t ← cur
  advance
  let c ← cur
  let pk ← peek
  if c.type = .InterpolatedRegexpEnd then
    advance
    pure (.regexp t [] (tokOptions c))
  else if c.type = .String ∧ pk.type = .InterpolatedRegexpEnd then
    let str ← litOf c
    advance
    let e ← cur
    advance
    pure (.regexp t str (tokOptions e))
  else
    let ns ← parseInterpolatedBody R t .InterpolatedRegexpEnd
    let e ← cur
    advance
    pure (.interpolatedRegexp t ns (tokOptions e))

/-- src/parser.cpp:1627-1645 `parse_interpolated_shell`. -/
def parseInterpolatedShell (R : Rec) : P Node := do
  let t ← cur
  advance
  let c ← cur
  let pk ← peek
  if c.type = .InterpolatedShellEnd then
    advance
    pure (.shell t [])
  else if c.type = .String ∧ pk.type = .InterpolatedShellEnd then
    let str ← litOf c
    advance
    advance
    pure (.shell t str)
  else
    let ns ← parseInterpolatedBody R t .InterpolatedShellEnd
    advance
    pure (.interpolatedShell t ns)

/-- src/parser.cpp:1690-1708 `parse_interpolated_symbol`. -/
def parseInterpolatedSymbol (R : Rec) : P Node := do
  let t ← cur
  advance
  let c ← cur
  let pk ← peek
  if c.type = .InterpolatedSymbolEnd then
    advance
    pure (.symbol t [])
  else if c.type = .String ∧ pk.type = .InterpolatedSymbolEnd then
    let str ← litOf c
    advance
    advance
    pure (.symbol t str)
  else
    let ns ← parseInterpolatedBody R t .InterpolatedSymbolEnd
    advance
    pure (.interpolatedSymbol t ns)

/-- src/node/string_node.cpp:5-31 `StringNode::append_string_node`. -/
def stringAppend (t : Token) (str : Str) : Node → P Node
  | .string _ str2 => pure (.string t (str ++ str2))
  | .interpolatedString t2 ns =>
    match ns with
    | [] => P.abort
    | .string nt n :: ns' =>
      pure (.interpolatedString { t2 with line := t.line, col := t.col } (.string nt (str ++ n) :: ns'))
    | ns => pure (.interpolatedString { t2 with line := t.line, col := t.col } (.string t str :: ns))
  | _ => P.abort

/-- src/node/interpolated_string_node.cpp:6-50 `InterpolatedStringNode::append_string_node`. -/
def istringAppend (t : Token) (ns : List Node) : Node → P Node
  | .string t2 str2 =>
    match ns.getLast? with
    | none => P.abort
    | some (.string lt l) =>
      if 1 < ns.length then pure (.interpolatedString t (ns ++ [.string t2 str2]))
      else pure (.interpolatedString t [.string lt (l ++ str2)])
    | some (.evaluateToString ..) => pure (.interpolatedString t (ns ++ [.string t2 str2]))
    | some _ => P.abort
  | .interpolatedString _ ns2 =>
    if ns.isEmpty || ns2.isEmpty then P.abort else pure (.interpolatedString t (ns ++ ns2))
  | _ => P.abort

/-- src/parser.cpp:2015-2033 `append_string_nodes`. -/
def appendStringNodes (a b : Node) : P Node :=
  if b.canBeConcatenated then
    match a with
    | .string t str => stringAppend t str b
    | .interpolatedString t ns => istringAppend t ns b
    | _ => throwUnexpected (cs! "string")
  else throwUnexpected (cs! "another string")

/-- src/parser.cpp:1993-2013 `concat_adjacent_strings`; the second component is `strings_were_appended`. -/
def concatAdjacentStrings (R : Rec) (n : Node) : P (Node × Bool) :=
  loop (fun (x : Node × Bool) => do
    let ty ← curTy
    if ty = .String then
      let b ← R.string
      let r ← appendStringNodes x.1 b
      pure (Loop.again (r, true))
    else if ty = .InterpolatedStringBegin then
      let b ← R.istring
      let r ← appendStringNodes x.1 b
      pure (Loop.again (r, true))
    else pure (Loop.done x)) R.fuel (n, false)

/-- src/parser.cpp:1647-1662 `convert_string_to_symbol_key`. -/
def toSymbolKey : Node → P Node
  | .string t str => pure (.symbolKey t str)
  | .interpolatedString t ns => pure (.interpolatedSymbolKey t ns)
  | _ => P.abort

/-- src/parser.cpp:1681-1688 and 1982-1990, the common end of `parse_string` and `parse_interpolated_string`. -/
def finishString (R : Rec) (n : Node) : P Node := do
  let s ← P.get
  let (n, appended) ← if s.precs.head? = some .WORD_ARRAY then pure (n, false) else concatAdjacentStrings R n
  if !appended && (← curTy) == .InterpolatedStringSymbolKey then
    advance
    toSymbolKey n
  else pure n

/-- src/parser.cpp:1977-1991 `parse_string`. -/
def parseString (R : Rec) : P Node := do
  let t ← cur
  let str ← litOf t
  advance
  finishString R (.string t str)

/-- src/parser.cpp:1664-1688 `parse_interpolated_string`. -/
def parseInterpolatedString (R : Rec) : P Node := do
  let t ← cur
  advance
  let c ← cur
  let pk ← peek
  let n ←
    if c.type = .InterpolatedStringEnd then do
      advance
      pure (Node.string t [])
    else if c.type = .String ∧ pk.type = .InterpolatedStringEnd then do
      let str ← litOf c
      advance
      advance
      pure (Node.string t str)
    else do
      let ns ← parseInterpolatedBody R t .InterpolatedStringEnd
      advance
      pure (Node.interpolatedString t ns)
  finishString R n

/-- src/parser.cpp:1710-1746 `parse_lit`. -/
def parseLit : P Node := do
  let t ← cur
  let n ← match t.type with
    | .Bignum => do
      advance
      let s ← litOf t
      pure (Node.bignum t s)
    | .Fixnum => do
      advance
      pure (Node.fixnum t t.fix)
    | .Float => do
      advance
      pure (Node.float t false t.flt)
    | _ => P.abort
  match ← curTy with
  | .Complex =>
    advance
    pure (.complex t n)
  | .Rational =>
    advance
    pure (.rational t n)
  | .RationalComplex =>
    advance
    pure (.complex t (.rational t n))
  | _ => pure n

/-- src/parser.cpp:1443-1450 `parse_identifier`. -/
def parseIdentifier : P Node := do
  let t ← cur
  let n ← litOf t
  let s ← P.get
  advance
  pure (.identifier t (s.locals.contains n))

/-- src/parser.cpp:1017-1021 `parse_constant`. -/
def parseConstant : P Node := do
  let t ← cur
  advance
  pure (.constant t)

/-- src/parser.cpp:2059-2073 `parse_top_level_constant`. -/
def parseTopLevelConstant : P Node := do
  let t ← cur
  advance
  let nt ← cur
  if nt.type = .BareName ∨ nt.type = .Constant then
    advance
    let n ← litOf nt
    pure (.colon3 t n)
  else throwTok nt false (cs! ":: identifier name")

/-- A token that is a node of its own: src/parser.cpp:1255-1259, 1816-1821, 1833-1838, 1854-1864, 1906-1910, 2194-2199. -/
def parseOne (f : Token → Node) : P Node := do
  let t ← cur
  advance
  pure (f t)

/-- src/parser.cpp:415-419 `parse_back_ref`. -/
def parseBackRef : P Node := do
  let t ← cur
  advance
  match ← litOf t with
  | c :: _ => pure (.backRef t c)
  | [] => P.abort

/-- src/parser.cpp:1315-1319 `parse_file_constant`. -/
def parseFileConstant : P Node := do
  let t ← cur
  advance
  fun c s => .ok (.string t c.file) s

/-! ## alias, undef -/

/-- src/parser.cpp:338-358 `parse_alias_arg`. A dynamic symbol is cast to `SymbolNode` there without being one; it is
only ever printed through a virtual function, so the model keeps the node. -/
def parseAliasArg (R : Rec) (help : Str) : P Node := do
  let t ← cur
  match t.type with
  | .BareName | .Constant | .OperatorName =>
    let n ← parseMethodName
    pure (.symbol t n)
  | .Symbol => parseSymbol
  | .InterpolatedSymbolBegin => parseInterpolatedSymbol R
  | ty =>
    if ty.isOperator || ty.isKeyword then
      let n ← parseMethodName
      pure (.symbol t n)
    else throwUnexpected help

/-- Decimal digits of a number (`String::format`, `String(long long)`). -/
def decStr (n : Int) : Str := if n < 0 then '-' :: Nat.toDigits 10 n.natAbs else Nat.toDigits 10 n.natAbs

/-- src/parser.cpp:317-336 `parse_valias_arg`. -/
def parseValiasArg (allowNumber : Bool) (help : Str) : P Str := do
  let t ← cur
  match t.type with
  | .GlobalVariable => litOf t
  | .BackRef => pure (cs! "$&")
  | .NthRef =>
    if allowNumber then pure ('$' :: decStr t.fix)
    else throwUnexpected (cs! "can't make alias for the number variables")
  | _ => throwUnexpected help

/-- src/parser.cpp:299-315 `parse_alias`. -/
def parseAlias (R : Rec) : P Node := do
  let t ← cur
  advance
  let ty ← curTy
  if ty = .GlobalVariable ∨ ty = .BackRef ∨ ty = .NthRef then
    let a ← parseValiasArg true (cs! "alias new name (global first argument)")
    advance
    let b ← parseValiasArg false (cs! "alias new name (global second argument)")
    advance
    reinsertCollapsedNewline
    pure (.valias t a b)
  else
    let a ← parseAliasArg R (cs! "alias new name (first argument)")
    let b ← parseAliasArg R (cs! "alias existing name (second argument)")
    reinsertCollapsedNewline
    pure (.alias_ t a b)

/-- src/parser.cpp:2134-2155 `parse_undef`. -/
def parseUndef (R : Rec) : P Node := do
  let t ← cur
  advance
  let a ← parseAliasArg R (cs! "method name for undef")
  if (← curTy) = .Comma then
    let ns ← commaLoop R (do
      let a ← parseAliasArg R (cs! "method name for undef")
      pure (Node.undef t [a])) [.undef t [a]]
    reinsertCollapsedNewline
    pure (.block t ns)
  else
    reinsertCollapsedNewline
    pure (.undef t [a])

/-! ## Hashes, arrays, arguments -/

/-- src/parser.cpp:1408-1441 `parse_hash_inner`. -/
def parseHashInner (R : Rec) (p : Prec) (closing : Ttype) (bare : Bool) (firstKey : Option Node) : P Node := do
  let t ← cur
  let pair := fun (key : Node) => (do
    if key.isSymbolKey then
      let v ← R.exp p
      pure [key, v]
    else if key.isKeywordSplat then pure [key]
    else
      expect .HashRocket (cs! "hash rocket")
      advance
      let v ← R.exp p
      pure [key, v] : P (List Node))
  let key ← match firstKey with
    | some k => pure k
    | none => R.exp p
  let first ← pair key
  let ns ← loop (fun ns => do
    if (← curTy) = .Comma then
      advance
      let ty ← curTy
      if ty = closing ∨ ty = .Ampersand then pure (Loop.done ns)
      else
        let key ← R.exp p
        let kv ← pair key
        pure (Loop.again (ns ++ kv))
    else pure (Loop.done ns)) R.fuel first
  pure (.hash t bare ns)

/-- src/parser.cpp:1394-1406 `parse_hash`. -/
def parseHash (R : Rec) : P Node := do
  expect .LCurlyBrace (cs! "hash opening curly brace")
  let t ← cur
  advance
  let h ←
    if (← curTy) = .RCurlyBrace then pure (.hash t false [])
    else parseHashInner R .HASH .RCurlyBrace false none
  expect .RCurlyBrace (cs! "hash closing curly brace")
  advance
  pure h

/-- src/parser.cpp:367-388, `add_node` inside of `parse_array`: the new list of nodes and whether the array ended. -/
def arrayAddNode (R : Rec) (ns : List Node) : P (List Node × Bool) := do
  let ty ← curTy
  if ty = .RBracket then
    advance
    pure (ns, true)
  else if ty = .SymbolKey then
    let h ← parseHashInner R .HASH .RBracket true none
    expect .RBracket (cs! "array closing bracket")
    advance
    pure (ns ++ [h], true)
  else
    let v ← R.exp .ARRAY
    if (← curTy) = .HashRocket then
      let h ← parseHashInner R .HASH .RBracket true (some v)
      expect .RBracket (cs! "array closing bracket")
      advance
      pure (ns ++ [h], true)
    else pure (ns ++ [v], false)

/-- src/parser.cpp:360-405 `parse_array`. -/
def parseArray (R : Rec) : P Node := do
  let t ← cur
  if t.type = .LBracketRBracket then
    advance
    pure (.array t [])
  else
    advance
    pushDepth
    let (ns, ended) ← arrayAddNode R []
    if ended then
      popDepth
      pure (.array t ns)
    else
      let (ns, ended) ← loop (fun (ns : List Node) => do
        if (← curTy) = .Comma then
          advance
          let (ns, ended) ← arrayAddNode R ns
          if ended then pure (Loop.done (ns, true)) else pure (Loop.again ns)
        else pure (Loop.done (ns, false))) R.fuel ns
      if ended then
        popDepth
        pure (.array t ns)
      else
        expect .RBracket (cs! "array closing bracket")
        advance
        popDepth
        pure (.array t ns)

/-- src/parser.cpp:407-413 `parse_comma_separated_expressions`. -/
def parseCommaSeparated (R : Rec) : P (List Node) := do
  let e ← R.exp .ARRAY
  commaLoop R (R.exp .ARRAY) [e]

/-- src/parser.cpp:1748-1752 `parse_keyword_splat`. -/
def parseKeywordSplat (R : Rec) : P Node := do
  let t ← cur
  advance
  let e ← R.exp .SPLAT
  pure (.keywordSplat t e)

/-- src/parser.cpp:528-533 `parse_block_pass`. -/
def parseBlockPass (R : Rec) : P Node := do
  let t ← cur
  advance
  let e ← R.exp .LOWEST
  pure (.blockPass t e)

/-- src/parser.cpp:2440-2450 `parse_call_hash_args`. -/
def parseCallHashArgs (R : Rec) (bareCall : Bool) (closing : Ttype) (first : Node) : P Node := do
  let h ← parseHashInner R (if bareCall then .BARE_CALL_ARG else .CALL_ARG) closing true (some first)
  if (← curTy) = .StarStar then
    let k ← parseKeywordSplat R
    match h with
    | .hash t b ns => pure (.hash t b (ns ++ [k]))
    | h => pure h
  else pure h

/-- src/parser.cpp:2412 and 2425: whether an argument starts a hash. -/
def startsHash (arg : Node) (ty : Ttype) : Bool := ty == .HashRocket || arg.isSymbolKey || arg.isKeywordSplat

/-- src/parser.cpp:2407-2438 `parse_call_args`: the node with the arguments added. -/
def parseCallArgs (R : Rec) (node : Node) (bare : Bool) (closing : Ttype) : P Node := do
  if bare && node.canAcceptABlock then incDepth else pure ()
  let p : Prec := if bare then .BARE_CALL_ARG else .CALL_ARG
  let arg ← R.exp p
  let node' ←
    if startsHash arg (← curTy) then do
      let h ← parseCallHashArgs R bare closing arg
      pure (node.addArg h)
    else
      loop (fun (n : Node) => do
        if (← curTy) = .Comma then
          advance
          if (← curTy) = closing then pure (Loop.done n)
          else
            let arg ← R.exp p
            if startsHash arg (← curTy) then
              let h ← parseCallHashArgs R bare closing arg
              pure (Loop.done (n.addArg h))
            else pure (Loop.again (n.addArg arg))
        else pure (Loop.done n)) R.fuel (node.addArg arg)
  let node' ←
    if (← curTy) = .Ampersand then do
      let b ← parseBlockPass R
      pure (node'.addArg b)
    else pure node'
  if bare && node'.canAcceptABlock then decDepth else pure ()
  pure node'

/-- src/parser.cpp:2377-2405 `to_node_with_args`. -/
def toNodeWithArgs (n : Node) : P Node :=
  match n with
  | .identifier t _ => do
    let name ← litOf t
    pure (.call t (.nil t) name [])
  | .colon2 t l name => pure (.call t l name [])
  | .call .. | .safeCall .. | .super .. | .undef .. | .yield .. => pure n
  | _ => do
    let t ← cur
    throwError t (cs! "left-hand-side is not callable")

/-- src/parser.cpp:2362-2375 `parse_call_expression_with_parens`. -/
def parseCallWithParens (R : Rec) (left : Node) : P Node := do
  let t ← cur
  let n ← toNodeWithArgs left
  advance
  let c ← cur
  let n ←
    if c.type = .RParen then pure (if t.ws then n.addArg (.nilSexp c) else n)
    else parseCallArgs R n false .RParen
  expect .RParen (cs! "call rparen")
  advance
  pure n

/-- src/parser.cpp:2452-2468 `parse_call_expression_without_parens`. -/
def parseCallWithoutParens (R : Rec) (left : Node) : P Node := do
  let t ← cur
  let n ← toNodeWithArgs left
  match t.type with
  | .Comma | .Eof | .Newline | .RBracket | .RCurlyBrace | .RParen | .Semicolon => pure n
  | _ => parseCallArgs R n true .RParen

/-! ## Left-hand sides -/

/-- src/parser.cpp:937-953 `parse_multiple_assignment_expression`. -/
def parseMultipleAssignment (R : Rec) (left : Node) : P Node := do
  if left.isAssignable then
    let ns ← loop (fun (ns : List Node) => do
      if (← curTy) = .Comma then
        advance
        let ty ← curTy
        if ty = .RParen ∨ ty = .Equal ∨ ty = .InKeyword then pure (Loop.done ns)
        else
          let n ← R.assignIdent true
          pure (Loop.again (ns ++ [n]))
      else pure (Loop.done ns)) R.fuel [left]
    pure (.multipleAssignment left.tok ns 0)
  else throwUnexpected (cs! "assignment =")

/-- src/parser.cpp:2470-2504 `parse_constant_resolution_expression`. -/
def parseConstantResolution (R : Rec) (left : Node) : P Node := do
  advance
  let nt ← cur
  match nt.type with
  | .BareName | .OperatorName =>
    advance
    let n ← litOf nt
    pure (.call nt left n [])
  | .Constant =>
    advance
    let n ← litOf nt
    pure (.colon2 nt left n)
  | .LParen =>
    advance
    let n ←
      if (← curTy) = .RParen then pure (.call nt left (cs! "call") [])
      else parseCallArgs R (.call nt left (cs! "call") []) false .RParen
    expect .RParen (cs! "::() call right paren")
    advance
    pure n
  | ty =>
    if ty.isOperator || ty.isKeyword then
      advance
      pure (.call nt left (tyValue ty) [])
    else throwTok nt false (cs! ":: identifier name")

/-- src/parser.cpp:2763-2788 `parse_send_expression`. -/
def parseSend (left : Node) : P Node := do
  let t ← cur
  advance
  let nt ← cur
  match nt.type with
  | .BareName | .Constant | .OperatorName =>
    let n ← litOf nt
    advance
    pure (.call t left n [])
  | ty =>
    if ty.isOperator || ty.isKeyword then
      advance
      pure (.call t left (tyValue ty) [])
    else throwUnexpected (cs! "send method name")

/-- src/parser.cpp:2733-2761 `parse_safe_send_expression`. -/
def parseSafeSend (left : Node) : P Node := do
  let t ← cur
  advance
  let nt ← cur
  match nt.type with
  | .LParen => pure (.safeCall t left (cs! "call") [])
  | .BareName | .Constant | .OperatorName =>
    let n ← litOf nt
    advance
    pure (.safeCall t left n [])
  | ty =>
    if ty.isOperator || ty.isKeyword then
      advance
      pure (.safeCall t left (tyValue ty) [])
    else throwUnexpected (cs! "safe navigation method name")

/-- src/parser.cpp:2703-2719 `parse_ref_expression`. -/
def parseRef (R : Rec) (left : Node) : P Node := do
  let t ← cur
  advance
  let n := Node.call t left (cs! "[]") []
  if t.type = .LBracketRBracket then pure n
  else
    let n ← if (← curTy) = .RBracket then pure n else parseCallArgs R n false .RBracket
    expect .RBracket (cs! "element reference right bracket")
    advance
    pure n

/-- src/parser.cpp:955-1015 `parse_assignment_identifier`. -/
def parseAssignmentIdentifier (R : Rec) (allowSplat : Bool) : P Node := do
  let t ← cur
  let node ← match t.type with
    | .BareName | .ClassVariable | .Constant | .GlobalVariable | .InstanceVariable => parseIdentifier
    | .ConstantResolution => parseTopLevelConstant
    | .LParen => do
      advance
      let n ← R.assignIdent true
      let n ← parseMultipleAssignment R n
      if (← curTy) = .RParen then
        advance
        pure n
      else throwUnexpected (cs! "closing paren for multiple assignment")
    | .Star => do
      if allowSplat then pure () else expect .BareName (cs! "assignment identifier")
      advance
      if (← curTy).isAssignable then
        let id ← R.assignIdent false
        pure (Node.splat t (some id))
      else pure (Node.splat t none)
    | _ => throwUnexpected (cs! "assignment identifier")
  loop (fun (n : Node) => do
    let t ← cur
    match t.type with
    | .ConstantResolution =>
      let n ← parseConstantResolution R n
      pure (Loop.again n)
    | .Dot =>
      let n ← parseSend n
      pure (Loop.again n)
    | .LBracket =>
      if bracketIsRef n t then
        let n ← parseRef R n
        pure (Loop.again n)
      else pure (Loop.done n)
    | _ => pure (Loop.done n)) R.fuel node

/-! ## Definitions -/

/-- src/parser.cpp:1118-1130 `parse_arg_default_value`. -/
def parseArgDefaultValue (R : Rec) (ia : IterAllow) : P Node := do
  let t ← cur
  let pk ← peek
  if t.type = .BareName ∧ pk.type = .Equal then
    let n ← litOf t
    advance
    advance
    addLocal n
    let v ← R.argDefault ia
    pure (.arg t (some n) false false false (some v))
  else R.expr .DEF_ARG ia

/-- src/parser.cpp:1110-1116 `parse_def_args`. -/
def parseDefArgs (R : Rec) : P (List Node) := do
  let args ← R.defSingleArg [] .Method .CURLY_AND_BLOCK
  loop (fun args => do
    if (← curTy) = .Comma then
      advance
      let args ← R.defSingleArg args .Method .CURLY_AND_BLOCK
      pure (Loop.again args)
    else pure (Loop.done args)) R.fuel args

/-- src/parser.cpp:1133 `args_have_any_splat`. -/
def lastIsSplat (args : List Node) : Bool :=
  match args.getLast? with
  | some (.arg _ _ _ sp kw _) => sp || kw
  | _ => false

/-- src/parser.cpp:1134 `args_have_keyword`. -/
def lastIsKeyword (args : List Node) : Bool :=
  match args.getLast? with
  | some (.keywordArg ..) => true
  | _ => false

/-- src/parser.cpp:1138 -/
def lastIsForward (args : List Node) : Bool :=
  match args.getLast? with
  | some (.forwardArgs ..) => true
  | _ => false

/-- src/parser.cpp:1132-1253 `parse_def_single_arg`. -/
def parseDefSingleArg (R : Rec) (args : List Node) (ctx : ArgsContext) (ia : IterAllow) : P (List Node) := do
  let t ← cur
  if lastIsForward args then throwError t (cs! "anything after arg forwarding (...) shorthand")
  else
    match t.type with
    | .BareName =>
      if lastIsKeyword args then throwError t (cs! "normal arg after keyword arg")
      else
        let n ← litOf t
        advance
        addLocal n
        if (← curTy) = .Equal then
          if lastIsSplat args then throwError t (cs! "default value after splat")
          else
            advance
            let v ← R.argDefault ia
            pure (args ++ [.arg t (some n) false false false (some v)])
        else pure (args ++ [.arg t (some n) false false false none])
    | .LParen =>
      advance
      let sub ← parseDefArgs R
      expect .RParen (cs! "nested args closing paren")
      advance
      pure (args ++ [.multipleAssignmentArg t sub])
    | .Star =>
      if lastIsSplat args then throwError t (cs! "splat after keyword splat")
      else
        advance
        let c ← cur
        if c.type = .BareName then
          let n ← litOf c
          advance
          addLocal n
          pure (args ++ [.arg t (some n) false true false none])
        else pure (args ++ [.arg t none false true false none])
    | .StarStar =>
      advance
      let c ← cur
      if c.type = .BareName then
        let n ← litOf c
        advance
        addLocal n
        pure (args ++ [.arg t (some n) false false true none])
      else if c.type.isKeyword then
        advance
        pure (args ++ [.arg t (some (tyValue c.type)) false false true none])
      else pure (args ++ [.arg t none false false true none])
    | .Ampersand =>
      advance
      expect .BareName (cs! "block name")
      let c ← cur
      let n ← litOf c
      advance
      addLocal n
      pure (args ++ [.arg t (some n) true false false none])
    | .SymbolKey =>
      let n ← litOf t
      advance
      let noValue : Ttype → Bool
        | .Comma | .Newline | .Pipe | .RParen | .Semicolon => true
        | .LCurlyBrace => ia == .NONE
        | _ => false
      let v ←
        if noValue (← curTy) then pure none
        else do
          let v ← R.expr .DEF_ARG ia
          pure (some v)
      addLocal n
      pure (args ++ [.keywordArg t n v])
    | .DotDotDot =>
      if ctx = .Block then throwError t (cs! "arg forwarding (...) shorthand not allowed in block")
      else
        advance
        addLocal (cs! "...")
        pure (args ++ [.forwardArgs t])
    | _ => throwUnexpected (cs! "argument")

/-- src/parser.cpp:1929-1938 `parse_shadow_variable_single_arg`. -/
def parseShadowVar : P Str := do
  let t ← cur
  if t.type = .BareName then
    let n ← litOf t
    advance
    pure n
  else throwUnexpected (cs! "shadow local variable")

/-- src/parser.cpp:1914-1927 `parse_shadow_variables_in_args`. -/
def parseShadowVars (R : Rec) (args : List Node) : P (List Node) := do
  let t ← cur
  advance
  let n ← parseShadowVar
  let names ← commaLoop R parseShadowVar [n]
  addNames (some names)
  pure (args ++ [.shadowArg t names])

/-- src/parser.cpp:1840-1854 `parse_proc_args`. -/
def parseProcArgs (R : Rec) (ia : IterAllow) : P (List Node) := do
  if (← curTy) = .Semicolon then parseShadowVars R []
  else
    let args ← R.defSingleArg [] .Proc ia
    let args ← loop (fun args => do
      if (← curTy) = .Comma then
        advance
        let args ← R.defSingleArg args .Proc ia
        pure (Loop.again args)
      else pure (Loop.done args)) R.fuel args
    if (← curTy) = .Semicolon then parseShadowVars R args else pure args

/-- src/parser.cpp:2334-2354 `parse_iter_args`. -/
def parseIterArgs (R : Rec) : P (List Node) := do
  if (← curTy) = .Semicolon then parseShadowVars R []
  else
    let args ← R.defSingleArg [] .Block .CURLY_AND_BLOCK
    let args ← loop (fun args => do
      if (← curTy) = .Comma then
        advance
        let t ← cur
        if t.type = .Pipe then pure (Loop.done (args ++ [.nil t]))
        else
          let args ← R.defSingleArg args .Block .CURLY_AND_BLOCK
          pure (Loop.again args)
      else pure (Loop.done args)) R.fuel args
    if (← curTy) = .Semicolon then parseShadowVars R args else pure args

/-- src/parser.cpp:2290-2293: a `{` block after arguments without parentheses. -/
def callWithArgs : Node → Bool
  | .call _ _ _ args => !args.isEmpty
  | _ => false

/-- src/parser.cpp:2284-2332 `parse_iter_expression`, with 2356-2360 `parse_iter_body`. -/
def parseIter (R : Rec) (left : Node) : P Node := do
  let t ← cur
  let s ← P.get
  let curly := t.type == .LCurlyBrace
  if curly && callWithArgs left && s.prevTok.type != .RParen then
    throwUnexpected (cs! "nearest object cannot accept a { ... } block")
  else
    let endTy : Ttype := if curly then .RCurlyBrace else .EndKeyword
    let (hasArgs, args, body) ← withLocals s.locals do
      let (hasArgs, args) ← match left with
        | .stabbyProc _ hasArgs args => do
          advance
          pure (hasArgs, args)
        | left =>
          if left.canAcceptABlock then
            if left.hasBlockPass then P.throw (.plain (cs! "Both block arg and actual block given."))
            else do
              advance
              let ty ← curTy
              if ty = .PipePipe then
                advance
                pure (true, [])
              else if ty = .Pipe then
                advance
                if (← curTy) = .Pipe then
                  advance
                  pure (true, [])
                else
                  let args ← parseIterArgs R
                  expect .Pipe (cs! "end of block args")
                  advance
                  pure (true, args)
              else pure (false, [])
          else throwTok left.tok false (cs! "call to accept block")
      let body ← parseBodyRescue R .LOWEST fun ty => ty == endTy
      pure (hasArgs, args, body)
    expect endTy (if curly then cs! "}" else cs! "end")
    advance
    pure (.iter t left hasArgs args body.nodes)

/-- src/parser.cpp:505-514 `parse_begin_block`. -/
def parseBeginBlock (R : Rec) : P Node := do
  let s ← P.get
  if s.precs.length = 1 then
    let t ← cur
    advance
    expect .LCurlyBrace (cs! "BEGIN {}")
    parseIter R (.beginBlock t)
  else P.throw (.plain (cs! "BEGIN is permitted only at toplevel"))

/-- src/parser.cpp:1261-1267 `parse_end_block`. -/
def parseEndBlock (R : Rec) : P Node := do
  let t ← cur
  advance
  expect .LCurlyBrace (cs! "END {}")
  parseIter R (.endBlock t)

/-- src/parser.cpp:1949-1975 `parse_stabby_proc`. The arguments are added to the local variables of the surrounding
scope. -/
def parseStabbyProc (R : Rec) : P Node := do
  let t ← cur
  advance
  let ty ← curTy
  let (hasArgs, args) ←
    if ty = .LParen then do
      advance
      if (← curTy) = .RParen then
        advance
        pure (true, [])
      else
        let args ← parseProcArgs R .CURLY_AND_BLOCK
        expect .RParen (cs! "proc args closing paren")
        advance
        pure (true, args)
    else if ty.canBeFirstArgOfDef then do
      let args ← parseProcArgs R .NONE
      pure (true, args)
    else pure (false, [])
  let ty ← curTy
  if ty = .DoKeyword ∨ ty = .LCurlyBrace then parseIter R (.stabbyProc t hasArgs args)
  else throwUnexpected (cs! "block")

/-- src/parser.cpp:1030-1071, the receiver and the name in `parse_def`. -/
def parseDefName (R : Rec) : P (Option Node × Str) := do
  let t ← cur
  let pk ← peek
  let dotted := pk.type == .Dot || pk.type == .ConstantResolution
  match t.type with
  | .BareName =>
    let self ←
      if dotted then do
        let n ← parseIdentifier
        advance
        pure (some n)
      else pure none
    let name ← parseMethodName
    pure (self, name)
  | .Constant =>
    let self ←
      if dotted then do
        let n ← parseConstant
        advance
        pure (some n)
      else pure none
    let name ← parseMethodName
    pure (self, name)
  | .OperatorName =>
    let name ← parseMethodName
    pure (none, name)
  | .SelfKeyword =>
    let self ←
      if dotted then do
        advance
        advance
        pure (some (Node.self t))
      else pure none
    let name ← parseMethodName
    pure (self, name)
  | ty =>
    if ty.isOperator || ty.isKeyword then
      let name ← parseMethodName
      pure (none, name)
    else
      let n ← R.exp .DOT
      expect .Dot (cs! "dot followed by method name")
      advance
      let name ← parseMethodName
      pure (some n, name)

/-- src/parser.cpp:1085-1088: names that a one-line definition cannot have. -/
def isSetterName (name : Str) : Bool := (cs! "=").isSuffixOf name && !(cs! "==").isSuffixOf name

/-- src/parser.cpp:1023-1104 `parse_def`. -/
def parseDef (R : Rec) : P Node := do
  let t ← cur
  advance
  let (self, name) ← parseDefName R
  let (args, body) ← withLocals [] do
    let ty ← curTy
    let args ←
      if ty = .LParen then do
        advance
        if (← curTy) = .RParen then
          advance
          pure []
        else
          let args ← parseDefArgs R
          expect .RParen (cs! "args closing paren")
          advance
          pure args
      else if ty.canBeFirstArgOfDef then parseDefArgs R
      else pure []
    if (← curTy) = .Equal then
      advance
      if isSetterName name then
        P.throw (.plain (cs! "setter method cannot be defined in an endless method definition"))
      else
        let e ← R.exp .LOWEST
        pure (args, [e])
    else
      let b ← parseDefBody R
      expect .EndKeyword (cs! "def end")
      advance
      pure (args, b.nodes)
  pure (.def_ t self name args body)

/-- src/parser.cpp:1094-1108 `parse_defined`. -/
def parseDefined (R : Rec) : P Node := do
  let t ← cur
  advance
  if (← curTy) = .LParen then
    advance
    let e ← R.exp .CALL_ARG
    expect .RParen (cs! "defined? closing paren")
    advance
    pure (.defined t e)
  else
    let e ← R.exp .BARE_CALL_ARG
    pure (.defined t e)

/-- src/parser.cpp:901-915 `parse_class_or_module_name`. -/
def parseClassOrModuleName (R : Rec) : P Node := do
  let t ← cur
  let e ← R.exp .LESS_GREATER
  match e with
  | .colon2 .. | .colon3 .. => pure e
  | .identifier .. =>
    if t.type = .Constant then pure e else P.throw (.plain (cs! "class/module name must be CONSTANT"))
  | _ => P.throw (.plain (cs! "class/module name must be CONSTANT"))

/-- src/parser.cpp:1896-1905 `parse_sclass`. -/
def parseSclass (R : Rec) : P Node := do
  let t ← cur
  advance
  advance
  let k ← R.exp .BARE_CALL_ARG
  let b ← parseBodyEnd R
  expect .EndKeyword (cs! "sclass end")
  advance
  pure (.sclass t k b.nodes)

/-- src/parser.cpp:917-935 `parse_class`. -/
def parseClass (R : Rec) : P Node := do
  let t ← cur
  let pk ← peek
  if pk.type = .LeftShift then parseSclass R
  else
    advance
    let (name, sup, body) ← withLocals [] do
      let name ← parseClassOrModuleName R
      let sup ←
        if (← curTy) = .LessThan then do
          advance
          R.exp .LOWEST
        else pure (Node.nil t)
      let b ← parseBodyRescue R .LOWEST fun ty => ty == .EndKeyword
      pure (name, sup, b.nodes)
    expect .EndKeyword (cs! "class end")
    advance
    pure (.class_ t name sup body)

/-- src/parser.cpp:1773-1783 `parse_module`. -/
def parseModule (R : Rec) : P Node := do
  let t ← cur
  advance
  let (name, body) ← withLocals [] do
    let name ← parseClassOrModuleName R
    let b ← parseBodyRescue R .LOWEST fun ty => ty == .EndKeyword
    pure (name, b.nodes)
  expect .EndKeyword (cs! "module end")
  advance
  pure (.module_ t name body)

/-! ## Control flow -/

/-- src/parser.cpp:424-449 `parse_begin`. -/
def parseBegin (R : Rec) : P Node := do
  let t ← cur
  advance
  nextExpression
  let isEnd := fun ty : Ttype => ty == .RescueKeyword || ty == .ElseKeyword || ty == .EnsureKeyword || ty == .EndKeyword
  let b ← parseBodyRescue R .LOWEST isEnd
  if isEnd (← curTy) then
    let n ← parseRestOfBegin R (parseBody R .LOWEST) t b.nodes
    match n with
    | .begin_ _ _ [] none none =>
      if (← curTy).isExpressionModifier then pure b.node else pure b.single
    | n => pure n
  else throwUnexpected (cs! "begin: rescue, else, ensure, or end")

/-- src/parser.cpp:516-526 `parse_beginless_range`. -/
def parseBeginlessRange (R : Rec) : P Node := do
  let t ← cur
  advance
  let e ← R.exp .LOWEST
  pure (.range t (.nil t) e (t.type == .DotDotDot))

/-- src/parser.cpp:549-577 `parse_break` and 1785-1813 `parse_next`. -/
def parseBreakNext (R : Rec) (mk : Token → Option Node → Node) : P Node := do
  let t ← cur
  advance
  let ty ← curTy
  if ty = .LParen then
    advance
    if (← curTy) = .RParen then
      advance
      pure (mk t (some (.nilSexp t)))
    else
      let e ← R.exp .BARE_CALL_ARG
      expect .RParen (cs! "break closing paren")
      advance
      pure (mk t (some e))
  else if ty.canBeFirstArgOfImplicitCall then
    let e ← R.exp .BARE_CALL_ARG
    if (← curTy) = .Comma then
      let ns ← commaLoop R (R.exp .BARE_CALL_ARG) [e]
      pure (mk t (some (.array t ns)))
    else pure (mk t (some e))
  else pure (mk t none)

/-- src/parser.cpp:1866-1894 `parse_return`. -/
def parseReturn (R : Rec) : P Node := do
  let t ← cur
  advance
  let v ← if (← curTy).isEndOfExpression then pure (Node.nil t) else R.exp .BARE_CALL_ARG
  if v.isSymbolKey then throwUnexpected (cs! "argument (no keyword args)")
  else
    let c ← cur
    if c.type = .HashRocket then
      let h ← parseCallHashArgs R true .RParen v
      pure (.return_ t h)
    else if c.type = .Comma then
      let ns ← commaLoop R (do
        let item ← R.exp .BARE_CALL_ARG
        if (← curTy) = .HashRocket ∨ item.isSymbolKey then parseCallHashArgs R true .RParen item
        else pure item) [v]
      pure (.return_ t (.array c ns))
    else pure (.return_ t v)

/-- src/parser.cpp:873-899 `parse_case_body`. -/
def parseCaseBody (R : Rec) (ty : Ttype) : P (List Node) := do
  validateCurrent
  skipNewlines
  let ns ← loop (fun (ns : List Node) => do
    let c ← curTy
    if c = .Eof ∨ c = ty ∨ c = .ElseKeyword ∨ c = .EndKeyword then pure (Loop.done ns)
    else
      let e ← R.exp .LOWEST
      validateCurrent
      nextExpression
      pure (Loop.again (ns ++ [e]))) R.fuel []
  let c ← curTy
  if c = ty ∨ c = .ElseKeyword ∨ c = .EndKeyword then pure ns
  else if ty = .InKeyword then throwUnexpected (cs! "case: in, else, or end")
  else throwUnexpected (cs! "case: when, else, or end")

/-- src/parser.cpp:606-611 and 621-626: what follows the conditions of a branch of `case`. -/
def afterCondition : P Unit := do
  if (← curTy) = .ThenKeyword then
    advance
    skipNewlines
  else nextExpression

/-- src/parser.cpp:813-847 `parse_case_in_pattern_hash_symbol_key`. -/
def parsePatternKey (R : Rec) : P Node := do
  let t ← cur
  match t.type with
  | .InterpolatedStringBegin =>
    let n ← parseInterpolatedString R
    match n with
    | .symbolKey .. => pure n
    | _ => throwTok t false (cs! "hash pattern symbol key")
  | .StarStar =>
    advance
    let c ← cur
    match c.type with
    | .NilKeyword =>
      advance
      pure (.keywordRestPattern t (some (tyValue c.type)))
    | .BareName =>
      let n ← litOf c
      addLocal n
      advance
      pure (.keywordRestPattern t (some n))
    | _ => pure (.keywordRestPattern t none)
  | .SymbolKey => parseSymbolKey
  | _ => throwUnexpected (cs! "hash pattern symbol key")

/-- src/parser.cpp:717-730 `add_pair` inside of `parse_case_in_pattern`: the nodes added. -/
def patternPair (R : Rec) : P (List Node) := do
  let key ← parsePatternKey R
  match key with
  | .keywordRestPattern .. => pure [key]
  | key =>
    let c ← cur
    if c.type = .RCurlyBrace ∨ c.type = .Comma then
      match key with
      | .symbolKey _ n => do
        addLocal n
        pure [key, .nil c]
      | key => pure [key, .nil c]
    else
      let v ← R.pattern
      pure [key, v]

/-- src/parser.cpp:2685-2701 `parse_range_expression`. -/
def parseRange (R : Rec) (left : Node) : P Node := do
  let t ← cur
  advance
  skipNewlines
  let c ← cur
  if c.type.canBeRangeArg then
    let e ← R.exp .RANGE
    pure (.range t left e (t.type == .DotDotDot))
  else
    if c.type.canFollowCollapsibleNewline then pure () else insertNewline c
    pure (.range t left (.nil t) (t.type == .DotDotDot))

/-- `FloatNode::negative` (include/natalie_parser/node/float_node.hpp:34-36): a negated zero is not less than zero. -/
def floatNegative (neg : Bool) (txt : Str) : Bool :=
  neg && (txt.takeWhile fun c => c != 'e' && c != 'E').any fun c => isDigit c && c != '0'

/-- src/parser.cpp:2080-2115, a sign before a number: `none` if an operator call results. -/
def signed (ty : Ttype) (n : Node) : Option Node :=
  if ty = .Minus then
    match n with
    | .bignum t num => if num.head? = some '-' then none else some (.bignum t ('-' :: num))
    | .fixnum t num => if num < 0 then none else some (.fixnum t (-num))
    | .float t neg txt => if floatNegative neg txt then none else some (.float t (!neg) txt)
    | _ => none
  else if ty = .Plus ∧ n.isNumeric then some n
  else none

/-- src/parser.cpp:2075-2132 `parse_unary_operator`. -/
def parseUnary (R : Rec) : P Node := do
  let t ← cur
  advance
  let c ← cur
  let e ← R.exp (getPrec t none c)
  match signed t.type e with
  | some n => pure n
  | none =>
    match t.type with
    | .Minus => pure (.unaryOp t (cs! "-@") e)
    | .Plus => pure (.unaryOp t (cs! "+@") e)
    | .Tilde => pure (.unaryOp t (cs! "~") e)
    | _ => P.abort

/-- src/parser.cpp:644-795, the `switch` of `parse_case_in_pattern`. -/
def parsePatternBase (R : Rec) : P Node := do
  let t ← cur
  match t.type with
  | .BareName =>
    advance
    addNames (identNames t)
    pure (.identifier t true)
  | .Bignum | .Fixnum | .Float => parseLit
  | .Caret =>
    advance
    expect .BareName (cs! "pinned variable name")
    let c ← cur
    advance
    pure (.pin t (.identifier c true))
  | .Constant => parseConstant
  | .DotDot | .DotDotDot => parseBeginlessRange R
  | .LBracketRBracket =>
    advance
    pure (.arrayPattern t [])
  | .InterpolatedStringBegin => parseInterpolatedString R
  | .LBracket =>
    advance
    if (← curTy) = .RBracket then
      advance
      pure (.arrayPattern t [])
    else
      let e ← R.pattern
      let ns ← commaLoop R (do
        let c ← cur
        if c.type = .RBracket then pure (Node.splat c none) else R.pattern) [e]
      expect .RBracket (cs! "array pattern closing bracket")
      advance
      pure (.arrayPattern t ns)
  | .LCurlyBrace =>
    advance
    if (← curTy) = .RCurlyBrace then
      advance
      pure (.hashPattern t [])
    else
      let first ← patternPair R
      let kvs ← commaLoop R (patternPair R) [first]
      expect .RCurlyBrace (cs! "hash pattern closing brace")
      advance
      pure (.hashPattern t kvs.flatten)
  | .LParen =>
    advance
    let n ← R.pattern
    expect .RParen (cs! "closing paren for pattern")
    advance
    pure n
  | .Minus => parseUnary R
  | .NilKeyword => parseOne .nilSexp
  | .Star =>
    advance
    let c ← cur
    if c.type = .BareName ∨ c.type = .Constant then
      let n ← litOf c
      advance
      pure (.splat c (some (.symbol c n)))
    else pure (.splat c none)
  | .StarStar =>
    let k ← parsePatternKey R
    pure (.hashPattern t [k])
  | .String => parseString R
  | .Symbol => parseSymbol
  | _ => throwUnexpected (cs! "case in pattern")

/-- src/parser.cpp:644-811 `parse_case_in_pattern`. -/
def parseCaseInPattern (R : Rec) : P Node := do
  let n ← parsePatternBase R
  let ty ← curTy
  let n ← if ty = .DotDot ∨ ty = .DotDotDot then parseRange R n else pure n
  if (← curTy) = .HashRocket then
    advance
    expect .BareName (cs! "pattern name")
    let t ← cur
    advance
    pure (.assignment t (.identifier t true) n)
  else pure n

/-- src/parser.cpp:800-811 `parse_case_in_pattern_alternation`. -/
def parsePatternList (R : Rec) : P Node := do
  let t ← cur
  let e ← R.pattern
  let ns ← commaLoop R R.pattern [e]
  match ns with
  | [n] => pure n
  | ns => pure (.arrayPattern t ns)

/-- src/parser.cpp:852-853: a pattern that is a splat. -/
def wrapSplat : Node → Node
  | .splat t n => .arrayPattern t [.splat t n]
  | n => n

/-- src/parser.cpp:849-871 `parse_case_in_patterns`. -/
def parseCaseInPatterns (R : Rec) : P Node := do
  let p ← parsePatternList R
  loop (fun (acc : Node × Bool) => do
    if (← curTy) = .Pipe then
      advance
      let q ← parsePatternList R
      let q := wrapSplat q
      pure (Loop.again (.logicalOr (if acc.2 then q.tok else acc.1.tok) acc.1 q, true))
    else pure (Loop.done acc.1)) R.fuel (wrapSplat p, false)

/-- src/parser.cpp:579-642 `parse_case`. -/
def parseCase (R : Rec) : P Node := do
  let t ← cur
  advance
  let subject ← match ← curTy with
    | .WhenKeyword => pure (Node.nil t)
    | .Newline | .Semicolon => do
      advance
      pure (Node.nil t)
    | _ => do
      let e ← R.exp .CASE
      nextExpression
      pure e
  let (ns, els) ← loop (fun (x : List Node × Option (List Node)) => do
    let c ← cur
    match c.type with
    | .EndKeyword => pure (Loop.done x)
    | .WhenKeyword =>
      advance
      let conds ← parseCommaSeparated R
      afterCondition
      let b ← parseCaseBody R .WhenKeyword
      pure (Loop.again (x.1 ++ [.caseWhen c (.array c conds) b], x.2))
    | .InKeyword =>
      advance
      let pat ← parseCaseInPatterns R
      afterCondition
      let b ← parseCaseBody R .InKeyword
      pure (Loop.again (x.1 ++ [.caseIn c pat b], x.2))
    | .ElseKeyword =>
      if x.1.isEmpty then throwUnexpected (cs! "case 'when' or 'in'")
      else
        advance
        skipNewlines
        let b ← parseBodyEnd R
        expect .EndKeyword (cs! "case end")
        pure (Loop.again (x.1, some b.nodes))
    | _ => throwUnexpected (cs! "case when keyword")) R.fuel ([], none)
  expect .EndKeyword (cs! "case end")
  advance
  pure (.case_ t subject ns els)

/-- src/parser.cpp:1327-1347 `parse_for`. -/
def parseFor (R : Rec) : P Node := do
  let t ← cur
  advance
  let v ← R.assignIdent true
  let v ← if (← curTy) = .Comma ∨ v.isSplat then parseMultipleAssignment R v else pure v
  addAssignmentLocals v
  expect .InKeyword (cs! "for in")
  advance
  incDepth
  let e ← R.expr .BARE_CALL_ARG .CURLY_ONLY
  decDepth
  if (← curTy) = .DoKeyword then advance else pure ()
  let b ← parseBodyEnd R
  expect .EndKeyword (cs! "for end")
  advance
  pure (.for_ t e v b.nodes)

/-- src/parser.cpp:1349-1356 `parse_forward_args`. -/
def parseForwardArgs : P Node := do
  let t ← cur
  let s ← P.get
  if s.locals.contains (cs! "...") then
    advance
    pure (.forwardArgs t)
  else throwError t (cs! "forwarding args without ... shorthand in method definition")

/-- src/parser.cpp:2801-2805 `parse_triple_dot`. -/
def parseTripleDot (R : Rec) : P Node := do
  if (← peek).type = .RParen then parseForwardArgs else parseBeginlessRange R

/-- src/parser.cpp:1358-1392 `parse_group`. -/
def parseGroup (R : Rec) : P Node := do
  let t ← cur
  advance
  if (← curTy) = .RParen then
    advance
    pure (.nilSexp t)
  else
    let b ← parseBody R .LOWEST fun ty => ty == .RParen
    expect .RParen (cs! "group closing paren")
    advance
    match b.single with
    | .multipleAssignment mt ns d =>
      if 0 < d then pure (.multipleAssignment t [.multipleAssignment mt ns (d + 1)] 1)
      else pure (.multipleAssignment mt ns (d + 1))
    | e =>
      if (← curTy) = .Equal then throwUnexpected (cs! "multiple assignment on left-hand-side")
      else pure e

/-- src/parser.cpp:1456-1458 and the like: a regexp as a condition. -/
def matchCondition : Node → Node
  | .regexp t p o => .match_ t (.regexp t p o) none false
  | n => n

/-- src/parser.cpp:1486-1510 `parse_if_body`. -/
def parseIfBody (R : Rec) : P Node := do
  let divider := fun ty : Ttype => ty == .ElsifKeyword || ty == .ElseKeyword || ty == .EndKeyword
  skipNewlines
  let t ← cur
  validateCurrent
  skipNewlines
  let ns ← loop (fun (ns : List Node) => do
    let ty ← curTy
    if ty = .Eof ∨ divider ty then pure (Loop.done ns)
    else
      let e ← R.exp .LOWEST
      validateCurrent
      if divider (← curTy) then pure () else nextExpression
      pure (Loop.again (ns ++ [e]))) R.fuel []
  if divider (← curTy) then
    match ns with
    | [] => pure (.nil t)
    | ns => pure (Blk.single ⟨t, ns⟩)
  else throwUnexpected (cs! "if end")

/-- src/parser.cpp:1461-1465 and the like. -/
def thenOrNewline : P Unit := do
  if (← curTy) = .ThenKeyword then advance else nextExpression

/-- src/parser.cpp:1456-1484 `parse_if_branch`. -/
def parseIfBranch (R : Rec) (matchCond : Bool) : P Node := do
  let t ← cur
  advance
  let c ← R.exp .LOWEST
  let c := if matchCond then matchCondition c else c
  thenOrNewline
  let yes ← parseIfBody R
  let ty ← curTy
  if ty = .ElsifKeyword then
    let no ← R.ifBranch false
    let ct ← cur
    pure (.if_ ct c yes no)
  else
    let no ←
      if ty = .ElseKeyword then do
        advance
        parseIfBody R
      else do
        let ct ← cur
        pure (Node.nil ct)
    expect .EndKeyword (cs! "if end")
    advance
    pure (.if_ t c yes no)

/-- src/parser.cpp:2807-2829 `parse_unless`. -/
def parseUnless (R : Rec) : P Node := do
  let t ← cur
  advance
  let c ← R.exp .LOWEST
  thenOrNewline
  let no ← parseIfBody R
  let yes ←
    if (← curTy) = .ElseKeyword then do
      advance
      parseIfBody R
    else do
      let ct ← cur
      pure (Node.nil ct)
  expect .EndKeyword (cs! "unless end")
  advance
  pure (.if_ t (matchCondition c) yes no)

/-- src/parser.cpp:2831-2855 `parse_while`. -/
def parseWhile (R : Rec) : P Node := do
  let t ← cur
  advance
  let c ← R.expr .LOWEST .CURLY_ONLY
  if (← curTy) = .DoKeyword then advance else nextExpression
  let b ← parseBodyEnd R
  expect .EndKeyword (cs! "while end")
  advance
  match t.type with
  | .UntilKeyword => pure (.until_ t (matchCondition c) b.nodes true)
  | .WhileKeyword => pure (.while_ t (matchCondition c) b.nodes true)
  | _ => P.abort

/-- src/parser.cpp:1823-1831 `parse_not`. -/
def parseNot (R : Rec) : P Node := do
  let t ← cur
  advance
  let c ← cur
  let e ← R.exp (getPrec t none c)
  pure (.not_ t e)

/-- src/parser.cpp:1940-1947 `parse_splat`. -/
def parseSplat (R : Rec) : P Node := do
  let t ← cur
  advance
  let ty ← curTy
  if ty = .Comma ∨ ty = .Equal then pure (.splat t none)
  else
    let e ← R.exp .SPLAT
    pure (.splat t (some e))

/-- src/parser.cpp:2035-2043 `parse_super`. -/
def parseSuper : P Node := do
  let t ← cur
  advance
  pure (.super t ((← curTy) == .LParen) [])

/-- src/parser.cpp:2157-2169 `parse_word_array`. -/
def parseWordArray (R : Rec) : P Node := do
  let t ← cur
  advance
  let ns ← loop (fun (ns : List Node) => do
    let c ← cur
    if c.type = .Eof ∨ c.type = .RBracket then pure (Loop.done ns)
    else if c.type = .UnterminatedWordArray then throwUnterminated c t
    else
      let e ← R.exp .WORD_ARRAY
      pure (Loop.again (ns ++ [e]))) R.fuel []
  expect .RBracket (cs! "closing array bracket")
  advance
  pure (.array t ns)

/-- src/parser.cpp:2171-2193 `parse_word_symbol_array`. -/
def parseWordSymbolArray (R : Rec) : P Node := do
  let t ← cur
  advance
  let ns ← loop (fun (ns : List Node) => do
    let c ← cur
    if c.type = .Eof ∨ c.type = .RBracket then pure (Loop.done ns)
    else
      let e ← R.exp .WORD_ARRAY
      match e with
      | .string st str => pure (Loop.again (ns ++ [.symbol st str]))
      | .interpolatedString st ss => pure (Loop.again (ns ++ [.interpolatedSymbol st ss]))
      | _ => P.abort) R.fuel []
  expect .RBracket (cs! "closing array bracket")
  advance
  pure (.array t ns)

/-! ## Infix functions -/

/-- src/parser.cpp:2242-2282 `parse_assignment_expression_value`. -/
def parseAssignmentValue (R : Rec) (toArray allowMultiple : Bool) : P Node := do
  let t ← cur
  let v ← R.exp .ASSIGNMENT_RHS
  let (v, isSplat) ←
    if allowMultiple && (← curTy) == .Comma then do
      let ns ← commaLoop R (R.exp .ASSIGNMENT_RHS) [v]
      pure (Node.array t ns, true)
    else pure (v, v.isSplat)
  let v := match v with
    | .block _ [n] => n
    | v => v
  if isSplat then pure (if toArray then v else .splatValue t v)
  else pure (if toArray then .toArray t v else v)

/-- src/parser.cpp:2201-2217 `parse_assignment_expression`. -/
def parseAssignment (R : Rec) (allowMultiple : Bool) (left : Node) : P Node := do
  if left.isSplat then parseMultipleAssignment R left
  else
    let t ← cur
    addAssignmentLocals left
    advance
    let toArray := match left with
      | .multipleAssignment .. => true
      | _ => false
    let v ← parseAssignmentValue R toArray allowMultiple
    pure (.assignment t left v)

/-- src/parser.cpp:2506-2519 `parse_infix_expression`. -/
def parseInfix (R : Rec) (left : Node) : P Node := do
  let t ← cur
  advance
  let e ← R.exp (getPrec t (some left) t)
  pure (.infixOp t left (tyValue t.type) e)

/-- src/parser.cpp:2526-2531, with `regroup` (include/natalie_parser/parser.hpp:203-208), for `&&` and `and`. -/
def mkAnd (t : Token) (left right : Node) : Node :=
  match left with
  | .logicalAnd lt a b => .logicalAnd lt a (.logicalAnd t b right)
  | l => .logicalAnd t l right

/-- The same for `||` and `or`. -/
def mkOr (t : Token) (left right : Node) : Node :=
  match left with
  | .logicalOr lt a b => .logicalOr lt a (.logicalOr t b right)
  | l => .logicalOr t l right

/-- src/parser.cpp:2521-2563 `parse_logical_expression`. -/
def parseLogical (R : Rec) (left : Node) : P Node := do
  let t ← cur
  match t.type with
  | .AmpersandAmpersand =>
    advance
    let e ← R.exp .LOGICAL_AND
    pure (mkAnd t left e)
  | .AndKeyword =>
    advance
    let e ← R.exp .COMPOSITION
    pure (mkAnd t left e)
  | .PipePipe =>
    advance
    let e ← R.exp .LOGICAL_OR
    pure (mkOr t left e)
  | .OrKeyword =>
    advance
    let e ← R.exp .COMPOSITION
    pure (mkOr t left e)
  | _ => P.abort

/-- src/parser.cpp:2565-2582 `parse_match_expression`. -/
def parseMatch (R : Rec) (left : Node) : P Node := do
  let t ← cur
  advance
  let e ← R.exp .EQUALITY
  match left with
  | .regexp .. => pure (.match_ t left (some e) true)
  | _ =>
    match e with
    | .regexp .. => pure (.match_ t e (some left) false)
    | _ => pure (.call t left (cs! "=~") [e])

/-- src/parser.cpp:2584-2588 `parse_not_match_expression`. -/
def parseNotMatch (R : Rec) (left : Node) : P Node := do
  let t ← cur
  let m ← parseMatch R left
  pure (.notMatch t m)

/-- src/parser.cpp:1269-1313 `parse_modifier_expression`. -/
def parseModifier (R : Rec) (left : Node) : P Node := do
  let t ← cur
  let (body, pre) : List Node × Bool := match left with
    | .block _ ns => (ns, false)
    | .begin_ .. => ([left], false)
    | _ => ([left], true)
  match t.type with
  | .IfKeyword =>
    advance
    let c ← R.exp .LOWEST
    pure (.if_ t c left (.nil t))
  | .UnlessKeyword =>
    advance
    let c ← R.exp .LOWEST
    pure (.if_ t c (.nil t) left)
  | .UntilKeyword =>
    advance
    let c ← R.exp .LOWEST
    pure (.until_ t c body pre)
  | .WhileKeyword =>
    advance
    let c ← R.exp .LOWEST
    pure (.while_ t c body pre)
  | _ => P.abort

/-- src/parser.cpp:2634-2672 `parse_op_attr_assign_expression`. -/
def parseOpAttrAssign (R : Rec) (left recv : Node) (msg : Str) (args : List Node) (safe : Bool) : P Node := do
  let t ← cur
  advance
  let v ← R.exp .OP_ASSIGNMENT_RHS
  if msg ≠ cs! "[]" ∧ t.type = .AmpersandAmpersandEqual then pure (.opAssignAnd t left v)
  else if msg ≠ cs! "[]" ∧ t.type = .PipePipeEqual then pure (.opAssignOr t left v)
  else pure (.opAssignAccessor t (tyValue t.type).dropLast recv (msg ++ ['=']) v args safe)

/-- src/parser.cpp:2607-2632, the second half of `parse_op_assign_expression`. -/
def parseOpAssignRest (R : Rec) (left : Node) : P Node := do
  let t ← cur
  advance
  match t.type with
  | .AmpersandAmpersandEqual =>
    let v ← R.exp .ASSIGNMENT_RHS
    pure (.opAssignAnd t left v)
  | .PipePipeEqual =>
    let v ← R.exp .ASSIGNMENT_RHS
    pure (.opAssignOr t left v)
  | .AmpersandEqual | .CaretEqual | .LeftShiftEqual | .MinusEqual | .PercentEqual | .PipeEqual | .PlusEqual
  | .RightShiftEqual | .SlashEqual | .StarEqual | .StarStarEqual =>
    let v ← R.exp .ASSIGNMENT_RHS
    pure (.opAssign t (tyValue t.type).dropLast left v)
  | _ => P.abort

/-- src/parser.cpp:2590-2632 `parse_op_assign_expression`. -/
def parseOpAssign (R : Rec) (left : Node) : P Node :=
  match left with
  | .call _ r m args => parseOpAttrAssign R left r m args false
  | .safeCall _ r m args => parseOpAttrAssign R left r m args true
  | .identifier t _ => do
    addNames (identNames t)
    parseOpAssignRest R (.identifier t true)
  | .constant .. | .colon2 .. | .colon3 .. => parseOpAssignRest R left
  | _ => throwTok left.tok false (cs! "variable or constant")

/-- src/parser.cpp:2674-2683 `parse_proc_call_expression`. -/
def parseProcCall (left : Node) : P Node := do
  let t ← cur
  advance
  pure (.call t left (cs! "call") [])

/-- src/parser.cpp:2721-2731 `parse_rescue_expression`. -/
def parseRescueMod (R : Rec) (left : Node) : P Node := do
  let t ← cur
  advance
  let v ← R.exp .LOWEST
  pure (.begin_ t [left] [.beginRescue t [] none [v]] none none)

/-- src/parser.cpp:2790-2799 `parse_ternary_expression`. -/
def parseTernary (R : Rec) (left : Node) : P Node := do
  let t ← cur
  expect .TernaryQuestion (cs! "ternary question")
  advance
  let yes ← R.exp .TERNARY_TRUE
  expect .TernaryColon (cs! "ternary colon")
  advance
  let no ← R.exp .TERNARY_FALSE
  pure (.if_ t left yes no)

/-! ## Dispatch -/

/-- src/parser.cpp:2857-2980 `null_denotation`. -/
def nullDenotation (R : Rec) : Ttype → Option (P Node)
  | .AliasKeyword => some (parseAlias R)
  | .LBracket | .LBracketRBracket => some (parseArray R)
  | .BackRef => some parseBackRef
  | .BeginKeyword => some (parseBegin R)
  | .BEGINKeyword => some (parseBeginBlock R)
  | .Ampersand => some (parseBlockPass R)
  | .TrueKeyword => some (parseOne .true_)
  | .FalseKeyword => some (parseOne .false_)
  | .BreakKeyword => some (parseBreakNext R .break_)
  | .CaseKeyword => some (parseCase R)
  | .ClassKeyword => some (parseClass R)
  | .DefKeyword => some (parseDef R)
  | .DefinedKeyword => some (parseDefined R)
  | .DotDot | .DotDotDot => some (parseTripleDot R)
  | .ENCODINGKeyword => some (parseOne .encoding)
  | .ENDKeyword => some (parseEndBlock R)
  | .FILEKeyword => some parseFileConstant
  | .ForKeyword => some (parseFor R)
  | .LParen => some (parseGroup R)
  | .LCurlyBrace => some (parseHash R)
  | .LINEKeyword => some (parseOne fun t => .fixnum t (t.line + 1))
  | .BareName | .ClassVariable | .Constant | .GlobalVariable | .InstanceVariable => some parseIdentifier
  | .IfKeyword => some (parseIfBranch R true)
  | .InterpolatedRegexpBegin => some (parseInterpolatedRegexp R)
  | .InterpolatedShellBegin => some (parseInterpolatedShell R)
  | .InterpolatedStringBegin => some (parseInterpolatedString R)
  | .InterpolatedSymbolBegin => some (parseInterpolatedSymbol R)
  | .StarStar => some (parseKeywordSplat R)
  | .Bignum | .Fixnum | .Float => some parseLit
  | .ModuleKeyword => some (parseModule R)
  | .NextKeyword => some (parseBreakNext R .next)
  | .NilKeyword => some (parseOne .nilSexp)
  | .Not | .NotKeyword => some (parseNot R)
  | .NthRef => some (parseOne fun t => .nthRef t t.fix)
  | .RedoKeyword => some (parseOne .redo)
  | .RetryKeyword => some (parseOne .retry)
  | .ReturnKeyword => some (parseReturn R)
  | .SelfKeyword => some (parseOne .self)
  | .Star => some (parseSplat R)
  | .Arrow => some (parseStabbyProc R)
  | .String => some (parseString R)
  | .SuperKeyword => some parseSuper
  | .Symbol => some parseSymbol
  | .SymbolKey => some parseSymbolKey
  | .ConstantResolution => some parseTopLevelConstant
  | .Minus | .Plus | .Tilde => some (parseUnary R)
  | .UndefKeyword => some (parseUndef R)
  | .UnlessKeyword => some (parseUnless R)
  | .UntilKeyword | .WhileKeyword => some (parseWhile R)
  | .PercentLowerI | .PercentUpperI => some (parseWordSymbolArray R)
  | .PercentLowerW | .PercentUpperW => some (parseWordArray R)
  | .YieldKeyword => some (parseOne fun t => .yield t [])
  | _ => none

/-- src/parser.cpp:2982-3081 `left_denotation`; `pk` is the next token. -/
def leftDenotation (R : Rec) (t pk : Token) (left : Node) (p : Prec) : Option (P Node) :=
  let dflt : Option (P Node) := if isFirstArg left t then some (parseCallWithoutParens R left) else none
  match t.type with
  | .Equal =>
    if p = .ARRAY ∨ p = .HASH ∨ p = .BARE_CALL_ARG ∨ p = .CALL_ARG then some (parseAssignment R false left)
    else some (parseAssignment R true left)
  | .LParen => if !t.ws then some (parseCallWithParens R left) else dflt
  | .ConstantResolution =>
    if t.ws then some (parseCallWithoutParens R left) else some (parseConstantResolution R left)
  | .Ampersand | .Caret | .Comparison | .EqualEqual | .EqualEqualEqual | .GreaterThan | .GreaterThanOrEqual
  | .LeftShift | .LessThan | .LessThanOrEqual | .NotEqual | .Percent | .Pipe | .RightShift | .Slash | .Star
  | .StarStar => some (parseInfix R left)
  | .Minus | .Plus => if !t.ws || pk.ws || !left.isCallable then some (parseInfix R left) else dflt
  | .DoKeyword | .LCurlyBrace => some (parseIter R left)
  | .AmpersandAmpersand | .AndKeyword | .OrKeyword | .PipePipe => some (parseLogical R left)
  | .Match => some (parseMatch R left)
  | .IfKeyword | .UnlessKeyword | .WhileKeyword | .UntilKeyword => some (parseModifier R left)
  | .Comma => some (parseMultipleAssignment R left)
  | .NotMatch => some (parseNotMatch R left)
  | .AmpersandAmpersandEqual | .AmpersandEqual | .CaretEqual | .LeftShiftEqual | .MinusEqual | .PipePipeEqual
  | .PercentEqual | .PipeEqual | .PlusEqual | .RightShiftEqual | .SlashEqual | .StarEqual | .StarStarEqual =>
    some (parseOpAssign R left)
  | .DotDot | .DotDotDot => some (parseRange R left)
  | .LBracket | .LBracketRBracket => if bracketIsRef left t then some (parseRef R left) else dflt
  | .RescueKeyword => some (parseRescueMod R left)
  | .SafeNavigation => some (parseSafeSend left)
  | .Dot => if pk.type = .LParen then some (parseProcCall left) else some (parseSend left)
  | .TernaryQuestion => some (parseTernary R left)
  | _ => dflt

/-- src/parser.cpp:211-222, the loop of `parse_expression`. -/
def exprLoop (R : Rec) (p : Prec) (ia : IterAllow) (left : Node) : P Node :=
  loop (fun (left : Node) => do
    let t ← cur
    if t.type.isValid then
      if ← higherPrecedence t left p ia then
        let pk ← peek
        match leftDenotation R t pk left p with
        | none => throwTok t false (cs! "expression")
        | some f =>
          let left ← f
          popPrec
          pushPrec p
          pure (Loop.again left)
      else pure (Loop.done left)
    else pure (Loop.done left)) (2 * R.fuel) left

/-- src/parser.cpp:201-227 `parse_expression`. -/
def parseExpression (R : Rec) (p : Prec) (ia : IterAllow) : P Node := do
  skipNewlines
  pushPrec p
  match nullDenotation R (← curTy) with
  | none => throwUnexpected (cs! "expression")
  | some f =>
    let left ← f
    let left ← exprLoop R p ia left
    popPrec
    pure left

/-- The functions of the parser with at most the given number of nested calls. -/
def knot : Nat → Rec
  | 0 =>
    { fuel := 2, expr := fun _ _ => P.fuel, pattern := P.fuel, assignIdent := fun _ => P.fuel,
      argDefault := fun _ => P.fuel, defSingleArg := fun _ _ _ => P.fuel, ifBranch := fun _ => P.fuel,
      string := P.fuel, istring := P.fuel }
  | n + 1 =>
    { fuel := n + 3
      expr := parseExpression (knot n)
      pattern := parseCaseInPattern (knot n)
      assignIdent := parseAssignmentIdentifier (knot n)
      argDefault := parseArgDefaultValue (knot n)
      defSingleArg := parseDefSingleArg (knot n)
      ifBranch := parseIfBranch (knot n)
      string := parseString (knot n)
      istring := parseInterpolatedString (knot n) }

/-- src/parser.cpp:229-244 `tree`. -/
def parseTree (R : Rec) : P Node := do
  skipNewlines
  let t ← cur
  validateCurrent
  skipNewlines
  let ns ← loop (fun (ns : List Node) => do
    if (← curTy) = .Eof then pure (Loop.done ns)
    else
      let e ← R.exp .LOWEST
      validateCurrent
      nextExpression
      pure (Loop.again (ns ++ [e]))) R.fuel []
  pure (Blk.single ⟨t, ns⟩)

/-- Parsing of a token vector; the fuel suffices (`C30_vector_partial`). -/
def parseToks (c : Cx) (ts : List Token) : PRes Node := parseTree (knot (2 * ts.length + 2)) c { rest := ts }

end NP
