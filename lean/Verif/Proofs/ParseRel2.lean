import Verif.Proofs.ParseRel

/-! Relations between runs: all functions of the parser. -/

namespace NP

section
variable {T : Rl}

theorem commaLoop_rel {α : Type} {R R' : Rec} (h : T.Rec R R') {item item2 : P α} {acc : List α}
    (hi : T.r item item2) : T.r (commaLoop R item acc) (commaLoop R' item2 acc) := by
  unfold commaLoop
  rel

theorem addAssignmentLocals_rel {left : Node} :
    T.r (addAssignmentLocals left) (addAssignmentLocals left) := by
  unfold addAssignmentLocals
  repeat' first
    | rel1
    | contradiction
    | relsplit

theorem reinsertCollapsedNewline_rel   :
    T.r reinsertCollapsedNewline reinsertCollapsedNewline := by
  unfold reinsertCollapsedNewline
  repeat' first
    | rel1
    | contradiction
    | relsplit

theorem parseRestOfBegin_rel {R R' : Rec} (h : T.Rec R R') {parseBody parseBody2 : (Ttype → Bool) → P Blk} {t : Token} {body : List Node} (hparseBody : ∀ x, T.r (parseBody x) (parseBody2 x)) :
    T.r (parseRestOfBegin R parseBody t body) (parseRestOfBegin R' parseBody2 t body) := by
  unfold parseRestOfBegin
  repeat' first
    | rel1
    | (with_reducible apply commaLoop_rel <;> first | assumption | skip)
    | (with_reducible apply addAssignmentLocals_rel <;> first | assumption | skip)
    | apply hparseBody
    | contradiction
    | relsplit

theorem parseBody_rel {R R' : Rec} (h : T.Rec R R') {p : Prec} {isEnd : Ttype → Bool} :
    T.r (parseBody R p isEnd) (parseBody R' p isEnd) := by
  unfold parseBody
  repeat' first
    | rel1
    | contradiction
    | relsplit

theorem parseBodyRescue_rel {R R' : Rec} (h : T.Rec R R') {p : Prec} {isEnd : Ttype → Bool} :
    T.r (parseBodyRescue R p isEnd) (parseBodyRescue R' p isEnd) := by
  unfold parseBodyRescue
  repeat' first
    | rel1
    | (with_reducible apply parseRestOfBegin_rel <;> first | assumption | skip)
    | (with_reducible apply parseBody_rel <;> first | assumption | skip)
    | contradiction
    | relsplit

theorem parseBodyEnd_rel {R R' : Rec} (h : T.Rec R R')  :
    T.r (parseBodyEnd R) (parseBodyEnd R') := by
  unfold parseBodyEnd
  repeat' first
    | rel1
    | (with_reducible apply parseBody_rel <;> first | assumption | skip)
    | contradiction
    | relsplit

theorem parseDefBody_rel {R R' : Rec} (h : T.Rec R R')  :
    T.r (parseDefBody R) (parseDefBody R') := by
  unfold parseDefBody
  repeat' first
    | rel1
    | (with_reducible apply parseBodyRescue_rel <;> first | assumption | skip)
    | contradiction
    | relsplit

theorem parseMethodName_rel   :
    T.r parseMethodName parseMethodName := by
  unfold parseMethodName
  repeat' first
    | rel1
    | contradiction
    | relsplit

theorem parseSymbol_rel   :
    T.r parseSymbol parseSymbol := by
  unfold parseSymbol
  repeat' first
    | rel1
    | contradiction
    | relsplit

theorem parseSymbolKey_rel   :
    T.r parseSymbolKey parseSymbolKey := by
  unfold parseSymbolKey
  repeat' first
    | rel1
    | contradiction
    | relsplit

theorem parseInterpolatedBody_rel {R R' : Rec} (h : T.Rec R R') {start : Token} {endTy : Ttype} :
    T.r (parseInterpolatedBody R start endTy) (parseInterpolatedBody R' start endTy) := by
  unfold parseInterpolatedBody
  repeat' first
    | rel1
    | contradiction
    | relsplit

theorem parseInterpolatedRegexp_rel {R R' : Rec} (h : T.Rec R R')  :
    T.r (parseInterpolatedRegexp R) (parseInterpolatedRegexp R') := by
  unfold parseInterpolatedRegexp
  repeat' first
    | rel1
    | (with_reducible apply parseInterpolatedBody_rel <;> first | assumption | skip)
    | contradiction
    | relsplit

theorem parseInterpolatedShell_rel {R R' : Rec} (h : T.Rec R R')  :
    T.r (parseInterpolatedShell R) (parseInterpolatedShell R') := by
  unfold parseInterpolatedShell
  repeat' first
    | rel1
    | (with_reducible apply parseInterpolatedBody_rel <;> first | assumption | skip)
    | contradiction
    | relsplit

theorem parseInterpolatedSymbol_rel {R R' : Rec} (h : T.Rec R R')  :
    T.r (parseInterpolatedSymbol R) (parseInterpolatedSymbol R') := by
  unfold parseInterpolatedSymbol
  repeat' first
    | rel1
    | (with_reducible apply parseInterpolatedBody_rel <;> first | assumption | skip)
    | contradiction
    | relsplit

theorem stringAppend_rel {t : Token} {str : Str} {node : Node} :
    T.r (stringAppend t str node) (stringAppend t str node) := by
  unfold stringAppend
  repeat' first
    | rel1
    | contradiction
    | relsplit

theorem istringAppend_rel {t : Token} {ns : List Node} {node : Node} :
    T.r (istringAppend t ns node) (istringAppend t ns node) := by
  unfold istringAppend
  repeat' first
    | rel1
    | contradiction
    | relsplit

theorem appendStringNodes_rel {a : Node} {b : Node} :
    T.r (appendStringNodes a b) (appendStringNodes a b) := by
  unfold appendStringNodes
  repeat' first
    | rel1
    | (with_reducible apply stringAppend_rel <;> first | assumption | skip)
    | (with_reducible apply istringAppend_rel <;> first | assumption | skip)
    | contradiction
    | relsplit

theorem concatAdjacentStrings_rel {R R' : Rec} (h : T.Rec R R') {n : Node} :
    T.r (concatAdjacentStrings R n) (concatAdjacentStrings R' n) := by
  unfold concatAdjacentStrings
  repeat' first
    | rel1
    | (with_reducible apply appendStringNodes_rel <;> first | assumption | skip)
    | contradiction
    | relsplit

theorem toSymbolKey_rel {node : Node} :
    T.r (toSymbolKey node) (toSymbolKey node) := by
  unfold toSymbolKey
  repeat' first
    | rel1
    | contradiction
    | relsplit

theorem finishString_rel {R R' : Rec} (h : T.Rec R R') {n : Node} :
    T.r (finishString R n) (finishString R' n) := by
  unfold finishString
  repeat' first
    | rel1
    | (with_reducible apply concatAdjacentStrings_rel <;> first | assumption | skip)
    | (with_reducible apply toSymbolKey_rel <;> first | assumption | skip)
    | contradiction
    | relsplit

theorem parseString_rel {R R' : Rec} (h : T.Rec R R')  :
    T.r (parseString R) (parseString R') := by
  unfold parseString
  repeat' first
    | rel1
    | (with_reducible apply finishString_rel <;> first | assumption | skip)
    | contradiction
    | relsplit

theorem parseInterpolatedString_rel {R R' : Rec} (h : T.Rec R R')  :
    T.r (parseInterpolatedString R) (parseInterpolatedString R') := by
  unfold parseInterpolatedString
  repeat' first
    | rel1
    | (with_reducible apply parseInterpolatedBody_rel <;> first | assumption | skip)
    | (with_reducible apply finishString_rel <;> first | assumption | skip)
    | contradiction
    | relsplit

theorem parseLit_rel   :
    T.r parseLit parseLit := by
  unfold parseLit
  repeat' first
    | rel1
    | contradiction
    | relsplit

theorem parseIdentifier_rel   :
    T.r parseIdentifier parseIdentifier := by
  unfold parseIdentifier
  repeat' first
    | rel1
    | contradiction
    | relsplit

theorem parseConstant_rel   :
    T.r parseConstant parseConstant := by
  unfold parseConstant
  repeat' first
    | rel1
    | contradiction
    | relsplit

theorem parseTopLevelConstant_rel   :
    T.r parseTopLevelConstant parseTopLevelConstant := by
  unfold parseTopLevelConstant
  repeat' first
    | rel1
    | contradiction
    | relsplit

theorem parseOne_rel {f : Token → Node} :
    T.r (parseOne f) (parseOne f) := by
  unfold parseOne
  repeat' first
    | rel1
    | contradiction
    | relsplit

theorem parseBackRef_rel   :
    T.r parseBackRef parseBackRef := by
  unfold parseBackRef
  repeat' first
    | rel1
    | contradiction
    | relsplit

theorem parseFileConstant_rel : T.r parseFileConstant parseFileConstant :=
  T.bind (T.prim .cur) fun _ => T.bind (T.prim .advance) fun _ => T.prim (.file _)

theorem parseAliasArg_rel {R R' : Rec} (h : T.Rec R R') {help : Str} :
    T.r (parseAliasArg R help) (parseAliasArg R' help) := by
  unfold parseAliasArg
  repeat' first
    | rel1
    | (with_reducible apply parseMethodName_rel <;> first | assumption | skip)
    | (with_reducible apply parseSymbol_rel <;> first | assumption | skip)
    | (with_reducible apply parseInterpolatedSymbol_rel <;> first | assumption | skip)
    | contradiction
    | relsplit

theorem parseValiasArg_rel {allowNumber : Bool} {help : Str} :
    T.r (parseValiasArg allowNumber help) (parseValiasArg allowNumber help) := by
  unfold parseValiasArg
  repeat' first
    | rel1
    | contradiction
    | relsplit

theorem parseAlias_rel {R R' : Rec} (h : T.Rec R R')  :
    T.r (parseAlias R) (parseAlias R') := by
  unfold parseAlias
  repeat' first
    | rel1
    | (with_reducible apply reinsertCollapsedNewline_rel <;> first | assumption | skip)
    | (with_reducible apply parseAliasArg_rel <;> first | assumption | skip)
    | (with_reducible apply parseValiasArg_rel <;> first | assumption | skip)
    | contradiction
    | relsplit

theorem parseUndef_rel {R R' : Rec} (h : T.Rec R R')  :
    T.r (parseUndef R) (parseUndef R') := by
  unfold parseUndef
  repeat' first
    | rel1
    | (with_reducible apply commaLoop_rel <;> first | assumption | skip)
    | (with_reducible apply reinsertCollapsedNewline_rel <;> first | assumption | skip)
    | (with_reducible apply parseAliasArg_rel <;> first | assumption | skip)
    | contradiction
    | relsplit

theorem parseHashInner_rel {R R' : Rec} (h : T.Rec R R') {p : Prec} {closing : Ttype} {bare : Bool} {firstKey : Option Node} :
    T.r (parseHashInner R p closing bare firstKey) (parseHashInner R' p closing bare firstKey) := by
  unfold parseHashInner
  repeat' first
    | rel1
    | contradiction
    | relsplit

theorem parseHash_rel {R R' : Rec} (h : T.Rec R R')  :
    T.r (parseHash R) (parseHash R') := by
  unfold parseHash
  repeat' first
    | rel1
    | (with_reducible apply parseHashInner_rel <;> first | assumption | skip)
    | contradiction
    | relsplit

theorem arrayAddNode_rel {R R' : Rec} (h : T.Rec R R') {ns : List Node} :
    T.r (arrayAddNode R ns) (arrayAddNode R' ns) := by
  unfold arrayAddNode
  repeat' first
    | rel1
    | (with_reducible apply parseHashInner_rel <;> first | assumption | skip)
    | contradiction
    | relsplit

theorem parseArray_rel {R R' : Rec} (h : T.Rec R R')  :
    T.r (parseArray R) (parseArray R') := by
  unfold parseArray
  repeat' first
    | rel1
    | (with_reducible apply arrayAddNode_rel <;> first | assumption | skip)
    | contradiction
    | relsplit

theorem parseCommaSeparated_rel {R R' : Rec} (h : T.Rec R R')  :
    T.r (parseCommaSeparated R) (parseCommaSeparated R') := by
  unfold parseCommaSeparated
  repeat' first
    | rel1
    | (with_reducible apply commaLoop_rel <;> first | assumption | skip)
    | contradiction
    | relsplit

theorem parseKeywordSplat_rel {R R' : Rec} (h : T.Rec R R')  :
    T.r (parseKeywordSplat R) (parseKeywordSplat R') := by
  unfold parseKeywordSplat
  repeat' first
    | rel1
    | contradiction
    | relsplit

theorem parseBlockPass_rel {R R' : Rec} (h : T.Rec R R')  :
    T.r (parseBlockPass R) (parseBlockPass R') := by
  unfold parseBlockPass
  repeat' first
    | rel1
    | contradiction
    | relsplit

theorem parseCallHashArgs_rel {R R' : Rec} (h : T.Rec R R') {bareCall : Bool} {closing : Ttype} {first : Node} :
    T.r (parseCallHashArgs R bareCall closing first) (parseCallHashArgs R' bareCall closing first) := by
  unfold parseCallHashArgs
  repeat' first
    | rel1
    | (with_reducible apply parseHashInner_rel <;> first | assumption | skip)
    | (with_reducible apply parseKeywordSplat_rel <;> first | assumption | skip)
    | contradiction
    | relsplit

theorem parseCallArgs_rel {R R' : Rec} (h : T.Rec R R') {node : Node} {bare : Bool} {closing : Ttype} :
    T.r (parseCallArgs R node bare closing) (parseCallArgs R' node bare closing) := by
  unfold parseCallArgs
  repeat' first
    | rel1
    | (with_reducible apply parseBlockPass_rel <;> first | assumption | skip)
    | (with_reducible apply parseCallHashArgs_rel <;> first | assumption | skip)
    | contradiction
    | relsplit

theorem toNodeWithArgs_rel {n : Node} :
    T.r (toNodeWithArgs n) (toNodeWithArgs n) := by
  unfold toNodeWithArgs
  repeat' first
    | rel1
    | contradiction
    | relsplit

theorem parseCallWithParens_rel {R R' : Rec} (h : T.Rec R R') {left : Node} :
    T.r (parseCallWithParens R left) (parseCallWithParens R' left) := by
  unfold parseCallWithParens
  repeat' first
    | rel1
    | (with_reducible apply parseCallArgs_rel <;> first | assumption | skip)
    | (with_reducible apply toNodeWithArgs_rel <;> first | assumption | skip)
    | contradiction
    | relsplit

theorem parseCallWithoutParens_rel {R R' : Rec} (h : T.Rec R R') {left : Node} :
    T.r (parseCallWithoutParens R left) (parseCallWithoutParens R' left) := by
  unfold parseCallWithoutParens
  repeat' first
    | rel1
    | (with_reducible apply parseCallArgs_rel <;> first | assumption | skip)
    | (with_reducible apply toNodeWithArgs_rel <;> first | assumption | skip)
    | contradiction
    | relsplit

theorem parseMultipleAssignment_rel {R R' : Rec} (h : T.Rec R R') {left : Node} :
    T.r (parseMultipleAssignment R left) (parseMultipleAssignment R' left) := by
  unfold parseMultipleAssignment
  repeat' first
    | rel1
    | contradiction
    | relsplit

theorem parseConstantResolution_rel {R R' : Rec} (h : T.Rec R R') {left : Node} :
    T.r (parseConstantResolution R left) (parseConstantResolution R' left) := by
  unfold parseConstantResolution
  repeat' first
    | rel1
    | (with_reducible apply parseCallArgs_rel <;> first | assumption | skip)
    | contradiction
    | relsplit

theorem parseSend_rel {left : Node} :
    T.r (parseSend left) (parseSend left) := by
  unfold parseSend
  repeat' first
    | rel1
    | contradiction
    | relsplit

theorem parseSafeSend_rel {left : Node} :
    T.r (parseSafeSend left) (parseSafeSend left) := by
  unfold parseSafeSend
  repeat' first
    | rel1
    | contradiction
    | relsplit

theorem parseRef_rel {R R' : Rec} (h : T.Rec R R') {left : Node} :
    T.r (parseRef R left) (parseRef R' left) := by
  unfold parseRef
  repeat' first
    | rel1
    | (with_reducible apply parseCallArgs_rel <;> first | assumption | skip)
    | contradiction
    | relsplit

theorem parseAssignmentIdentifier_rel {R R' : Rec} (h : T.Rec R R') {allowSplat : Bool} :
    T.r (parseAssignmentIdentifier R allowSplat) (parseAssignmentIdentifier R' allowSplat) := by
  unfold parseAssignmentIdentifier
  repeat' first
    | rel1
    | (with_reducible apply parseIdentifier_rel <;> first | assumption | skip)
    | (with_reducible apply parseTopLevelConstant_rel <;> first | assumption | skip)
    | (with_reducible apply parseMultipleAssignment_rel <;> first | assumption | skip)
    | (with_reducible apply parseConstantResolution_rel <;> first | assumption | skip)
    | (with_reducible apply parseSend_rel <;> first | assumption | skip)
    | (with_reducible apply parseRef_rel <;> first | assumption | skip)
    | contradiction
    | relsplit

theorem parseArgDefaultValue_rel {R R' : Rec} (h : T.Rec R R') {ia : IterAllow} :
    T.r (parseArgDefaultValue R ia) (parseArgDefaultValue R' ia) := by
  unfold parseArgDefaultValue
  repeat' first
    | rel1
    | contradiction
    | relsplit

theorem parseDefArgs_rel {R R' : Rec} (h : T.Rec R R')  :
    T.r (parseDefArgs R) (parseDefArgs R') := by
  unfold parseDefArgs
  repeat' first
    | rel1
    | contradiction
    | relsplit

theorem parseDefSingleArg_rel {R R' : Rec} (h : T.Rec R R') {args : List Node} {ctx : ArgsContext} {ia : IterAllow} :
    T.r (parseDefSingleArg R args ctx ia) (parseDefSingleArg R' args ctx ia) := by
  unfold parseDefSingleArg
  repeat' first
    | rel1
    | (with_reducible apply parseDefArgs_rel <;> first | assumption | skip)
    | contradiction
    | relsplit

theorem parseShadowVar_rel   :
    T.r parseShadowVar parseShadowVar := by
  unfold parseShadowVar
  repeat' first
    | rel1
    | contradiction
    | relsplit

theorem parseShadowVars_rel {R R' : Rec} (h : T.Rec R R') {args : List Node} :
    T.r (parseShadowVars R args) (parseShadowVars R' args) := by
  unfold parseShadowVars
  repeat' first
    | rel1
    | (with_reducible apply commaLoop_rel <;> first | assumption | skip)
    | (with_reducible apply parseShadowVar_rel <;> first | assumption | skip)
    | contradiction
    | relsplit

theorem parseProcArgs_rel {R R' : Rec} (h : T.Rec R R') {ia : IterAllow} :
    T.r (parseProcArgs R ia) (parseProcArgs R' ia) := by
  unfold parseProcArgs
  repeat' first
    | rel1
    | (with_reducible apply parseShadowVars_rel <;> first | assumption | skip)
    | contradiction
    | relsplit

theorem parseIterArgs_rel {R R' : Rec} (h : T.Rec R R')  :
    T.r (parseIterArgs R) (parseIterArgs R') := by
  unfold parseIterArgs
  repeat' first
    | rel1
    | (with_reducible apply parseShadowVars_rel <;> first | assumption | skip)
    | contradiction
    | relsplit

theorem parseIter_rel {R R' : Rec} (h : T.Rec R R') {left : Node} :
    T.r (parseIter R left) (parseIter R' left) := by
  unfold parseIter
  repeat' first
    | rel1
    | (with_reducible apply parseBodyRescue_rel <;> first | assumption | skip)
    | (with_reducible apply parseIterArgs_rel <;> first | assumption | skip)
    | contradiction
    | relsplit

theorem parseBeginBlock_rel {R R' : Rec} (h : T.Rec R R')  :
    T.r (parseBeginBlock R) (parseBeginBlock R') := by
  unfold parseBeginBlock
  repeat' first
    | rel1
    | (with_reducible apply parseIter_rel <;> first | assumption | skip)
    | contradiction
    | relsplit

theorem parseEndBlock_rel {R R' : Rec} (h : T.Rec R R')  :
    T.r (parseEndBlock R) (parseEndBlock R') := by
  unfold parseEndBlock
  repeat' first
    | rel1
    | (with_reducible apply parseIter_rel <;> first | assumption | skip)
    | contradiction
    | relsplit

theorem parseStabbyProc_rel {R R' : Rec} (h : T.Rec R R')  :
    T.r (parseStabbyProc R) (parseStabbyProc R') := by
  unfold parseStabbyProc
  repeat' first
    | rel1
    | (with_reducible apply parseProcArgs_rel <;> first | assumption | skip)
    | (with_reducible apply parseIter_rel <;> first | assumption | skip)
    | contradiction
    | relsplit

theorem parseDefName_rel {R R' : Rec} (h : T.Rec R R')  :
    T.r (parseDefName R) (parseDefName R') := by
  unfold parseDefName
  repeat' first
    | rel1
    | (with_reducible apply parseMethodName_rel <;> first | assumption | skip)
    | (with_reducible apply parseIdentifier_rel <;> first | assumption | skip)
    | (with_reducible apply parseConstant_rel <;> first | assumption | skip)
    | contradiction
    | relsplit

theorem parseDef_rel {R R' : Rec} (h : T.Rec R R')  :
    T.r (parseDef R) (parseDef R') := by
  unfold parseDef
  repeat' first
    | rel1
    | (with_reducible apply parseDefBody_rel <;> first | assumption | skip)
    | (with_reducible apply parseDefArgs_rel <;> first | assumption | skip)
    | (with_reducible apply parseDefName_rel <;> first | assumption | skip)
    | contradiction
    | relsplit

theorem parseDefined_rel {R R' : Rec} (h : T.Rec R R')  :
    T.r (parseDefined R) (parseDefined R') := by
  unfold parseDefined
  repeat' first
    | rel1
    | contradiction
    | relsplit

theorem parseClassOrModuleName_rel {R R' : Rec} (h : T.Rec R R')  :
    T.r (parseClassOrModuleName R) (parseClassOrModuleName R') := by
  unfold parseClassOrModuleName
  repeat' first
    | rel1
    | contradiction
    | relsplit

theorem parseSclass_rel {R R' : Rec} (h : T.Rec R R')  :
    T.r (parseSclass R) (parseSclass R') := by
  unfold parseSclass
  repeat' first
    | rel1
    | (with_reducible apply parseBodyEnd_rel <;> first | assumption | skip)
    | contradiction
    | relsplit

theorem parseClass_rel {R R' : Rec} (h : T.Rec R R')  :
    T.r (parseClass R) (parseClass R') := by
  unfold parseClass
  repeat' first
    | rel1
    | (with_reducible apply parseBodyRescue_rel <;> first | assumption | skip)
    | (with_reducible apply parseClassOrModuleName_rel <;> first | assumption | skip)
    | (with_reducible apply parseSclass_rel <;> first | assumption | skip)
    | contradiction
    | relsplit

theorem parseModule_rel {R R' : Rec} (h : T.Rec R R')  :
    T.r (parseModule R) (parseModule R') := by
  unfold parseModule
  repeat' first
    | rel1
    | (with_reducible apply parseBodyRescue_rel <;> first | assumption | skip)
    | (with_reducible apply parseClassOrModuleName_rel <;> first | assumption | skip)
    | contradiction
    | relsplit

theorem parseBegin_rel {R R' : Rec} (h : T.Rec R R')  :
    T.r (parseBegin R) (parseBegin R') := by
  unfold parseBegin
  repeat' first
    | rel1
    | (with_reducible apply parseRestOfBegin_rel <;> first | assumption | skip)
    | (with_reducible apply parseBody_rel <;> first | assumption | skip)
    | (with_reducible apply parseBodyRescue_rel <;> first | assumption | skip)
    | contradiction
    | relsplit

theorem parseBeginlessRange_rel {R R' : Rec} (h : T.Rec R R')  :
    T.r (parseBeginlessRange R) (parseBeginlessRange R') := by
  unfold parseBeginlessRange
  repeat' first
    | rel1
    | contradiction
    | relsplit

theorem parseBreakNext_rel {R R' : Rec} (h : T.Rec R R') {mk : Token → Option Node → Node} :
    T.r (parseBreakNext R mk) (parseBreakNext R' mk) := by
  unfold parseBreakNext
  repeat' first
    | rel1
    | (with_reducible apply commaLoop_rel <;> first | assumption | skip)
    | contradiction
    | relsplit

theorem parseReturn_rel {R R' : Rec} (h : T.Rec R R')  :
    T.r (parseReturn R) (parseReturn R') := by
  unfold parseReturn
  repeat' first
    | rel1
    | (with_reducible apply commaLoop_rel <;> first | assumption | skip)
    | (with_reducible apply parseCallHashArgs_rel <;> first | assumption | skip)
    | contradiction
    | relsplit

theorem parseCaseBody_rel {R R' : Rec} (h : T.Rec R R') {ty : Ttype} :
    T.r (parseCaseBody R ty) (parseCaseBody R' ty) := by
  unfold parseCaseBody
  repeat' first
    | rel1
    | contradiction
    | relsplit

theorem afterCondition_rel   :
    T.r afterCondition afterCondition := by
  unfold afterCondition
  repeat' first
    | rel1
    | contradiction
    | relsplit

theorem parsePatternKey_rel {R R' : Rec} (h : T.Rec R R')  :
    T.r (parsePatternKey R) (parsePatternKey R') := by
  unfold parsePatternKey
  repeat' first
    | rel1
    | (with_reducible apply parseSymbolKey_rel <;> first | assumption | skip)
    | (with_reducible apply parseInterpolatedString_rel <;> first | assumption | skip)
    | contradiction
    | relsplit

theorem patternPair_rel {R R' : Rec} (h : T.Rec R R')  :
    T.r (patternPair R) (patternPair R') := by
  unfold patternPair
  repeat' first
    | rel1
    | (with_reducible apply parsePatternKey_rel <;> first | assumption | skip)
    | contradiction
    | relsplit

theorem parseRange_rel {R R' : Rec} (h : T.Rec R R') {left : Node} :
    T.r (parseRange R left) (parseRange R' left) := by
  unfold parseRange
  repeat' first
    | rel1
    | contradiction
    | relsplit

theorem parseUnary_rel {R R' : Rec} (h : T.Rec R R')  :
    T.r (parseUnary R) (parseUnary R') := by
  unfold parseUnary
  repeat' first
    | rel1
    | contradiction
    | relsplit

theorem parsePatternBase_rel {R R' : Rec} (h : T.Rec R R')  :
    T.r (parsePatternBase R) (parsePatternBase R') := by
  unfold parsePatternBase
  repeat' first
    | rel1
    | (with_reducible apply commaLoop_rel <;> first | assumption | skip)
    | (with_reducible apply parseSymbol_rel <;> first | assumption | skip)
    | (with_reducible apply parseString_rel <;> first | assumption | skip)
    | (with_reducible apply parseInterpolatedString_rel <;> first | assumption | skip)
    | (with_reducible apply parseLit_rel <;> first | assumption | skip)
    | (with_reducible apply parseConstant_rel <;> first | assumption | skip)
    | (with_reducible apply parseOne_rel <;> first | assumption | skip)
    | (with_reducible apply parseBeginlessRange_rel <;> first | assumption | skip)
    | (with_reducible apply parsePatternKey_rel <;> first | assumption | skip)
    | (with_reducible apply patternPair_rel <;> first | assumption | skip)
    | (with_reducible apply parseUnary_rel <;> first | assumption | skip)
    | contradiction
    | relsplit

theorem parseCaseInPattern_rel {R R' : Rec} (h : T.Rec R R')  :
    T.r (parseCaseInPattern R) (parseCaseInPattern R') := by
  unfold parseCaseInPattern
  repeat' first
    | rel1
    | (with_reducible apply parseRange_rel <;> first | assumption | skip)
    | (with_reducible apply parsePatternBase_rel <;> first | assumption | skip)
    | contradiction
    | relsplit

theorem parsePatternList_rel {R R' : Rec} (h : T.Rec R R')  :
    T.r (parsePatternList R) (parsePatternList R') := by
  unfold parsePatternList
  repeat' first
    | rel1
    | (with_reducible apply commaLoop_rel <;> first | assumption | skip)
    | contradiction
    | relsplit

theorem parseCaseInPatterns_rel {R R' : Rec} (h : T.Rec R R')  :
    T.r (parseCaseInPatterns R) (parseCaseInPatterns R') := by
  unfold parseCaseInPatterns
  repeat' first
    | rel1
    | (with_reducible apply parsePatternList_rel <;> first | assumption | skip)
    | contradiction
    | relsplit

theorem parseCase_rel {R R' : Rec} (h : T.Rec R R')  :
    T.r (parseCase R) (parseCase R') := by
  unfold parseCase
  repeat' first
    | rel1
    | (with_reducible apply parseBodyEnd_rel <;> first | assumption | skip)
    | (with_reducible apply parseCommaSeparated_rel <;> first | assumption | skip)
    | (with_reducible apply parseCaseBody_rel <;> first | assumption | skip)
    | (with_reducible apply afterCondition_rel <;> first | assumption | skip)
    | (with_reducible apply parseCaseInPatterns_rel <;> first | assumption | skip)
    | contradiction
    | relsplit

theorem parseFor_rel {R R' : Rec} (h : T.Rec R R')  :
    T.r (parseFor R) (parseFor R') := by
  unfold parseFor
  repeat' first
    | rel1
    | (with_reducible apply addAssignmentLocals_rel <;> first | assumption | skip)
    | (with_reducible apply parseBodyEnd_rel <;> first | assumption | skip)
    | (with_reducible apply parseMultipleAssignment_rel <;> first | assumption | skip)
    | contradiction
    | relsplit

theorem parseForwardArgs_rel   :
    T.r parseForwardArgs parseForwardArgs := by
  unfold parseForwardArgs
  repeat' first
    | rel1
    | contradiction
    | relsplit

theorem parseTripleDot_rel {R R' : Rec} (h : T.Rec R R')  :
    T.r (parseTripleDot R) (parseTripleDot R') := by
  unfold parseTripleDot
  repeat' first
    | rel1
    | (with_reducible apply parseBeginlessRange_rel <;> first | assumption | skip)
    | (with_reducible apply parseForwardArgs_rel <;> first | assumption | skip)
    | contradiction
    | relsplit

theorem parseGroup_rel {R R' : Rec} (h : T.Rec R R')  :
    T.r (parseGroup R) (parseGroup R') := by
  unfold parseGroup
  repeat' first
    | rel1
    | (with_reducible apply parseBody_rel <;> first | assumption | skip)
    | contradiction
    | relsplit

theorem parseIfBody_rel {R R' : Rec} (h : T.Rec R R')  :
    T.r (parseIfBody R) (parseIfBody R') := by
  unfold parseIfBody
  repeat' first
    | rel1
    | contradiction
    | relsplit

theorem thenOrNewline_rel   :
    T.r thenOrNewline thenOrNewline := by
  unfold thenOrNewline
  repeat' first
    | rel1
    | contradiction
    | relsplit

theorem parseIfBranch_rel {R R' : Rec} (h : T.Rec R R') {matchCond : Bool} :
    T.r (parseIfBranch R matchCond) (parseIfBranch R' matchCond) := by
  unfold parseIfBranch
  repeat' first
    | rel1
    | (with_reducible apply parseIfBody_rel <;> first | assumption | skip)
    | (with_reducible apply thenOrNewline_rel <;> first | assumption | skip)
    | contradiction
    | relsplit

theorem parseUnless_rel {R R' : Rec} (h : T.Rec R R')  :
    T.r (parseUnless R) (parseUnless R') := by
  unfold parseUnless
  repeat' first
    | rel1
    | (with_reducible apply parseIfBody_rel <;> first | assumption | skip)
    | (with_reducible apply thenOrNewline_rel <;> first | assumption | skip)
    | contradiction
    | relsplit

theorem parseWhile_rel {R R' : Rec} (h : T.Rec R R')  :
    T.r (parseWhile R) (parseWhile R') := by
  unfold parseWhile
  repeat' first
    | rel1
    | (with_reducible apply parseBodyEnd_rel <;> first | assumption | skip)
    | contradiction
    | relsplit

theorem parseNot_rel {R R' : Rec} (h : T.Rec R R')  :
    T.r (parseNot R) (parseNot R') := by
  unfold parseNot
  repeat' first
    | rel1
    | contradiction
    | relsplit

theorem parseSplat_rel {R R' : Rec} (h : T.Rec R R')  :
    T.r (parseSplat R) (parseSplat R') := by
  unfold parseSplat
  repeat' first
    | rel1
    | contradiction
    | relsplit

theorem parseSuper_rel   :
    T.r parseSuper parseSuper := by
  unfold parseSuper
  repeat' first
    | rel1
    | contradiction
    | relsplit

theorem parseWordArray_rel {R R' : Rec} (h : T.Rec R R')  :
    T.r (parseWordArray R) (parseWordArray R') := by
  unfold parseWordArray
  repeat' first
    | rel1
    | contradiction
    | relsplit

theorem parseWordSymbolArray_rel {R R' : Rec} (h : T.Rec R R')  :
    T.r (parseWordSymbolArray R) (parseWordSymbolArray R') := by
  unfold parseWordSymbolArray
  repeat' first
    | rel1
    | contradiction
    | relsplit

theorem parseAssignmentValue_rel {R R' : Rec} (h : T.Rec R R') {toArray : Bool} {allowMultiple : Bool} :
    T.r (parseAssignmentValue R toArray allowMultiple) (parseAssignmentValue R' toArray allowMultiple) := by
  unfold parseAssignmentValue
  repeat' first
    | rel1
    | (with_reducible apply commaLoop_rel <;> first | assumption | skip)
    | contradiction
    | relsplit

theorem parseAssignment_rel {R R' : Rec} (h : T.Rec R R') {allowMultiple : Bool} {left : Node} :
    T.r (parseAssignment R allowMultiple left) (parseAssignment R' allowMultiple left) := by
  unfold parseAssignment
  repeat' first
    | rel1
    | (with_reducible apply addAssignmentLocals_rel <;> first | assumption | skip)
    | (with_reducible apply parseMultipleAssignment_rel <;> first | assumption | skip)
    | (with_reducible apply parseAssignmentValue_rel <;> first | assumption | skip)
    | contradiction
    | relsplit

theorem parseInfix_rel {R R' : Rec} (h : T.Rec R R') {left : Node} :
    T.r (parseInfix R left) (parseInfix R' left) := by
  unfold parseInfix
  repeat' first
    | rel1
    | contradiction
    | relsplit

theorem parseLogical_rel {R R' : Rec} (h : T.Rec R R') {left : Node} :
    T.r (parseLogical R left) (parseLogical R' left) := by
  unfold parseLogical
  repeat' first
    | rel1
    | contradiction
    | relsplit

theorem parseMatch_rel {R R' : Rec} (h : T.Rec R R') {left : Node} :
    T.r (parseMatch R left) (parseMatch R' left) := by
  unfold parseMatch
  repeat' first
    | rel1
    | contradiction
    | relsplit

theorem parseNotMatch_rel {R R' : Rec} (h : T.Rec R R') {left : Node} :
    T.r (parseNotMatch R left) (parseNotMatch R' left) := by
  unfold parseNotMatch
  repeat' first
    | rel1
    | (with_reducible apply parseMatch_rel <;> first | assumption | skip)
    | contradiction
    | relsplit

theorem parseModifier_rel {R R' : Rec} (h : T.Rec R R') {left : Node} :
    T.r (parseModifier R left) (parseModifier R' left) := by
  unfold parseModifier
  repeat' first
    | rel1
    | contradiction
    | relsplit

theorem parseOpAttrAssign_rel {R R' : Rec} (h : T.Rec R R') {left : Node} {recv : Node} {msg : Str} {args : List Node} {safe : Bool} :
    T.r (parseOpAttrAssign R left recv msg args safe) (parseOpAttrAssign R' left recv msg args safe) := by
  unfold parseOpAttrAssign
  repeat' first
    | rel1
    | contradiction
    | relsplit

theorem parseOpAssignRest_rel {R R' : Rec} (h : T.Rec R R') {left : Node} :
    T.r (parseOpAssignRest R left) (parseOpAssignRest R' left) := by
  unfold parseOpAssignRest
  repeat' first
    | rel1
    | contradiction
    | relsplit

theorem parseOpAssign_rel {R R' : Rec} (h : T.Rec R R') {left : Node} :
    T.r (parseOpAssign R left) (parseOpAssign R' left) := by
  unfold parseOpAssign
  repeat' first
    | rel1
    | (with_reducible apply parseOpAttrAssign_rel <;> first | assumption | skip)
    | (with_reducible apply parseOpAssignRest_rel <;> first | assumption | skip)
    | contradiction
    | relsplit

theorem parseProcCall_rel {left : Node} :
    T.r (parseProcCall left) (parseProcCall left) := by
  unfold parseProcCall
  repeat' first
    | rel1
    | contradiction
    | relsplit

theorem parseRescueMod_rel {R R' : Rec} (h : T.Rec R R') {left : Node} :
    T.r (parseRescueMod R left) (parseRescueMod R' left) := by
  unfold parseRescueMod
  repeat' first
    | rel1
    | contradiction
    | relsplit

theorem parseTernary_rel {R R' : Rec} (h : T.Rec R R') {left : Node} :
    T.r (parseTernary R left) (parseTernary R' left) := by
  unfold parseTernary
  repeat' first
    | rel1
    | contradiction
    | relsplit

theorem nullDenotation_rel {R R' : Rec} (h : T.Rec R R') (ty : Ttype) :
    Option.Rel T.r (nullDenotation R ty) (nullDenotation R' ty) := by
  cases ty
  all_goals first
    | exact .none
    | skip
  all_goals
    apply Option.Rel.some
  repeat' first
    | rel1
    | (with_reducible apply parseSymbol_rel <;> first | assumption | skip)
    | (with_reducible apply parseSymbolKey_rel <;> first | assumption | skip)
    | (with_reducible apply parseInterpolatedRegexp_rel <;> first | assumption | skip)
    | (with_reducible apply parseInterpolatedShell_rel <;> first | assumption | skip)
    | (with_reducible apply parseInterpolatedSymbol_rel <;> first | assumption | skip)
    | (with_reducible apply parseString_rel <;> first | assumption | skip)
    | (with_reducible apply parseInterpolatedString_rel <;> first | assumption | skip)
    | (with_reducible apply parseLit_rel <;> first | assumption | skip)
    | (with_reducible apply parseIdentifier_rel <;> first | assumption | skip)
    | (with_reducible apply parseTopLevelConstant_rel <;> first | assumption | skip)
    | (with_reducible apply parseOne_rel <;> first | assumption | skip)
    | (with_reducible apply parseBackRef_rel <;> first | assumption | skip)
    | (with_reducible apply parseFileConstant_rel <;> first | assumption | skip)
    | (with_reducible apply parseAlias_rel <;> first | assumption | skip)
    | (with_reducible apply parseUndef_rel <;> first | assumption | skip)
    | (with_reducible apply parseHash_rel <;> first | assumption | skip)
    | (with_reducible apply parseArray_rel <;> first | assumption | skip)
    | (with_reducible apply parseKeywordSplat_rel <;> first | assumption | skip)
    | (with_reducible apply parseBlockPass_rel <;> first | assumption | skip)
    | (with_reducible apply parseBeginBlock_rel <;> first | assumption | skip)
    | (with_reducible apply parseEndBlock_rel <;> first | assumption | skip)
    | (with_reducible apply parseStabbyProc_rel <;> first | assumption | skip)
    | (with_reducible apply parseDef_rel <;> first | assumption | skip)
    | (with_reducible apply parseDefined_rel <;> first | assumption | skip)
    | (with_reducible apply parseClass_rel <;> first | assumption | skip)
    | (with_reducible apply parseModule_rel <;> first | assumption | skip)
    | (with_reducible apply parseBegin_rel <;> first | assumption | skip)
    | (with_reducible apply parseBreakNext_rel <;> first | assumption | skip)
    | (with_reducible apply parseReturn_rel <;> first | assumption | skip)
    | (with_reducible apply parseUnary_rel <;> first | assumption | skip)
    | (with_reducible apply parseCase_rel <;> first | assumption | skip)
    | (with_reducible apply parseFor_rel <;> first | assumption | skip)
    | (with_reducible apply parseTripleDot_rel <;> first | assumption | skip)
    | (with_reducible apply parseGroup_rel <;> first | assumption | skip)
    | (with_reducible apply parseIfBranch_rel <;> first | assumption | skip)
    | (with_reducible apply parseUnless_rel <;> first | assumption | skip)
    | (with_reducible apply parseWhile_rel <;> first | assumption | skip)
    | (with_reducible apply parseNot_rel <;> first | assumption | skip)
    | (with_reducible apply parseSplat_rel <;> first | assumption | skip)
    | (with_reducible apply parseSuper_rel <;> first | assumption | skip)
    | (with_reducible apply parseWordArray_rel <;> first | assumption | skip)
    | (with_reducible apply parseWordSymbolArray_rel <;> first | assumption | skip)
    | contradiction
    | relsplit

theorem leftDenotation_rel {R R' : Rec} (h : T.Rec R R') (t pk : Token) (left : Node) (p : Prec) :
    Option.Rel T.r (leftDenotation R t pk left p) (leftDenotation R' t pk left p) := by
  unfold leftDenotation
  repeat' split
  all_goals first
    | exact .none
    | contradiction
    | apply Option.Rel.some
  repeat' first
    | rel1
    | (with_reducible apply parseCallWithParens_rel <;> first | assumption | skip)
    | (with_reducible apply parseCallWithoutParens_rel <;> first | assumption | skip)
    | (with_reducible apply parseMultipleAssignment_rel <;> first | assumption | skip)
    | (with_reducible apply parseConstantResolution_rel <;> first | assumption | skip)
    | (with_reducible apply parseSend_rel <;> first | assumption | skip)
    | (with_reducible apply parseSafeSend_rel <;> first | assumption | skip)
    | (with_reducible apply parseRef_rel <;> first | assumption | skip)
    | (with_reducible apply parseIter_rel <;> first | assumption | skip)
    | (with_reducible apply parseRange_rel <;> first | assumption | skip)
    | (with_reducible apply parseAssignment_rel <;> first | assumption | skip)
    | (with_reducible apply parseInfix_rel <;> first | assumption | skip)
    | (with_reducible apply parseLogical_rel <;> first | assumption | skip)
    | (with_reducible apply parseMatch_rel <;> first | assumption | skip)
    | (with_reducible apply parseNotMatch_rel <;> first | assumption | skip)
    | (with_reducible apply parseModifier_rel <;> first | assumption | skip)
    | (with_reducible apply parseOpAssign_rel <;> first | assumption | skip)
    | (with_reducible apply parseProcCall_rel <;> first | assumption | skip)
    | (with_reducible apply parseRescueMod_rel <;> first | assumption | skip)
    | (with_reducible apply parseTernary_rel <;> first | assumption | skip)
    | contradiction
    | relsplit

theorem exprLoop_rel {R R' : Rec} (h : T.Rec R R') {p : Prec} {ia : IterAllow} {left : Node} :
    T.r (exprLoop R p ia left) (exprLoop R' p ia left) := by
  unfold exprLoop
  refine T.loop (T.twice h.fuel) fun left => T.bind (T.prim .cur) fun t => ?_
  relsplit
  · refine T.bind (T.prim (.higher ..)) fun b => ?_
    relsplit
    · refine T.bind (T.prim .peek) fun pk => ?_
      have := leftDenotation_rel h t pk left p
      generalize leftDenotation R t pk left p = x at this
      generalize leftDenotation R' t pk left p = y at this
      cases this with
      | none => exact T.prim (.off _ _ _ (by decide))
      | some hx => exact T.bind hx fun _ => T.bind (T.prim .popPrec) fun _ => T.bind (T.prim (.pushPrec _)) fun _ => T.prim (.pure _)
    · exact T.prim (.pure _)
  · exact T.prim (.pure _)

theorem parseExpression_rel {R R' : Rec} (h : T.Rec R R') {p : Prec} {ia : IterAllow} :
    T.r (parseExpression R p ia) (parseExpression R' p ia) := by
  unfold parseExpression
  refine T.bind (T.prim .skip) fun _ => T.bind (T.prim (.pushPrec _)) fun _ => T.bind (T.prim .curTy) fun ty => ?_
  have := nullDenotation_rel h ty
  generalize nullDenotation R ty = x at this
  generalize nullDenotation R' ty = y at this
  cases this with
  | none => exact T.prim (.unexpected _)
  | some hx =>
    exact T.bind hx fun _ => T.bind (exprLoop_rel h) fun _ => T.bind (T.prim .popPrec) fun _ => T.prim (.pure _)

theorem parseTree_rel {R R' : Rec} (h : T.Rec R R')  :
    T.r (parseTree R) (parseTree R') := by
  unfold parseTree
  repeat' first
    | rel1
    | contradiction
    | relsplit

theorem knot_rel {n m : Nat} (g : T.Rec (knot n) (knot m)) (hf : T.f (n + 3) (m + 3)) :
    T.Rec (knot (n + 1)) (knot (m + 1)) :=
  ⟨hf, fun _ _ => parseExpression_rel g, parseCaseInPattern_rel g, fun _ => parseAssignmentIdentifier_rel g,
    fun _ => parseArgDefaultValue_rel g, fun _ _ _ => parseDefSingleArg_rel g, fun _ => parseIfBranch_rel g,
    parseString_rel g, parseInterpolatedString_rel g⟩

end

end NP
