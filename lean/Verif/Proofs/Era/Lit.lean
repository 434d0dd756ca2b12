import Verif.Proofs.Era.Base

/-!
Strings, symbols, bodies and names are read without positions as they are with them.
-/

namespace NP.Era

open Spec

variable {R : Rec}

theorem n_addAssignmentLocals {left left' : Node} (h_left : left' = er left) :
    N (addAssignmentLocals left) (addAssignmentLocals left') := by
  subst h_left
  unfold addAssignmentLocals
  ngo

theorem n_reinsertCollapsedNewline : N (reinsertCollapsedNewline) (reinsertCollapsedNewline) := by
  unfold reinsertCollapsedNewline
  ngo

theorem n_parseRestOfBegin (g : GoodN R) {parseBody parseBody' : (Ttype → Bool) → P Blk} {t t' : Token} {body body' : List Node} (h_parseBody : ∀ f, N (parseBody f) (parseBody' f)) (h_t : t' = er t) (h_body : body' = er body) :
    N (parseRestOfBegin R parseBody t body) (parseRestOfBegin R parseBody' t' body') := by
  subst h_t h_body
  unfold parseRestOfBegin
  ngo

theorem n_parseBody (g : GoodN R) {p : Prec} {isEnd : Ttype → Bool} : N (parseBody R p isEnd) (parseBody R p isEnd) := by
  unfold parseBody
  ngo

theorem n_parseBodyRescue (g : GoodN R) {p : Prec} {isEnd : Ttype → Bool} :
    N (parseBodyRescue R p isEnd) (parseBodyRescue R p isEnd) := by
  unfold parseBodyRescue
  ngo

theorem n_parseBodyEnd (g : GoodN R) : N (parseBodyEnd R) (parseBodyEnd R) := by
  unfold parseBodyEnd
  ngo

theorem n_parseDefBody (g : GoodN R) : N (parseDefBody R) (parseDefBody R) := by
  unfold parseDefBody
  ngo

theorem n_parseMethodName : N (parseMethodName) (parseMethodName) := by
  unfold parseMethodName
  ngo

theorem n_parseSymbol : N (parseSymbol) (parseSymbol) := by
  unfold parseSymbol
  ngo

theorem n_parseSymbolKey : N (parseSymbolKey) (parseSymbolKey) := by
  unfold parseSymbolKey
  ngo

set_option maxHeartbeats 1000000 in
theorem n_parseInterpolatedBody (g : GoodN R) {start start' : Token} {endTy : Ttype} (h_start : start' = er start) :
    N (parseInterpolatedBody R start endTy) (parseInterpolatedBody R start' endTy) := by
  subst h_start
  unfold parseInterpolatedBody
  ngo

theorem n_parseInterpolatedRegexp (g : GoodN R) : N (parseInterpolatedRegexp R) (parseInterpolatedRegexp R) := by
  unfold parseInterpolatedRegexp
  ngo

theorem n_parseInterpolatedShell (g : GoodN R) : N (parseInterpolatedShell R) (parseInterpolatedShell R) := by
  unfold parseInterpolatedShell
  ngo

theorem n_parseInterpolatedSymbol (g : GoodN R) : N (parseInterpolatedSymbol R) (parseInterpolatedSymbol R) := by
  unfold parseInterpolatedSymbol
  ngo

theorem n_stringAppend {t t' : Token} {str : Str} {n0 n0' : Node} (h_t : t' = er t) (h_n0 : n0' = er n0) :
    N (stringAppend t str n0) (stringAppend t' str n0') := by
  subst h_t h_n0
  unfold stringAppend
  ngo

theorem n_istringAppend {t t' : Token} {ns ns' : List Node} {n0 n0' : Node} (h_t : t' = er t) (h_ns : ns' = er ns) (h_n0 : n0' = er n0) :
    N (istringAppend t ns n0) (istringAppend t' ns' n0') := by
  subst h_t h_ns h_n0
  unfold istringAppend
  ngo

theorem n_appendStringNodes {a a' : Node} {b b' : Node} (h_a : a' = er a) (h_b : b' = er b) :
    N (appendStringNodes a b) (appendStringNodes a' b') := by
  subst h_a h_b
  unfold appendStringNodes
  ngo

theorem n_concatAdjacentStrings (g : GoodN R) {n n' : Node} (h_n : n' = er n) :
    N (concatAdjacentStrings R n) (concatAdjacentStrings R n') := by
  subst h_n
  unfold concatAdjacentStrings
  ngo

theorem n_toSymbolKey {n0 n0' : Node} (h_n0 : n0' = er n0) : N (toSymbolKey n0) (toSymbolKey n0') := by
  subst h_n0
  unfold toSymbolKey
  ngo

theorem n_finishString (g : GoodN R) {n n' : Node} (h_n : n' = er n) : N (finishString R n) (finishString R n') := by
  subst h_n
  unfold finishString
  ngo

theorem n_parseString (g : GoodN R) : N (parseString R) (parseString R) := by
  unfold parseString
  ngo

theorem n_parseInterpolatedString (g : GoodN R) : N (parseInterpolatedString R) (parseInterpolatedString R) := by
  unfold parseInterpolatedString
  ngo

theorem n_parseLit : N (parseLit) (parseLit) := by
  unfold parseLit
  ngo

theorem n_parseIdentifier : N (parseIdentifier) (parseIdentifier) := by
  unfold parseIdentifier
  ngo

theorem n_parseConstant : N (parseConstant) (parseConstant) := by
  unfold parseConstant
  ngo

theorem n_parseTopLevelConstant : N (parseTopLevelConstant) (parseTopLevelConstant) := by
  unfold parseTopLevelConstant
  ngo

theorem n_parseOne {f f' : Token → Node} (h_f : ∀ t, f' (er t) = er (f t)) : N (parseOne f) (parseOne f') := by
  unfold parseOne
  ngo

theorem n_parseBackRef : N (parseBackRef) (parseBackRef) := by
  unfold parseBackRef
  ngo

theorem n_parseFileConstant : N (parseFileConstant) (parseFileConstant) := by
  unfold parseFileConstant
  refine N_bind n_cur fun t => N_bind n_advance fun _ => ?_
  intro c c' s h
  show PRes.ok (Node.string (er t) c'.file) (er s) = _
  rw [h]
  simp only [ner]

theorem n_parseAliasArg (g : GoodN R) {help : Str} : N (parseAliasArg R help) (parseAliasArg R help) := by
  unfold parseAliasArg
  ngo

theorem n_parseValiasArg {allowNumber : Bool} {help : Str} :
    N (parseValiasArg allowNumber help) (parseValiasArg allowNumber help) := by
  unfold parseValiasArg
  ngo

theorem n_parseAlias (g : GoodN R) : N (parseAlias R) (parseAlias R) := by
  unfold parseAlias
  ngo

theorem n_parseUndef (g : GoodN R) : N (parseUndef R) (parseUndef R) := by
  unfold parseUndef
  ngo

end NP.Era
