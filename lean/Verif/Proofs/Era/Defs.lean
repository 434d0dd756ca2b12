import Verif.Proofs.Era.Args

/-!
Parameters, blocks and definitions are read without positions as they are with them.
-/

namespace NP.Era

open Spec

variable {R : Rec}

theorem n_parseArgDefaultValue (g : GoodN R) {ia : IterAllow} :
    N (parseArgDefaultValue R ia) (parseArgDefaultValue R ia) := by
  unfold parseArgDefaultValue
  ngo

theorem n_parseDefArgs (g : GoodN R) : N (parseDefArgs R) (parseDefArgs R) := by
  unfold parseDefArgs
  ngo

theorem n_parseDefSingleArg (g : GoodN R) {args args' : List Node} {ctx : ArgsContext} {ia : IterAllow} (h_args : args' = er args) :
    N (parseDefSingleArg R args ctx ia) (parseDefSingleArg R args' ctx ia) := by
  subst h_args
  unfold parseDefSingleArg
  ngo

theorem n_parseShadowVar : N (parseShadowVar) (parseShadowVar) := by
  unfold parseShadowVar
  ngo

theorem n_parseShadowVars (g : GoodN R) {args args' : List Node} (h_args : args' = er args) :
    N (parseShadowVars R args) (parseShadowVars R args') := by
  subst h_args
  unfold parseShadowVars
  ngo

theorem n_parseProcArgs (g : GoodN R) {ia : IterAllow} : N (parseProcArgs R ia) (parseProcArgs R ia) := by
  unfold parseProcArgs
  ngo

theorem n_parseIterArgs (g : GoodN R) : N (parseIterArgs R) (parseIterArgs R) := by
  unfold parseIterArgs
  ngo

theorem n_parseIter (g : GoodN R) {left left' : Node} (h_left : left' = er left) :
    N (parseIter R left) (parseIter R left') := by
  subst h_left
  unfold parseIter
  ngo

theorem n_parseBeginBlock (g : GoodN R) : N (parseBeginBlock R) (parseBeginBlock R) := by
  unfold parseBeginBlock
  ngo

theorem n_parseEndBlock (g : GoodN R) : N (parseEndBlock R) (parseEndBlock R) := by
  unfold parseEndBlock
  ngo

theorem n_parseStabbyProc (g : GoodN R) : N (parseStabbyProc R) (parseStabbyProc R) := by
  unfold parseStabbyProc
  ngo

theorem n_parseDefName (g : GoodN R) : N (parseDefName R) (parseDefName R) := by
  unfold parseDefName
  ngo

theorem n_parseDef (g : GoodN R) : N (parseDef R) (parseDef R) := by
  unfold parseDef
  ngo

theorem n_parseDefined (g : GoodN R) : N (parseDefined R) (parseDefined R) := by
  unfold parseDefined
  ngo

theorem n_parseClassOrModuleName (g : GoodN R) : N (parseClassOrModuleName R) (parseClassOrModuleName R) := by
  unfold parseClassOrModuleName
  ngo

theorem n_parseSclass (g : GoodN R) : N (parseSclass R) (parseSclass R) := by
  unfold parseSclass
  ngo

theorem n_parseClass (g : GoodN R) : N (parseClass R) (parseClass R) := by
  unfold parseClass
  ngo

theorem n_parseModule (g : GoodN R) : N (parseModule R) (parseModule R) := by
  unfold parseModule
  ngo

end NP.Era
