import Verif.Proofs.Era.Lit

/-!
Lists, arguments, calls and references are read without positions as they are with them.
-/

namespace NP.Era

open Spec

variable {R : Rec}

theorem n_parseHashInner (g : GoodN R) {p : Prec} {closing : Ttype} {bare : Bool} {firstKey firstKey' : Option Node} (h_firstKey : firstKey' = er firstKey) :
    N (parseHashInner R p closing bare firstKey) (parseHashInner R p closing bare firstKey') := by
  subst h_firstKey
  unfold parseHashInner
  ngo

theorem n_parseHash (g : GoodN R) : N (parseHash R) (parseHash R) := by
  unfold parseHash
  ngo

theorem n_arrayAddNode (g : GoodN R) {ns ns' : List Node} (h_ns : ns' = er ns) :
    N (arrayAddNode R ns) (arrayAddNode R ns') := by
  subst h_ns
  unfold arrayAddNode
  ngo

theorem n_parseArray (g : GoodN R) : N (parseArray R) (parseArray R) := by
  unfold parseArray
  ngo

theorem n_parseCommaSeparated (g : GoodN R) : N (parseCommaSeparated R) (parseCommaSeparated R) := by
  unfold parseCommaSeparated
  ngo

theorem n_parseKeywordSplat (g : GoodN R) : N (parseKeywordSplat R) (parseKeywordSplat R) := by
  unfold parseKeywordSplat
  ngo

theorem n_parseBlockPass (g : GoodN R) : N (parseBlockPass R) (parseBlockPass R) := by
  unfold parseBlockPass
  ngo

theorem n_parseCallHashArgs (g : GoodN R) {bareCall : Bool} {closing : Ttype} {first first' : Node} (h_first : first' = er first) :
    N (parseCallHashArgs R bareCall closing first) (parseCallHashArgs R bareCall closing first') := by
  subst h_first
  unfold parseCallHashArgs
  ngo

theorem n_parseCallArgs (g : GoodN R) {node node' : Node} {bare : Bool} {closing : Ttype} (h_node : node' = er node) :
    N (parseCallArgs R node bare closing) (parseCallArgs R node' bare closing) := by
  subst h_node
  unfold parseCallArgs
  ngo

theorem n_toNodeWithArgs {n n' : Node} (h_n : n' = er n) : N (toNodeWithArgs n) (toNodeWithArgs n') := by
  subst h_n
  unfold toNodeWithArgs
  ngo

theorem n_parseCallWithParens (g : GoodN R) {left left' : Node} (h_left : left' = er left) :
    N (parseCallWithParens R left) (parseCallWithParens R left') := by
  subst h_left
  unfold parseCallWithParens
  ngo

theorem n_parseCallWithoutParens (g : GoodN R) {left left' : Node} (h_left : left' = er left) :
    N (parseCallWithoutParens R left) (parseCallWithoutParens R left') := by
  subst h_left
  unfold parseCallWithoutParens
  ngo

theorem n_parseMultipleAssignment (g : GoodN R) {left left' : Node} (h_left : left' = er left) :
    N (parseMultipleAssignment R left) (parseMultipleAssignment R left') := by
  subst h_left
  unfold parseMultipleAssignment
  ngo

theorem n_parseConstantResolution (g : GoodN R) {left left' : Node} (h_left : left' = er left) :
    N (parseConstantResolution R left) (parseConstantResolution R left') := by
  subst h_left
  unfold parseConstantResolution
  ngo

theorem n_parseSend {left left' : Node} (h_left : left' = er left) : N (parseSend left) (parseSend left') := by
  subst h_left
  unfold parseSend
  ngo

theorem n_parseSafeSend {left left' : Node} (h_left : left' = er left) : N (parseSafeSend left) (parseSafeSend left') := by
  subst h_left
  unfold parseSafeSend
  ngo

theorem n_parseRef (g : GoodN R) {left left' : Node} (h_left : left' = er left) :
    N (parseRef R left) (parseRef R left') := by
  subst h_left
  unfold parseRef
  ngo

theorem n_parseAssignmentIdentifier (g : GoodN R) {allowSplat : Bool} :
    N (parseAssignmentIdentifier R allowSplat) (parseAssignmentIdentifier R allowSplat) := by
  unfold parseAssignmentIdentifier
  ngo

end NP.Era
