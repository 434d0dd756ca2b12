import Verif.Model.Tokens

/-!
The states the loop of `tokens()` (src/lexer.cpp:17-61) goes through: the stack of lexer objects (innermost first) and
the variables of the loop at the beginning of each iteration.
-/

namespace NP

inductive Visits (src : Str) : List Lx → Filt → Prop where
  | init : Visits src [Lx.init src] {}
  | dropped (l : Lx) (ps st : List Lx) (f f' : Filt) (t : Token) (hv : Visits src (l :: ps) f)
      (hn : nextToken l ps = .ok (t, st)) (hf : f.step t = (f', none)) : Visits src st f'
  | pushed (l : Lx) (ps st : List Lx) (f f' : Filt) (t t' : Token) (hv : Visits src (l :: ps) f)
      (hn : nextToken l ps = .ok (t, st)) (hf : f.step t = (f', some t')) (ht : t'.type ≠ .Eof ∧ t'.type.isValid = true) :
      Visits src (setLast t'.type st) f'

end NP
