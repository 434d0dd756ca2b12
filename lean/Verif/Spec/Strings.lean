import Verif.Spec.Quoted
import Verif.Spec.Lexeme

/-! Runs of adjacent string literals. -/

namespace NP.Spec

/-- `StringRun src contents`: `src` is a sequence of string literals in single and double quotes without interpolation,
with blanks or nothing before, between and behind them. `contents` are the texts they denote. -/
inductive StringRun : Str → List Str → Prop where
  | nil (tail : Str) (h : Blank tail) : StringRun tail []
  | single (pre text bs rest : Str) (contents : List Str) (hb : Blank pre) (h : Single '\'' '\'' text bs)
      (hr : StringRun rest contents) : StringRun (pre ++ ('\'' :: text ++ '\'' :: rest)) (bs :: contents)
  | double (pre text bs rest : Str) (contents : List Str) (hb : Blank pre) (h : Content NUL '"' text bs ('"' :: rest))
      (hr : StringRun rest contents) : StringRun (pre ++ ('"' :: text ++ '"' :: rest)) (bs :: contents)

end NP.Spec
