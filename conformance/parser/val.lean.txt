import Verif.Model.Parser
import Verif.Model.Sexp
import Verif.Model.Tokens
import Verif.Model.Message
open NP
def bytesToStr (b : ByteArray) : Str := b.toList.map fun x => Char.ofNat x.toNat
def runParse (src : Str) : Option (PRes Node) :=
  match tokensFuel (src.length + 5) src with
  | .ok ts => some (parseToks ⟨src, cs! "(string)"⟩ ts)
  | _ => none
def sh (s : Str) : String := String.ofList s
partial def showS : Sexp → String
  | .nil => "nil" | .true_ => "true" | .false_ => "false"
  | .sym s => ":" ++ sh s | .str s => (sh s).quote | .int n => toString n | .big s => sh s
  | .float n t => (if n then "-" else "") ++ sh t
  | .regexp p o => "/" ++ sh p ++ "/" ++ toString o
  | .range a b e => s!"({a}{if e then "..." else ".."}{b})"
  | .complex n => s!"Complex(0, {showS n})" | .rational n => s!"Rational({showS n}, 1)"
  | .node t xs => "s(" ++ String.intercalate ", " ((":" ++ sh t) :: xs.map showS) ++ ")"
/-- expected value from a Ruby tree -/
partial def expd : Node → Option String
  | .nilSexp _ => some "nil" | .nil _ => some "nil" | .true_ _ => some "true" | .false_ _ => some "false"
  | .symbol _ s => some (":" ++ sh s)
  | .string _ s => some (sh s).quote
  | .fixnum _ n => some (toString n) | .bignum _ s => some (sh s) | .float _ n t => some ((if n then "-" else "") ++ sh t)
  | .regexp _ p o => some ("/" ++ sh p ++ "/" ++ toString o)
  | .range _ (.fixnum _ a) (.fixnum _ b) e => some s!"({a}{if e then "..." else ".."}{b})"
  | .identifier t _ => if t.lit = some (cs! "bare_hash_type") then some ":bare_hash" else some s!"?{sh (t.lit.getD [])}"
  | .call _ _ m args => do
    let xs ← args.mapM expd
    some (sh m ++ "(" ++ String.intercalate ", " xs ++ ")")
  | _ => some "??"
def outS : Option (PRes Node) → String
  | none => "LEXFAIL"
  | some (.ok n _) => match n.toSexp with | some s => showS s | none => "TRANSFORM-ABORT"
  | some (.err _) => "SyntaxError"
  | some .abort => "ABORT" | some .ub => "UB" | some .overrun => "OVERRUN" | some .fuel => "FUEL"
def strict : List Node → List Node := id
/-- collect (code, expected) -/
partial def collect (n : Node) : List (Node × String × Option String) :=
  match n with
  | .call _ (.call _ _ ex [.call _ _ pa (c :: _)]) m [e] =>
    if ex = cs! "expect" ∧ pa = cs! "parse" ∧ (m = cs! "must_equal" ∨ m = cs! "must_equal_and_be_same_class") then [(c, "eq", expd e)] else []
  | .call _ (.call _ _ ex [.iter _ _ _ _ [.call _ _ pa (c :: _)]]) m _ =>
    if ex = cs! "expect" ∧ pa = cs! "parse" ∧ m = cs! "must_raise" then [(c, "raise", none)] else []
  | .block _ ns => ns.flatMap collect
  | .if_ _ c y no => match c with
    | .infixOp _ _ op (.string _ s) => if (s = cs! "NatalieParser") == (op = cs! "==") then collect y else collect no
    | _ => []
  | .call _ _ m [.iter _ _ _ _ [.call _ _ pa (c :: _)], _, e] => if m = cs! "expect_raise_with_message" ∧ pa = cs! "parse" then [(c,"msg", match e with | .string _ s => some (sh s) | .regexp _ p _ => some ("/" ++ sh p) | _ => none)] else []
  | .iter _ _ _ _ ns => ns.flatMap collect
  | _ => []
partial def strVal : Node → Option Str
  | .string _ s => some s
  | _ => none
def norm (s : String) : String := s
def main' (files : List String) : IO Unit := do
  let mut okc := 0; let mut bad := 0; let mut skip := 0
  for f in files do
    let b ← IO.FS.readBinFile f
    let src := bytesToStr b
    match runParse src with
    | some (.ok n _) =>
      let env := match n with
        | .block _ ns => ns.filterMap fun (x : Node) => match x with | Node.assignment _ (Node.identifier t _) (Node.string _ v) => some (t.lit.getD [], v) | _ => none
        | _ => []
      let cs := collect n
      if cs.isEmpty then
        skip := skip + 1; IO.println s!"NOCASE {f}"
      for (c, kind, e) in cs do
        match (match c with | .identifier t _ => env.lookup (t.lit.getD []) | c => strVal c) with
        | none => skip := skip + 1; IO.println s!"NOSTR {f}"
        | some code =>
          let got := outS (runParse code)
          if kind = "msg" then
            let m := match runParse code with | some (.err e) => sh (e.message (cs! "(string)")) | r => outS r
            let e' := e.getD "??"
            let okm := if e'.startsWith "/" then (m.splitOn ((e'.drop 1).toString.replace "\\" "")).length > 1 else if (e'.splitOn "\n").length > 1 then m = e' else (m.splitOn "\n").head! = e'
            if okm then okc := okc + 1 else
              bad := bad + 1; IO.println s!"MSG {f}\n   code {(sh code).quote}\n   exp {e'}\n   got {m}"
          else if kind = "raise" then
            if got = "SyntaxError" then okc := okc + 1 else
              bad := bad + 1; IO.println s!"RAISE {f}\n   code {(sh code).quote}\n   got {got}"
          else if e = some got then okc := okc + 1
          else
            bad := bad + 1; IO.println s!"DIFF {f}\n   code {(sh code).quote}\n   exp {e}\n   got {got}"
    | r => skip := skip + 1; IO.println s!"PARSE {f} {outS r}"
  IO.println s!"ok {okc} bad {bad} skip {skip}"
def main (args : List String) : IO Unit := main' args
