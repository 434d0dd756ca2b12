import Verif.Model.Tokens
open NP
def hexv (c : Char) : Nat := digitVal c
def unhex : List Char → List Char
  | a :: b :: r => Char.ofNat (hexv a * 16 + hexv b) :: unhex r
  | _ => []
def hx (s : Str) : String := String.join (s.map fun c => let n := c.toNat; String.ofList [Nat.digitChar (n/16), Nat.digitChar (n%16)])
def showTok (t : Token) : String :=
  s!"{(reprStr t.type).drop 9}|{hx (t.type.value.getD [])}|{t.lit.map hx}|{t.fix}|{String.ofList t.flt}|{t.line}|{t.col}|{t.ws}|{t.doc.map hx}"
def main (args : List String) : IO Unit := do
  let txt ← IO.FS.readFile args.head!
  for line in txt.splitOn "\n" do
    match tokensFuel 1000000 (unhex line.toList) with
    | .ok ts => IO.println (String.intercalate "\t" (ts.map showTok))
    | .abort => IO.println "ABORT"
    | .ub => IO.println "UB"
    | .fuel => IO.println "FUEL"
