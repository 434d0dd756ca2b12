import Verif.Model.Node

/-! Expressions of integers and binary operators, and how Ruby writes them. -/

namespace NP.Spec

/-- Binary operators that are method calls, the logical ones and ranges. -/
inductive Op where
  | pow | mul | div | mod | add | sub | shl | shr | band | bor | bxor | lt | le | gt | ge | cmp | eq | eqq | neq
  | and | or | dot2 | dot3
  deriving DecidableEq, Repr

/-- How an operator associates with operators of the same level. -/
inductive Assoc where
  | left | right | none
  deriving DecidableEq

namespace Op

def text : Op → Str
  | pow => cs! "**" | mul => cs! "*" | div => cs! "/" | mod => cs! "%" | add => cs! "+" | sub => cs! "-"
  | shl => cs! "<<" | shr => cs! ">>" | band => cs! "&" | bor => cs! "|" | bxor => cs! "^"
  | lt => cs! "<" | le => cs! "<=" | gt => cs! ">" | ge => cs! ">="
  | cmp => cs! "<=>" | eq => cs! "==" | eqq => cs! "===" | neq => cs! "!="
  | and => cs! "&&" | or => cs! "||" | dot2 => cs! ".." | dot3 => cs! "..."

end Op

/-- A table of operators: a higher level binds tighter. -/
structure Table where
  level : Op → Nat
  assoc : Op → Assoc

/-- Ruby's table. -/
def ruby : Table where
  level
    | .pow => 10
    | .mul | .div | .mod => 9
    | .add | .sub => 8
    | .shl | .shr => 7
    | .band => 6
    | .bor | .bxor => 5
    | .lt | .le | .gt | .ge => 4
    | .cmp | .eq | .eqq | .neq => 3
    | .and => 2
    | .or => 1
    | .dot2 | .dot3 => 0
  assoc
    | .pow => .right
    | .cmp | .eq | .eqq | .neq | .dot2 | .dot3 => .none
    | _ => .left

/-- The table the parser follows instead: `<=>` is on the level of `<`, ranges bind tighter than `&&` and `||`, and all
operators associate to the left. -/
def actual : Table where
  level
    | .pow => 10
    | .mul | .div | .mod => 9
    | .add | .sub => 8
    | .shl | .shr => 7
    | .band => 6
    | .bor | .bxor => 5
    | .lt | .le | .gt | .ge | .cmp => 4
    | .eq | .eqq | .neq => 3
    | .dot2 | .dot3 => 2
    | .and => 1
    | .or => 0
  assoc _ := .left

inductive Exp where
  | int (n : Nat)
  | bin (o : Op) (l r : Exp)
  deriving DecidableEq

namespace Exp

/-- The operator at the root. -/
def root : Exp → Option Op
  | int _ => Option.none
  | bin o _ _ => some o

/-- A left operand of `o` needs parentheses. -/
def needL (T : Table) (o : Op) (e : Exp) : Bool :=
  match e.root with
  | Option.none => false
  | some o' => T.level o' < T.level o || (T.level o' == T.level o && T.assoc o != .left)

/-- A right operand of `o` needs parentheses. -/
def needR (T : Table) (o : Op) (e : Exp) : Bool :=
  match e.root with
  | Option.none => false
  | some o' => T.level o' < T.level o || (T.level o' == T.level o && T.assoc o != .right)

/-- Parentheses where they are needed. -/
def paren (b : Bool) (s : Str) : Str := if b then '(' :: s ++ [')'] else s

/-- An expression as text, with parentheses only where the table requires them. -/
def show_ (T : Table) : Exp → Str
  | int n => (toString n).toList
  | bin o l r => paren (needL T o l) (l.show_ T) ++ (' ' :: o.text ++ ' ' :: paren (needR T o r) (r.show_ T))

/-- All numbers are less than `2 ^ 62`. -/
def Small : Exp → Prop
  | int n => n < 2 ^ 62
  | bin _ l r => l.Small ∧ r.Small

/-- `a && b` with the operand `c` behind: `a && (b && c)`; the same for `||`. -/
def join (o : Op) (l r : Exp) : Exp :=
  match l with
  | bin o' a b => if o' = o ∧ (o = .and ∨ o = .or) then bin o a (bin o b r) else bin o l r
  | _ => bin o l r

/-- An expression with chains of `&&` and of `||` regrouped the way the parser does it, from the leaves to the root. -/
def regroup : Exp → Exp
  | int n => int n
  | bin o l r => join o l.regroup r.regroup

end Exp

/-- `Tree n e`: the syntax tree `n` is the expression `e`. -/
inductive Tree : Node → Exp → Prop where
  | int (t : Token) (n : Nat) : Tree (.fixnum t n) (.int n)
  | call (t : Token) (o : Op) (a b : Node) (l r : Exp) (ho : o ∉ [.and, .or, .dot2, .dot3]) (hl : Tree a l)
      (hr : Tree b r) : Tree (.infixOp t a o.text b) (.bin o l r)
  | and (t : Token) (a b : Node) (l r : Exp) (hl : Tree a l) (hr : Tree b r) : Tree (.logicalAnd t a b) (.bin .and l r)
  | or (t : Token) (a b : Node) (l r : Exp) (hl : Tree a l) (hr : Tree b r) : Tree (.logicalOr t a b) (.bin .or l r)
  | dot2 (t : Token) (a b : Node) (l r : Exp) (hl : Tree a l) (hr : Tree b r) :
      Tree (.range t a b false) (.bin .dot2 l r)
  | dot3 (t : Token) (a b : Node) (l r : Exp) (hl : Tree a l) (hr : Tree b r) :
      Tree (.range t a b true) (.bin .dot3 l r)

/-- The pairs of operators for which the property fails: `a ** b ** c`, `a <=> b < c`, `a && b && c`, `a || b || c`,
and ranges with `&&` or `||` at their ends. -/
def Exp.Regular : Exp → Prop
  | .int _ => True
  | .bin o l r => l.Regular ∧ r.Regular ∧
      (o = .pow → r.root ≠ some .pow) ∧
      (o = .cmp → ∀ p ∈ [Op.lt, .le, .gt, .ge], r.root ≠ some p) ∧
      (o = .and → l.root ≠ some .and) ∧
      (o = .or → l.root ≠ some .or) ∧
      (o = .dot2 ∨ o = .dot3 → ∀ p ∈ [Op.and, .or], l.root ≠ some p ∧ r.root ≠ some p)

end NP.Spec
