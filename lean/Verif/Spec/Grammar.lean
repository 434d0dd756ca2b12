import Verif.Spec.Layout
import Verif.Model.Sexp

/-!
A part of Ruby's grammar: syntax trees, the tokens they are written with, and the S-expressions they stand for.

Operators have the levels of Ruby's documentation (a higher number binds tighter):

    1 modifiers   2 and or   3 not   5 assignment   7 ?:   8 ranges   9 ||   10 &&   11 <=> == === != =~ !~
    12 < <= > >=   13 | ^   14 &   15 << >>   16 + -   17 * / %   18 unary minus   19 **   20 ! ~ unary plus   21 all else
-/

namespace NP.Gram
open Spec

/-- A token as it has to be written; `ws` tells if a blank must (or must not) stand in front of it. -/
structure Want where
  ws : Option Bool
  p : Piece
  deriving DecidableEq

/-- A keyword, an operator or a punctuation mark. -/
def fix (w : Str) (t : Ttype) : Want := ⟨none, .fixed w t⟩

/-- A token that must follow the one before it without a blank. -/
def glued (w : Str) (t : Ttype) : Want := ⟨some false, .fixed w t⟩

def comma : Want := fix (cs! ",") .Comma
def semi : Want := fix (cs! ";") .Semicolon
def end_ : Want := fix (cs! "end") .EndKeyword
def rparen : Want := fix (cs! ")") .RParen
/-- A parenthesis right behind a name. -/
def lparen : Want := glued (cs! "(") .LParen
def bar : Want := fix (cs! "|") .Pipe

/-- Tokens that may stand where a token of the given type had to be written: a line end does as well as a semicolon, and
both do as well as `then`. -/
def accepts : Ttype → Ttype → Bool
  | .Semicolon, t => t ∈ [.Semicolon, .Newline]
  | .ThenKeyword, t => t ∈ [.ThenKeyword, .Semicolon, .Newline]
  | ty, t => t = ty

/-- The type of the first token. -/
def next (ws : List Want) : Ttype := (ws.head?.map (·.p.type)).getD .Invalid

/-- More line ends and semicolons may follow the token `w` in front of `ws`: statements begin there. -/
def breaks (w : Want) (ws : List Want) : Bool :=
  w.p.type ∈ [.Semicolon, .ThenKeyword, .ElseKeyword, .DoKeyword] && next ws ∉ [.Semicolon, .Pipe]

/-! ### Variables and operators -/

/-- What can be assigned to. -/
inductive Var where
  | loc (x : Str)
  | ivar (x : Str)
  | cvar (x : Str)
  | gvar (x : Str)
  | const (x : Str)
  deriving DecidableEq

namespace Var

def piece : Var → Piece
  | loc x => .name x
  | ivar x => .ivar x
  | cvar x => .cvar x
  | gvar x => .gvar x
  | const x => .const x

/-- The whole name. -/
def name : Var → Str
  | loc x | const x => x
  | ivar x => '@' :: x
  | cvar x => '@' :: '@' :: x
  | gvar x => '$' :: x

/-- Its value. -/
def get : Var → Str
  | loc _ => cs! "lvar" | ivar _ => cs! "ivar" | cvar _ => cs! "cvar" | gvar _ => cs! "gvar" | const _ => cs! "const"

/-- An assignment to it. -/
def set : Var → Str
  | loc _ => cs! "lasgn" | ivar _ => cs! "iasgn" | cvar _ => cs! "cvdecl" | gvar _ => cs! "gasgn" | const _ => cs! "cdecl"

/-- The local variables after an assignment to it. -/
def bind (L : List Str) : Var → List Str
  | loc x => x :: L
  | _ => L

end Var

/-- Words that are expressions. -/
inductive Word where
  | nil | true_ | false_ | self | redo | retry
  deriving DecidableEq

namespace Word

def text : Word → Str
  | nil => cs! "nil" | true_ => cs! "true" | false_ => cs! "false" | self => cs! "self" | redo => cs! "redo"
  | retry => cs! "retry"

def type : Word → Ttype
  | nil => .NilKeyword | true_ => .TrueKeyword | false_ => .FalseKeyword | self => .SelfKeyword | redo => .RedoKeyword
  | retry => .RetryKeyword

end Word

/-- Binary operators. -/
inductive Bop where
  | pow | mul | div | mod | add | sub | shl | shr | band | bor | bxor | lt | le | gt | ge | cmp | eq | eqq | neq | mat | nmat
  | land | lor | kand | kor | dot2 | dot3
  deriving DecidableEq

namespace Bop

def text : Bop → Str
  | pow => cs! "**" | mul => cs! "*" | div => cs! "/" | mod => cs! "%" | add => cs! "+" | sub => cs! "-"
  | shl => cs! "<<" | shr => cs! ">>" | band => cs! "&" | bor => cs! "|" | bxor => cs! "^"
  | lt => cs! "<" | le => cs! "<=" | gt => cs! ">" | ge => cs! ">="
  | cmp => cs! "<=>" | eq => cs! "==" | eqq => cs! "===" | neq => cs! "!=" | mat => cs! "=~" | nmat => cs! "!~"
  | land => cs! "&&" | lor => cs! "||" | kand => cs! "and" | kor => cs! "or" | dot2 => cs! ".." | dot3 => cs! "..."

def type : Bop → Ttype
  | pow => .StarStar | mul => .Star | div => .Slash | mod => .Percent | add => .Plus | sub => .Minus
  | shl => .LeftShift | shr => .RightShift | band => .Ampersand | bor => .Pipe | bxor => .Caret
  | lt => .LessThan | le => .LessThanOrEqual | gt => .GreaterThan | ge => .GreaterThanOrEqual
  | cmp => .Comparison | eq => .EqualEqual | eqq => .EqualEqualEqual | neq => .NotEqual | mat => .Match | nmat => .NotMatch
  | land => .AmpersandAmpersand | lor => .PipePipe | kand => .AndKeyword | kor => .OrKeyword
  | dot2 => .DotDot | dot3 => .DotDotDot

def level : Bop → Nat
  | kand | kor => 2
  | dot2 | dot3 => 8
  | lor => 9
  | land => 10
  | cmp | eq | eqq | neq | mat | nmat => 11
  | lt | le | gt | ge => 12
  | bor | bxor => 13
  | band => 14
  | shl | shr => 15
  | add | sub => 16
  | mul | div | mod => 17
  | pow => 19

/-- The level a left operand needs. Operators that do not associate need the next one; so does `**`, whose grouping the
parser gets wrong, and the operands of ranges must bind tighter than `&&`. -/
def needL : Bop → Nat
  | dot2 | dot3 => 11
  | cmp | eq | eqq | neq | mat | nmat => 12
  | pow => 20
  | o => o.level

/-- The level a right operand needs. -/
def needR : Bop → Nat
  | kand | kor => 3
  | dot2 | dot3 => 11
  | cmp => 13
  | pow => 20
  | o => o.level + 1

end Bop

/-- Unary operators. -/
inductive Uop where
  | neg | pos | not | compl
  deriving DecidableEq

namespace Uop

def text : Uop → Str
  | neg => cs! "-" | pos => cs! "+" | not => cs! "!" | compl => cs! "~"

def type : Uop → Ttype
  | neg => .Minus | pos => .Plus | not => .Not | compl => .Tilde

/-- The method that is called. -/
def method : Uop → Str
  | neg => cs! "-@" | pos => cs! "+@" | not => cs! "!" | compl => cs! "~"

def level : Uop → Nat
  | neg => 18
  | _ => 20

/-- The level the operand needs. -/
def need : Uop → Nat
  | neg => 19
  | _ => 20

end Uop

/-- Operators of assignments. -/
inductive Aop where
  | add | sub | mul | div | mod | pow | band | bor | bxor | shl | shr | and | or
  deriving DecidableEq

namespace Aop

def text : Aop → Str
  | add => cs! "+" | sub => cs! "-" | mul => cs! "*" | div => cs! "/" | mod => cs! "%" | pow => cs! "**"
  | band => cs! "&" | bor => cs! "|" | bxor => cs! "^" | shl => cs! "<<" | shr => cs! ">>" | and => cs! "&&" | or => cs! "||"

def type : Aop → Ttype
  | add => .PlusEqual | sub => .MinusEqual | mul => .StarEqual | div => .SlashEqual | mod => .PercentEqual
  | pow => .StarStarEqual | band => .AmpersandEqual | bor => .PipeEqual | bxor => .CaretEqual | shl => .LeftShiftEqual
  | shr => .RightShiftEqual | and => .AmpersandAmpersandEqual | or => .PipePipeEqual

end Aop

/-- Modifiers. -/
inductive Modi where
  | if_ | unless_ | while_ | until_
  deriving DecidableEq

namespace Modi

def text : Modi → Str
  | if_ => cs! "if" | unless_ => cs! "unless" | while_ => cs! "while" | until_ => cs! "until"

def type : Modi → Ttype
  | if_ => .IfKeyword | unless_ => .UnlessKeyword | while_ => .WhileKeyword | until_ => .UntilKeyword

end Modi

/-- `break` and `next`. -/
inductive Jump where
  | break_ | next
  deriving DecidableEq

namespace Jump

def text : Jump → Str
  | break_ => cs! "break" | next => cs! "next"

def type : Jump → Ttype
  | break_ => .BreakKeyword | next => .NextKeyword

end Jump

/-! ### Patterns -/

def nd (ty : Str) (xs : List Sexp) : List Sexp := [.node ty xs]

/-- Patterns, lists of patterns, and pairs of hash patterns. -/
inductive PKind where
  | pat | pats | pairs
  deriving DecidableEq

inductive Pat : PKind → Type where
  /-- `x`: a new variable -/
  | name (x : Str) : Pat .pat
  | int (n : Int) : Pat .pat
  /-- `1..2`, `1...2` -/
  | range (excl : Bool) (a b : Int) : Pat .pat
  | str (s : Str) : Pat .pat
  | sym (x : Str) : Pat .pat
  | nil : Pat .pat
  | const (x : Str) : Pat .pat
  /-- `^x` -/
  | pin (x : Str) : Pat .pat
  /-- `[p, q]` -/
  | array (ps : Pat .pats) : Pat .pat
  /-- `{ x: p, y: }` -/
  | hash (ps : Pat .pairs) : Pat .pat
  /-- `(p)` -/
  | group (p : Pat .pat) : Pat .pat
  /-- `p => x` -/
  | bind (p : Pat .pat) (x : Str) : Pat .pat
  -- lists
  | lnil : Pat .pats
  | lcons (p : Pat .pat) (ps : Pat .pats) : Pat .pats
  /-- `*x`, `*` -/
  | lsplat (o : Option Str) (ps : Pat .pats) : Pat .pats
  -- pairs
  | hnil : Pat .pairs
  /-- `x:` -/
  | hkey (x : Str) (ps : Pat .pairs) : Pat .pairs
  /-- `x: p` -/
  | hpair (x : Str) (p : Pat .pat) (ps : Pat .pairs) : Pat .pairs
  /-- `**x`, `**` -/
  | hrest (o : Option Str) : Pat .pairs
  /-- `**nil` -/
  | hnone : Pat .pairs

namespace Pat

/-- An empty list. -/
def isNil : {k : PKind} → Pat k → Bool
  | _, .lnil | _, .hnil => true
  | _, _ => false

/-- A number. -/
def num (n : Int) : List Want :=
  if n < 0 then [fix (cs! "-") .Minus, ⟨some false, .int n.natAbs⟩] else [⟨none, .int n.natAbs⟩]

/-- What separates an element from the rest of a list. -/
def sep {k : PKind} (rest : Pat k) (ts : List Want) : List Want := if rest.isNil then [] else comma :: ts

/-- A name that may be missing. -/
def name? : Option Str → List Want
  | some x => [⟨none, .name x⟩]
  | none => []

def toks : {k : PKind} → Pat k → List Want
  | _, .name x => [⟨none, .name x⟩]
  | _, .int n => num n
  | _, .range e a b => num a ++ (if e then fix (cs! "...") .DotDotDot else fix (cs! "..") .DotDot) :: num b
  | _, .str s => [⟨none, .str s⟩]
  | _, .sym x => [⟨none, .sym x⟩]
  | _, .nil => [fix (cs! "nil") .NilKeyword]
  | _, .const x => [⟨none, .const x⟩]
  | _, .pin x => [fix (cs! "^") .Caret, ⟨none, .name x⟩]
  | _, .array ps =>
    if ps.isNil then [fix (cs! "[]") .LBracketRBracket]
    else fix (cs! "[") .LBracket :: (toks ps ++ [fix (cs! "]") .RBracket])
  | _, .hash ps => fix (cs! "{") .LCurlyBrace :: (toks ps ++ [fix (cs! "}") .RCurlyBrace])
  | _, .group p => fix (cs! "(") .LParen :: (toks p ++ [rparen])
  | _, .bind p x => toks p ++ [fix (cs! "=>") .HashRocket, ⟨none, .name x⟩]
  | _, .lnil => []
  | _, .lcons p ps => toks p ++ sep ps (toks ps)
  | _, .lsplat o ps => fix (cs! "*") .Star :: (name? o ++ sep ps (toks ps))
  | _, .hnil => []
  | _, .hkey x ps => ⟨none, .key x⟩ :: sep ps (toks ps)
  | _, .hpair x p ps => ⟨none, .key x⟩ :: (toks p ++ sep ps (toks ps))
  | _, .hrest o => fix (cs! "**") .StarStar :: name? o
  | _, .hnone => [fix (cs! "**") .StarStar, fix (cs! "nil") .NilKeyword]

/-- The names that a pattern makes local variables, in front of the ones before. -/
def out : {k : PKind} → List Str → Pat k → List Str
  | _, L, .name x => x :: L
  | _, L, .array ps => out L ps
  | _, L, .hash ps => out L ps
  | _, L, .group p => out L p
  | _, L, .bind p _ => out L p
  | _, L, .lcons p ps => out (out L p) ps
  | _, L, .lsplat _ ps => out L ps
  | _, L, .hkey x ps => out (x :: L) ps
  | _, L, .hpair _ p ps => out (out L p) ps
  | _, L, .hrest o => o.toList ++ L
  | _, L, _ => L

/-- The S-expressions of a list, and the one of a pattern (a list of one). -/
def sx : {k : PKind} → Pat k → List Sexp
  | _, .name x => nd (cs! "lvar") [.sym x]
  | _, .int n => nd (cs! "lit") [.int n]
  | _, .range e a b => nd (cs! "lit") [.range a b e]
  | _, .str s => nd (cs! "str") [.str s]
  | _, .sym x => nd (cs! "lit") [.sym x]
  | _, .nil => nd (cs! "nil") []
  | _, .const x => nd (cs! "const") [.sym x]
  | _, .pin x => nd (cs! "pin") [.node (cs! "lvar") [.sym x]]
  | _, .array ps => nd (cs! "array_pat") (if ps.isNil then [] else .nil :: sx ps)
  | _, .hash ps => nd (cs! "hash_pat") (.nil :: sx ps)
  | _, .group p => sx p
  | _, .bind p x => nd (cs! "lasgn") (.sym x :: sx p)
  | _, .lnil => []
  | _, .lcons p ps => sx p ++ sx ps
  | _, .lsplat o ps => .sym ('*' :: o.getD []) :: sx ps
  | _, .hnil => []
  | _, .hkey x ps => nd (cs! "lit") [.sym x] ++ .nil :: sx ps
  | _, .hpair x p ps => nd (cs! "lit") [.sym x] ++ sx p ++ sx ps
  | _, .hrest o => nd (cs! "kwrest") [.sym ('*' :: '*' :: o.getD [])]
  | _, .hnone => nd (cs! "kwrest") [.sym (cs! "**nil")]

/-- `p => x`. -/
def isBind : {k : PKind} → Pat k → Bool
  | _, .bind _ _ => true
  | _, _ => false

/-- `1..2`. -/
def isRange : {k : PKind} → Pat k → Bool
  | _, .range _ _ _ => true
  | _, _ => false

/-- What may stand where. The names after `*` and `=>` must be local variables already: they do not become ones, unlike
in Ruby. -/
def WF : {k : PKind} → List Str → Pat k → Bool
  | _, L, .array ps => WF L ps
  | _, L, .hash ps => WF L ps
  | _, L, .group p => WF L p
  | _, L, .bind p x => WF L p && !p.isBind && x ∈ L
  | _, L, .lcons p ps => WF L p && WF (out L p) ps
  | _, L, .lsplat o ps => (o.all fun x => x ∈ L) && WF L ps
  | _, L, .hkey x ps => WF (x :: L) ps
  | _, L, .hpair _ p ps => WF L p && WF (out L p) ps
  | _, _, _ => true

/-- Patterns between bars: no splats and no `=>`, and no ranges before the last. -/
def alternatives : {k : PKind} → Pat k → Bool
  | _, .lcons p ps => !p.isBind && (ps.isNil || !p.isRange) && alternatives ps
  | _, .lnil => true
  | _, _ => false

/-- The tokens with bars before all patterns. -/
def bars : {k : PKind} → Pat k → List Want
  | _, .lcons p ps => bar :: (toks p ++ bars ps)
  | _, _ => []

end Pat

/-- What is written after `in`. -/
inductive Top where
  /-- `p, q` -/
  | list (ps : Pat .pats)
  /-- `p | q` -/
  | alts (p : Pat .pat) (ps : Pat .pats)

namespace Top

def toks : Top → List Want
  | list ps => ps.toks
  | alts p ps => p.toks ++ ps.bars

def out (L : List Str) : Top → List Str
  | list ps => ps.out L
  | alts p ps => ps.out (p.out L)

/-- The S-expression; more than one pattern, or a splat, is an array pattern. -/
def sx : Top → Sexp
  | list (.lcons p .lnil) => p.sx.headD .nil
  | list ps => .node (cs! "array_pat") (.nil :: ps.sx)
  | alts p ps => ps.sx.foldl (fun x y => .node (cs! "or") [x, y]) (p.sx.headD .nil)

def WF (L : List Str) : Top → Bool
  | list ps => ps.WF L && !ps.isNil
  | alts p ps => p.WF L && ps.WF (p.out L) && !ps.isNil && (Pat.lcons p ps).alternatives

end Top

/-! ### Syntax -/

/-- Expressions, lists of statements, of arguments and of pairs, the last branches of an `if`, optional lists of
statements, branches of `case`, `rescue` clauses, optional `do` blocks, and parameters. -/
inductive Kind where
  | ex | sts | args | pairs | els | part | whens | rescues | blk | prms
  deriving DecidableEq

inductive Ex : Kind → Type where
  /-- `12`, `-12` -/
  | int (n : Int) : Ex .ex
  /-- `'abc'` -/
  | str (s : Str) : Ex .ex
  /-- `:abc` -/
  | sym (x : Str) : Ex .ex
  | word (w : Word) : Ex .ex
  | var (v : Var) : Ex .ex
  /-- `[a, b]` -/
  | array (a : Ex .args) : Ex .ex
  /-- `{ a => b }` -/
  | hash (ps : Ex .pairs) : Ex .ex
  /-- `f(a, b)` -/
  | fcall (x : Str) (a : Ex .args) : Ex .ex
  /-- `r.m`, `r&.m` -/
  | send (safe : Bool) (r : Ex .ex) (m : Str) : Ex .ex
  /-- `r.m(a, b)`, `r&.m(a, b)` -/
  | sendA (safe : Bool) (r : Ex .ex) (m : Str) (a : Ex .args) : Ex .ex
  /-- `f a, b do … end` -/
  | cmd (x : Str) (a : Ex .args) (b : Ex .blk) : Ex .ex
  /-- `r.m a, b do … end` -/
  | sendC (safe : Bool) (r : Ex .ex) (m : Str) (a : Ex .args) (b : Ex .blk) : Ex .ex
  /-- `r[a, b]` -/
  | index (r : Ex .ex) (a : Ex .args) : Ex .ex
  /-- `r::C` -/
  | colon2 (r : Ex .ex) (x : Str) : Ex .ex
  /-- `::C` -/
  | colon3 (x : Str) : Ex .ex
  /-- `super` -/
  | super0 : Ex .ex
  /-- `super(a, b)` -/
  | superA (a : Ex .args) : Ex .ex
  /-- `yield` -/
  | yield0 : Ex .ex
  /-- `yield(a, b)` -/
  | yieldA (a : Ex .args) : Ex .ex
  /-- `(a; b)` -/
  | paren (ss : Ex .sts) : Ex .ex
  /-- `f(a) { |x, y| … }`, `f(a) do |x, y| … end` -/
  | block (doo : Bool) (c : Ex .ex) (ps : Ex .prms) (b : Ex .sts) : Ex .ex
  /-- `->(x, y) { … }`, `->(x, y) do … end` -/
  | lam (doo : Bool) (ps : Ex .prms) (b : Ex .sts) : Ex .ex
  | un (o : Uop) (e : Ex .ex) : Ex .ex
  | notE (e : Ex .ex) : Ex .ex
  | bin (o : Bop) (l r : Ex .ex) : Ex .ex
  /-- `c ? a : b` -/
  | tern (c a b : Ex .ex) : Ex .ex
  /-- `x = e` -/
  | asgn (v : Var) (e : Ex .ex) : Ex .ex
  /-- `x += e` -/
  | opasgn (v : Var) (o : Aop) (e : Ex .ex) : Ex .ex
  /-- `r.m = e` -/
  | attr (safe : Bool) (r : Ex .ex) (m : Str) (e : Ex .ex) : Ex .ex
  /-- `r.m += e` -/
  | opattr (safe : Bool) (r : Ex .ex) (m : Str) (o : Aop) (e : Ex .ex) : Ex .ex
  /-- `r[a] = e` -/
  | setIndex (r : Ex .ex) (a : Ex .args) (e : Ex .ex) : Ex .ex
  /-- `r[a] += e` -/
  | opindex (r : Ex .ex) (a : Ex .args) (o : Aop) (e : Ex .ex) : Ex .ex
  /-- `x, y = e` -/
  | masgn (v w : Var) (vs : List Var) (e : Ex .ex) : Ex .ex
  /-- `x, y = a, b` -/
  | masgnL (v w : Var) (vs : List Var) (e : Ex .ex) (a : Ex .args) : Ex .ex
  /-- `l if c` -/
  | modi (m : Modi) (l c : Ex .ex) : Ex .ex
  /-- `l rescue r` -/
  | rescueM (l r : Ex .ex) : Ex .ex
  /-- `if c then a else b end` -/
  | if_ (c : Ex .ex) (a : Ex .sts) (e : Ex .els) : Ex .ex
  /-- `unless c then a else b end` -/
  | unless_ (c : Ex .ex) (a : Ex .sts) (e : Ex .part) : Ex .ex
  /-- `while c; a; end`, `until c; a; end` -/
  | while_ (neg : Bool) (c : Ex .ex) (a : Ex .sts) : Ex .ex
  /-- `for x in e; a; end` -/
  | for_ (v : Var) (e : Ex .ex) (a : Ex .sts) : Ex .ex
  /-- `case s; when a then b else c end` -/
  | case_ (s : Ex .ex) (ws : Ex .whens) (e : Ex .part) : Ex .ex
  /-- `case when a then b else c end` -/
  | case0 (ws : Ex .whens) (e : Ex .part) : Ex .ex
  /-- `begin; b; rescue A => e; c; else; d; ensure; f; end` -/
  | begin_ (b : Ex .sts) (rs : Ex .rescues) (el en : Ex .part) : Ex .ex
  /-- `def x(p, q); b; end`, `def self.x(p, q); b; end` -/
  | def_ (slf : Bool) (x : Str) (ps : Ex .prms) (b : Ex .sts) : Ex .ex
  /-- `def x(p, q) = e`, `def self.x(p, q) = e` -/
  | defE (slf : Bool) (x : Str) (ps : Ex .prms) (e : Ex .ex) : Ex .ex
  /-- `class X < Y; b; end` -/
  | class_ (x : Str) (sup : Option Str) (b : Ex .sts) : Ex .ex
  /-- `module X; b; end` -/
  | module_ (x : Str) (b : Ex .sts) : Ex .ex
  /-- `class << e; b; end` -/
  | sclass (e : Ex .ex) (b : Ex .sts) : Ex .ex
  /-- `END { b }` -/
  | postexe (b : Ex .sts) : Ex .ex
  /-- `return` -/
  | ret0 : Ex .ex
  /-- `return e` -/
  | ret (e : Ex .ex) : Ex .ex
  /-- `break`, `next` -/
  | jump0 (j : Jump) : Ex .ex
  /-- `break e`, `next e` -/
  | jump (j : Jump) (e : Ex .ex) : Ex .ex
  -- lists of statements
  | snil : Ex .sts
  /-- A last statement without a semicolon. -/
  | slast (e : Ex .ex) : Ex .sts
  | scons (e : Ex .ex) (ss : Ex .sts) : Ex .sts
  -- lists of arguments
  | anil : Ex .args
  | acons (e : Ex .ex) (a : Ex .args) : Ex .args
  /-- `*e` -/
  | asplat (e : Ex .ex) (a : Ex .args) : Ex .args
  /-- Pairs without braces, before nothing or a block. -/
  | apairs (ps : Ex .pairs) (a : Ex .args) : Ex .args
  /-- `&e` -/
  | ablk (e : Ex .ex) : Ex .args
  -- lists of pairs
  | pnil : Ex .pairs
  /-- `k => v` -/
  | pcons (k v : Ex .ex) (ps : Ex .pairs) : Ex .pairs
  /-- `x: v` -/
  | pkey (x : Str) (v : Ex .ex) (ps : Ex .pairs) : Ex .pairs
  /-- `**e` -/
  | psplat (e : Ex .ex) (ps : Ex .pairs) : Ex .pairs
  -- the last branches of an `if`
  | enil : Ex .els
  | els (ss : Ex .sts) : Ex .els
  | elsif (c : Ex .ex) (a : Ex .sts) (e : Ex .els) : Ex .els
  -- optional lists of statements
  | tnil : Ex .part
  | part (ss : Ex .sts) : Ex .part
  -- branches of `case`
  | wnil : Ex .whens
  | when_ (a : Ex .args) (b : Ex .sts) (ws : Ex .whens) : Ex .whens
  /-- `in p then b` -/
  | in_ (p : Top) (b : Ex .sts) (ws : Ex .whens) : Ex .whens
  -- `rescue` clauses
  | rnil : Ex .rescues
  | resc (a : Ex .args) (v : Option Var) (b : Ex .sts) (rs : Ex .rescues) : Ex .rescues
  -- optional `do` blocks
  | bnil : Ex .blk
  | bdo (ps : Ex .prms) (b : Ex .sts) : Ex .blk
  -- parameters
  | qnil : Ex .prms
  /-- `x` -/
  | qname (x : Str) (ps : Ex .prms) : Ex .prms
  /-- `x = e` -/
  | qdef (x : Str) (e : Ex .ex) (ps : Ex .prms) : Ex .prms
  /-- `(x, y)` -/
  | qtup (qs : Ex .prms) (ps : Ex .prms) : Ex .prms
  /-- `*x`, `*` -/
  | qsplat (o : Option Str) (ps : Ex .prms) : Ex .prms
  /-- `x:` -/
  | qkey (x : Str) (ps : Ex .prms) : Ex .prms
  /-- `x: e` -/
  | qkeyd (x : Str) (e : Ex .ex) (ps : Ex .prms) : Ex .prms
  /-- `**x`, `**` -/
  | qkws (o : Option Str) (ps : Ex .prms) : Ex .prms
  /-- `&x` -/
  | qblk (x : Str) : Ex .prms

/-! ### Writing it down -/

/-- An empty list. -/
def Ex.isNil : {k : Kind} → Ex k → Bool
  | _, .snil | _, .anil | _, .pnil | _, .enil | _, .tnil | _, .wnil | _, .rnil | _, .bnil | _, .qnil => true
  | _, _ => false

/-- `+` and `-` between blanks are never signs. -/
def Bop.ws : Bop → Option Bool
  | .add | .sub => some true
  | _ => none

/-- What separates an element from the rest of a list. -/
def sep {k : Kind} (rest : Ex k) (ts : List Want) : List Want := if rest.isNil then [] else comma :: ts

/-- The dot of a method call. -/
def dot (safe : Bool) : Want := if safe then fix (cs! "&.") .SafeNavigation else fix (cs! ".") .Dot

/-- The start and the end of a block. -/
def open_ (doo : Bool) : Want := if doo then fix (cs! "do") .DoKeyword else fix (cs! "{") .LCurlyBrace
def close (doo : Bool) : Want := if doo then end_ else fix (cs! "}") .RCurlyBrace

/-- A name that may be missing. -/
def name? : Option Str → List Want
  | some x => [⟨none, .name x⟩]
  | none => []

/-- Further targets of an assignment. -/
def targets : List Var → List Want
  | [] => []
  | v :: vs => comma :: ⟨none, v.piece⟩ :: targets vs

/-- What is written if a part is there. -/
def opt? {k : Kind} (e : Ex k) (ts : List Want) : List Want := if e.isNil then [] else ts

/-- The tokens of an expression or list; `w` is the wish for a blank in front of the first one. -/
def toks : {k : Kind} → Option Bool → Ex k → List Want
  | _, w, .int n =>
    if n < 0 then [⟨w, .fixed (cs! "-") .Minus⟩, ⟨some false, .int n.natAbs⟩] else [⟨w, .int n.natAbs⟩]
  | _, w, .str s => [⟨w, .str s⟩]
  | _, w, .sym x => [⟨w, .sym x⟩]
  | _, w, .word x => [⟨w, .fixed x.text x.type⟩]
  | _, w, .var v => [⟨w, v.piece⟩]
  | _, w, .array a =>
    if a.isNil then [⟨w, .fixed (cs! "[]") .LBracketRBracket⟩]
    else ⟨w, .fixed (cs! "[") .LBracket⟩ :: (toks none a ++ [fix (cs! "]") .RBracket])
  | _, w, .hash ps => ⟨w, .fixed (cs! "{") .LCurlyBrace⟩ :: (toks none ps ++ [fix (cs! "}") .RCurlyBrace])
  | _, w, .fcall x a => ⟨w, .name x⟩ :: lparen :: (toks none a ++ [rparen])
  | _, w, .send safe r m => toks w r ++ [dot safe, ⟨none, .name m⟩]
  | _, w, .sendA safe r m a => toks w r ++ dot safe :: ⟨none, .name m⟩ :: lparen :: (toks none a ++ [rparen])
  | _, w, .cmd x a b => ⟨w, .name x⟩ :: (toks none a ++ toks none b)
  | _, w, .sendC safe r m a b => toks w r ++ dot safe :: ⟨none, .name m⟩ :: (toks none a ++ toks none b)
  | _, w, .index r a => toks w r ++ glued (cs! "[") .LBracket :: (toks none a ++ [fix (cs! "]") .RBracket])
  | _, w, .colon2 r x => toks w r ++ [glued (cs! "::") .ConstantResolution, ⟨none, .const x⟩]
  | _, w, .colon3 x => [⟨w, .fixed (cs! "::") .ConstantResolution⟩, ⟨none, .const x⟩]
  | _, w, .super0 => [⟨w, .fixed (cs! "super") .SuperKeyword⟩]
  | _, w, .superA a => ⟨w, .fixed (cs! "super") .SuperKeyword⟩ :: lparen :: (toks none a ++ [rparen])
  | _, w, .yield0 => [⟨w, .fixed (cs! "yield") .YieldKeyword⟩]
  | _, w, .yieldA a => ⟨w, .fixed (cs! "yield") .YieldKeyword⟩ :: lparen :: (toks none a ++ [rparen])
  | _, w, .paren ss => ⟨w, .fixed (cs! "(") .LParen⟩ :: (toks none ss ++ [rparen])
  | _, w, .block d c ps b => toks w c ++ open_ d ::
      (opt? ps (bar :: (toks none ps ++ [bar])) ++ (toks none b ++ [close d]))
  | _, w, .lam d ps b => ⟨w, .fixed (cs! "->") .Arrow⟩ ::
      (opt? ps (fix (cs! "(") .LParen :: (toks none ps ++ [rparen])) ++ open_ d :: (toks none b ++ [close d]))
  | _, w, .un o e => ⟨w, .fixed o.text o.type⟩ :: toks none e
  | _, w, .notE e => ⟨w, .fixed (cs! "not") .NotKeyword⟩ :: toks none e
  | _, w, .bin o l r => toks w l ++ ⟨o.ws, .fixed o.text o.type⟩ :: toks o.ws r
  | _, w, .tern c a b =>
    toks w c ++ fix (cs! "?") .TernaryQuestion :: (toks none a ++ fix (cs! ":") .TernaryColon :: toks none b)
  | _, w, .asgn v e => ⟨w, v.piece⟩ :: fix (cs! "=") .Equal :: toks none e
  | _, w, .opasgn v o e => ⟨w, v.piece⟩ :: fix (o.text ++ ['=']) o.type :: toks none e
  | _, w, .attr safe r m e => toks w r ++ dot safe :: ⟨none, .name m⟩ :: fix (cs! "=") .Equal :: toks none e
  | _, w, .opattr safe r m o e => toks w r ++ dot safe :: ⟨none, .name m⟩ :: fix (o.text ++ ['=']) o.type :: toks none e
  | _, w, .setIndex r a e =>
    toks w r ++ glued (cs! "[") .LBracket :: (toks none a ++ fix (cs! "]") .RBracket :: fix (cs! "=") .Equal :: toks none e)
  | _, w, .opindex r a o e =>
    toks w r ++ glued (cs! "[") .LBracket :: (toks none a ++ fix (cs! "]") .RBracket ::
      fix (o.text ++ ['=']) o.type :: toks none e)
  | _, w, .masgn v u vs e => ⟨w, v.piece⟩ :: (targets (u :: vs) ++ fix (cs! "=") .Equal :: toks none e)
  | _, w, .masgnL v u vs e a =>
    ⟨w, v.piece⟩ :: (targets (u :: vs) ++ fix (cs! "=") .Equal :: (toks none e ++ comma :: toks none a))
  | _, w, .modi m l c => toks w l ++ fix m.text m.type :: toks none c
  | _, w, .rescueM l r => toks w l ++ fix (cs! "rescue") .RescueKeyword :: toks none r
  | _, w, .if_ c a e =>
    ⟨w, .fixed (cs! "if") .IfKeyword⟩ :: (toks none c ++ fix (cs! "then") .ThenKeyword ::
      (toks none a ++ (toks none e ++ [end_])))
  | _, w, .unless_ c a e =>
    ⟨w, .fixed (cs! "unless") .UnlessKeyword⟩ :: (toks none c ++ fix (cs! "then") .ThenKeyword ::
      (toks none a ++ (opt? e (fix (cs! "else") .ElseKeyword :: toks none e) ++ [end_])))
  | _, w, .while_ neg c a =>
    ⟨w, if neg then .fixed (cs! "until") .UntilKeyword else .fixed (cs! "while") .WhileKeyword⟩ ::
      (toks none c ++ semi :: (toks none a ++ [end_]))
  | _, w, .for_ v e a =>
    ⟨w, .fixed (cs! "for") .ForKeyword⟩ :: ⟨none, v.piece⟩ :: fix (cs! "in") .InKeyword ::
      (toks none e ++ semi :: (toks none a ++ [end_]))
  | _, w, .case_ s ws e =>
    ⟨w, .fixed (cs! "case") .CaseKeyword⟩ :: (toks none s ++ semi :: (toks none ws ++
      (opt? e (fix (cs! "else") .ElseKeyword :: toks none e) ++ [end_])))
  | _, w, .case0 ws e =>
    ⟨w, .fixed (cs! "case") .CaseKeyword⟩ :: (toks none ws ++
      (opt? e (fix (cs! "else") .ElseKeyword :: toks none e) ++ [end_]))
  | _, w, .begin_ b rs el en =>
    ⟨w, .fixed (cs! "begin") .BeginKeyword⟩ :: semi :: (toks none b ++ (toks none rs ++
      (opt? el (fix (cs! "else") .ElseKeyword :: semi :: toks none el) ++
        (opt? en (fix (cs! "ensure") .EnsureKeyword :: semi :: toks none en) ++ [end_]))))
  | _, w, .def_ slf x ps b =>
    ⟨w, .fixed (cs! "def") .DefKeyword⟩ ::
      ((if slf then [fix (cs! "self") .SelfKeyword, glued (cs! ".") .Dot] else []) ++ ⟨none, .name x⟩ ::
        (opt? ps (lparen :: (toks none ps ++ [rparen])) ++ semi :: (toks none b ++ [end_])))
  | _, w, .defE slf x ps e =>
    ⟨w, .fixed (cs! "def") .DefKeyword⟩ ::
      ((if slf then [fix (cs! "self") .SelfKeyword, glued (cs! ".") .Dot] else []) ++ ⟨none, .name x⟩ ::
        (opt? ps (lparen :: (toks none ps ++ [rparen])) ++ fix (cs! "=") .Equal :: toks none e))
  | _, w, .class_ x sup b =>
    ⟨w, .fixed (cs! "class") .ClassKeyword⟩ :: ⟨none, .const x⟩ ::
      ((match sup with
        | some y => [fix (cs! "<") .LessThan, ⟨none, .const y⟩]
        | none => []) ++ semi :: (toks none b ++ [end_]))
  | _, w, .module_ x b => ⟨w, .fixed (cs! "module") .ModuleKeyword⟩ :: ⟨none, .const x⟩ :: semi :: (toks none b ++ [end_])
  | _, w, .sclass e b =>
    ⟨w, .fixed (cs! "class") .ClassKeyword⟩ :: fix (cs! "<<") .LeftShift :: (toks none e ++ semi :: (toks none b ++ [end_]))
  | _, w, .postexe b =>
    ⟨w, .fixed (cs! "END") .ENDKeyword⟩ :: fix (cs! "{") .LCurlyBrace :: (toks none b ++ [fix (cs! "}") .RCurlyBrace])
  | _, w, .ret0 => [⟨w, .fixed (cs! "return") .ReturnKeyword⟩]
  | _, w, .ret e => ⟨w, .fixed (cs! "return") .ReturnKeyword⟩ :: toks none e
  | _, w, .jump0 j => [⟨w, .fixed j.text j.type⟩]
  | _, w, .jump j e => ⟨w, .fixed j.text j.type⟩ :: toks none e
  | _, _, .snil => []
  | _, _, .slast e => toks none e
  | _, _, .scons e ss => toks none e ++ semi :: toks none ss
  | _, _, .anil => []
  | _, _, .acons e a => toks none e ++ sep a (toks none a)
  | _, _, .asplat e a => fix (cs! "*") .Star :: (toks none e ++ sep a (toks none a))
  | _, _, .apairs ps a => toks none ps ++ sep a (toks none a)
  | _, _, .ablk e => fix (cs! "&") .Ampersand :: toks none e
  | _, _, .pnil => []
  | _, _, .pcons k v ps => toks none k ++ fix (cs! "=>") .HashRocket :: (toks none v ++ sep ps (toks none ps))
  | _, _, .pkey x v ps => ⟨none, .key x⟩ :: (toks none v ++ sep ps (toks none ps))
  | _, _, .psplat e ps => fix (cs! "**") .StarStar :: (toks none e ++ sep ps (toks none ps))
  | _, _, .enil => []
  | _, _, .els ss => fix (cs! "else") .ElseKeyword :: toks none ss
  | _, _, .elsif c a e =>
    fix (cs! "elsif") .ElsifKeyword :: (toks none c ++ fix (cs! "then") .ThenKeyword :: (toks none a ++ toks none e))
  | _, _, .tnil => []
  | _, _, .part ss => toks none ss
  | _, _, .wnil => []
  | _, _, .when_ a b ws =>
    fix (cs! "when") .WhenKeyword :: (toks none a ++ fix (cs! "then") .ThenKeyword :: (toks none b ++ toks none ws))
  | _, _, .in_ p b ws =>
    fix (cs! "in") .InKeyword :: (p.toks ++ fix (cs! "then") .ThenKeyword :: (toks none b ++ toks none ws))
  | _, _, .rnil => []
  | _, _, .resc a v b rs =>
    fix (cs! "rescue") .RescueKeyword :: (toks none a ++ ((match v with
      | some v => [fix (cs! "=>") .HashRocket, ⟨none, v.piece⟩]
      | none => []) ++ semi :: (toks none b ++ toks none rs)))
  | _, _, .bnil => []
  | _, _, .bdo ps b =>
    fix (cs! "do") .DoKeyword :: (opt? ps (bar :: (toks none ps ++ [bar])) ++ (toks none b ++ [end_]))
  | _, _, .qnil => []
  | _, _, .qname x ps => ⟨none, .name x⟩ :: sep ps (toks none ps)
  | _, _, .qdef x e ps => ⟨none, .name x⟩ :: fix (cs! "=") .Equal :: (toks none e ++ sep ps (toks none ps))
  | _, _, .qtup qs ps => fix (cs! "(") .LParen :: (toks none qs ++ rparen :: sep ps (toks none ps))
  | _, _, .qsplat o ps => fix (cs! "*") .Star :: (name? o ++ sep ps (toks none ps))
  | _, _, .qkey x ps => ⟨none, .key x⟩ :: sep ps (toks none ps)
  | _, _, .qkeyd x e ps => ⟨none, .key x⟩ :: (toks none e ++ sep ps (toks none ps))
  | _, _, .qkws o ps => fix (cs! "**") .StarStar :: (name? o ++ sep ps (toks none ps))
  | _, _, .qblk x => [fix (cs! "&") .Ampersand, ⟨none, .name x⟩]

/-! ### What it means -/

/-- A list of statements as one expression. -/
def bod : List Sexp → Sexp
  | [x] => x
  | xs => .node (cs! "block") xs

/-- The same where there may be no statement. -/
def opt : List Sexp → Sexp
  | [] => .nil
  | xs => bod xs

/-- The same if it is left out then. -/
def some? : List Sexp → List Sexp
  | [] => []
  | xs => [bod xs]

/-- Statements, or something else if there is none. -/
def orElse (x : Sexp) : List Sexp → List Sexp
  | [] => [x]
  | xs => xs

/-- The local variables after assignments. -/
def binds (L : List Str) : List Var → List Str
  | [] => L
  | v :: vs => v.bind (binds L vs)

/-- The names that an expression or list makes local variables, in front of the ones before. -/
def out : {k : Kind} → List Str → Ex k → List Str
  | _, L, .array a => out L a
  | _, L, .hash ps => out L ps
  | _, L, .fcall _ a => out L a
  | _, L, .send _ r _ => out L r
  | _, L, .sendA _ r _ a => out (out L r) a
  | _, L, .cmd _ a _ => out L a
  | _, L, .sendC _ r _ a _ => out (out L r) a
  | _, L, .index r a => out (out L r) a
  | _, L, .colon2 r _ => out L r
  | _, L, .superA a => out L a
  | _, L, .yieldA a => out L a
  | _, L, .paren ss => out L ss
  | _, L, .block _ c _ _ => out L c
  -- unlike in Ruby
  | _, L, .lam _ ps _ => out L ps
  | _, L, .un _ e => out L e
  | _, L, .notE e => out L e
  | _, L, .bin _ l r => out (out L l) r
  | _, L, .tern c a b => out (out (out L c) a) b
  | _, L, .asgn v e => out (v.bind L) e
  | _, L, .opasgn v _ e => out (v.bind L) e
  | _, L, .attr _ r _ e => out (out L r) e
  | _, L, .opattr _ r _ _ e => out (out L r) e
  | _, L, .setIndex r a e => out (out (out L r) a) e
  | _, L, .opindex r a _ e => out (out (out L r) a) e
  | _, L, .masgn v w vs e => out (binds L (v :: w :: vs)) e
  | _, L, .masgnL v w vs e a => out (out (binds L (v :: w :: vs)) e) a
  | _, L, .modi _ l c => out (out L l) c
  | _, L, .rescueM l r => out (out L l) r
  | _, L, .if_ c a e => out (out (out L c) a) e
  | _, L, .unless_ c a e => out (out (out L c) a) e
  | _, L, .while_ _ c a => out (out L c) a
  | _, L, .for_ v e a => out (out (v.bind L) e) a
  | _, L, .case_ s ws e => out (out (out L s) ws) e
  | _, L, .case0 ws e => out (out L ws) e
  | _, L, .begin_ b rs el en => out (out (out (out L b) rs) el) en
  | _, L, .sclass e _ => out L e
  | _, L, .ret e => out L e
  | _, L, .jump _ e => out L e
  | _, L, .slast e => out L e
  | _, L, .scons e ss => out (out L e) ss
  | _, L, .acons e a => out (out L e) a
  | _, L, .asplat e a => out (out L e) a
  | _, L, .apairs ps a => out (out L ps) a
  | _, L, .ablk e => out L e
  | _, L, .pcons k v ps => out (out (out L k) v) ps
  | _, L, .pkey _ v ps => out (out L v) ps
  | _, L, .psplat e ps => out (out L e) ps
  | _, L, .els ss => out L ss
  | _, L, .part ss => out L ss
  | _, L, .elsif c a e => out (out (out L c) a) e
  | _, L, .when_ a b ws => out (out (out L a) b) ws
  | _, L, .in_ p b ws => out (out (p.out L) b) ws
  | _, L, .resc a none b rs => out (out (out L a) b) rs
  | _, L, .resc a (some v) b rs => out (out (v.bind (out L a)) b) rs
  | _, L, .qname x ps => out (x :: L) ps
  | _, L, .qdef x e ps => out (out (x :: L) e) ps
  | _, L, .qtup qs ps => out (out L qs) ps
  | _, L, .qsplat o ps => out (o.toList ++ L) ps
  | _, L, .qkey x ps => out (x :: L) ps
  | _, L, .qkeyd x e ps => out (x :: out L e) ps
  | _, L, .qkws o ps => out (o.toList ++ L) ps
  | _, L, .qblk x => x :: L
  | _, L, _ => L

/-- What an expression looks like without its parentheses, as far as its surroundings depend on it. -/
inductive Shape where
  | int (n : Int)
  | and
  | or
  | block
  | begin_
  | other
  deriving DecidableEq

/-- A number. -/
def Shape.isInt : Shape → Bool
  | int _ => true
  | _ => false

def shape : {k : Kind} → Ex k → Shape
  | _, .int n => .int n
  | _, .bin .land _ _ | _, .bin .kand _ _ => .and
  | _, .bin .lor _ _ | _, .bin .kor _ _ => .or
  | _, .paren ss => shape ss
  | _, .rescueM _ _ | _, .begin_ _ _ _ _ => .begin_
  | _, .slast e => shape e
  | _, .scons e ss => if ss.isNil then shape e else .block
  | _, _ => .other

/-- `(a && b) && c` is `a && (b && c)`. -/
def grouped (op : Str) (same : Bool) (x y : List Sexp) : List Sexp :=
  match same, x with
  | true, [.node _ [a, b]] => nd op [a, .node op (b :: y)]
  | _, _ => nd op (x ++ y)

/-- Two values and an operator. -/
def binary (o : Bop) (l r : Shape) (x y : List Sexp) : List Sexp :=
  match o with
  | .land | .kand => grouped (cs! "and") (l == .and) x y
  | .lor | .kor => grouped (cs! "or") (l == .or) x y
  | .dot2 | .dot3 =>
    match l, r with
    | .int a, .int b => nd (cs! "lit") [.range a b (o == .dot3)]
    | _, _ => nd (if o == .dot3 then cs! "dot3" else cs! "dot2") (x ++ y)
  | .nmat => nd (cs! "not") (nd (cs! "call") (x ++ .sym (cs! "=~") :: y))
  | o => nd (cs! "call") (x ++ .sym o.text :: y)

/-- A condition, a body and a modifier. -/
def modified (m : Modi) (x c : List Sexp) : List Sexp :=
  match m with
  | .if_ => nd (cs! "if") (c ++ x ++ [.nil])
  | .unless_ => nd (cs! "if") (c ++ [.nil] ++ x)
  | .while_ => nd (cs! "while") (c ++ x ++ [.true_])
  | .until_ => nd (cs! "until") (c ++ x ++ [.true_])

/-- `v o= y`. -/
def updated (v : Var) (o : Aop) (y : List Sexp) : List Sexp :=
  match o with
  | .and => nd (cs! "op_asgn_and") [.node v.get [.sym v.name], .node v.set (.sym v.name :: y)]
  | .or => nd (cs! "op_asgn_or") [.node v.get [.sym v.name], .node v.set (.sym v.name :: y)]
  | o => nd v.set [.sym v.name, .node (cs! "call") (.node v.get [.sym v.name] :: .sym o.text :: y)]

/-- The type of a method call. -/
def call (safe : Bool) : Str := if safe then cs! "safe_call" else cs! "call"
/-- The type of an assignment by a method call. -/
def attrasgn (safe : Bool) : Str := if safe then cs! "safe_attrasgn" else cs! "attrasgn"

/-- `r.m o= y`. -/
def updatedAttr (safe : Bool) (r : List Sexp) (m : Str) (o : Aop) (y : List Sexp) : List Sexp :=
  match o with
  | .and => nd (cs! "op_asgn_and") [.node (call safe) (r ++ [.sym m]), .node (attrasgn safe) (r ++ .sym (m ++ ['=']) :: y)]
  | .or => nd (cs! "op_asgn_or") [.node (call safe) (r ++ [.sym m]), .node (attrasgn safe) (r ++ .sym (m ++ ['=']) :: y)]
  | o => nd (if safe then cs! "safe_op_asgn2" else cs! "op_asgn2") (r ++ .sym (m ++ ['=']) :: .sym o.text :: y)

/-- The parameters of a block; a block without any has the number 0 there. -/
def params (ps : List Sexp) : Sexp := if ps.isEmpty then .int 0 else .node (cs! "args") ps

/-- A call with a block. -/
def withBlock (c ps b : List Sexp) : List Sexp :=
  nd (cs! "iter") (c ++ params ps :: some? b)

/-- Assignments that get their values from elsewhere. -/
def sets (vs : List Var) : Sexp := .node (cs! "array") (vs.map fun v => .node v.set [.sym v.name])

/-- A body with `rescue` clauses and the bodies of `else` and `ensure`. -/
def rescued (b rs : List Sexp) (el en : Option (List Sexp)) : List Sexp :=
  let items := some? b ++ rs ++ some? (el.getD [])
  match en with
  | none => nd (cs! "rescue") items
  | some e =>
    nd (cs! "ensure") ((if rs.isEmpty then items else nd (cs! "rescue") items) ++ [bod (orElse (.node (cs! "nil") []) e)])

/-- The exceptions of a `rescue` clause and the variable for the exception. -/
def exceptions (xs : List Sexp) (v : Option Var) : Sexp :=
  .node (cs! "array") (xs ++ match v with
    | some v => nd v.set [.sym v.name, .node (cs! "gvar") [.sym (cs! "$!")]]
    | none => [])

/-- The S-expressions of a list, and the one of an expression (a list of one), where `L` are the local variables. -/
def sx : {k : Kind} → List Str → Ex k → List Sexp
  | _, _, .int n => nd (cs! "lit") [.int n]
  | _, _, .str s => nd (cs! "str") [.str s]
  | _, _, .sym x => nd (cs! "lit") [.sym x]
  | _, _, .word x => nd x.text []
  | _, L, .var v =>
    match v with
    | .loc x => if x ∈ L then nd (cs! "lvar") [.sym x] else nd (cs! "call") [.nil, .sym x]
    | v => nd v.get [.sym v.name]
  | _, L, .array a => nd (cs! "array") (sx L a)
  | _, L, .hash ps => nd (cs! "hash") (sx L ps)
  | _, L, .fcall x a => nd (cs! "call") (.nil :: .sym x :: sx L a)
  | _, L, .send safe r m => nd (call safe) (sx L r ++ [.sym m])
  | _, L, .sendA safe r m a => nd (call safe) (sx L r ++ .sym m :: sx (out L r) a)
  | _, L, .cmd x a b =>
    let c := nd (cs! "call") (.nil :: .sym x :: sx L a)
    match b with
    | .bnil => c
    | .bdo ps b => withBlock c (sx (out L a) ps) (sx (out (out L a) ps) b)
  | _, L, .sendC safe r m a b =>
    let c := nd (call safe) (sx L r ++ .sym m :: sx (out L r) a)
    match b with
    | .bnil => c
    | .bdo ps b => withBlock c (sx (out (out L r) a) ps) (sx (out (out (out L r) a) ps) b)
  | _, L, .index r a => nd (cs! "call") (sx L r ++ .sym (cs! "[]") :: sx (out L r) a)
  | _, L, .colon2 r x => nd (cs! "colon2") (sx L r ++ [.sym x])
  | _, _, .colon3 x => nd (cs! "colon3") [.sym x]
  | _, _, .super0 => nd (cs! "zsuper") []
  | _, L, .superA a => nd (cs! "super") (sx L a)
  | _, _, .yield0 => nd (cs! "yield") []
  | _, L, .yieldA a => nd (cs! "yield") (sx L a)
  | _, L, .paren ss => if ss.isNil then nd (cs! "nil") [] else [bod (sx L ss)]
  | _, L, .block _ c ps b => withBlock (sx L c) (sx (out L c) ps) (sx (out (out L c) ps) b)
  | _, L, .lam _ ps b => withBlock (nd (cs! "lambda") []) (sx L ps) (sx (out L ps) b)
  | _, L, .un o e => nd (cs! "call") (sx L e ++ [.sym o.method])
  | _, L, .notE e => nd (cs! "call") (sx L e ++ [.sym (cs! "!")])
  | _, L, .bin o l r => binary o (shape l) (shape r) (sx L l) (sx (out L l) r)
  | _, L, .tern c a b => nd (cs! "if") (sx L c ++ sx (out L c) a ++ sx (out (out L c) a) b)
  | _, L, .asgn v e => nd v.set (.sym v.name :: sx (v.bind L) e)
  | _, L, .opasgn v o e => updated v o (sx (v.bind L) e)
  | _, L, .attr safe r m e => nd (attrasgn safe) (sx L r ++ .sym (m ++ ['=']) :: sx (out L r) e)
  | _, L, .opattr safe r m o e => updatedAttr safe (sx L r) m o (sx (out L r) e)
  | _, L, .setIndex r a e => nd (cs! "attrasgn") (sx L r ++ .sym (cs! "[]=") :: sx (out L r) a ++ sx (out (out L r) a) e)
  | _, L, .opindex r a o e => nd (cs! "op_asgn1") (sx L r ++ .node (cs! "arglist") (sx (out L r) a) :: .sym o.text ::
      sx (out (out L r) a) e)
  | _, L, .masgn v w vs e => nd (cs! "masgn") [sets (v :: w :: vs), .node (cs! "to_ary") (sx (binds L (v :: w :: vs)) e)]
  | _, L, .masgnL v w vs e a => nd (cs! "masgn") [sets (v :: w :: vs), .node (cs! "array")
      (sx (binds L (v :: w :: vs)) e ++ sx (out (binds L (v :: w :: vs)) e) a)]
  | _, L, .modi m l c => modified m (sx L l) (sx (out L l) c)
  | _, L, .rescueM l r => rescued (sx L l) (nd (cs! "resbody") (exceptions [] none :: sx (out L l) r)) none none
  | _, L, .if_ c a e => nd (cs! "if") (sx L c ++ opt (sx (out L c) a) :: sx (out (out L c) a) e)
  | _, L, .unless_ c a e => nd (cs! "if") (sx L c ++ sx (out (out L c) a) e ++ [opt (sx (out L c) a)])
  | _, L, .while_ neg c a => nd (if neg then cs! "until" else cs! "while") (sx L c ++ [opt (sx (out L c) a), .true_])
  | _, L, .for_ v e a => nd (cs! "for") (sx (v.bind L) e ++ .node v.set [.sym v.name] :: some? (sx (out (v.bind L) e) a))
  | _, L, .case_ s ws e => nd (cs! "case") (sx L s ++ sx (out L s) ws ++ sx (out (out L s) ws) e)
  | _, L, .case0 ws e => nd (cs! "case") (.nil :: sx L ws ++ sx (out L ws) e)
  | _, L, .begin_ b rs el en =>
    let Lb := out L b
    let Lr := out Lb rs
    rescued (sx L b) (sx Lb rs)
      (match el with
        | .part ss => some (sx Lr ss)
        | _ => none)
      (match en with
        | .part ss => some (sx (out Lr el) ss)
        | _ => none)
  | _, _, .def_ slf x ps b =>
    nd (if slf then cs! "defs" else cs! "defn") ((if slf then nd (cs! "self") [] else []) ++
      .sym x :: .node (cs! "args") (sx [] ps) :: orElse (.node (cs! "nil") []) (sx (out [] ps) b))
  | _, _, .defE slf x ps e =>
    nd (if slf then cs! "defs" else cs! "defn") ((if slf then nd (cs! "self") [] else []) ++
      .sym x :: .node (cs! "args") (sx [] ps) :: sx (out [] ps) e)
  | _, _, .class_ x sup b => nd (cs! "class") (.sym x :: (match sup with
      | some y => .node (cs! "const") [.sym y]
      | none => .nil) :: sx [] b)
  | _, _, .module_ x b => nd (cs! "module") (.sym x :: sx [] b)
  | _, L, .sclass e b => nd (cs! "sclass") (sx L e ++ sx (out L e) b)
  | _, L, .postexe b => withBlock (nd (cs! "postexe") []) [] (sx L b)
  | _, _, .ret0 => nd (cs! "return") []
  | _, L, .ret e => nd (cs! "return") (sx L e)
  | _, _, .jump0 j => nd j.text []
  | _, L, .jump j e => nd j.text (sx L e)
  | _, _, .snil => []
  | _, L, .slast e => sx L e
  | _, L, .scons e ss => sx L e ++ sx (out L e) ss
  | _, _, .anil => []
  | _, L, .acons e a => sx L e ++ sx (out L e) a
  | _, L, .asplat e a => nd (cs! "splat") (sx L e) ++ sx (out L e) a
  | _, L, .apairs ps a => nd (cs! "bare_hash") (sx L ps) ++ sx (out L ps) a
  | _, L, .ablk e => nd (cs! "block_pass") (sx L e)
  | _, _, .pnil => []
  | _, L, .pcons k v ps => sx L k ++ sx (out L k) v ++ sx (out (out L k) v) ps
  | _, L, .pkey x v ps => nd (cs! "lit") [.sym x] ++ sx L v ++ sx (out L v) ps
  | _, L, .psplat e ps => nd (cs! "kwsplat") (sx L e) ++ sx (out L e) ps
  | _, _, .enil => [.nil]
  | _, L, .els ss => [opt (sx L ss)]
  | _, L, .elsif c a e => nd (cs! "if") (sx L c ++ opt (sx (out L c) a) :: sx (out (out L c) a) e)
  | _, _, .tnil => [.nil]
  | _, L, .part ss => [opt (sx L ss)]
  | _, _, .wnil => []
  | _, L, .when_ a b ws =>
    nd (cs! "when") (.node (cs! "array") (sx L a) :: orElse .nil (sx (out L a) b)) ++ sx (out (out L a) b) ws
  | _, L, .in_ p b ws => nd (cs! "in") (p.sx :: orElse .nil (sx (p.out L) b)) ++ sx (out (p.out L) b) ws
  | _, _, .rnil => []
  | _, L, .resc a none b rs =>
    nd (cs! "resbody") (exceptions (sx L a) none :: orElse .nil (sx (out L a) b)) ++ sx (out (out L a) b) rs
  | _, L, .resc a (some v) b rs =>
    nd (cs! "resbody") (exceptions (sx L a) (some v) :: orElse .nil (sx (v.bind (out L a)) b)) ++
      sx (out (v.bind (out L a)) b) rs
  | _, _, .bnil => []
  | _, _, .bdo _ _ => []
  | _, _, .qnil => []
  | _, L, .qname x ps => .sym x :: sx (x :: L) ps
  | _, L, .qdef x e ps => nd (cs! "lasgn") (.sym x :: sx (x :: L) e) ++ sx (out (x :: L) e) ps
  | _, L, .qtup qs ps => nd (cs! "masgn") (sx L qs) ++ sx (out L qs) ps
  | _, L, .qsplat o ps => .sym ('*' :: o.getD []) :: sx (o.toList ++ L) ps
  | _, L, .qkey x ps => nd (cs! "kwarg") [.sym x] ++ sx (x :: L) ps
  | _, L, .qkeyd x e ps => nd (cs! "kwarg") (.sym x :: sx L e) ++ sx (x :: out L e) ps
  | _, L, .qkws o ps => .sym ('*' :: '*' :: o.getD []) :: sx (o.toList ++ L) ps
  | _, _, .qblk x => [.sym ('&' :: x)]

/-- A whole program. -/
def prog (ss : Ex .sts) : Sexp := bod (sx [] ss)

/-! ### What may stand where -/

/-- The level that an expression before a token needs (99: the token does not follow an expression). -/
def need : Ttype → Nat
  | .RParen | .RBracket | .RCurlyBrace | .Semicolon | .Newline | .Eof | .EndKeyword | .ElseKeyword | .ElsifKeyword | .ThenKeyword
  | .HashRocket | .DoKeyword => 0
  | .AndKeyword | .OrKeyword => 2
  | .IfKeyword | .UnlessKeyword | .WhileKeyword | .UntilKeyword => 3
  | .Comma | .TernaryColon => 7
  | .TernaryQuestion | .RescueKeyword => 8
  | .PipePipe => 9
  | .AmpersandAmpersand => 10
  | .DotDot | .DotDotDot => 11
  | .Comparison | .EqualEqual | .EqualEqualEqual | .NotEqual | .Match | .NotMatch => 12
  | .LessThan | .LessThanOrEqual | .GreaterThan | .GreaterThanOrEqual => 12
  | .Pipe | .Caret => 13
  | .Ampersand => 14
  | .LeftShift | .RightShift => 15
  | .Plus | .Minus => 16
  | .Star | .Slash | .Percent => 17
  | .StarStar => 20
  | .Dot | .SafeNavigation | .LBracket | .ConstantResolution | .LCurlyBrace => 21
  | _ => 99

/-- A construct of the given level may stand before a token. -/
def lets (n : Nat) (ty : Ttype) : Bool := need ty ≤ n

/-- An expression or list may be followed by a token: every construct that is still open at its end lets the token end
it. -/
def after : {k : Kind} → Ex k → Ttype → Bool
  | _, .int n, ty => lets (if n < 0 then 18 else 21) ty
  -- the lexer takes `'a':` for the key of a hash
  | _, .str _, ty => lets 21 ty && ty != .ConstantResolution
  | _, .super0, ty => lets 21 ty && ty != .LBracket
  | _, .yield0, ty => lets 21 ty && ty != .LBracket
  | _, .cmd _ a b, ty => lets 3 ty && ty != .HashRocket && ty != .DoKeyword && (!b.isNil || after a ty)
  | _, .sendC _ _ _ a b, ty => lets 3 ty && ty != .HashRocket && ty != .DoKeyword && (!b.isNil || after a ty)
  | _, .un o e, ty => lets o.level ty && after e ty
  | _, .notE e, ty => lets 3 ty && after e ty
  | _, .bin o _ r, ty => lets o.level ty && after r ty
  | _, .tern _ _ b, ty => lets 7 ty && after b ty
  | _, .asgn _ e, ty => lets 5 ty && after e ty
  | _, .opasgn _ _ e, ty => lets 5 ty && after e ty
  | _, .attr _ _ _ e, ty => lets 5 ty && after e ty
  | _, .opattr _ _ _ _ e, ty => lets 5 ty && after e ty
  | _, .setIndex _ _ e, ty => lets 5 ty && after e ty
  | _, .opindex _ _ _ e, ty => lets 5 ty && after e ty
  | _, .masgn _ _ _ e, ty => lets 5 ty && after e ty
  | _, .masgnL _ _ _ _ a, ty => lets 5 ty && after a ty
  | _, .modi _ _ c, ty => lets 0 ty && after c ty
  | _, .rescueM _ r, ty => lets 0 ty && after r ty
  -- `def x = a if b` is `def x = (a if b)`, unlike in Ruby
  | _, .defE _ _ _ e, ty => lets 0 ty && after e ty
  | _, .postexe _, ty => lets 0 ty
  | _, .ret0, ty => ty ∈ [.EndKeyword, .RCurlyBrace, .Semicolon, .Newline, .Eof, .IfKeyword, .UnlessKeyword, .WhileKeyword, .UntilKeyword]
  | _, .ret e, ty => lets 5 ty && ty != .HashRocket && after e ty
  | _, .jump0 _, ty => lets 5 ty && ty != .DoKeyword
  | _, .jump _ e, ty => lets 5 ty && after e ty
  | _, .snil, _ => true
  | _, .slast e, ty => after e ty
  | _, .scons e ss, ty => after e .Semicolon && after ss ty
  | _, .anil, _ => true
  | _, .acons e a, ty => if a.isNil then after e ty else after e .Comma && after a ty
  | _, .asplat e a, ty => if a.isNil then after e ty else after e .Comma && after a ty
  | _, .apairs ps a, ty => if a.isNil then after ps ty else after ps .Comma && after a ty
  | _, .ablk e, ty => lets 0 ty && after e ty
  | _, .pnil, _ => true
  | _, .pcons _ v ps, ty => if ps.isNil then after v ty else after v .Comma && after ps ty
  | _, .pkey _ v ps, ty => if ps.isNil then after v ty else after v .Comma && after ps ty
  | _, .psplat e ps, ty => if ps.isNil then after e ty else after e .Comma && after ps ty
  | _, .enil, _ => true
  | _, .els ss, ty => after ss ty
  | _, .elsif _ a e, ty => if e.isNil then after a ty else after e ty
  | _, .tnil, _ => true
  | _, .part ss, ty => after ss ty
  | _, .qnil, _ => true
  | _, .qname _ ps, ty => after ps ty
  | _, .qdef _ e ps, ty => if ps.isNil then after e ty else after e .Comma && after ps ty
  | _, .qtup _ ps, ty => after ps ty
  | _, .qsplat _ ps, ty => after ps ty
  | _, .qkey _ ps, ty => after ps ty
  | _, .qkeyd _ e ps, ty => if ps.isNil then after e ty else after e .Comma && after ps ty
  | _, .qkws _ ps, ty => after ps ty
  | _, .qblk _, _ => true
  | _, _, ty => lets 21 ty

/-- The level that an expression has for an operator before it: no construct that is open at its start binds less
tightly. Methods of numbers rank below `**` and the operators `!`, `~` and `+`, unlike in Ruby. -/
def lhs : {k : Kind} → Ex k → Nat
  | _, .send _ r _ | _, .sendA _ r _ _ => if (shape r).isInt then min 18 (lhs r) else lhs r
  | _, .index r _ => lhs r
  | _, .colon2 r _ => lhs r
  | _, .block _ c _ _ => lhs c
  | _, .notE _ => 3
  | _, .cmd _ _ _ => 5
  | _, .sendC _ r _ _ _ => min 5 (lhs r)
  | _, .bin o l _ => min o.level (lhs l)
  | _, .tern c _ _ => min 7 (lhs c)
  | _, .asgn _ _ | _, .opasgn _ _ _ => 5
  | _, .attr _ r _ _ | _, .opattr _ r _ _ _ | _, .setIndex r _ _ | _, .opindex r _ _ _ => min 5 (lhs r)
  | _, .masgn _ _ _ _ | _, .masgnL _ _ _ _ _ | _, .postexe _ => 0
  | _, .defE _ _ _ _ => 5
  | _, .modi _ l _ => min 1 (lhs l)
  | _, .rescueM l _ => min 5 (lhs l)
  | _, .ret0 | _, .ret _ | _, .jump0 _ | _, .jump _ _ => 3
  | _, _ => 21

/-- The token after the first branch of an `if`. -/
def Ex.head : {k : Kind} → Ex k → Ttype
  | _, .els _ | _, .part _ => .ElseKeyword
  | _, .elsif _ _ _ => .ElsifKeyword
  | _, _ => .EndKeyword

/-- There is a `do` block that is not inside of brackets or of a body. -/
def hasDo : {k : Kind} → Ex k → Bool
  | _, .hash ps => hasDo ps
  | _, .fcall _ a => hasDo a
  | _, .send _ r _ => hasDo r
  | _, .sendA _ r _ a => hasDo r || hasDo a
  | _, .cmd _ _ b => !b.isNil
  | _, .sendC _ r _ _ b => hasDo r || !b.isNil
  | _, .index r a => hasDo r || hasDo a
  | _, .colon2 r _ => hasDo r
  | _, .superA a => hasDo a
  | _, .yieldA a => hasDo a
  | _, .block d c ps _ => d || hasDo c || hasDo ps
  | _, .lam _ ps _ => hasDo ps
  | _, .un _ e => hasDo e
  | _, .notE e => hasDo e
  | _, .bin _ l r => hasDo l || hasDo r
  | _, .tern c a b => hasDo c || hasDo a || hasDo b
  | _, .asgn _ e => hasDo e
  | _, .opasgn _ _ e => hasDo e
  | _, .attr _ r _ e => hasDo r || hasDo e
  | _, .opattr _ r _ _ e => hasDo r || hasDo e
  | _, .setIndex r a e => hasDo r || hasDo a || hasDo e
  | _, .opindex r a _ e => hasDo r || hasDo a || hasDo e
  | _, .masgn _ _ _ e => hasDo e
  | _, .masgnL _ _ _ e a => hasDo e || hasDo a
  | _, .modi _ l c => hasDo l || hasDo c
  | _, .rescueM l r => hasDo l || hasDo r
  | _, .if_ c a e => hasDo c || hasDo a || hasDo e
  | _, .unless_ c a e => hasDo c || hasDo a || hasDo e
  | _, .case_ s ws _ => hasDo s || hasDo ws
  | _, .case0 ws _ => hasDo ws
  | _, .begin_ _ rs _ _ => hasDo rs
  | _, .def_ _ _ ps _ => hasDo ps
  | _, .defE _ _ ps e => hasDo ps || hasDo e
  | _, .sclass e _ => hasDo e
  | _, .ret e => hasDo e
  | _, .jump _ e => hasDo e
  | _, .slast e => hasDo e
  | _, .scons e ss => hasDo e || hasDo ss
  | _, .acons e a => hasDo e || hasDo a
  | _, .asplat e a => hasDo e || hasDo a
  | _, .apairs ps a => hasDo ps || hasDo a
  | _, .ablk e => hasDo e
  | _, .pcons k v ps => hasDo k || hasDo v || hasDo ps
  | _, .pkey _ v ps => hasDo v || hasDo ps
  | _, .psplat e ps => hasDo e || hasDo ps
  | _, .els ss => hasDo ss
  | _, .part ss => hasDo ss
  | _, .elsif c a e => hasDo c || hasDo a || hasDo e
  | _, .when_ a b ws => hasDo a || hasDo b || hasDo ws
  | _, .in_ _ b ws => hasDo b || hasDo ws
  | _, .resc a _ _ rs => hasDo a || hasDo rs
  | _, .qname _ ps => hasDo ps
  | _, .qdef _ e ps => hasDo e || hasDo ps
  | _, .qtup qs ps => hasDo qs || hasDo ps
  | _, .qsplat _ ps => hasDo ps
  | _, .qkey _ ps => hasDo ps
  | _, .qkeyd _ e ps => hasDo e || hasDo ps
  | _, .qkws _ ps => hasDo ps
  | _, _ => false

/-- All statements end with a semicolon. -/
def closed : {k : Kind} → Ex k → Bool
  | _, .slast _ => false
  | _, .scons _ ss => closed ss
  | _, .part ss => closed ss
  | _, _ => true

/-- No pairs and no block among the arguments. -/
def simple : {k : Kind} → Ex k → Bool
  | _, .acons _ a | _, .asplat _ a => simple a
  | _, .anil => true
  | _, _ => false

/-- No splats either. -/
def values : {k : Kind} → Ex k → Bool
  | _, .acons _ a => values a
  | _, .anil => true
  | _, _ => false

/-- No block among the arguments. -/
def blockless : {k : Kind} → Ex k → Bool
  | _, .acons _ a | _, .asplat _ a | _, .apairs _ a => blockless a
  | _, .anil => true
  | _, _ => false

/-- No `**e` at the start of pairs without braces. -/
def unsplat : {k : Kind} → Ex k → Bool
  | _, .acons _ a | _, .asplat _ a => unsplat a
  | _, .apairs (.psplat _ _) _ => false
  | _, _ => true

/-- The type of the first token. -/
def start {k : Kind} (e : Ex k) : Ttype := ((toks none e).head?.map (·.p.type)).getD .Invalid

/-- Tokens that start the first argument of a command, whatever blanks there are. -/
def cmdStart : Ttype → Bool
  | .BareName | .Constant | .Fixnum | .String | .Symbol | .SymbolKey | .InstanceVariable | .GlobalVariable
  | .ClassVariable | .NilKeyword | .TrueKeyword | .FalseKeyword | .SelfKeyword | .SuperKeyword | .YieldKeyword | .Arrow => true
  | _ => false

/-- Methods that are not called with a block. -/
def noBlock (m : Str) : Bool := m ∈ [cs! "private", cs! "protected", cs! "public"]

/-- Calls that a block can be given to. -/
def callee (L : List Str) : {k : Kind} → Ex k → Bool
  | _, .var (.loc x) => x ∉ L
  | _, .fcall x a => blockless a && !noBlock x
  | _, .send _ _ m => !noBlock m
  | _, .sendA _ _ m a => blockless a && !noBlock m
  | _, .super0 => true
  | _, .superA a => blockless a
  | _, _ => false

/-- Tokens that end a `return` without a value. -/
def modifier : Ttype → Bool
  | .IfKeyword | .UnlessKeyword | .WhileKeyword | .UntilKeyword => true
  | _ => false

/-- `break` and `next` with a value: how the value can start. -/
def jumpStart : Ttype → Bool
  | .Minus | .Plus | .LBracket | .LBracketRBracket | .LCurlyBrace | .Not | .Tilde => true
  | ty => cmdStart ty

/-- The parameters are in order, where a number tells which have come before: names (0), names with values (1), `*` (2),
names after these (3), keywords (4) and `**` (5). -/
def ordered : {k : Kind} → Nat → Ex k → Bool
  | _, n, .qname _ ps | _, n, .qtup _ ps => n ≤ 3 && ordered (if n = 0 then 0 else 3) ps
  | _, n, .qdef _ _ ps => n ≤ 1 && ordered 1 ps
  | _, n, .qsplat _ ps => n ≤ 1 && ordered 2 ps
  | _, n, .qkey _ ps | _, n, .qkeyd _ _ ps => n ≤ 4 && ordered 4 ps
  | _, n, .qkws _ ps => n ≤ 4 && ordered 5 ps
  | _, _, _ => true

/-- Parameters that may stand in the parentheses of a parameter. -/
def tuple : {k : Kind} → Ex k → Bool
  | _, .qnil => true
  | _, .qname _ ps | _, .qtup _ ps | _, .qsplat _ ps => tuple ps
  | _, _ => false

/-- The keyword of the first branch of a `case`. -/
def clause : {k : Kind} → Ex k → Ttype
  | _, .when_ _ _ _ => .WhenKeyword
  | _, .in_ _ _ _ => .InKeyword
  | _, _ => .EndKeyword

/-- The operands have the levels they need, where `L` are the local variables. -/
def WF : {k : Kind} → List Str → Ex k → Bool
  | _, L, .array a => WF L a && after a .RBracket && blockless a && unsplat a
  | _, L, .hash ps => WF L ps && after ps .RCurlyBrace
  | _, L, .fcall _ a => WF L a && after a .RParen
  | _, L, .send safe r _ => WF L r && after r (dot safe).p.type
  | _, L, .sendA safe r _ a => WF L r && after r (dot safe).p.type && WF (out L r) a && after a .RParen
  | _, L, .cmd x a b => x ∉ L && WF L a && cmdStart (start a) && !hasDo a && after a .DoKeyword && WF (out L a) b &&
      (b.isNil || blockless a && !noBlock x)
  | _, L, .sendC safe r m a b => WF L r && after r (dot safe).p.type && WF (out L r) a && cmdStart (start a) && !hasDo a &&
      after a .DoKeyword && WF (out (out L r) a) b && (b.isNil || blockless a && !noBlock m)
  | _, L, .index r a => WF L r && after r .LBracket && WF (out L r) a && after a .RBracket && blockless a && !a.isNil
  | _, L, .colon2 r _ => WF L r && after r .ConstantResolution
  | _, L, .superA a => WF L a && after a .RParen
  | _, L, .yieldA a => WF L a && after a .RParen && blockless a
  | _, L, .paren ss => WF L ss && after ss .RParen
  | _, L, .block d c ps b => WF L c && callee L c && WF (out L c) ps && ordered 0 ps && after ps .Pipe &&
      WF (out (out L c) ps) b && after b (close d).p.type
  | _, L, .lam d ps b => WF L ps && ordered 0 ps && after ps .RParen && WF (out L ps) b && after b (close d).p.type
  -- `-(5)` is the number
  | _, L, .un o e => WF L e && o.need ≤ lhs e && !((o == .neg || o == .pos) && (shape e).isInt)
  | _, L, .notE e => WF L e && 11 ≤ lhs e
  | _, L, .bin o l r => WF L l && WF (out L l) r && after l o.type && o.needR ≤ lhs r
  | _, L, .tern c a b => WF L c && WF (out L c) a && WF (out (out L c) a) b && after c .TernaryQuestion && 7 ≤ lhs a &&
      after a .TernaryColon && 7 ≤ lhs b
  | _, L, .asgn v e => WF (v.bind L) e && 5 ≤ lhs e
  | _, L, .opasgn v _ e => WF (v.bind L) e && 5 ≤ lhs e
  | _, L, .attr safe r _ e => WF L r && after r (dot safe).p.type && WF (out L r) e && 5 ≤ lhs e
  | _, L, .opattr safe r m _ e => WF L r && after r (dot safe).p.type && WF (out L r) e && 7 ≤ lhs e && m != cs! "[]"
  | _, L, .setIndex r a e => WF L r && after r .LBracket && WF (out L r) a && after a .RBracket && blockless a &&
      !a.isNil && WF (out (out L r) a) e && 5 ≤ lhs e
  | _, L, .opindex r a _ e => WF L r && after r .LBracket && WF (out L r) a && after a .RBracket && blockless a &&
      !a.isNil && WF (out (out L r) a) e && 7 ≤ lhs e
  | _, L, .masgn v w vs e => WF (binds L (v :: w :: vs)) e && 5 ≤ lhs e
  | _, L, .masgnL v w vs e a => WF (binds L (v :: w :: vs)) e && 7 ≤ lhs e && after e .Comma &&
      WF (out (binds L (v :: w :: vs)) e) a && values a && !a.isNil
  -- `(a; b) while c` runs at least once
  | _, L, .modi m l c => WF L l && WF (out L l) c && after l m.type && 2 ≤ lhs c &&
      !((m == .while_ || m == .until_) && (shape l == .block || shape l == .begin_))
  | _, L, .rescueM l r => WF L l && WF (out L l) r && after l .RescueKeyword && 5 ≤ lhs r
  | _, L, .if_ c a e => WF L c && WF (out L c) a && WF (out (out L c) a) e && after c .ThenKeyword && after a e.head &&
      after e .EndKeyword
  | _, L, .unless_ c a e => WF L c && WF (out L c) a && WF (out (out L c) a) e && after c .ThenKeyword && after a e.head &&
      after e .EndKeyword
  | _, L, .while_ _ c a => WF L c && !hasDo c && WF (out L c) a && after c .Semicolon && after a .EndKeyword
  | _, L, .for_ v e a => WF (v.bind L) e && !hasDo e && 7 ≤ lhs e && after e .Semicolon && WF (out (v.bind L) e) a &&
      after a .EndKeyword
  | _, L, .case_ s ws e => WF L s && 1 ≤ lhs s && after s .Semicolon && WF (out L s) ws && !ws.isNil && WF (out (out L s) ws) e &&
      (match e with
        | .part .snil => false
        | _ => true) && after e .EndKeyword
  | _, L, .case0 ws e => WF L ws && clause ws == .WhenKeyword && WF (out L ws) e &&
      (match e with
        | .part .snil => false
        | _ => true) && after e .EndKeyword
  | _, L, .begin_ b rs el en => WF L b && closed b && WF (out L b) rs && WF (out (out L b) rs) el && closed el &&
      WF (out (out (out L b) rs) el) en && closed en && !(rs.isNil && en.isNil) && !(rs.isNil && !el.isNil)
  | _, _, .def_ _ _ ps b => WF [] ps && ordered 0 ps && after ps .RParen && WF (out [] ps) b && after b .EndKeyword
  | _, _, .defE _ x ps e => WF [] ps && ordered 0 ps && after ps .RParen && WF (out [] ps) e && 5 ≤ lhs e && x.getLast? != some '='
  | _, _, .class_ _ _ b => WF [] b && after b .EndKeyword
  | _, _, .module_ _ b => WF [] b && after b .EndKeyword
  -- the body sees the local variables outside of it and makes new ones there, unlike in Ruby
  | _, L, .sclass e b => WF L e && 7 ≤ lhs e && after e .Semicolon && WF (out L e) b && after b .EndKeyword &&
      (out L e).isEmpty && (out (out L e) b).isEmpty
  -- the local variables of the body are unknown outside of it, unlike in Ruby
  | _, L, .postexe b => WF L b && after b .RCurlyBrace && (out L b).length == L.length
  | _, L, .ret e => WF L e && 7 ≤ lhs e && !modifier (start e)
  | _, L, .jump _ e => WF L e && 7 ≤ lhs e && jumpStart (start e)
  | _, L, .slast e => WF L e
  | _, L, .scons e ss => WF L e && WF (out L e) ss && after e .Semicolon
  | _, L, .acons e a => WF L e && WF (out L e) a && 7 ≤ lhs e && (a.isNil || after e .Comma)
  | _, L, .asplat e a => WF L e && WF (out L e) a && 11 ≤ lhs e && (a.isNil || after e .Comma)
  | _, L, .apairs ps a => WF L ps && !ps.isNil && WF (out L ps) a && (a.isNil || after ps .Comma) &&
      (match a with
        | .anil | .ablk _ => true
        | _ => false)
  | _, L, .ablk e => WF L e
  | _, L, .pcons k v ps => WF L k && WF (out L k) v && WF (out (out L k) v) ps && 7 ≤ lhs k && after k .HashRocket &&
      7 ≤ lhs v && (ps.isNil || after v .Comma)
  | _, L, .pkey _ v ps => WF L v && WF (out L v) ps && 7 ≤ lhs v && (ps.isNil || after v .Comma)
  | _, L, .psplat e ps => WF L e && WF (out L e) ps && 11 ≤ lhs e && (ps.isNil || after e .Comma)
  | _, L, .els ss => WF L ss
  | _, L, .part ss => WF L ss
  | _, L, .elsif c a e => WF L c && WF (out L c) a && WF (out (out L c) a) e && after c .ThenKeyword && after a e.head
  | _, L, .when_ a b ws => WF L a && simple a && !a.isNil && after a .ThenKeyword && WF (out L a) b && closed b &&
      WF (out (out L a) b) ws && clause ws != .InKeyword
  | _, L, .in_ p b ws => p.WF L && WF (p.out L) b && closed b && WF (out (p.out L) b) ws && clause ws != .WhenKeyword
  | _, L, .resc a none b rs => WF L a && simple a && after a .Semicolon && WF (out L a) b && closed b &&
      WF (out (out L a) b) rs
  | _, L, .resc a (some v) b rs => WF L a && simple a && after a .HashRocket && WF (v.bind (out L a)) b && closed b &&
      WF (out (v.bind (out L a)) b) rs
  | _, L, .bdo ps b => WF L ps && ordered 0 ps && after ps .Pipe && WF (out L ps) b && after b .EndKeyword
  | _, L, .qname x ps => WF (x :: L) ps
  | _, L, .qdef x e ps => WF (x :: L) e && WF (out (x :: L) e) ps && 16 ≤ lhs e && (ps.isNil || after e .Comma)
  | _, L, .qtup qs ps => WF L qs && ordered 0 qs && tuple qs && !qs.isNil && WF (out L qs) ps
  | _, L, .qsplat o ps => WF (o.toList ++ L) ps
  | _, L, .qkey x ps => WF (x :: L) ps
  -- whether `x` is a local variable there does not matter
  | _, L, .qkeyd x e ps => WF L e && WF (x :: out L e) ps && 16 ≤ lhs e && (ps.isNil || after e .Comma) &&
      (toks none e).all (·.p != .name x)
  | _, L, .qkws o ps => WF (o.toList ++ L) ps
  | _, _, _ => true

end NP.Gram
