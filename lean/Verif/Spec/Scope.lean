import Verif.Spec.Lexeme
import Verif.Model.Node

/-!
Scopes of local variables: programs made of uses of names, assignments and the constructs that open scopes, the names
that are local variables at each place, and the syntax trees in which each name is marked accordingly.
-/

namespace NP.Spec

/-- What is assigned: the number 1 or a bare name. -/
inductive Val where
  | one
  | name (y : Str)

/-- A program: a list of statements (`k` is what follows a statement). -/
inductive Prog where
  | nil
  /-- `x` -/
  | use (x : Str) (k : Prog)
  /-- `x = v` -/
  | set (x : Str) (v : Val) (k : Prog)
  /-- `while x; … end` -/
  | while_ (x : Str) (body k : Prog)
  /-- `def f(a, b); … end` -/
  | def_ (f : Str) (ps : List Str) (body k : Prog)
  /-- `class C; … end` -/
  | class_ (c : Str) (body k : Prog)
  /-- `class C < x; … end` -/
  | sub (c x : Str) (body k : Prog)
  /-- `class << self; … end` -/
  | meta_ (body k : Prog)
  /-- `module C; … end` -/
  | module_ (c : Str) (body k : Prog)
  /-- `f do |a, b|; … end` -/
  | block (f : Str) (ps : List Str) (body k : Prog)
  /-- `->(a, b) do; … end` -/
  | lam (ps : List Str) (body k : Prog)

/-- Three choices in the rules for scopes. -/
structure Rules where
  /-- The parameters of a lambda are known after it. -/
  lambdaLeaks : Bool
  /-- No name is known in the superclass expression of a class. -/
  superclassFresh : Bool
  /-- The body of `class << self` is not a scope of its own. -/
  metaShares : Bool

/-- The rules of Ruby. -/
def Rules.ruby : Rules := ⟨false, false, false⟩

/-- The rules that the parser follows. -/
def Rules.actual : Rules := ⟨true, true, true⟩

namespace Prog

/-- `names ps` with commas. -/
def params : List Str → Str
  | [] => []
  | [p] => p
  | p :: q :: ps => p ++ (cs! ", " ++ params (q :: ps))

/-- A program as text. -/
def show_ : Prog → Str
  | nil => []
  | use x k => x ++ (cs! "; " ++ k.show_)
  | set x .one k => x ++ (cs! " = 1; " ++ k.show_)
  | set x (.name y) k => x ++ (cs! " = " ++ (y ++ (cs! "; " ++ k.show_)))
  | while_ x b k => cs! "while " ++ (x ++ (cs! "; " ++ (b.show_ ++ (cs! "end; " ++ k.show_))))
  | def_ f ps b k => cs! "def " ++ (f ++ (cs! "(" ++ (params ps ++ (cs! "); " ++ (b.show_ ++ (cs! "end; " ++ k.show_))))))
  | class_ c b k => cs! "class " ++ (c ++ (cs! "; " ++ (b.show_ ++ (cs! "end; " ++ k.show_))))
  | sub c x b k => cs! "class " ++ (c ++ (cs! " < " ++ (x ++ (cs! "; " ++ (b.show_ ++ (cs! "end; " ++ k.show_))))))
  | meta_ b k => cs! "class << self; " ++ (b.show_ ++ (cs! "end; " ++ k.show_))
  | module_ c b k => cs! "module " ++ (c ++ (cs! "; " ++ (b.show_ ++ (cs! "end; " ++ k.show_))))
  | block f [] b k => f ++ (cs! " do; " ++ (b.show_ ++ (cs! "end; " ++ k.show_)))
  | block f (p :: ps) b k =>
    f ++ (cs! " do |" ++ (params (p :: ps) ++ (cs! "|; " ++ (b.show_ ++ (cs! "end; " ++ k.show_)))))
  | lam ps b k => cs! "->(" ++ (params ps ++ (cs! ") do; " ++ (b.show_ ++ (cs! "end; " ++ k.show_))))

/-- The names that are local variables after the program, if those in `L` are before it. -/
def out (r : Rules) : List Str → Prog → List Str
  | L, nil => L
  | L, use _ k => k.out r L
  | L, set x _ k => k.out r (x :: L)
  | L, while_ _ b k => k.out r (b.out r L)
  | L, def_ _ _ _ k | L, class_ _ _ k | L, sub _ _ _ k | L, module_ _ _ k | L, block _ _ _ k => k.out r L
  | L, meta_ b k => k.out r (if r.metaShares then b.out r L else L)
  | L, lam ps _ k => k.out r (if r.lambdaLeaks then ps.reverse ++ L else L)

/-- No lambda, no superclass, no `class << self`. -/
def Regular : Prog → Prop
  | nil => True
  | use _ k | set _ _ k => k.Regular
  | while_ _ b k | def_ _ _ b k | class_ _ b k | module_ _ b k | block _ _ b k => b.Regular ∧ k.Regular
  | sub .. | meta_ .. | lam .. => False

end Prog

/-- The name of a variable or method: a small letter or `_`, then name bytes; not a keyword. -/
def IsName (x : Str) : Prop :=
  ∃ c n, x = c :: n ∧ (('a' ≤ c ∧ c ≤ 'z') ∨ c = '_') ∧ (∀ b ∈ n, nameByte b = true) ∧ ∀ t, (x, t) ∉ keywordTable

/-- The name of a class or module: a capital letter, then name bytes; not a keyword. -/
def IsConst (x : Str) : Prop :=
  ∃ c n, x = c :: n ∧ ('A' ≤ c ∧ c ≤ 'Z') ∧ (∀ b ∈ n, nameByte b = true) ∧ ∀ t, (x, t) ∉ keywordTable

/-- All names of a program are names. -/
def Prog.Named : Prog → Prop
  | .nil => True
  | .use x k => IsName x ∧ k.Named
  | .set x .one k => IsName x ∧ k.Named
  | .set x (.name y) k => IsName x ∧ IsName y ∧ k.Named
  | .while_ x b k => IsName x ∧ b.Named ∧ k.Named
  | .def_ f ps b k => IsName f ∧ (∀ p ∈ ps, IsName p) ∧ b.Named ∧ k.Named
  | .class_ c b k => IsConst c ∧ b.Named ∧ k.Named
  | .sub c x b k => IsConst c ∧ IsName x ∧ b.Named ∧ k.Named
  | .meta_ b k => b.Named ∧ k.Named
  | .module_ c b k => IsConst c ∧ b.Named ∧ k.Named
  | .block f ps b k => IsName f ∧ (∀ p ∈ ps, IsName p) ∧ b.Named ∧ k.Named
  | .lam ps b k => (∀ p ∈ ps, IsName p) ∧ b.Named ∧ k.Named

/-- The tree of a use of the name `x` where the local variables are `L`. -/
inductive Uses (L : List Str) (x : Str) : Node → Prop where
  | mk (t : Token) (b : Bool) (ht : t.lit = some x) (hb : b = true ↔ x ∈ L) : Uses L x (.identifier t b)

/-- A name that is not a use of a variable: the target of an assignment, a class, a method that is given a block. -/
inductive Ident (x : Str) : Node → Prop where
  | mk (t : Token) (b : Bool) (ht : t.lit = some x) : Ident x (.identifier t b)

/-- The tree of a value. -/
inductive Values (L : List Str) : Val → Node → Prop where
  | one (t : Token) : Values L .one (.fixnum t 1)
  | name (y : Str) (n : Node) (h : Uses L y n) : Values L (.name y) n

/-- The trees of parameters. -/
inductive Params : List Str → List Node → Prop where
  | nil : Params [] []
  | cons (p : Str) (t : Token) (ps : List Str) (qs : List Node) (h : Params ps qs) :
      Params (p :: ps) (.arg t (some p) false false false none :: qs)

/-- `Means r L p ns`: the syntax trees `ns` are those of the statements of `p`, in a place where the local variables are
`L`, and a name is marked as a local variable exactly where it is one under the rules `r`. -/
inductive Means (r : Rules) : List Str → Prog → List Node → Prop where
  | nil (L : List Str) : Means r L .nil []
  | use (L : List Str) (x : Str) (k : Prog) (n : Node) (ns : List Node) (hx : Uses L x n) (hk : Means r L k ns) :
      Means r L (.use x k) (n :: ns)
  | set (L : List Str) (x : Str) (v : Val) (k : Prog) (t : Token) (n m : Node) (ns : List Node) (hx : Ident x n)
      (hv : Values (x :: L) v m) (hk : Means r (x :: L) k ns) : Means r L (.set x v k) (.assignment t n m :: ns)
  | while_ (L : List Str) (x : Str) (b k : Prog) (t : Token) (n : Node) (bs ns : List Node) (hx : Uses L x n)
      (hb : Means r L b bs) (hk : Means r (b.out r L) k ns) : Means r L (.while_ x b k) (.while_ t n bs true :: ns)
  | def_ (L : List Str) (f : Str) (ps : List Str) (b k : Prog) (t : Token) (qs bs ns : List Node) (ha : Params ps qs)
      (hb : Means r ps.reverse b bs) (hk : Means r L k ns) : Means r L (.def_ f ps b k) (.def_ t none f qs bs :: ns)
  | class_ (L : List Str) (c : Str) (b k : Prog) (t t' : Token) (n : Node) (bs ns : List Node) (hc : Ident c n)
      (hb : Means r [] b bs) (hk : Means r L k ns) : Means r L (.class_ c b k) (.class_ t n (.nil t') bs :: ns)
  | sub (L : List Str) (c x : Str) (b k : Prog) (t : Token) (n m : Node) (bs ns : List Node) (hc : Ident c n)
      (hx : Uses (if r.superclassFresh then [] else L) x m) (hb : Means r [] b bs) (hk : Means r L k ns) :
      Means r L (.sub c x b k) (.class_ t n m bs :: ns)
  | meta_ (L : List Str) (b k : Prog) (t t' : Token) (bs ns : List Node)
      (hb : Means r (if r.metaShares then L else []) b bs)
      (hk : Means r (if r.metaShares then b.out r L else L) k ns) : Means r L (.meta_ b k) (.sclass t (.self t') bs :: ns)
  | module_ (L : List Str) (c : Str) (b k : Prog) (t : Token) (n : Node) (bs ns : List Node) (hc : Ident c n)
      (hb : Means r [] b bs) (hk : Means r L k ns) : Means r L (.module_ c b k) (.module_ t n bs :: ns)
  | block (L : List Str) (f : Str) (ps : List Str) (b k : Prog) (t : Token) (n : Node) (h : Bool) (qs bs ns : List Node)
      (hf : Ident f n) (ha : Params ps qs) (hb : Means r (ps.reverse ++ L) b bs) (hk : Means r L k ns) :
      Means r L (.block f ps b k) (.iter t n h qs bs :: ns)
  | lam (L : List Str) (ps : List Str) (b k : Prog) (t t' : Token) (qs bs ns : List Node) (ha : Params ps qs)
      (hb : Means r (ps.reverse ++ L) b bs) (hk : Means r (if r.lambdaLeaks then ps.reverse ++ L else L) k ns) :
      Means r L (.lam ps b k) (.iter t (.stabbyProc t' true qs) true qs bs :: ns)

/-- The tree of a program with the statements `ns`: the statement itself if there is only one. -/
inductive Root : List Node → Node → Prop where
  | one (n : Node) : Root [n] n
  | many (t : Token) (ns : List Node) (h : ns.length ≠ 1) : Root ns (.block t ns)

end NP.Spec
