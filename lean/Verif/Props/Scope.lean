import Verif.Proofs.ScopeLex

/-!
C33: in a program of uses of names, assignments and constructs that open scopes, nested without bound, the parser marks a
name as a local variable exactly where it is one. `C33_actual` is about the rules the parser follows, without restriction;
`C33_partial` is about Ruby's rules, without the three constructs for which the two differ. Spec: Verif/Spec/Scope.lean.
-/

namespace NP
open Spec

theorem root_single (t : Token) (ns : List Node) : Root ns (Blk.single ⟨t, ns⟩) := by
  match ns with
  | [] => exact .many t [] (by simp)
  | [n] => exact .one n
  | n :: m :: ns => exact .many t _ (by simp)

/-- C33 with the rules that the parser follows: the text of a program is parsed to the trees of its statements, and in
them each use of a name is a local variable exactly if it is one under these rules. -/
theorem C33_actual (p : Prog) (hp : p.Named) (file : Str) :
    ∃ n s ns, Parses p.show_ file (.ok n s) ∧ Root ns n ∧ Means .actual [] p ns := by
  obtain ⟨ts, z, hz, ht, hl⟩ := prog_lexes p hp
  obtain ⟨t, ns, s, hm, he⟩ := ht.tree ⟨p.show_, file⟩ z hz
  refine ⟨_, s, ns, ?_, root_single t ns, hm⟩
  rw [← he.parseToks hl.vectorOk]
  exact .tokens _ hl

theorem Spec.Prog.Regular.out {p : Prog} (hp : p.Regular) (r r' : Rules) : ∀ L, p.out r L = p.out r' L := by
  induction p with
  | nil => intro L; rfl
  | use x k ih => exact ih hp
  | set x v k ih => exact fun L => ih hp _
  | while_ x b k ihb ih => intro L; show k.out r (b.out r L) = k.out r' (b.out r' L); rw [ihb hp.1, ih hp.2]
  | def_ f ps b k ihb ih => exact ih hp.2
  | class_ c b k ihb ih => exact ih hp.2
  | sub => exact hp.elim
  | meta_ => exact hp.elim
  | module_ c b k ihb ih => exact ih hp.2
  | block f ps b k ihb ih => exact ih hp.2
  | lam => exact hp.elim

theorem Spec.Means.regular {r r' : Rules} {L : List Str} {p : Prog} {ns : List Node} (h : Means r L p ns) (hp : p.Regular) :
    Means r' L p ns := by
  induction h with
  | nil => exact .nil _
  | use L x k n ns hx hk ih => exact .use _ _ _ _ _ hx (ih hp)
  | set L x v k t n m ns hx hv hk ih => exact .set _ _ _ _ _ _ _ _ hx hv (ih hp)
  | while_ L x b k t n bs ns hx hb hk ihb ih =>
    have := ih hp.2
    rw [hp.1.out r r'] at this
    exact .while_ _ _ _ _ _ _ _ _ hx (ihb hp.1) this
  | def_ L f ps b k t qs bs ns ha hb hk ihb ih => exact .def_ _ _ _ _ _ _ _ _ _ ha (ihb hp.1) (ih hp.2)
  | class_ L c b k t t' n bs ns hc hb hk ihb ih => exact .class_ _ _ _ _ _ _ _ _ _ hc (ihb hp.1) (ih hp.2)
  | sub => exact hp.elim
  | meta_ => exact hp.elim
  | module_ L c b k t n bs ns hc hb hk ihb ih => exact .module_ _ _ _ _ _ _ _ _ hc (ihb hp.1) (ih hp.2)
  | block L f ps b k t n h qs bs ns hf ha hb hk ihb ih =>
    exact .block _ _ _ _ _ _ _ _ _ _ _ hf ha (ihb hp.1) (ih hp.2)
  | lam => exact hp.elim

/-- C33 with the rules of Ruby. Missing from the full statement: programs with lambdas, superclasses or `class << self`,
for which it is false (`C33_false`), and constructs that `Prog` does not have. -/
theorem C33_partial (p : Prog) (hp : p.Named) (hr : p.Regular) (file : Str) :
    ∃ n s ns, Parses p.show_ file (.ok n s) ∧ Root ns n ∧ Means .ruby [] p ns := by
  obtain ⟨n, s, ns, h1, h2, h3⟩ := C33_actual p hp file
  exact ⟨n, s, ns, h1, h2, h3.regular hr⟩

/-- The program is parsed, but not to trees in which the local variables are those of Ruby. -/
def Misscoped (p : Prog) : Prop :=
  p.Named ∧ ∃ n s, Parses p.show_ [] (.ok n s) ∧ ∀ ns, Root ns n → ¬ Means .ruby [] p ns

theorem misscoped (p : Prog) (src : Str) (fuel : Nat) (test : Node → Bool) (hp : p.Named) (hsrc : p.show_ = src)
    (ht : ∀ n ns, test n = true → Root ns n → ¬ Means .ruby [] p ns)
    (h : (runSource fuel src).any (fun r => match r with
      | .ok n _ => test n
      | _ => false) = true) : Misscoped p := by
  refine ⟨hp, ?_⟩
  rw [hsrc]
  cases hr : runSource fuel src with
  | none => rw [hr] at h; cases h
  | some r =>
    rw [hr] at h
    cases r with
    | ok n s => exact ⟨n, s, runSource_parses hr, fun ns => ht n ns h⟩
    | _ => cases h

theorem isName_ab {x : Str} (h : x = cs! "x" ∨ x = cs! "y") : IsName x := by
  rcases h with rfl | rfl
  · exact ⟨'x', [], rfl, .inl (by decide), by simp, fun t ht => by
      have : ∀ q ∈ keywordTable, q.1 ≠ cs! "x" := by decide +kernel
      exact this _ ht rfl⟩
  · exact ⟨'y', [], rfl, .inl (by decide), by simp, fun t ht => by
      have : ∀ q ∈ keywordTable, q.1 ≠ cs! "y" := by decide +kernel
      exact this _ ht rfl⟩

theorem isConst_A : IsConst (cs! "A") :=
  ⟨'A', [], rfl, by decide, by simp, fun t ht => by
    have : ∀ q ∈ keywordTable, q.1 ≠ cs! "A" := by decide +kernel
    exact this _ ht rfl⟩

/-- The last statement is a name marked as a local variable. -/
def lastIsVar : Node → Bool
  | .block _ [_, .identifier _ b] => b
  | _ => false

/-- The last statement is a class whose superclass is a name not marked as a local variable. -/
def lastSuperNotVar : Node → Bool
  | .block _ [_, .class_ _ _ (.identifier _ b) _] => !b
  | _ => false

open Prog in
/-- C33 as stated is false of the code: a parameter of a lambda is a local variable after it, a local variable is not one
in a superclass expression, and a variable of a `class << self` body is one after it. -/
theorem C33_false :
    Misscoped (lam [cs! "x"] nil (use (cs! "x") nil)) ∧
    Misscoped (set (cs! "x") .one (sub (cs! "A") (cs! "x") nil nil)) ∧
    Misscoped (meta_ (set (cs! "y") .one nil) (use (cs! "y") nil)) := by
  refine ⟨misscoped _ (cs! "->(x) do; end; x; ") 40 lastIsVar ?_ (by decide) ?_ (by decide +kernel),
    misscoped _ (cs! "x = 1; class A < x; end; ") 40 lastSuperNotVar ?_ (by decide) ?_ (by decide +kernel),
    misscoped _ (cs! "class << self; y = 1; end; y; ") 40 lastIsVar ?_ (by decide) ?_ (by decide +kernel)⟩
  · exact ⟨by simpa using isName_ab (.inl rfl), trivial, isName_ab (.inl rfl), trivial⟩
  · intro n ns ht hr hm
    cases hm with
    | lam _ _ _ _ _ _ _ _ ms _ _ hk =>
      cases hk with
      | use _ _ _ _ _ hx hk =>
        cases hk
        cases hr with
        | many =>
          cases hx with
          | mk _ b _ hb =>
            simp [lastIsVar] at ht
            simp [ht, Rules.ruby] at hb
  · exact ⟨isName_ab (.inl rfl), isConst_A, isName_ab (.inl rfl), trivial, trivial⟩
  · intro n ns ht hr hm
    cases hm with
    | set _ _ _ _ _ _ _ _ _ _ hk =>
      cases hk with
      | sub _ _ _ _ _ _ _ _ _ _ _ hx _ hk =>
        cases hk
        cases hr with
        | many =>
          cases hx with
          | mk _ b _ hb =>
            simp [lastSuperNotVar] at ht
            simp [ht, Rules.ruby] at hb
  · exact ⟨⟨isName_ab (.inr rfl), trivial⟩, isName_ab (.inr rfl), trivial⟩
  · intro n ns ht hr hm
    cases hm with
    | meta_ _ _ _ _ _ _ _ _ hk =>
      cases hk with
      | use _ _ _ _ _ hx hk =>
        cases hk
        cases hr with
        | many =>
          cases hx with
          | mk _ b _ hb =>
            simp [lastIsVar] at ht
            simp [ht, Rules.ruby] at hb

open Prog in
/-- Non-vacuity: a method with a loop and a block in it, and uses of the names outside. -/
example : ∃ p : Prog, p.Named ∧ p.Regular ∧ p.show_ =
    cs! "x = 1; def y(x); while x; y = x; end; x do |x, y|; y; end; y; end; class A; x; end; x; y; " :=
  ⟨set (cs! "x") .one (def_ (cs! "y") [cs! "x"] (while_ (cs! "x") (set (cs! "y") (.name (cs! "x")) nil)
    (block (cs! "x") [cs! "x", cs! "y"] (use (cs! "y") nil) (use (cs! "y") nil)))
    (class_ (cs! "A") (use (cs! "x") nil) (use (cs! "x") (use (cs! "y") nil)))),
    by simp [Prog.Named, isName_ab, isConst_A], by simp [Prog.Regular], by decide +kernel⟩

end NP
