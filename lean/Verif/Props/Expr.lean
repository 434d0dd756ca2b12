import Verif.Proofs.ExprLex

/-!
C31: expressions of integers and binary operators, written with parentheses only where a table of operators requires
them, are parsed back. `C31_actual` is about the table the parser follows, without restriction; `C31_partial` is about
Ruby's table, without the combinations for which the two differ. Spec: Verif/Spec/Expr.lean.
-/

namespace NP
open Spec

/-- The text of an expression is parsed to the expression, regrouped. -/
theorem show_parses (T : Table) (e : Exp) (hs : e.Small) (hf : Fits T e) (file : Str) :
    ∃ n s, Parses (e.show_ T) file (.ok n s) ∧ Tree n e.regroup := by
  obtain ⟨ts, z, hz, ht, hl⟩ := show_lexes T e hs
  obtain ⟨n, s, hn, he⟩ := ht.tree hf ⟨e.show_ T, file⟩ z hz
  refine ⟨n, s, ?_, hn⟩
  rw [← he.parseToks hl.vectorOk]
  exact .tokens _ hl

theorem actual_fits : ∀ e : Exp, Fits actual e
  | .int _ => trivial
  | .bin o l r => by
    refine ⟨actual_fits l, actual_fits r, fun h q hq => ?_, fun h q hq => ?_⟩
    · unfold Exp.needL at h
      rw [hq] at h
      cases o <;> cases q <;> first | rfl | (exact absurd h (by decide))
    · unfold Exp.needR at h
      rw [hq] at h
      cases o <;> cases q <;> first | rfl | (exact absurd h (by decide))

/-- C31: every expression, written with the parentheses the table `actual` requires, is parsed to that expression, with
chains of `&&` and of `||` regrouped. -/
theorem C31_actual (e : Exp) (hs : e.Small) (file : Str) :
    ∃ n s, Parses (e.show_ actual) file (.ok n s) ∧ Tree n e.regroup := show_parses actual e hs (actual_fits e) file

theorem regular_fits : ∀ e : Exp, e.Regular → Fits ruby e
  | .int _, _ => trivial
  | .bin o l r, hreg => by
    obtain ⟨h1, h2, h3, h4, -, -, h5⟩ := hreg
    refine ⟨regular_fits l h1, regular_fits r h2, fun h q hq => ?_, fun h q hq => ?_⟩
    · unfold Exp.needL at h
      rw [hq] at h h5
      clear hq h3 h4
      cases o <;> cases q <;> first
        | rfl
        | (exact absurd h (by decide))
        | (exact absurd rfl (h5 (by simp) _ (by simp)).1)
    · unfold Exp.needR at h
      rw [hq] at h h3 h4 h5
      clear hq
      cases o <;> cases q <;> first
        | rfl
        | (exact absurd h (by decide))
        | (exact absurd rfl (h3 rfl))
        | (exact absurd rfl (h4 rfl _ (by simp)))
        | (exact absurd rfl (h5 (by simp) _ (by simp)).2)

theorem regular_regroup : ∀ e : Exp, e.Regular → e.regroup = e
  | .int _, _ => rfl
  | .bin o l r, hreg => by
    obtain ⟨h1, h2, -, -, h3, h4, -⟩ := hreg
    show Exp.join o l.regroup r.regroup = _
    rw [regular_regroup l h1, regular_regroup r h2]
    unfold Exp.join
    split
    · rename_i o' a b
      rw [if_neg]
      rintro ⟨rfl, rfl | rfl⟩
      · exact h3 rfl rfl
      · exact h4 rfl rfl
    · rfl

/-- C31: an expression, written with the parentheses Ruby's table requires, is parsed to that expression. `_partial`: see
`Exp.Regular` for the combinations that are excluded (`C31_false`); the atoms are integers below `2 ^ 62`. -/
theorem C31_partial (e : Exp) (hreg : e.Regular) (hs : e.Small) (file : Str) :
    ∃ n s, Parses (e.show_ ruby) file (.ok n s) ∧ Tree n e := by
  have := show_parses ruby e hs (regular_fits e hreg) file
  rwa [regular_regroup e hreg] at this

/-! ### The combinations excluded -/

/-- The expression of a tree. -/
def toExp : Node → Option Exp
  | .fixnum _ n => some (.int n.toNat)
  | .infixOp _ a o b =>
    match [Op.pow, .mul, .div, .mod, .add, .sub, .shl, .shr, .band, .bor, .bxor, .lt, .le, .gt, .ge, .cmp, .eq, .eqq,
        .neq].find? (fun x => x.text == o), toExp a, toExp b with
    | some o, some a, some b => some (.bin o a b)
    | _, _, _ => none
  | .logicalAnd _ a b =>
    match toExp a, toExp b with
    | some a, some b => some (.bin .and a b)
    | _, _ => none
  | .logicalOr _ a b =>
    match toExp a, toExp b with
    | some a, some b => some (.bin .or a b)
    | _, _ => none
  | .range _ a b x =>
    match toExp a, toExp b with
    | some a, some b => some (.bin (if x then .dot3 else .dot2) a b)
    | _, _ => none
  | _ => none

theorem Spec.Tree.toExp {n : Node} {e : Exp} (h : Tree n e) : NP.toExp n = some e := by
  induction h with
  | int => rfl
  | call t o a b l r ho hl hr ih1 ih2 =>
    unfold NP.toExp
    rw [ih1, ih2]
    cases o <;> first | rfl | (exact absurd ho (by decide))
  | _ => unfold NP.toExp; simp_all

/-- The text of `e` is parsed to another expression than `e`. -/
def Misparsed (e : Exp) : Prop := e.Small ∧ ∃ n s, Parses (e.show_ ruby) [] (.ok n s) ∧ ¬ Tree n e

theorem misparsed (e : Exp) (src : Str) (fuel : Nat) (hs : e.Small) (hsrc : e.show_ ruby = src)
    (h : (runSource fuel src).any (fun r => match r with
      | .ok n _ => toExp n != some e
      | _ => false) = true) : Misparsed e := by
  refine ⟨hs, ?_⟩
  rw [hsrc]
  cases hr : runSource fuel src with
  | none => rw [hr] at h; cases h
  | some r =>
    rw [hr] at h
    cases r with
    | ok n s =>
      refine ⟨n, s, runSource_parses hr, fun ht => ?_⟩
      simp [ht.toExp] at h
    | _ => cases h

open Exp in
/-- C31 as stated is false of the code: `2 ** 3 ** 2`, `1 <=> 2 < 3`, `1 && 2 && 3`, `1 || 2 || 3`, `1 || 2 .. 3`,
`1 .. 2 && 3`. -/
theorem C31_false :
    Misparsed (bin .pow (int 2) (bin .pow (int 3) (int 2))) ∧
    Misparsed (bin .cmp (int 1) (bin .lt (int 2) (int 3))) ∧
    Misparsed (bin .and (bin .and (int 1) (int 2)) (int 3)) ∧
    Misparsed (bin .or (bin .or (int 1) (int 2)) (int 3)) ∧
    Misparsed (bin .dot2 (bin .or (int 1) (int 2)) (int 3)) ∧
    Misparsed (bin .dot3 (int 1) (bin .and (int 2) (int 3))) := by
  refine ⟨misparsed _ (cs! "2 ** 3 ** 2") 30 ?_ ?_ ?_, misparsed _ (cs! "1 <=> 2 < 3") 30 ?_ ?_ ?_,
    misparsed _ (cs! "1 && 2 && 3") 30 ?_ ?_ ?_, misparsed _ (cs! "1 || 2 || 3") 30 ?_ ?_ ?_,
    misparsed _ (cs! "1 || 2 .. 3") 30 ?_ ?_ ?_, misparsed _ (cs! "1 ... 2 && 3") 30 ?_ ?_ ?_⟩ <;>
    first
    | (refine ⟨?_, ?_⟩ <;> first | (refine ⟨?_, ?_⟩ <;> (show (_ : Nat) < _; decide)) | (show (_ : Nat) < _; decide))
    | decide +kernel

open Exp in
/-- Non-vacuity: `1 + 2 * 3 - 4 ** (5 - 6) <= 7 && (8 || 9)`. -/
example : ∃ e : Exp, e.Regular ∧ e.Small ∧ e.show_ ruby = cs! "1 + 2 * 3 - 4 ** (5 - 6) <= 7 && (8 || 9)" :=
  ⟨bin .and (bin .le (bin .sub (bin .add (int 1) (bin .mul (int 2) (int 3)))
    (bin .pow (int 4) (bin .sub (int 5) (int 6)))) (int 7)) (bin .or (int 8) (int 9)),
    by simp [Exp.Regular, Exp.root], by simp [Exp.Small], by decide +kernel⟩

end NP
