import Verif.Proofs.Cnt.Main
import Verif.Props.Parse
import Mathlib.Data.List.Perm.Basic

/-!
C46: no number is lost, added, doubled or changed.

`Spec.nums` lists the numbers in a tree: the token for a number whose value is that of the token (up to the sign), `none` for
any other number.
-/

namespace NP

open Spec

namespace Cnt

theorem sum_filter (w : Option Token → Nat) (l : List Token) :
    (l.map (tw w)).sum = (((l.filter isNumber).map some).map w).sum := by
  induction l with
  | nil => rfl
  | cons t l ih =>
    by_cases h : isNumber t = true
    · rw [List.map_cons, List.sum_cons, ih, List.filter_cons_of_pos h]
      simp only [tw, h, if_true, List.map_cons, List.sum_cons]
    · rw [List.map_cons, List.sum_cons, ih, List.filter_cons_of_neg h]
      simp only [tw, h]
      simp

theorem count_sum [DecidableEq Token] (t : Option Token) (l : List (Option Token)) :
    (l.map fun v => if v = t then 1 else 0).sum = l.count t := by
  induction l with
  | nil => rfl
  | cons v l ih =>
    rw [List.map_cons, List.sum_cons, ih, List.count_cons]
    simp only [beq_iff_eq]
    omega

theorem numbers_noNewlines (l : List Token) : (noNewlines l).filter isNumber = l.filter isNumber := by
  unfold noNewlines
  rw [List.filter_filter]
  apply List.filter_congr
  intro t _
  by_cases h : t.type = .Newline
  · simp [isNumber, h]
  · simp [h]

end Cnt

/-- C46: when parsing a source returns a tree, the numbers of the tree are, up to the order, exactly the numbers among the
tokens of the source. -/
theorem C46_numbers (src file : Str) (n : Node) (s : PS) (h : Parses src file (.ok n s)) :
    ∃ ts, Lexes src ts ∧ (nums n).Perm ((ts.filter isNumber).map some) := by
  obtain ⟨init, eof, hl, ht, -, hp⟩ := C32_all_consumed src file n s h
  obtain ⟨ts, hl', hr⟩ := h.ok
  cases hl'.unique hl
  refine ⟨_, hl, List.perm_iff_count.2 fun t => ?_⟩
  have hb := Cnt.c_parseTree (c := ⟨src, file⟩) (s := { rest := init ++ [eof] })
    (Cnt.knot_goodC (fun v => if v = t then 1 else 0) (2 * (init ++ [eof]).length + 2))
  unfold Cnt.okc at hb
  unfold parseToks at hr
  rw [hr] at hb
  have hb : (s.prev.map (Cnt.tw fun v => if v = t then 1 else 0)).sum
      = ((nums n).map fun v => if v = t then 1 else 0).sum := by
    simpa [Cnt.u, Cnt.wt] using hb
  rw [Cnt.sum_filter, Cnt.count_sum, Cnt.count_sum] at hb
  have he : isNumber eof = false := by simp [isNumber, ht]
  rw [← hb, List.filter_append, List.filter_cons_of_neg (by simp [he]), List.filter_nil, List.append_nil,
    ← Cnt.numbers_noNewlines init, ← hp, Cnt.numbers_noNewlines, List.filter_reverse, List.map_reverse, List.count_reverse]

/-- C46, from the tree to the source: every number of the tree is written in the source. -/
theorem C46_no_other (src file : Str) (n : Node) (s : PS) (ts : List Token) (h : Parses src file (.ok n s))
    (hl : Lexes src ts) (o : Option Token) (ho : o ∈ nums n) : ∃ t ∈ ts, o = some t ∧ isNumber t = true := by
  obtain ⟨ts', hl', hp⟩ := C46_numbers src file n s h
  cases hl'.unique hl
  obtain ⟨t, ht, e⟩ := List.mem_map.1 (hp.mem_iff.1 ho)
  exact ⟨t, (List.mem_filter.1 ht).1, e.symm, (List.mem_filter.1 ht).2⟩

/-- C46, from the source to the tree: every number written in the source is in the tree. -/
theorem C46_no_lost (src file : Str) (n : Node) (s : PS) (ts : List Token) (h : Parses src file (.ok n s))
    (hl : Lexes src ts) (t : Token) (ht : t ∈ ts) (hn : isNumber t = true) : some t ∈ nums n := by
  obtain ⟨ts', hl', hp⟩ := C46_numbers src file n s h
  cases hl'.unique hl
  exact hp.mem_iff.2 (List.mem_map.2 ⟨t, List.mem_filter.2 ⟨ht, hn⟩, rfl⟩)

/-- C46, counting: as many as are written. -/
theorem C46_count (src file : Str) (n : Node) (s : PS) (ts : List Token) (h : Parses src file (.ok n s))
    (hl : Lexes src ts) : (nums n).length = ts.countP isNumber := by
  obtain ⟨ts', hl', hp⟩ := C46_numbers src file n s h
  cases hl'.unique hl
  rw [hp.length_eq, List.length_map, List.countP_eq_length_filter]

/-- Non-vacuity: numbers in many places, with signs, in another order than in the source and in the parameters of a lambda;
and the number that `__LINE__` stands for. -/
example : (runSource 80 (cs! "f -1, 2.5, a: 3r if 4 == __LINE__\n->(a = 5) { case a; in [6, *] then 7 end }\n")).any
    (fun r => match r with
      | .ok n _ => (nums n).map (·.map fun t => (t.fix, t.flt)) == [some (4, []), some (1, []), some (0, cs! "2.5"),
          some (3, []), some (5, []), some (6, []), some (7, [])]
      | _ => false) = true := by
  decide +kernel

end NP
