import Verif.Model.Tokens
import Mathlib.Tactic.Common

/-! Lemmas about cursor motion. -/

namespace NP

theorem ite_cases {α : Type} {c : Prop} [Decidable c] {a b x : α} (h : (if c then a else b) = x) :
    (c ∧ a = x) ∨ (¬c ∧ b = x) := by
  by_cases hc : c
  · exact .inl ⟨hc, by rwa [if_pos hc] at h⟩
  · exact .inr ⟨hc, by rwa [if_neg hc] at h⟩

/-- Splits an equation whose left side is an `if`, naming the condition. -/
macro "ite_at " h:ident " as " hc:ident : tactic =>
  `(tactic| (replace $h := ite_cases $h; rcases $h:ident with ⟨$hc, $h⟩ | ⟨$hc, $h⟩))

namespace Cursor

theorem next_index (s : Str) (c : Cursor) : (c.next s).index = c.index + 1 := by
  unfold next; split <;> rfl

theorem nextN_index (s : Str) (n : Nat) (c : Cursor) : (nextN s n c).index = c.index + n := by
  induction n generalizing c with
  | zero => rfl
  | succ n ih => simp only [nextN, ih, next_index]; omega

theorem nextN_add (s : Str) (m n : Nat) (c : Cursor) : nextN s (m + n) c = nextN s n (nextN s m c) := by
  induction m generalizing c with
  | zero => simp [nextN]
  | succ m ih => rw [Nat.succ_add]; simp only [nextN]; exact ih _

end Cursor

namespace Lx

@[simp] theorem adv_input (l : Lx) (n : Nat) : (l.adv n).input = l.input := rfl
@[simp] theorem adv_index (l : Lx) (n : Nat) : (l.adv n).cur.index = l.cur.index + n := Cursor.nextN_index _ _ _
theorem adv_cur (l : Lx) (n : Nat) : (l.adv n).cur = l.cur.nextN l.input n := rfl
@[simp] theorem adv_kind (l : Lx) (n : Nat) : (l.adv n).kind = l.kind := rfl
@[simp] theorem adv_heredocStack (l : Lx) (n : Nat) : (l.adv n).heredocStack = l.heredocStack := rfl
@[simp] theorem adv_tokenLine (l : Lx) (n : Nat) : (l.adv n).tokenLine = l.tokenLine := rfl
@[simp] theorem adv_tokenCol (l : Lx) (n : Nat) : (l.adv n).tokenCol = l.tokenCol := rfl
@[simp] theorem adv_ws (l : Lx) (n : Nat) : (l.adv n).ws = l.ws := rfl
@[simp] theorem adv_lastType (l : Lx) (n : Nat) : (l.adv n).lastType = l.lastType := rfl
@[simp] theorem adv_openTernary (l : Lx) (n : Nat) : (l.adv n).openTernary = l.openTernary := rfl
@[simp] theorem adv_stopChar (l : Lx) (n : Nat) : (l.adv n).stopChar = l.stopChar := rfl
@[simp] theorem adv_startChar (l : Lx) (n : Nat) : (l.adv n).startChar = l.startChar := rfl
@[simp] theorem adv_pairDepth (l : Lx) (n : Nat) : (l.adv n).pairDepth = l.pairDepth := rfl
@[simp] theorem adv_remaining (l : Lx) (n : Nat) : (l.adv n).remaining = l.remaining := rfl
@[simp] theorem adv_allowAssign (l : Lx) (n : Nat) : (l.adv n).allowAssign = l.allowAssign := rfl

@[simp] theorem adv_zero (l : Lx) : l.adv 0 = l := rfl
theorem adv_adv (l : Lx) (m n : Nat) : (l.adv m).adv n = l.adv (m + n) := by
  simp [adv, Cursor.nextN_add]

theorem adv_rest (l : Lx) (n : Nat) : (l.adv n).rest = l.rest.drop n := by
  simp [rest, List.drop_drop]

theorem _root_.List.ch_drop (s : Str) (n k : Nat) : (s.drop n).ch k = s.ch (n + k) := by
  simp [List.ch, List.getD_eq_getElem?_getD]

theorem adv_ch (l : Lx) (n k : Nat) : (l.adv n).ch k = l.ch (n + k) := by
  simp [ch, adv_rest, List.ch_drop]

theorem ch_eq (l : Lx) (k : Nat) : l.ch k = l.input.ch (l.cur.index + k) := by
  simp [ch, rest, List.ch_drop]

end Lx

theorem _root_.List.ch_nil (k : Nat) : ([] : Str).ch k = NUL := by simp [List.ch]
@[simp] theorem _root_.List.ch_cons_zero (c : Char) (s : Str) : (c :: s).ch 0 = c := rfl
@[simp] theorem _root_.List.ch_cons_succ (c : Char) (s : Str) (k : Nat) : (c :: s).ch (k + 1) = s.ch k := by
  simp [List.ch, List.getD_eq_getElem?_getD]

theorem _root_.List.ch_of_ge (s : Str) (k : Nat) (h : s.length ≤ k) : s.ch k = NUL := by
  simp [List.ch, List.getD_eq_getElem?_getD, List.getElem?_eq_none h]

theorem _root_.List.ch_ne_nul (s : Str) (k : Nat) (h : s.ch k ≠ NUL) : k < s.length := by
  by_contra hk; exact h (s.ch_of_ge k (by omega))

theorem _root_.List.ch_getElem (s : Str) (k : Nat) (h : k < s.length) : s.ch k = s[k] := by
  simp [List.ch, List.getD_eq_getElem?_getD, List.getElem?_eq_getElem h]

/-- A text whose first byte is not NUL is that byte followed by the rest. -/
theorem _root_.List.ch_zero_cons (s : Str) (c : Char) (h : s.ch 0 = c) (hc : c ≠ NUL) : ∃ r, s = c :: r := by
  cases s with
  | nil => simp [List.ch_nil] at h; exact absurd h.symm hc
  | cons d r => exact ⟨r, by simp at h; rw [h]⟩

end NP
