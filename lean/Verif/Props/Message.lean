import Verif.Spec.Message
import Verif.Proofs.ParseInst
import Verif.Props.Parse
import Verif.Model.Message

/-! Property C36: the line of the source that an error message quotes. -/

namespace NP
open Spec

theorem codeLine_go_past (n : Nat) : ∀ (s : Str) (k : Nat) (buf : Str), n < k → codeLine.go n s k buf = buf
  | [], _, _, _ => rfl
  | c :: cs, k, buf, h => by
    unfold codeLine.go
    rw [if_neg (by omega), if_pos h]

theorem codeLine_go_line (n : Nat) (b : Str) (hb : b = [] ∨ b.head? = some '\n') : ∀ (x buf : Str), '\n' ∉ x →
    codeLine.go n (x ++ b) n buf = buf ++ x
  | [], buf, _ => by
    rcases hb with rfl | hb
    · simp [codeLine.go]
    · cases b with
      | nil => cases hb
      | cons c cs =>
        cases hb
        unfold codeLine.go
        simp only [List.nil_append, ne_eq, not_true_eq_false, and_false, if_false, Nat.lt_irrefl, if_true]
        rw [codeLine_go_past n _ _ _ (by omega)]
        simp
  | c :: cs, buf, h => by
    have hc : c ≠ '\n' := by intro e; exact h (by simp [e])
    rw [List.cons_append]
    unfold codeLine.go
    rw [if_pos ⟨rfl, hc⟩, codeLine_go_line n b hb cs _ (fun hm => h (by simp [hm]))]
    simp

theorem codeLine_go_before (n : Nat) (s : Str) : ∀ (a : Str) (k : Nat), k + a.count '\n' = n →
    (a = [] ∨ a.getLast? = some '\n') → codeLine.go n (a ++ s) k [] = codeLine.go n s n []
  | [], k, h, _ => by
    have : k = n := by simpa using h
    simp [this]
  | c :: cs, k, h, hl => by
    have hl' : cs = [] ∧ c = '\n' ∨ cs.getLast? = some '\n' := by
      rcases hl with hl | hl
      · cases hl
      · cases cs with
        | nil => left; simpa using hl
        | cons d ds => right; simpa using hl
    have hk : k < n := by
      have : 0 < (c :: cs).count '\n' := by
        rcases hl' with ⟨-, rfl⟩ | hl'
        · simp
        · have := List.mem_of_getLast? hl'
          exact List.count_pos_iff.2 (by simp [this])
      omega
    rw [List.cons_append]
    rw [codeLine.go, if_neg (by omega), if_neg (by omega)]
    refine codeLine_go_before n s cs _ ?_ ?_
    · rw [List.count_cons] at h
      by_cases hc : c = '\n'
      · simp [hc] at h ⊢; omega
      · have : (c == '\n') = false := by simp [hc]
        simp [this, hc] at h ⊢; omega
    · rcases hl' with ⟨h, -⟩ | h
      · exact .inl h
      · exact .inr h

/-- C36, the excerpt: `code_line` gives exactly the text of the line with the number asked for, without its newline. -/
theorem C36_line (src : Str) (k : Nat) (x : Str) (h : IsLine src k x) : codeLine src k = x := by
  obtain ⟨a, b, rfl, hk, hx, ha, hb⟩ := h
  unfold codeLine
  rw [List.append_assoc, codeLine_go_before k _ a 0 (by omega) ha, codeLine_go_line k b hb x [] hx]
  simp

/-- Every number up to that of the last line is the number of a line. -/
theorem C36_line_exists (src : Str) (k : Nat) (h : k ≤ src.count '\n') : ∃ x, IsLine src k x := by
  induction src generalizing k with
  | nil => exact ⟨[], [], [], by simp, by simp at h; simp [h], by simp, .inl rfl, .inl rfl⟩
  | cons c cs ih =>
    by_cases hc : c = '\n'
    · subst hc
      cases k with
      | zero => exact ⟨[], [], '\n' :: cs, by simp, by simp, by simp, .inl rfl, .inr rfl⟩
      | succ k =>
        rw [List.count_cons_self] at h
        obtain ⟨x, a, b, rfl, ha, hx, hl, hb⟩ := ih k (by omega)
        refine ⟨x, '\n' :: a, b, by simp, by simp [ha], hx, .inr ?_, hb⟩
        rcases hl with rfl | hl
        · rfl
        · cases a with
          | nil => cases hl
          | cons d ds => simpa using hl
    · rw [List.count_cons_of_ne (by simpa using hc)] at h
      obtain ⟨x, a, b, rfl, ha, hx, hl, hb⟩ := ih k h
      cases a with
      | nil =>
        exact ⟨c :: x, [], b, by simp, by simpa using ha, by simp [hx, Ne.symm hc], .inl rfl, hb⟩
      | cons d ds =>
        refine ⟨x, c :: d :: ds, b, by simp, by rw [List.count_cons_of_ne (by simpa using hc)]; exact ha, hx, .inr ?_, hb⟩
        rcases hl with hl | hl
        · cases hl
        · simpa using hl

/-- What is shown of all errors: the excerpt is the line whose number is reported, except for the texts in `offSite`. -/
def ErrLine (c : Cx) : SErr → Prop
  | .unexpected t _ help ex => help ∉ offSite → ex = codeLine c.code t.line
  | .unterminated _ start _ ex => ex = codeLine c.code start.line
  | _ => True

theorem throwUnterminated_errLine {α : Type} (t u : Token) : Throws ErrLine (throwUnterminated t u : P α) := by
  intro c s e he
  unfold throwUnterminated at he
  dsimp only at he
  split at he
  · cases he; exact rfl
  · cases he

theorem prim_errLine {α : Type} {p : P α} (h : Prim p) : Throws ErrLine p := by
  intro c s e he
  cases h with
  | unexpected m =>
    unfold throwUnexpected throwTok at he
    split at he
    · cases he
    · cases he; exact fun _ => rfl
  | off t b m hm =>
    unfold throwTok at he
    split at he
    · cases he
    · cases he; exact fun h => absurd hm h
  | unterminated t u => exact throwUnterminated_errLine t u c s e he
  | validate =>
    refine Throws.bind (Q := ErrLine) (p := cur) (fun _ _ _ h => by cases h) (fun t => ?_) c s e he
    split
    · exact fun _ _ _ h => by cases h; trivial
    · exact fun _ _ _ h => by cases h; trivial
    · exact fun _ _ _ h => by cases h; trivial
    · exact throwUnterminated_errLine t {}
    · exact throwUnterminated_errLine t {}
    · exact throwUnterminated_errLine t {}
    · split
      · exact fun _ _ _ h => by cases h
      · exact fun _ _ _ h => by cases h
  | plain m => cases he; trivial
  | advance => unfold advance at he; split at he <;> cases he
  | rewind => unfold rewind at he; split at he <;> cases he
  | popDepth => unfold popDepth at he; split at he <;> cases he
  | incDepth => unfold incDepth bumpDepth at he; split at he <;> cases he
  | decDepth => unfold decDepth bumpDepth at he; split at he <;> cases he
  | popPrec => unfold popPrec at he; split at he <;> cases he
  | addNames ns => unfold addNames at he; split at he <;> cases he
  | higher t l p ia =>
    unfold higherPrecedence at he
    dsimp only at he
    split at he
    · cases he
    split at he
    · split at he
      · split at he <;> cases he
      · cases he
    split at he <;> cases he
  | _ => cases he

theorem parse_errLine (c : Cx) (n : Nat) (s : PS) (e : SErr) (h : parseTree (knot n) c s = .err e) : ErrLine c e :=
  parseTree_rel (knot_self (throwsRl ErrLine prim_errLine) (fun _ => trivial) (fun _ _ _ h => by cases h) n) c s e h

theorem Parses.err {src file : Str} {e : SErr} (h : Parses src file (.err e)) : ErrLine ⟨src, file⟩ e := by
  generalize hr : PRes.err e = r at h
  obtain ⟨ts, h⟩ | _ | _ := h
  · exact parse_errLine _ _ _ _ hr.symm
  · cases hr
  · cases hr

/-- C36 for literals that are not terminated: the excerpt is the text of the line whose number the message reports. -/
theorem C36_unterminated (src file : Str) (t start : Token) (thing ex x : Str)
    (h : Parses src file (.err (.unterminated t start thing ex))) (hx : IsLine src start.line x) : ex = x := by
  have : ex = codeLine src start.line := h.err
  rw [this, C36_line src _ x hx]

/-- C36 for unexpected tokens, partial: the excerpt is the text of the line whose number the message reports. Missing are
the messages with one of the thirteen texts in `offSite`: they report the line of a token that need not be the current
one, and quote the line of the current one (`C36_false`). -/
theorem C36_unexpected_partial (src file : Str) (t : Token) (b : Bool) (help ex x : Str)
    (h : Parses src file (.err (.unexpected t b help ex))) (hh : help ∉ offSite) (hx : IsLine src t.line x) : ex = x := by
  have : ex = codeLine src t.line := h.err hh
  rw [this, C36_line src _ x hx]

/-- The messages: first the file and the reported line, then the excerpt on a line of its own,
then a `^` under the reported column. -/
theorem C36_message (file : Str) (t start : Token) (b : Bool) (help thing ex : Str) :
    (t.type ≠ .Invalid → t.type.value ≠ none → ∃ what rest, (SErr.unexpected t b help ex).message file =
      file ++ cs! "#" ++ natStr (t.line + 1) ++ cs! ": syntax error, " ++ what ++ cs! "\n" ++ ex ++
      cs! "\n" ++ List.replicate t.col ' ' ++ cs! "^ " ++ rest) ∧
    ∃ what rest, (SErr.unterminated t start thing ex).message file =
      file ++ cs! "#" ++ natStr (start.line + 1) ++ cs! ": syntax error, " ++ what ++ cs! "\n" ++ ex ++
      cs! "\n" ++ List.replicate start.col ' ' ++ cs! "^ " ++ rest := by
  constructor
  · intro h1 h2
    unfold SErr.message
    dsimp -zeta only
    extract_lets +onlyGivenNames descr helped here
    rw [if_neg h1]
    cases hv : t.type.value with
    | none => exact absurd hv h2
    | some ty =>
      dsimp only
      obtain ⟨r, hr⟩ : ∃ r, here = cs! "\n" ++ ex ++ cs! "\n" ++ List.replicate t.col ' ' ++ cs! "^ " ++ r :=
        ⟨_, by simp only [here, pointer, List.append_assoc]; rfl⟩
      unfold place
      rw [hr]
      split
      · exact ⟨cs! "unexpected end-of-input" ++ helped, r, by simp⟩
      · split
        · rename_i l _
          exact ⟨cs! "unexpected " ++ ty ++ cs! " '" ++ cStr l ++ cs! "'" ++ helped, r, by simp⟩
        · exact ⟨cs! "unexpected '" ++ ty ++ cs! "'" ++ helped, r, by simp⟩
  · unfold SErr.message
    dsimp -zeta only
    extract_lets +onlyGivenNames expected
    obtain ⟨r, hr⟩ : ∃ r, pointer ex start (cs! "starts here, expected closing " ++ expected ++ cs! " somewhere after") =
        cs! "\n" ++ ex ++ cs! "\n" ++ List.replicate start.col ' ' ++ cs! "^ " ++ r := ⟨_, by simp only [pointer, List.append_assoc]; rfl⟩
    rw [hr]
    unfold place
    exact ⟨cs! "unterminated " ++ thing ++ cs! " meets end of file (expected: " ++ expected ++ cs! ")", r, by simp⟩

/-- C36 as stated is false of the code: in `[\n1] += 2` the reported line is the first, the excerpt is the second. -/
theorem C36_false : ∃ t b help ex, Parses (cs! "[\n1] += 2") [] (.err (.unexpected t b help ex)) ∧ t.line = 0 ∧
    IsLine (cs! "[\n1] += 2") 0 (cs! "[") ∧ ex = cs! "1] += 2" := by
  have h : (runSource 30 (cs! "[\n1] += 2")).any (fun r => match r with
    | .err (.unexpected t _ _ ex) => decide (t.line = 0 ∧ ex = cs! "1] += 2")
    | _ => false) = true := by decide +kernel
  cases hr : runSource 30 (cs! "[\n1] += 2") with
  | none => rw [hr] at h; cases h
  | some r =>
    rw [hr] at h
    cases r with
    | err e =>
      cases e with
      | unexpected t b help ex =>
        have := of_decide_eq_true h
        exact ⟨t, b, help, ex, runSource_parses hr, this.1, ⟨[], cs! "\n1] += 2", rfl, rfl, by decide, .inl rfl, .inr rfl⟩,
          this.2⟩
      | _ => cases h
    | _ => cases h

/-- Non-vacuity: an error on the last of three lines. -/
example : IsLine (cs! "a\nb\nc )") 2 (cs! "c )") :=
  ⟨cs! "a\nb\n", [], rfl, rfl, by decide, .inr rfl, .inl rfl⟩

example : (runSource 30 (cs! "a\nb\nc )")).any (fun r => match r with
    | .err (.unexpected t _ help ex) => decide (t.line = 2 ∧ help ∉ offSite ∧ ex = cs! "c )")
    | _ => false) = true := by decide +kernel

example : (runSource 30 (cs! "a\nb(\"c\n")).any (fun r => match r with
    | .err (.unterminated _ start _ ex) => decide (start.line = 1 ∧ ex = cs! "b(\"c")
    | _ => false) = true := by decide +kernel

end NP
