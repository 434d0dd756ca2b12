import Mathlib.Data.List.TakeWhile
import Verif.Proofs.Term
import Verif.Proofs.Quoted
import Verif.Props.Number
import Verif.Spec.Abort

/-! Where tokenising can abort or run into undefined behaviour. -/

namespace NP
open Spec

/-! ### Words without newlines in heredoc bodies -/

theorem infix_line {w a b : Str} {x : Char} (h : w <:+: a ++ x :: b) (hx : x ∉ w) : w <:+: a ∨ w <:+: b := by
  obtain ⟨s, t, h⟩ := h
  rcases List.append_eq_append_iff.1 h with ⟨r, h1, h2⟩ | ⟨r, h1, h2⟩
  · exact .inl ⟨s, r, h1.symm⟩
  · cases r with
    | nil => exact .inl ⟨s, [], by simpa using h1⟩
    | cons y r =>
      simp only [List.cons_append, List.cons.injEq] at h2
      obtain ⟨rfl, rfl⟩ := h2
      rcases List.append_eq_append_iff.1 h1 with ⟨q, h3, h4⟩ | ⟨q, h3, h4⟩
      · exact absurd (by rw [h4]; simp) hx
      · cases q with
        | nil => exact absurd (by rw [← List.nil_append w, ← h4]; simp) hx
        | cons z q =>
          simp only [List.cons_append, List.cons.injEq] at h4
          exact .inr ⟨q, t, by rw [h4.2]⟩

theorem infix_dedent {w doc : Str} (hw : '\n' ∉ w) (ind : Nat) (s : Str) : ∀ i lb,
    w <:+: dedentLoop doc ind s i lb → w <:+: doc := by
  induction s with
  | nil =>
    intro i lb h
    rw [List.infix_nil.1 h]
    exact List.nil_infix
  | cons c cs ih =>
    intro i lb h
    unfold dedentLoop at h
    split at h
    · rcases infix_line h hw with h | h
      · split at h
        · exact h.trans ((List.take_prefix _ _).isInfix.trans (List.drop_suffix _ _).isInfix)
        · rw [List.infix_nil.1 h]; exact List.nil_infix
      · exact ih _ _ h
    · exact ih _ _ h

theorem heredocBody_prefix (dash : Bool) (name : Str) (s : Str) : ∀ (doc d : Str) (k : Nat),
    heredocBody dash name doc s = (some d, k) → d <+: doc ++ s := by
  induction s with
  | nil =>
    intro doc d k h
    unfold heredocBody at h
    split at h <;> cases h
    simp
  | cons c cs ih =>
    intro doc d k h
    unfold heredocBody at h
    split at h
    · cases h; exact List.prefix_append _ _
    · dsimp only at h
      cases hr : heredocBody dash name (doc ++ [c]) cs with
      | mk a m =>
        rw [hr] at h
        cases h
        have := ih _ _ _ hr
        simpa using this

theorem stripTrailingSpaces_prefix (s : Str) : stripTrailingSpaces s <+: s := by
  unfold stripTrailingSpaces
  have := List.dropWhile_suffix (fun c : Char => c == ' ') (l := s.reverse)
  rw [← List.reverse_prefix] at this
  simpa using this

theorem IsDoc.infix {input : Str} {start k : Nat} {doc w : Str} (h : IsDoc input start k doc) (hw : '\n' ∉ w)
    (hi : w <:+: doc) : w <:+: input := by
  obtain ⟨dash, dedent, name, d, hb, hd⟩ := h
  have h1 : d <:+: input := (heredocBody_prefix _ _ _ _ _ _ hb).isInfix.trans (List.drop_suffix _ _).isInfix
  have h2 : stripTrailingSpaces (d.take (d.length - name.length)) <:+: input :=
    (stripTrailingSpaces_prefix _).isInfix.trans ((List.take_prefix _ _).isInfix.trans h1)
  generalize stripTrailingSpaces (d.take (d.length - name.length)) = e at *
  subst hd
  split at hi
  · unfold dedentHeredoc at hi
    dsimp only at hi
    split at hi
    · exact hi.trans h2
    · exact (infix_dedent hw _ _ _ _ hi).trans h2
  · exact hi.trans h2

theorem Reach.infix {src w : Str} (hw : '\n' ∉ w) {l : Lx} (h : Reach src l) : w <:+: l.input → w <:+: src := by
  induction h with
  | init => exact id
  | step hl h ih => rw [(hl.shape h).input]; exact ih
  | child hl h hc ih =>
    obtain ⟨t, b, hb, hch⟩ := (hl.shape h).child _ hc
    have hin := (hl.shape h).input
    rw [hb, Lx.post_input] at hin
    intro hi
    cases hch with
    | heredoc doc e he start k tl hs hlt hst hd => exact ih (hin ▸ hd.infix hw hi)
    | istr => exact ih (hin ▸ hi)
    | regexp => exact ih (hin ▸ hi)
    | words => exact ih (hin ▸ hi)
    | eval => exact ih (hin ▸ hi)
    | regexpEval => exact ih (hin ▸ hi)
  | last t _ ih => exact ih
  | sync _ _ _ ih _ => rw [Lx.sync_input]; exact ih

/-! ### Aborts -/

theorem Spec.HugeEscape.mono {s t : Str} (h : HugeEscape s) (hi : s <:+: t) : HugeEscape t :=
  ⟨h.1.trans hi, h.2.imp fun _ h => ⟨h.1, h.2.1, h.2.2.1, h.2.2.2.trans hi⟩⟩

theorem utf8Encode_none {cp : Int} (h : utf8Encode cp = none) : 0x200000 ≤ cp := by
  unfold utf8Encode at h
  split at h
  · cases h
  · dsimp only at h
    split at h
    · cases h
    split at h
    · cases h
    split at h
    · cases h
    · omega

theorem hex_take (s : Str) (n : Nat) (h : isXDigit (s.ch 0) = true) :
    ∃ ds : Str, ds ≠ [] ∧ ds.length ≤ n + 1 ∧ (∀ c ∈ ds, isHex c = true) ∧ ds <+: s ∧
      hexNumber s (n + 1) = (↑(valueOf 16 ds), ds.length) := by
  cases s with
  | nil => exact absurd h (by decide)
  | cons c s =>
    have hx : isXDigit = isHex := funext isHex_eq
    generalize hm : (s.take n).takeWhile isHex = more
    have h1 : more <+: s := by
      rw [← hm]
      exact (List.takeWhile_prefix _).trans (List.take_prefix _ _)
    obtain ⟨post, hp⟩ := h1
    have hall : ∀ d ∈ c :: more, isHex d = true := by
      intro d hd
      rcases List.mem_cons.1 hd with rfl | hd
      · rw [← isHex_eq]; exact h
      · rw [← hm] at hd
        exact List.mem_takeWhile_imp hd
    have hlen : more.length ≤ n := by
      rw [← hm]
      exact (List.takeWhile_prefix _).length_le.trans (by simp)
    refine ⟨c :: more, by simp, by simpa using hlen, hall, ⟨post, by simp [hp]⟩, ?_⟩
    rw [← hp]
    refine hexNumber_spec (c :: more) post (n + 1) (by simp) (by simpa using hlen) hall ?_
    intro hl d r hpost
    subst hpost
    by_contra hd
    simp only [List.length_cons, Nat.add_lt_add_iff_right] at hl
    rw [Bool.not_eq_false] at hd
    have : (s.take n).takeWhile isHex = more ++ d :: ((r.take (n - more.length - 1)).takeWhile isHex) := by
      rw [← hp, List.take_append, List.take_of_length_le hlen,
        List.takeWhile_append_of_pos (fun x hx => hall x (List.mem_cons_of_mem _ hx))]
      obtain ⟨m, hm'⟩ : ∃ m, n - more.length = m + 1 := ⟨n - more.length - 1, by omega⟩
      rw [hm', List.take_succ_cons, List.takeWhile_cons, hd]
      simp
    rw [hm] at this
    have := congrArg List.length this
    simp at this

theorem unicodeList_abort (fuel : Nat) : ∀ s, unicodeList fuel s = .abort →
    ∃ ds : Str, ds.length = 6 ∧ (∀ c ∈ ds, isHex c = true) ∧ 0x200000 ≤ valueOf 16 ds ∧ ds <:+: s := by
  induction fuel with
  | zero => intro s h; cases h
  | succ fuel ih =>
    intro s h
    unfold unicodeList at h
    ite_at h as h1
    · cases h
    ite_at h as h2
    · cases h
    dsimp only at h
    obtain ⟨ds, d1, d2, d3, d4, d5⟩ := hex_take s 5 (by simpa using h2)
    split at h
    · rename_i hq
      have := utf8Encode_none hq
      rw [d5] at this
      have hv : 0x200000 ≤ valueOf 16 ds := by
        dsimp only at this
        exact_mod_cast this
      refine ⟨ds, ?_, d3, hv, d4.isInfix⟩
      have hb := valueOf_hex_lt ds d3
      by_contra hne
      have : ds.length ≤ 5 := by omega
      have := Nat.pow_le_pow_right (show 0 < 16 by decide) this
      omega
    · split at h
      · cases h
      · cases h
      · rename_i hq
        obtain ⟨ds, e1, e2, e3, e4⟩ := ih _ hq
        exact ⟨ds, e1, e2, e3, e4.trans (List.drop_suffix _ _).isInfix⟩
      · cases h

/-- The first digit of `\uXXXX` may be any byte. -/
theorem hexNumber_small (s : Str) (hs : ∀ c ∈ s, c.toNat < 256) : (hexNumber s 4).1 < 0x200000 := by
  have hv : ∀ c : Char, c.toNat < 256 → hexVal c ≤ 127 := by
    intro c hc
    have e1 : sval 'a' = 97 := rfl
    have e2 : sval 'A' = 65 := rfl
    have e3 : sval '0' = 48 := rfl
    have hs : sval c ≤ 127 := by unfold sval; split <;> omega
    unfold hexVal
    split
    · omega
    split <;> omega
  have hd : ∀ c : Char, isHex c = true → hexVal c ≤ 15 := by
    intro c hc
    have := ascii_forall (p := fun c => !isHex c || decide (hexVal c ≤ 15)) (by decide +kernel) c (isHex_ascii c hc)
    simpa [hc] using this
  have h0 : hexVal (s.ch 0) ≤ 127 := by
    apply hv
    cases s with
    | nil => decide
    | cons c s => exact hs c List.mem_cons_self
  have hfold : ∀ (m : Str) (a : Int), (∀ c ∈ m, isHex c = true) → a ≤ 127 →  m.length ≤ 3 →
      m.foldl (fun a c => a * 16 + hexVal c) a < 0x200000 := by
    intro m a hm ha hl
    match m, hm, hl with
    | [], _, _ => simp; omega
    | [x], hm, _ => have := hd x (hm x (by simp)); simp; omega
    | [x, y], hm, _ => have := hd x (hm x (by simp)); have := hd y (hm y (by simp)); simp; omega
    | [x, y, z], hm, _ =>
      have := hd x (hm x (by simp)); have := hd y (hm y (by simp)); have := hd z (hm z (by simp)); simp; omega
    | _ :: _ :: _ :: _ :: _, _, hl => simp at hl
  unfold hexNumber
  refine hfold _ _ ?_ h0 ?_
  · intro c hc
    rw [← isHex_eq]
    exact List.mem_takeWhile_imp hc
  · exact (List.takeWhile_prefix _).length_le.trans (by simp)

theorem escapedByte_abort (s : Str) (hs : ∀ c ∈ s, c.toNat < 256) (h : escapedByte s = .abort) :
    ['u', '{'] <+: s ∧ ∃ ds : Str, ds.length = 6 ∧ (∀ c ∈ ds, isHex c = true) ∧ 0x200000 ≤ valueOf 16 ds ∧ ds <:+: s := by
  unfold escapedByte at h
  dsimp only at h
  ite_at h as h1
  · cases h
  ite_at h as h2
  · cases h
  ite_at h as h3
  · ite_at h as h4
    · split at h
      · cases h
      · cases h
      · rename_i hq
        obtain ⟨ds, e1, e2, e3, e4⟩ := unicodeList_abort _ _ hq
        refine ⟨?_, ds, e1, e2, e3, e4.trans (List.drop_suffix _ _).isInfix⟩
        obtain ⟨r, rfl⟩ := List.ch_zero_cons _ _ h3 (by decide)
        rw [List.ch_cons_succ] at h4
        obtain ⟨r, rfl⟩ := List.ch_zero_cons _ _ h4 (by decide)
        exact ⟨r, rfl⟩
      · cases h
    · split at h
      · rename_i hq
        have h5 := utf8Encode_none hq
        have h6 := hexNumber_small (s.drop 1) (fun c hc => hs c (List.mem_of_mem_drop hc))
        omega
      · cases h
  have hctl : ∀ m t, (match controlChar m t with
      | (some num, n) => Esc.ok [narrow num] (n + 1)
      | (none, n) => .bad .InvalidCharacterEscape n) ≠ .abort := by
    intro m t; split <;> simp
  repeat' (first | cases h | (ite_at h as h9) | exact absurd h (hctl _ _))

theorem interpLoop_abort (start stop : Char) (fuel depth : Nat) (buf : Str) (n : Nat) (s : Str)
    (hs : ∀ c ∈ s, c.toNat < 256) (h : interpLoop start stop fuel depth buf n s = .abort) : HugeEscape s := by
  induction fuel generalizing depth buf n s with
  | zero => cases h
  | succ fuel ih =>
    have hd : ∀ k, ∀ c ∈ s.drop k, c.toNat < 256 := fun k c hc => hs c (List.mem_of_mem_drop hc)
    have key : ∀ depth buf n k, interpLoop start stop fuel depth buf n (s.drop k) = .abort → HugeEscape s :=
      fun depth buf n k h => (ih _ _ _ _ (hd k) h).mono (List.drop_suffix _ _).isInfix
    unfold interpLoop at h
    dsimp only at h
    ite_at h as h0
    · cases h
    ite_at h as h1
    · split at h
      · exact key _ _ _ _ h
      · cases h
      · rename_i hq
        obtain ⟨g1, ds, g2, g3, g4, g5⟩ := escapedByte_abort _ (hd 1) hq
        obtain ⟨r, rfl⟩ := List.ch_zero_cons _ _ h1.1 (by decide)
        refine ⟨?_, ds, g2, g3, g4, g5.trans (List.drop_suffix _ _).isInfix⟩
        obtain ⟨q, hq⟩ := g1
        exact ⟨[], q, by rw [List.drop_one, List.tail_cons] at hq; rw [← hq]; rfl⟩
      · cases h
    ite_at h as h2
    · cases h
    ite_at h as h3
    · exact key _ _ _ _ h
    ite_at h as h4
    · ite_at h as h5
      · exact key _ _ _ _ h
      · cases h
    · exact key _ _ _ _ h

theorem Lx.rest_infix (l : Lx) : l.rest <:+: l.input := (List.drop_suffix _ _).isInfix

theorem valueOf_dec_lt (ds : Str) (h : ∀ c ∈ ds, isDec c = true) : valueOf 10 ds < 10 ^ ds.length := by
  induction ds with
  | nil => simp [valueOf]
  | cons c ds ih =>
    have h1 := ih (fun d hd => h d (List.mem_cons_of_mem _ hd))
    have h2 : digitOf c < 10 := by
      have := ascii_forall (p := fun c => !isDec c || decide (digitOf c < 10)) (by decide +kernel) c
        (isHex_ascii c (dec_hex c (h c List.mem_cons_self)))
      simpa [h c List.mem_cons_self] using this
    rw [valueOf, List.length_cons, pow_succ]
    have : digitOf c * 10 ^ ds.length ≤ 9 * 10 ^ ds.length := Nat.mul_le_mul_right _ (by omega)
    omega

theorem dispatch_abort (l : Lx) (hs : ∀ c ∈ l.input, c.toNat < 256) (h : l.dispatch = .abort) : HugeEscape l.input := by
  have hd := dispatch_disp l
  rw [h] at hd
  generalize hr : (Res.abort : Res Out) = r at hd
  cases hd <;> try (cases hr)
  case question h0 =>
    unfold Lx.lexQuestion at hr
    replace hr := hr.symm
    dsimp only at hr
    ite_at hr as h1
    · cases hr
    ite_at hr as h2
    · split at hr
      · cases hr
      · cases hr
      · rename_i hq
        obtain ⟨g1, ds, g2, g3, g4, g5⟩ := escapedByte_abort _
          (fun c hc => hs c (l.rest_infix.subset (List.mem_of_mem_drop hc))) hq
        refine Spec.HugeEscape.mono (s := l.rest.drop 1) ?_ ((List.drop_suffix _ _).isInfix.trans l.rest_infix)
        have e : l.rest.drop 1 = '\\' :: l.rest.drop 2 := by
          unfold Lx.ch at h2
          have : (l.rest.drop 1).ch 0 = '\\' := by rw [List.ch_drop]; exact h2
          obtain ⟨r, hr⟩ := List.ch_zero_cons _ _ this (by decide)
          rw [hr, show l.rest.drop 2 = (l.rest.drop 1).drop 1 by rw [List.drop_drop], hr]
          rfl
        rw [e]
        refine ⟨?_, ds, g2, g3, g4, g5.trans (List.suffix_cons _ _).isInfix⟩
        obtain ⟨q, hq⟩ := g1
        exact ⟨[], q, by rw [← hq]; rfl⟩
      · cases hr
    · cases hr
  case dollar =>
    unfold Lx.lexDollar at hr
    replace hr := hr.symm
    ite_at hr as c1
    · cases hr
    ite_at hr as c2
    · dsimp only at hr
      split at hr <;> cases hr
    · cases hr

theorem dispatch_ub (l : Lx) (h : l.dispatch = .ub) : HugeRef l.input := by
  have hd := dispatch_disp l
  rw [h] at hd
  generalize hr : (Res.ub : Res Out) = r at hd
  cases hd <;> try (cases hr)
  case question =>
    unfold Lx.lexQuestion at hr
    replace hr := hr.symm
    dsimp only at hr
    ite_at hr as h1
    · cases hr
    ite_at hr as h2
    · split at hr <;> cases hr
    · cases hr
  case dollar h0 =>
    unfold Lx.lexDollar at hr
    replace hr := hr.symm
    ite_at hr as c1
    · cases hr
    ite_at hr as c2
    · dsimp only at hr
      split at hr
      · cases hr
      · rename_i hq
        have hall : ∀ c ∈ (l.rest.drop 1).takeWhile isDigit, isDec c = true := by
          intro c hc
          rw [← isDec_eq]
          exact List.mem_takeWhile_imp hc
        rw [nthRefVal_value _ hall] at hq
        split at hq
        · cases hq
        · rename_i hv
          refine ⟨_, hall, by omega, ?_⟩
          unfold Lx.ch at h0
          obtain ⟨r, hr⟩ := List.ch_zero_cons _ _ h0 (by decide)
          refine List.IsInfix.trans ?_ l.rest_infix
          rw [hr, List.drop_one, List.tail_cons]
          obtain ⟨t, ht⟩ := List.takeWhile_prefix isDigit (l := r)
          exact ⟨[], t, by simp [ht]⟩
    · cases hr

theorem build_abort (l : Lx) (hs : ∀ c ∈ l.input, c.toNat < 256) (h : l.build = .abort) : HugeEscape l.input := by
  unfold Lx.build at h
  split at h
  · unfold Lx.buildBase at h
    ite_at h as c1
    · cases h
    ite_at h as c2
    · (replace h := fun a => dispatch_abort _ a h); exact h hs
    ite_at h as c3
    · ite_at h as c4
      · cases h
      · (replace h := fun a => dispatch_abort _ a h); exact h hs
    ite_at h as c4
    · (replace h := fun a => dispatch_abort _ a h); exact h hs
    · (replace h := fun a => dispatch_abort _ a h); exact h hs
  · unfold Lx.buildIstr at h
    split at h
    · unfold Lx.istrConsume at h
      split at h
      · dsimp only at h; ite_at h as c <;> cases h
      · dsimp only at h; ite_at h as c <;> cases h
      · dsimp only at h; ite_at h as c <;> cases h
      · cases h
      · rename_i hq
        exact (interpLoop_abort _ _ _ _ _ _ _ (fun c hc => hs c (l.rest_infix.subset hc)) hq).mono l.rest_infix
      · cases h
    all_goals cases h
  · unfold Lx.buildRegexp at h
    split at h
    · unfold Lx.regexpConsume at h
      have := regexpLoop_ends l.startChar l.stopChar (l.rest.length + 1) l.pairDepth [] 0 l.rest
      split at h
      · cases h
      · cases h
      · cases h
      · rename_i hq; rw [hq] at this; exact this.elim
      · rename_i hq; rw [hq] at this; exact this.elim
      · cases h
    · cases h
    · dsimp only at h; ite_at h as c <;> cases h
    all_goals cases h
  · unfold Lx.buildWords at h
    have hc : ∀ st i s d, l.wordsConsume st i s d ≠ .abort := by
      intro st i s d h
      unfold Lx.wordsConsume at h
      dsimp only at h
      split at h
      · ite_at h as c <;> cases h
      · cases h
      · ite_at h as c <;> cases h
      · cases h
      · cases h
    split at h
    · exact absurd h (hc _ _ _ _)
    · exact absurd h (hc _ _ _ _)
    · cases h
    · ite_at h as c <;> cases h
    all_goals cases h

theorem build_ub (l : Lx) (h : l.build = .ub) : HugeRef l.input := by
  unfold Lx.build at h
  split at h
  · unfold Lx.buildBase at h
    ite_at h as c1
    · cases h
    ite_at h as c2
    · (replace h := dispatch_ub _ h); exact h
    ite_at h as c3
    · ite_at h as c4
      · cases h
      · (replace h := dispatch_ub _ h); exact h
    ite_at h as c4
    · (replace h := dispatch_ub _ h); exact h
    · (replace h := dispatch_ub _ h); exact h
  · unfold Lx.buildIstr at h
    split at h
    · unfold Lx.istrConsume at h
      split at h
      · dsimp only at h; ite_at h as c <;> cases h
      · dsimp only at h; ite_at h as c <;> cases h
      · dsimp only at h; ite_at h as c <;> cases h
      all_goals cases h
    all_goals cases h
  · unfold Lx.buildRegexp at h
    split at h
    · unfold Lx.regexpConsume at h
      split at h <;> cases h
    · cases h
    · dsimp only at h; ite_at h as c <;> cases h
    all_goals cases h
  · unfold Lx.buildWords at h
    have hc : ∀ st i s d, l.wordsConsume st i s d ≠ .ub := by
      intro st i s d h
      unfold Lx.wordsConsume at h
      dsimp only at h
      split at h
      · ite_at h as c <;> cases h
      · cases h
      · ite_at h as c <;> cases h
      · cases h
      · cases h
    split at h
    · exact absurd h (hc _ _ _ _)
    · exact absurd h (hc _ _ _ _)
    · cases h
    · ite_at h as c <;> cases h
    all_goals cases h

theorem Reach.huge {src : Str} {l : Lx} (h : Reach src l) :
    (HugeEscape l.input → HugeEscape src) ∧ (HugeRef l.input → HugeRef src) := by
  have hexNl : ∀ ds : Str, (∀ c ∈ ds, isHex c = true) → '\n' ∉ ds := by
    intro ds hd hm
    exact absurd (hd _ hm) (by decide)
  constructor
  · rintro ⟨h1, ds, h2, h3, h4, h5⟩
    exact ⟨h.infix (by decide) h1, ds, h2, h3, h4, h.infix (hexNl ds h3) h5⟩
  · rintro ⟨ds, h1, h2, h3⟩
    refine ⟨ds, h1, h2, h.infix ?_ h3⟩
    intro hm
    rcases List.mem_cons.1 hm with h | h
    · exact absurd h (by decide)
    · exact hexNl ds (fun c hc => dec_hex c (h1 c hc)) h

theorem Reach.bytes {src : Str} (hs : ∀ c ∈ src, c.toNat < 256) {l : Lx} (h : Reach src l) :
    ∀ c ∈ l.input, c.toNat < 256 := by
  intro c hc
  by_cases hn : c = '\n'
  · subst hn; decide
  · have : [c] <:+: l.input := by
      obtain ⟨a, b, hab⟩ := List.append_of_mem hc
      exact ⟨a, b, by rw [hab]; simp⟩
    exact hs c ((h.infix (by simpa using fun h => hn h.symm) this).subset (by simp))

theorem nextToken_fails {src : Str} (hs : ∀ c ∈ src, c.toNat < 256) (ps : List Lx) : ∀ l, StackOk src (l :: ps) →
    (nextToken l ps = .abort → HugeEscape src) ∧ (nextToken l ps = .ub → HugeRef src) := by
  have one : ∀ l, Reach src l → (l.step = .abort → HugeEscape src) ∧ (l.step = .ub → HugeRef src) := by
    intro l hl
    refine ⟨fun h => ?_, fun h => ?_⟩
    · exact hl.huge.1 (build_abort l.start (hl.bytes hs) (l.step_abort h))
    · exact hl.huge.2 (build_ub l.start (l.step_ub h))
  induction ps with
  | nil =>
    intro l hst
    unfold nextToken
    obtain ⟨h1, h2⟩ := one l hst
    refine ⟨fun h => ?_, fun h => ?_⟩
    · split at h <;> first | (cases h; done) | exact h1 (by assumption)
    · split at h <;> first | (cases h; done) | exact h2 (by assumption)
  | cons p ps ih =>
    intro l hst
    unfold nextToken
    obtain ⟨h1, h2⟩ := one l hst.1
    have popped : ∀ o, l.step = .ok o → o.tok.type = .Eof → StackOk src (p.sync o.lx :: ps) := by
      intro o ho he
      have := hst.step ho
      rw [((hst.1.shape ho).eof he).1] at this
      exact this.pop
    refine ⟨fun h => ?_, fun h => ?_⟩
    · split at h
      · rename_i o ho
        ite_at h as he
        · exact (ih _ (popped o ho he)).1 h
        · cases h
      · exact h1 (by assumption)
      · cases h
      · cases h
    · split at h
      · rename_i o ho
        ite_at h as he
        · exact (ih _ (popped o ho he)).2 h
        · cases h
      · cases h
      · exact h2 (by assumption)
      · cases h

theorem tokensLoop_fails {src : Str} (hs : ∀ c ∈ src, c.toNat < 256) (fuel : Nat) : ∀ l ps f, StackOk src (l :: ps) →
    (tokensLoop fuel l ps f = .abort → HugeEscape src) ∧ (tokensLoop fuel l ps f = .ub → HugeRef src) := by
  induction fuel with
  | zero => intro l ps f _; exact ⟨nofun, nofun⟩
  | succ fuel ih =>
    intro l ps f hst
    obtain ⟨h1, h2⟩ := nextToken_fails hs ps l hst
    unfold tokensLoop
    cases hn : nextToken l ps with
    | abort => exact ⟨fun _ => h1 hn, nofun⟩
    | ub => exact ⟨nofun, fun _ => h2 hn⟩
    | fuel => exact ⟨nofun, nofun⟩
    | ok r =>
      obtain ⟨t, st⟩ := r
      have hst' := (nextToken_ok ps l t st hst hn).2
      simp only
      cases hf : f.step t with
      | mk f' o =>
        cases o with
        | none =>
          cases st with
          | nil => exact hst'.elim
          | cons l' ps' => exact ih _ _ _ hst'
        | some t' =>
          simp only
          split
          · exact ⟨nofun, nofun⟩
          · have h4 := hst'.setLast t'.type
            cases hl : setLast t'.type st with
            | nil => rw [hl] at h4; exact h4.elim
            | cons l' ps' => rw [hl] at h4; exact ih _ _ _ h4

end NP
