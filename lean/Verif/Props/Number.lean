import Verif.Proofs.Number
import Verif.Props.Lexeme

/-!
C12-C14, C29: number literals and numbered match references.

The theorems are about one step of an arbitrary plain lexer object in front of the literal, whatever precedes and
follows. Spec: Verif/Spec/Number.lean.
-/

namespace NP

open Spec

theorem dispatch_digit (l : Lx) (h : isDec (l.ch 0) = true) : l.dispatch = .ok l.lexNumber := by
  rw [← isDec_eq] at h
  have hd := dispatch_disp l
  generalize hr : l.dispatch = r at hd
  cases hd
  case digit => rfl
  case word h2 _ _ => rw [h] at h2; cases h2
  all_goals (rename_i h2; rw [h2] at h; exact absurd h (by decide))

theorem noBlank_of_dec (s : Str) (h : isDec (s.ch 0) = true) : NoBlank s :=
  noBlank_of_nameByte s (class_facts _ (dec_hex _ h)).1

/-- A step in front of a number. -/
theorem number_step (l : Lx) (hk : l.kind = .base) (hst : l.stopChar = NUL ∨ l.stopChar = '}') (pre s : Str)
    (hr : l.rest = pre ++ s) (hb : Blank pre) (hd : isDec (s.ch 0) = true) :
    ∃ l', Ready l pre l' ∧ l'.rest = s ∧
      l.step = .ok { l'.lexNumber with lx := l'.lexNumber.lx.post l'.lexNumber.tok.type } := by
  have hne : s ≠ [] := by rintro rfl; exact absurd hd (by decide)
  obtain ⟨l', h1, h2, -, -, h3, -⟩ := base_ok l hk hst pre s hr hb (noBlank_of_dec s hd) hne
    (by intro h; rw [h] at hd; exact absurd hd (by decide)) (by intro h; rw [h] at hd; exact absurd hd (by decide))
  exact ⟨l', h1, h2, h3 _ (dispatch_digit l' (by unfold Lx.ch; rw [h2]; exact hd))⟩

theorem Spec.IntLit.first {base : Nat} {text ds : Str} (h : IntLit base text ds) (post : Str) :
    isDec ((text ++ post).ch 0) = true := by
  cases h with
  | decimal c t ds hc h => exact h.first.1
  | _ => exact (by decide : isDec '0' = true)

theorem Spec.FloatLit.first {text : Str} (h : FloatLit text) (post : Str) : isDec ((text ++ post).ch 0) = true := by
  obtain ⟨int, ds, frac, exp, rfl, hd, -⟩ := h.parts
  have h1 := hd.first.1
  cases int with
  | nil => exact absurd rfl hd.ne_nil.1
  | cons a t => exact h1

theorem not_under {text : Str} (h : ¬ cs! "0_" <+: text) : text.ch 1 ≠ '_' ∨ text.ch 0 ≠ '0' := by
  by_contra hc
  rw [not_or, not_not, not_not] at hc
  apply h
  cases text with
  | nil => exact absurd hc.2 (by decide)
  | cons x t =>
    cases t with
    | nil => exact absurd (show NUL = '_' from hc.1) (by decide)
    | cons y t => have h1 : x = '0' := hc.2; have h2 : y = '_' := hc.1; subst h1 h2; exact ⟨t, rfl⟩

/-! ### C12, C13 -/

/-- C12: an integer literal below 2^62 becomes a fixnum token with the value it denotes, and just the literal is
consumed. `_partial`: octal literals written `0_...` are excluded (`C12_false`). -/
theorem C12_integer_partial (l : Lx) (hk : l.kind = .base) (hst : l.stopChar = NUL ∨ l.stopChar = '}')
    (base : Nat) (pre text ds post : Str) (hr : l.rest = pre ++ (text ++ post)) (hb : Blank pre)
    (h : IntLit base text ds) (hend : NumberEnds post) (hu : ¬ cs! "0_" <+: text) (hv : valueOf base ds < 2 ^ 62) :
    ∃ o, l.step = .ok o ∧ o.tok.type = .Fixnum ∧ o.tok.fix = valueOf base ds ∧ o.child = none ∧
      o.lx.cur.index = l.cur.index + pre.length + text.length := by
  obtain ⟨l', h1, h2, h3⟩ := number_step l hk hst pre _ hr hb (h.first post)
  obtain ⟨chars, hn, -⟩ := numeric_int h (not_under hu) hend
  rw [if_pos hv] at hn
  refine ⟨_, h3, ?_⟩
  unfold Lx.lexNumber
  rw [h2, hn]
  refine ⟨rfl, rfl, rfl, ?_⟩
  simp only [Lx.post_cur, Lx.adv_index, h1.index]

/-- C13: an integer literal from 2^62 on becomes a bignum token whose text, read the way the s-expression creator reads
it, denotes the value of the literal. `_partial`: for octal literals without `o` and for `0d` literals with leading
zeros the text is another one (`C13_false`). -/
theorem C13_bignum_partial (l : Lx) (hk : l.kind = .base) (hst : l.stopChar = NUL ∨ l.stopChar = '}')
    (base : Nat) (pre text ds post : Str) (hr : l.rest = pre ++ (text ++ post)) (hb : Blank pre)
    (h : IntLit base text ds) (hend : NumberEnds post) (hv : 2 ^ 62 ≤ valueOf base ds)
    (hoct : ∀ c, isOct c = true ∨ c = '_' → ¬ ['0', c] <+: text) (hzero : base = 10 → ds.head? ≠ some '0') :
    ∃ o chars, l.step = .ok o ∧ o.tok.type = .Bignum ∧ o.tok.lit = some chars ∧
      rubyInteger chars = valueOf base ds ∧ o.child = none ∧
      o.lx.cur.index = l.cur.index + pre.length + text.length := by
  obtain ⟨l', h1, h2, h3⟩ := number_step l hk hst pre _ hr hb (h.first post)
  obtain ⟨chars, hn, hc⟩ := numeric_int h (not_under (hoct _ (.inr rfl))) hend
  rw [if_neg (by omega)] at hn
  refine ⟨_, chars, h3, ?_⟩
  unfold Lx.lexNumber
  rw [h2, hn]
  refine ⟨rfl, rfl, hc ?_ ?_, rfl, ?_⟩
  · rintro ⟨a, b⟩
    refine hoct _ (.inl b) ?_
    cases text with
    | nil => exact absurd a (by decide)
    | cons x t =>
      cases t with
      | nil => exact absurd (show isOct NUL = true from b) (by decide)
      | cons y t => have : x = '0' := a; subst this; exact ⟨t, rfl⟩
  · intro hb he
    apply hzero hb
    cases ds with
    | nil => exact absurd he (by decide)
    | cons x t => exact congrArg some he
  · simp only [Lx.post_cur, Lx.adv_index, h1.index]

/-- C12 is false of the code as it is: `0_17` is octal 15, the token has the value 17. -/
theorem C12_false : IntLit 8 (cs! "0_17") (cs! "17") ∧ valueOf 8 (cs! "17") = 15 ∧
    ∃ o, (Lx.init (cs! "0_17")).step = .ok o ∧ o.tok.type = .Fixnum ∧ o.tok.fix = 17 :=
  ⟨.octalUnder _ _ (.cons _ _ _ (by decide) (.one _ (by decide))), by decide, _, rfl, by decide +kernel⟩

/-- C13 is false of the code as it is: the text of a large octal literal without `o` begins with a copy of its first
digit, so that it is read as a decimal number; the text of a `0d` literal with leading zero is read as octal. -/
theorem C13_false :
    (∃ text ds o chars, IntLit 8 text ds ∧ 2 ^ 62 ≤ valueOf 8 ds ∧ (Lx.init text).step = .ok o ∧
      o.tok.type = .Bignum ∧ o.tok.lit = some chars ∧ rubyInteger chars ≠ valueOf 8 ds) ∧
    (∃ text ds o chars, IntLit 10 text ds ∧ 2 ^ 62 ≤ valueOf 10 ds ∧ (Lx.init text).step = .ok o ∧
      o.tok.type = .Bignum ∧ o.tok.lit = some chars ∧ rubyInteger chars ≠ valueOf 10 ds) := by
  constructor
  · refine ⟨cs! "01777777777777777777777", cs! "1777777777777777777777", _, cs! "11777777777777777777777",
      .octal _ _ ?_, by decide, rfl, by decide +kernel, by decide +kernel, by decide +kernel⟩
    repeat first | exact .one _ (by decide) | refine .cons _ _ _ (by decide) ?_
  · refine ⟨cs! "0d07777777777777777777", cs! "07777777777777777777", _, cs! "07777777777777777777",
      .decimalPrefix _ _ _ (.inl rfl) ?_, by decide, rfl, by decide +kernel, by decide +kernel, by decide +kernel⟩
    repeat first | exact .one _ (by decide) | refine .cons _ _ _ (by decide) ?_

/-- The hypotheses are met: `1_000` in front of `)`, and `0xFFFF_FFFF_FFFF_FFFF`. -/
example : IntLit 10 (cs! "1_000") (cs! "1000") ∧ NumberEnds (cs! ")") ∧ valueOf 10 (cs! "1000") = 1000 ∧
    (Lx.init (cs! "f(1_000)")).stopChar = NUL := by
  refine ⟨.decimal _ _ _ (by decide) (.under _ _ _ (by decide) (.cons _ _ _ (by decide) (.cons _ _ _ (by decide)
    (.one _ (by decide))))), ?_, by decide, rfl⟩
  intro c r h
  cases h
  exact ⟨.inl (by decide), fun h => absurd h (by decide)⟩

example : ∃ ds, IntLit 16 (cs! "0xFFFF_FFFF_FFFF_FFFF") ds ∧ 2 ^ 62 ≤ valueOf 16 ds ∧ NumberEnds [] :=
  ⟨cs! "FFFFFFFFFFFFFFFF", .hexPrefix _ _ _ (.inl rfl) (by
    repeat first | exact .one _ (by decide) | refine .under _ _ _ (by decide) ?_ | refine .cons _ _ _ (by decide) ?_),
    by decide, fun _ _ h => by cases h⟩

/-! ### C14 -/

/-- What is converted to a floating point number: the text of the literal without underscores, and with `e` for `E`. -/
theorem C14_text (l : Lx) (hk : l.kind = .base) (hst : l.stopChar = NUL ∨ l.stopChar = '}')
    (pre text post : Str) (hr : l.rest = pre ++ (text ++ post)) (hb : Blank pre)
    (h : FloatLit text) (hend : NumberEnds post) :
    ∃ o, l.step = .ok o ∧ o.tok.type = .Float ∧ o.tok.flt = (text.filter (· != '_')).map lowE ∧ o.child = none ∧
      o.lx.cur.index = l.cur.index + pre.length + text.length := by
  obtain ⟨l', h1, h2, h3⟩ := number_step l hk hst pre _ hr hb (h.first post)
  have hn := numeric_float h hend
  refine ⟨_, h3, ?_⟩
  unfold Lx.lexNumber
  rw [h2, hn]
  refine ⟨rfl, rfl, rfl, ?_⟩
  simp only [Lx.post_cur, Lx.adv_index, h1.index]

/-- C14, `_partial`: for literals without a capital `E`. -/
theorem C14_float_partial (l : Lx) (hk : l.kind = .base) (hst : l.stopChar = NUL ∨ l.stopChar = '}')
    (pre text post : Str) (hr : l.rest = pre ++ (text ++ post)) (hb : Blank pre)
    (h : FloatLit text) (hend : NumberEnds post) (hE : 'E' ∉ text) :
    ∃ o, l.step = .ok o ∧ o.tok.type = .Float ∧ o.tok.flt = text.filter (· != '_') ∧ o.child = none ∧
      o.lx.cur.index = l.cur.index + pre.length + text.length := by
  have : (text.filter (· != '_')).map lowE = text.filter (· != '_') := by
    conv_rhs => rw [← List.map_id (text.filter (· != '_'))]
    apply List.map_congr_left
    intro c hc
    have : c ≠ 'E' := by rintro rfl; exact hE (List.mem_filter.1 hc).1
    simp [lowE, this]
  rw [← this]
  exact C14_text l hk hst pre text post hr hb h hend

/-- C14 taken literally is false: `1E5` becomes `1e5` (the same number for `atof`). -/
theorem C14_false : FloatLit (cs! "1E5") ∧
    ∃ o, (Lx.init (cs! "1E5")).step = .ok o ∧ o.tok.type = .Float ∧ o.tok.flt = cs! "1e5" :=
  ⟨⟨cs! "1", cs! "1", [], cs! "E5", rfl, .one _ (by decide), .inr (by decide), .none,
    .some 'E' [] _ _ (.inr rfl) (.inl rfl) (.one _ (by decide)), by simp⟩, _, rfl, by decide +kernel⟩

/-- The hypotheses are met: `1_0.2_5e-3` in front of a space. -/
example : FloatLit (cs! "1_0.2_5e-3") ∧ NumberEnds (cs! " + 1") ∧ 'E' ∉ cs! "1_0.2_5e-3" := by
  refine ⟨⟨cs! "1_0", cs! "10", cs! ".2_5", cs! "e-3", rfl, .under _ _ _ (by decide) (.one _ (by decide)),
    .inr (by decide), .some _ _ (.under _ _ _ (by decide) (.one _ (by decide))),
    .some 'e' ['-'] _ _ (.inl rfl) (.inr (.inr rfl)) (.one _ (by decide)), by simp⟩, ?_, by decide⟩
  intro c r h
  cases h
  exact ⟨.inl (by decide), fun h => absurd h (by decide)⟩

/-! ### C29 -/

theorem nthRefVal_none (ds : Str) : ds.foldl (fun a c => a.bind fun n =>
    if n * 10 ≤ llongMax then
      if n * 10 + digitVal c ≤ llongMax then some (n * 10 + digitVal c) else none
    else none) (none : Option Nat) = none := by
  induction ds with
  | nil => rfl
  | cons c cs ih => rw [List.foldl_cons]; exact ih

theorem nthRefVal_value (ds : Str) (h : ∀ c ∈ ds, isDec c = true) :
    nthRefVal ds = if valueOf 10 ds < 2 ^ 63 then some (valueOf 10 ds) else none := by
  have hmax : llongMax = 2 ^ 63 - 1 := by decide
  have key : ∀ a : Nat, ds.foldl (fun a c => a.bind fun n =>
      if n * 10 ≤ llongMax then
        if n * 10 + digitVal c ≤ llongMax then some (n * 10 + digitVal c) else none
      else none) (some a) =
      if a * 10 ^ ds.length + valueOf 10 ds < 2 ^ 63 then some (a * 10 ^ ds.length + valueOf 10 ds) else
        if ds = [] then some a else none := by
    induction ds with
    | nil => intro a; simp [valueOf]
    | cons c cs ih =>
      intro a
      have hv : a * 10 ^ (c :: cs).length + valueOf 10 (c :: cs) =
          (a * 10 + digitVal c) * 10 ^ cs.length + valueOf 10 cs := by
        rw [digitVal_eq c (dec_hex c (h c List.mem_cons_self)), valueOf, List.length_cons, Nat.pow_succ, Nat.add_mul,
          Nat.mul_assoc, Nat.mul_comm 10, Nat.add_assoc]
      rw [hv, List.foldl_cons, Option.bind_some]
      have hge : a * 10 + digitVal c ≤ (a * 10 + digitVal c) * 10 ^ cs.length :=
        Nat.le_mul_of_pos_right _ (Nat.pow_pos (by decide))
      by_cases h1 : a * 10 + digitVal c ≤ llongMax
      · rw [if_pos (by omega), if_pos h1, ih (fun d hd => h d (List.mem_cons_of_mem _ hd))]
        by_cases h2 : (a * 10 + digitVal c) * 10 ^ cs.length + valueOf 10 cs < 2 ^ 63
        · rw [if_pos h2, if_pos h2]
        · rw [if_neg h2, if_neg h2, if_neg (List.cons_ne_nil c cs), if_neg]
          rintro rfl
          simp [valueOf] at h2
          omega
      · have hn : ∀ x : Option Nat, (if a * 10 ≤ llongMax then
            if a * 10 + digitVal c ≤ llongMax then x else none else none) = none := by
          intro x
          rw [if_neg h1]; split <;> rfl
        rw [hn, nthRefVal_none, if_neg (by omega), if_neg (List.cons_ne_nil c cs)]
  rw [nthRefVal, key 0]
  by_cases h1 : ds = []
  · subst h1; simp [valueOf]
  · simp [h1]

theorem ascii_imp {p q : Char → Bool} (h : ∀ n < 128, p (Char.ofNat n) = true → q (Char.ofNat n) = true) (c : Char)
    (hc : c.toNat < 128) : p c = true → q c = true := by
  have := h c.toNat hc
  rwa [Char.ofNat_toNat] at this

/-- A step in front of a numbered reference. -/
theorem nth_step (l : Lx) (hk : l.kind = .base) (hst : l.stopChar = NUL ∨ l.stopChar = '}')
    (pre ds post : Str) (hr : l.rest = pre ++ ('$' :: ds ++ post)) (hb : Blank pre) (hds : ∀ c ∈ ds, isDec c = true)
    (hne : ds ≠ []) (h0 : ds.head? ≠ some '0') (hend : ∀ c r, post = c :: r → isDec c = false) :
    ∃ l', Ready l pre l' ∧ l'.dispatch = (if valueOf 10 ds < 2 ^ 63 then
        .ok { tok := { l'.tk .NthRef with fix := valueOf 10 ds }, lx := l'.adv (1 + ds.length) } else .ub) ∧
      (∀ o, l'.dispatch = .ok o → l.step = .ok { o with lx := o.lx.post o.tok.type }) ∧
      (l'.dispatch = .ub → l.step = .ub) := by
  have hnb : NoBlank ('$' :: ds ++ post) := by
    intro b r hb he
    cases hb with
    | nil => rfl
    | _ => cases he
  obtain ⟨l', h1, h2, -, -, h3, h4, -⟩ := base_ok l hk hst pre _ hr hb hnb (by simp) (by show '$' ≠ _; decide)
    (by show '$' ≠ _; decide)
  refine ⟨l', h1, ?_, h3, h4⟩
  have e0 : l'.ch 0 = '$' := by unfold Lx.ch; rw [h2]; rfl
  have hdis : l'.dispatch = l'.lexDollar := by
    unfold Lx.dispatch
    rw [e0]
    rfl
  rw [hdis]
  have hfirst : between '1' '9' (l'.ch 1) = true := by
    unfold Lx.ch
    rw [h2]
    cases ds with
    | nil => exact absurd rfl hne
    | cons c t =>
      show between '1' '9' c = true
      have hc := hds c List.mem_cons_self
      have hc0 : c ≠ '0' := fun h => h0 (by rw [h]; rfl)
      exact ascii_imp (p := fun c => isDec c && c != '0') (q := between '1' '9') (by decide) c
        (isHex_ascii c (dec_hex c hc)) (by simp [hc, hc0])
  have htake : (l'.rest.drop 1).takeWhile isDigit = ds := by
    rw [h2]
    show List.takeWhile isDigit (ds ++ post) = ds
    rw [funext isDec_eq, List.takeWhile_append_of_pos hds]
    cases post with
    | nil => simp
    | cons c r => rw [List.takeWhile_cons, hend c r rfl]; simp
  unfold Lx.lexDollar
  rw [if_neg, if_pos hfirst]
  · dsimp only
    rw [htake, nthRefVal_value ds hds]
    by_cases hv : valueOf 10 ds < 2 ^ 63
    · rw [if_pos hv, if_pos hv]
    · rw [if_neg hv, if_neg hv]
  · intro h; rw [h] at hfirst; exact absurd hfirst (by decide)

/-- C29: `$N` is a reference token with the number `N`. `_partial`: `N` below 2^63; from there on the program has
undefined behaviour (`C29_overflow`). -/
theorem C29_nth_ref_partial (l : Lx) (hk : l.kind = .base) (hst : l.stopChar = NUL ∨ l.stopChar = '}')
    (pre ds post : Str) (hr : l.rest = pre ++ ('$' :: ds ++ post)) (hb : Blank pre) (hds : ∀ c ∈ ds, isDec c = true)
    (hne : ds ≠ []) (h0 : ds.head? ≠ some '0') (hend : ∀ c r, post = c :: r → isDec c = false)
    (hv : valueOf 10 ds < 2 ^ 63) :
    ∃ o, l.step = .ok o ∧ o.tok.type = .NthRef ∧ o.tok.fix = valueOf 10 ds ∧ o.child = none ∧
      o.lx.cur.index = l.cur.index + pre.length + 1 + ds.length := by
  obtain ⟨l', h1, h2, h3, -⟩ := nth_step l hk hst pre ds post hr hb hds hne h0 hend
  rw [if_pos hv] at h2
  refine ⟨_, h3 _ h2, rfl, rfl, rfl, ?_⟩
  simp only [Lx.post_cur, Lx.adv_index, h1.index]
  omega

/-- A larger number overflows a signed integer. -/
theorem C29_overflow (l : Lx) (hk : l.kind = .base) (hst : l.stopChar = NUL ∨ l.stopChar = '}')
    (pre ds post : Str) (hr : l.rest = pre ++ ('$' :: ds ++ post)) (hb : Blank pre) (hds : ∀ c ∈ ds, isDec c = true)
    (hne : ds ≠ []) (h0 : ds.head? ≠ some '0') (hend : ∀ c r, post = c :: r → isDec c = false)
    (hv : 2 ^ 63 ≤ valueOf 10 ds) : l.step = .ub := by
  obtain ⟨l', h1, h2, h3, h4⟩ := nth_step l hk hst pre ds post hr hb hds hne h0 hend
  rw [if_neg (by omega)] at h2
  exact h4 h2

/-- C29 without the bound is false of the code as it is. -/
theorem C29_false : (Lx.init (cs! "$9223372036854775808")).step = .ub := by decide +kernel

/-- The hypotheses are met: `$12` in front of `)`. -/
example : (Lx.init (cs! " $12)")).rest = cs! " " ++ ('$' :: cs! "12" ++ cs! ")") ∧ Blank (cs! " ") ∧
    (∀ c ∈ cs! "12", isDec c = true) ∧ (cs! "12").head? ≠ some '0' ∧ valueOf 10 (cs! "12") = 12 :=
  ⟨by decide, .space _ .nil, by decide, by decide, by decide⟩

end NP
