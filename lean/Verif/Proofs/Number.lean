import Verif.Proofs.Keyword
import Verif.Spec.Number

/-! Number literals. -/

namespace NP

open Spec

/-- A step of a plain lexer in front of `s`, when the object goes on to `dispatch`. -/
theorem base_ok (l : Lx) (hk : l.kind = .base) (hst : l.stopChar = NUL ∨ l.stopChar = '}') (pre s : Str)
    (hr : l.rest = pre ++ s) (hb : Blank pre) (hs : NoBlank s) (hne : s ≠ []) (hEF : s.ch 0 ≠ '\xEF')
    (hbr : s.ch 0 ≠ '}') :
    ∃ l', Ready l pre l' ∧ l'.rest = s ∧ l'.kind = .base ∧ l'.stopChar = l.stopChar ∧
      (∀ o, l'.dispatch = .ok o → l.step = .ok { o with lx := o.lx.post o.tok.type }) ∧
      (l'.dispatch = .ub → l.step = .ub) ∧ (l'.dispatch = .abort → l.step = .abort) := by
  have hsk : l.skipped = pre.length := by
    rw [show l.skipped = skipWs l.rest by rw [Lx.skipped, hk], hr, blank_skipWs hb s hs]
  have hrest : l.start.rest = s := by rw [l.start_rest, hsk, hr, List.drop_left]
  have ready : ∀ d, Ready l pre { l.start with pairDepth := d } := by
    intro d
    refine ⟨?_, ?_, rfl, ?_, rfl, rfl, rfl, rfl, rfl, rfl, rfl, rfl, ?_⟩
    · show l.rest = pre ++ l.start.rest
      rw [hrest, hr]
    · left
      show _ ∧ NoBlank l.start.rest
      rw [hrest]
      exact ⟨hb, hs⟩
    · show l.start.cur = _
      rw [Lx.start_cur, hsk]
    · left
      show l.start.rest ≠ []
      rw [hrest]; exact hne
  have hlen : ¬ (l.start.cur.index ≥ l.start.input.length) := by
    intro h
    apply hne
    rw [← hrest]
    exact List.drop_of_length_le h
  have hch : l.start.ch 0 = s.ch 0 := by unfold Lx.ch; rw [hrest]
  have hstop : ¬ (l.start.stopChar ≠ NUL ∧ l.start.ch 0 = l.start.stopChar) := by
    rw [show l.start.stopChar = l.stopChar from rfl, hch]
    rintro ⟨h1, h2⟩
    rcases hst with h | h
    · exact h1 h
    · rw [h] at h2; exact hbr h2
  have hstep : ∀ d, l.start.build = Lx.dispatch { l.start with pairDepth := d } →
      (∀ o, Lx.dispatch { l.start with pairDepth := d } = .ok o →
        l.step = .ok { o with lx := o.lx.post o.tok.type }) ∧
      (Lx.dispatch { l.start with pairDepth := d } = .ub → l.step = .ub) ∧
      (Lx.dispatch { l.start with pairDepth := d } = .abort → l.step = .abort) := by
    intro d hd
    unfold Lx.step
    refine ⟨fun o ho => ?_, fun ho => ?_, fun ho => ?_⟩ <;> rw [hd, ho]
  have hbuild : l.start.build = l.start.buildBase := by
    unfold Lx.build
    rw [Lx.start_kind, hk]
  by_cases hsc : l.start.startChar ≠ NUL ∧ l.start.ch 0 = l.start.startChar
  · refine ⟨_, ready (l.start.pairDepth + 1), hrest, hk, rfl, hstep _ ?_⟩
    rw [hbuild, Lx.buildBase, if_neg hlen, if_pos hsc]
  · refine ⟨_, ready l.start.pairDepth, hrest, hk, rfl, hstep _ ?_⟩
    rw [hbuild, Lx.buildBase, if_neg hlen, if_neg hsc, if_neg hstop, if_neg (by rw [hch]; exact fun h => hEF h.2)]

theorem between_eq (a b c : Char) : between a b c = (decide (a ≤ c) && decide (c ≤ b)) := by
  simp only [between, char_le]

theorem isDec_eq (c : Char) : isDigit c = isDec c := by rw [isDigit, between_eq]; rfl

theorem isOct_eq (c : Char) : isOctal c = isOct c := by rw [isOctal, between_eq]; rfl

theorem isBin_eq (c : Char) : isBinary c = isBin c := rfl

theorem isHex_eq (c : Char) : isXDigit c = isHex c := by
  rw [isXDigit, isDec_eq, between_eq, between_eq]; rfl

/-- A statement about the bytes below 128 can be checked one by one. -/
theorem ascii_forall {p : Char → Bool} (h : ∀ n < 128, p (Char.ofNat n) = true) (c : Char) (hc : c.toNat < 128) :
    p c = true := by
  have := h c.toNat hc
  rwa [Char.ofNat_toNat] at this

theorem isHex_ascii (c : Char) (h : isHex c = true) : c.toNat < 128 := by
  simp only [isHex, isDec, Bool.or_eq_true, Bool.and_eq_true, decide_eq_true_eq, char_le] at h
  have h1 : ('9' : Char).toNat = 57 := rfl
  have h2 : ('f' : Char).toNat = 102 := rfl
  have h3 : ('F' : Char).toNat = 70 := rfl
  omega

theorem digitVal_eq (c : Char) (h : isHex c = true) : digitVal c = digitOf c := by
  have := ascii_forall (p := fun c => !isHex c || digitVal c == digitOf c) (by decide +kernel) c (isHex_ascii c h)
  simpa [h] using this

/-- The bytes of the classes. -/
theorem class_facts (c : Char) (h : isHex c = true) : nameByte c = true ∧ c ≠ '_' ∧ c ≠ NUL := by
  have := ascii_forall (p := fun c => !isHex c || (nameByte c && c != '_' && c != NUL)) (by decide +kernel) c
    (isHex_ascii c h)
  simp only [h, Bool.not_true, Bool.false_or, Bool.and_eq_true, bne_iff_ne, ne_eq] at this
  exact ⟨this.1.1, this.1.2, this.2⟩

theorem oct_dec (c : Char) (h : isOct c = true) : isDec c = true := by
  simp only [isOct, isDec, Bool.and_eq_true, decide_eq_true_eq] at *
  exact ⟨h.1, Char.le_trans h.2 (by decide)⟩

theorem dec_hex (c : Char) (h : isDec c = true) : isHex c = true := by simp [isHex, h]

theorem bin_oct (c : Char) (h : isBin c = true) : isOct c = true := by
  simp only [isBin, Bool.or_eq_true, beq_iff_eq] at h
  rcases h with rfl | rfl <;> decide

/-- A class of digits. -/
structure DigitClass (p : Char → Bool) : Prop where
  hex : ∀ c, p c = true → isHex c = true
  last : ∀ c, nameByte c = false ∨ c = 'i' ∨ c = 'r' → p c = false

theorem DigitClass.of_hex (p : Char → Bool) (h : ∀ c, p c = true → isHex c = true) : DigitClass p := by
  refine ⟨h, fun c hc => ?_⟩
  cases hp : p c with
  | false => rfl
  | true =>
    have h1 := h c hp
    rcases hc with h2 | rfl | rfl
    · rw [(class_facts c h1).1] at h2; cases h2
    · exact absurd h1 (by decide)
    · exact absurd h1 (by decide)

theorem DigitClass.dec : DigitClass isDec := .of_hex _ dec_hex
theorem DigitClass.oct : DigitClass isOct := .of_hex _ fun c h => dec_hex c (oct_dec c h)
theorem DigitClass.bin : DigitClass isBin := .of_hex _ fun c h => dec_hex c (oct_dec c (bin_oct c h))
theorem DigitClass.hexa : DigitClass isHex := .of_hex _ fun _ h => h

theorem digitRun_stop (p : Char → Bool) (post : Str) (h : ∀ c r, post = c :: r → p c = false) :
    digitRun p post = ([], 0) := by
  match post with
  | [] => rfl
  | [c] => simp [digitRun, h c _ rfl]
  | c :: d :: r =>
    by_cases hd : d = '_'
    · subst hd; simp [digitRun, h c _ rfl]
    · rw [digitRun]
      · simp [h c _ rfl]
      · intro cs hcs; cases hcs; exact hd rfl

theorem Spec.Digits.ne_nil {p : Char → Bool} {t ds : Str} (h : Digits p t ds) : t ≠ [] ∧ ds ≠ [] := by
  cases h <;> simp

theorem Spec.Digits.first {p : Char → Bool} {t ds : Str} (h : Digits p t ds) : p (t.ch 0) = true ∧ t.ch 0 = ds.ch 0 := by
  cases h <;> exact ⟨by assumption, rfl⟩

theorem Spec.Digits.all {p : Char → Bool} {t ds : Str} (h : Digits p t ds) : ∀ c ∈ ds, p c = true := by
  induction h with
  | one c h => simpa using h
  | cons c t ds h _ ih => simpa using ⟨h, ih⟩
  | under c t ds h _ ih => simpa using ⟨h, ih⟩

theorem digitRun_spec {p : Char → Bool} (hp : DigitClass p) {t ds : Str} (h : Digits p t ds) (post : Str)
    (hpost : ∀ c r, post = c :: r → p c = false ∧ c ≠ '_') : digitRun p (t ++ post) = (ds, t.length) := by
  have hstop := digitRun_stop p post (fun c r e => (hpost c r e).1)
  have step : ∀ (c : Char) (s : Str), p c = true → s.head? ≠ some '_' → digitRun p (c :: s) =
      (c :: (digitRun p s).1, (digitRun p s).2 + 1) := by
    intro c s hc hs
    cases s with
    | nil => simp [digitRun, hc]
    | cons d r =>
      rw [digitRun]
      · simp [hc]
      · intro cs hcs; cases hcs; exact hs rfl
  induction h with
  | one c h =>
    simp only [List.cons_append, List.nil_append, List.length_cons, List.length_nil]
    rw [step c post h, hstop]
    cases post with
    | nil => simp
    | cons d r => simpa using (hpost d r rfl).2
  | cons c t ds h ht ih =>
    simp only [List.cons_append, List.length_cons]
    rw [step c _ h, ih]
    obtain ⟨h1, -⟩ := ht.first
    cases t with
    | nil => exact absurd rfl ht.ne_nil.1
    | cons d r =>
      simp only [List.cons_append, List.head?_cons, ne_eq, Option.some.injEq]
      exact (class_facts d (hp.hex d h1)).2.1
  | under c t ds h ht ih =>
    simp only [List.cons_append, List.length_cons]
    rw [digitRun, if_pos h, ih]

theorem foldl_value (base : Nat) (ds : Str) (h : ∀ c ∈ ds, isHex c = true) : ∀ a : Nat,
    ds.foldl (fun a c => a * base + digitVal c) a = a * base ^ ds.length + valueOf base ds := by
  induction ds with
  | nil => intro a; simp [valueOf]
  | cons c cs ih =>
    intro a
    rw [List.foldl_cons, ih (fun d hd => h d (List.mem_cons_of_mem _ hd)), digitVal_eq c (h c (List.mem_cons_self)),
      valueOf, List.length_cons, Nat.pow_succ, Nat.add_mul, Nat.mul_assoc, Nat.mul_comm base, Nat.add_assoc]

theorem strtoll_value (base : Nat) (ds : Str) (h : ∀ c ∈ ds, isHex c = true) :
    strtoll ds base = if valueOf base ds ≤ llongMax then (valueOf base ds, false) else (llongMax, true) := by
  rw [strtoll, foldl_value base ds h 0]
  simp

theorem charsToNum_value (base : Nat) (pre ds : Str) (h : ∀ c ∈ ds, isHex c = true) :
    charsToNum (pre ++ ds) base pre.length =
      if valueOf base ds < 2 ^ 62 then .fix (valueOf base ds) else .big (pre ++ ds) := by
  have h1 : maxFixnum = 2 ^ 62 - 1 := by decide
  have h2 : llongMax = 2 ^ 63 - 1 := by decide
  unfold charsToNum
  rw [List.drop_left, strtoll_value base ds h]
  by_cases hv : valueOf base ds < 2 ^ 62
  · have hl : valueOf base ds ≤ llongMax := by omega
    rw [if_pos hv, if_pos hl]
    simp only [Bool.false_eq_true, false_or]
    rw [if_neg (by omega)]
  · rw [if_neg hv]
    by_cases hl : valueOf base ds ≤ llongMax
    · rw [if_pos hl]
      simp only [Bool.false_eq_true, false_or]
      rw [if_pos (by omega)]
    · rw [if_neg hl]; simp

/-- What `consume_numeric` makes of an integer literal. -/
theorem numeric_int {base : Nat} {text ds post : Str} (h : IntLit base text ds) (hu : text.ch 1 ≠ '_' ∨ text.ch 0 ≠ '0')
    (hend : NumberEnds post) :
    ∃ chars, numeric (text ++ post) =
        (if valueOf base ds < 2 ^ 62 then .fix (valueOf base ds) else .big chars, text.length) ∧
      (¬ (text.ch 0 = '0' ∧ isOct (text.ch 1) = true) → (base = 10 → ds.ch 0 ≠ '0') →
        rubyInteger chars = valueOf base ds) := by
  have hpost : ∀ {p : Char → Bool}, DigitClass p → ∀ c r, post = c :: r → p c = false ∧ c ≠ '_' := by
    intro p hp c r he
    have h1 := (hend c r he).1
    refine ⟨hp.last c h1, ?_⟩
    rintro rfl
    rcases h1 with h1 | h1 | h1 <;> exact absurd h1 (by decide)
  have hpost0 : ∀ c, (c = 'e' ∨ c = 'E' ∨ isDec c = true ∨ c = 'd' ∨ c = 'D' ∨ c = 'o' ∨ c = 'O' ∨ c = 'x' ∨ c = 'X' ∨
      c = 'b' ∨ c = 'B') → post.ch 0 ≠ c := by
    intro c hc he
    have hne : c ≠ NUL := by
      rintro rfl
      revert hc; decide
    obtain ⟨r, hr⟩ := post.ch_zero_cons c he hne
    have h1 := (hend c r hr).1
    have hn : nameByte c = true := by
      rcases hc with rfl | rfl | h | rfl | rfl | rfl | rfl | rfl | rfl | rfl | rfl
      all_goals first | decide | exact (class_facts c (dec_hex c h)).1
    rw [hn] at h1
    rcases h1 with h1 | rfl | rfl
    · cases h1
    · revert hc; decide
    · revert hc; decide
  -- plain decimal digits
  have hdec : ∀ t, Digits isDec t ds → decimal (t ++ post) =
      (if valueOf 10 ds < 2 ^ 62 then .fix (valueOf 10 ds) else .big ds, t.length) := by
    intro t hd
    unfold decimal
    rw [show isDigit = isDec from funext isDec_eq, digitRun_spec .dec hd post (hpost .dec)]
    simp only [List.drop_left]
    rw [if_neg]
    · have := charsToNum_value 10 [] ds (fun c hc => dec_hex c (hd.all c hc))
      simp only [List.nil_append, List.length_nil] at this
      rw [this]
    · rintro (⟨h1, h2⟩ | h1 | h1)
      · obtain ⟨r, hr⟩ := post.ch_zero_cons '.' h1 (by decide)
        have h3 := (hend _ _ hr).2 rfl
        rw [hr] at h2
        have h4 : r.ch 0 ≠ NUL := by
          intro he
          have : isDec (r.ch 0) = true := by simpa using h2
          rw [he] at this; exact absurd this (by decide)
        obtain ⟨r', hr'⟩ := r.ch_zero_cons (r.ch 0) rfl h4
        have := h3 _ _ hr'
        have h5 : isDec (r.ch 0) = true := by simpa using h2
        rw [this] at h5; cases h5
      · exact hpost0 _ (.inl rfl) h1
      · exact hpost0 _ (.inr (.inl rfl)) h1
  -- literals with a prefix
  have hpre : ∀ {p : Char → Bool} (q : Char → Bool) (_ : DigitClass p) (_ : q = p) (x : Char) (t pre : Str) (base : Nat),
      Digits p t ds → prefixed ('0' :: x :: t ++ post) q pre base =
        (if valueOf base ds < 2 ^ 62 then .fix (valueOf base ds) else .big (pre ++ ds), t.length + 2) := by
    intro p q hp hq x t pre base hd
    subst hq
    unfold prefixed
    have h2 : ('0' :: x :: t ++ post).ch 2 = t.ch 0 := by
      cases t with
      | nil => exact absurd rfl hd.ne_nil.1
      | cons a r => rfl
    rw [h2, if_pos hd.first.1]
    simp only [List.cons_append, List.drop_succ_cons, List.drop_zero]
    rw [digitRun_spec hp hd post (hpost hp)]
    simp only
    rw [charsToNum_value base pre ds (fun c hc => hp.hex c (hd.all c hc))]
  have hch0 : ∀ (x : Char) (s : Str), List.ch (x :: s) 0 = x := fun _ _ => rfl
  have hch1 : ∀ (x y : Char) (s : Str), List.ch (x :: y :: s) 1 = y := fun _ _ _ => rfl
  have read10 : ∀ ds : Str, ds.ch 0 ≠ '0' → rubyInteger ds = valueOf 10 ds := by
    intro ds hds
    unfold rubyInteger
    split
    · exact absurd rfl hds
    · exact absurd rfl hds
    · exact absurd rfl hds
    · exact absurd rfl hds
    · rfl
  cases h with
  | zero =>
    refine ⟨['0'], ?_, fun _ h => absurd rfl (h rfl)⟩
    unfold numeric
    simp only [List.cons_append, List.nil_append, hch0, List.ch_cons_succ, List.length_cons, List.length_nil]
    rw [if_pos trivial, if_neg, if_neg, if_neg, if_neg, if_neg]
    · exact hdec ['0'] (.one '0' (by decide))
    · rw [isDec_eq]
      intro h
      exact hpost0 _ (.inr (.inr (.inl h))) rfl
    · rintro (h | h) <;> exact hpost0 _ (by simp) h
    · rintro (h | h) <;> exact hpost0 _ (by simp) h
    · rintro (h | h) <;> exact hpost0 _ (by simp) h
    · rintro (h | h) <;> exact hpost0 _ (by simp) h
  | decimal c t _ hc hd =>
    refine ⟨ds, ?_, ?_⟩
    · unfold numeric
      simp only [List.cons_append, hch0]
      rw [if_neg hc]
      exact hdec (c :: t) hd
    · intro _ h1; exact read10 ds (h1 rfl)
  | decimalPrefix x t _ hx hd =>
    refine ⟨ds, ?_, fun _ h1 => read10 ds (h1 rfl)⟩
    unfold numeric
    simp only [List.cons_append, hch0, hch1]
    rw [if_pos trivial, if_pos hx]
    have := hpre isDigit .dec (funext isDec_eq) x t [] 10 hd
    simpa using this
  | octalPrefix x t _ hx hd =>
    refine ⟨cs! "0o" ++ ds, ?_, fun _ _ => rfl⟩
    unfold numeric
    simp only [List.cons_append, hch0, hch1]
    rw [if_pos trivial, if_neg (by rcases hx with rfl | rfl <;> decide), if_pos hx]
    have := hpre isOctal .oct (funext isOct_eq) x t (cs! "0o") 8 hd
    simpa using this
  | hexPrefix x t _ hx hd =>
    refine ⟨cs! "0x" ++ ds, ?_, fun _ _ => rfl⟩
    unfold numeric
    simp only [List.cons_append, hch0, hch1]
    rw [if_pos trivial, if_neg (by rcases hx with rfl | rfl <;> decide),
      if_neg (by rcases hx with rfl | rfl <;> decide), if_pos hx]
    have := hpre isXDigit .hexa (funext isHex_eq) x t (cs! "0x") 16 hd
    simpa using this
  | binaryPrefix x t _ hx hd =>
    refine ⟨cs! "0b" ++ ds, ?_, fun _ _ => rfl⟩
    unfold numeric
    simp only [List.cons_append, hch0, hch1]
    rw [if_pos trivial, if_neg (by rcases hx with rfl | rfl <;> decide),
      if_neg (by rcases hx with rfl | rfl <;> decide), if_neg (by rcases hx with rfl | rfl <;> decide), if_pos hx]
    have := hpre isBinary .bin (funext isBin_eq) x t (cs! "0b") 2 hd
    simpa using this
  | octal t _ hd =>
    have h1 : ('0' :: t ++ post).ch 1 = t.ch 0 := by
      cases t with
      | nil => exact absurd rfl hd.ne_nil.1
      | cons a r => rfl
    refine ⟨t.ch 0 :: ds, ?_, ?_⟩
    · have h2 := hd.first.1
      have h3 : ∀ x, isOct x = false → t.ch 0 ≠ x := by
        intro x hx he; rw [he, hx] at h2; cases h2
      unfold numeric
      rw [h1]
      simp only [List.cons_append, hch0]
      rw [if_pos trivial, if_neg, if_neg, if_neg, if_neg, if_pos, if_pos (by rw [isOct_eq]; exact h2)]
      · simp only [List.drop_succ_cons, List.drop_zero]
        rw [show isOctal = isOct from funext isOct_eq, digitRun_spec .oct hd post (hpost .oct)]
        have := charsToNum_value 8 [t.ch 0] ds (fun c hc => DigitClass.oct.hex c (hd.all c hc))
        simp only [List.singleton_append, List.length_cons, List.length_nil] at this
        rw [this]
        rfl
      · rw [isDec_eq]; exact oct_dec _ h2
      · rintro (h | h) <;> exact h3 _ (by decide) h
      · rintro (h | h) <;> exact h3 _ (by decide) h
      · rintro (h | h) <;> exact h3 _ (by decide) h
      · rintro (h | h) <;> exact h3 _ (by decide) h
    · intro hn
      exfalso
      apply hn
      refine ⟨rfl, ?_⟩
      rw [List.ch_cons_succ]; exact hd.first.1
  | octalUnder t _ hd =>
    rcases hu with h | h <;> exact absurd rfl h

/-! ### Floats -/

theorem Spec.Digits.filter {p : Char → Bool} (hp : DigitClass p) {t ds : Str} (h : Digits p t ds) :
    t.filter (· != '_') = ds := by
  have hne : ∀ c, p c = true → (c != '_') = true := by
    intro c hc; simpa using (class_facts c (hp.hex c hc)).2.1
  induction h with
  | one c h => simp [List.filter, hne c h]
  | cons c t ds h _ ih => simp [hne c h, ih]
  | under c t ds h _ ih => simp [hne c h, ih]

theorem Spec.Digits.low {t ds : Str} (h : Digits isDec t ds) : ds.map lowE = ds := by
  have : ∀ c ∈ ds, lowE c = c := by
    intro c hc
    have := h.all c hc
    unfold Spec.lowE
    split
    · rename_i he; subst he; exact absurd this (by decide)
    · rfl
  conv_rhs => rw [← List.map_id ds]
  exact List.map_congr_left this

theorem exponent_spec {exp post : Str} (h : Exponent exp) (hpost : ∀ c r, post = c :: r → isDec c = false ∧ c ≠ '_' ∧ c ≠ 'e' ∧ c ≠ 'E') :
    exponentPart (exp ++ post) = (.ok ((exp.filter (· != '_')).map lowE), exp.length) := by
  cases h with
  | none =>
    unfold exponentPart
    rw [if_neg]
    · rfl
    · have : ∀ c, c ≠ NUL → (c = 'e' ∨ c = 'E') → List.ch ([] ++ post) 0 ≠ c := by
        intro c hc he h
        obtain ⟨r, hr⟩ := post.ch_zero_cons c h hc
        have := hpost c r hr
        rcases he with rfl | rfl
        · exact this.2.2.1 rfl
        · exact this.2.2.2 rfl
      rintro (h | h)
      · exact this 'e' (by decide) (.inl rfl) h
      · exact this 'E' (by decide) (.inr rfl) h
  | some e sign t ds he hs hd =>
    have hrun : digitRun isDec (t ++ post) = (ds, t.length) :=
      digitRun_spec .dec hd post (fun c r hr => ⟨(hpost c r hr).1, (hpost c r hr).2.1⟩)
    have hf := hd.first.1
    have hle : lowE e = 'e' := by rcases he with rfl | rfl <;> rfl
    have heu : (e != '_') = true := by rcases he with rfl | rfl <;> rfl
    have hlow := hd.low
    have hfil := hd.filter .dec
    obtain ⟨a, t', rfl⟩ : ∃ a t', t = a :: t' := by
      cases t with
      | nil => exact absurd rfl hd.ne_nil.1
      | cons a t' => exact ⟨a, t', rfl⟩
    have ha : isDec a = true := hf
    have ha1 : a ≠ '-' ∧ a ≠ '+' := by
      constructor <;> (rintro rfl; exact absurd ha (by decide))
    have hdig : isDigit = isDec := funext isDec_eq
    have e0 : (e :: sign ++ a :: t' ++ post).ch 0 = e := rfl
    have hsign : (if (e :: sign ++ a :: t' ++ post).ch 1 = '-' ∨ (e :: sign ++ a :: t' ++ post).ch 1 = '+' then
        [(e :: sign ++ a :: t' ++ post).ch 1] else []) = sign := by
      rcases hs with rfl | rfl | rfl
      · exact if_neg (show ¬ (a = '-' ∨ a = '+') by rintro (h | h); exact ha1.1 h; exact ha1.2 h)
      · rfl
      · rfl
    have hchk : (e :: sign ++ a :: t' ++ post).ch (sign.length + 1) = a := by
      rcases hs with rfl | rfl | rfl <;> rfl
    have hdrop : (e :: sign ++ a :: t' ++ post).drop (sign.length + 1) = a :: t' ++ post := by
      rcases hs with rfl | rfl | rfl <;> rfl
    have hslow : (sign.filter (· != '_')).map lowE = sign := by rcases hs with rfl | rfl | rfl <;> rfl
    unfold exponentPart
    simp only [hsign, hchk, hdrop, e0, hdig, if_pos he, if_pos ha, hrun]
    have hall : List.map lowE (List.filter (· != '_') (e :: sign ++ a :: t')) = 'e' :: (sign ++ ds) := by
      rw [List.filter_append, List.filter_cons, heu, if_pos rfl, List.map_append, List.map_cons, hslow, hfil, hlow, hle]
      rfl
    rw [hall]
    simp; omega

theorem numberEnds_facts {post : Str} (hend : NumberEnds post) :
    ∀ c r, post = c :: r → isDec c = false ∧ c ≠ '_' ∧ c ≠ 'e' ∧ c ≠ 'E' := by
  intro c r he
  have h1 := (hend c r he).1
  refine ⟨DigitClass.dec.last c h1, ?_, ?_, ?_⟩ <;>
  · rintro rfl
    rcases h1 with h1 | h1 | h1 <;> exact absurd h1 (by decide)

/-- What `consume_numeric` makes of a float literal. -/
theorem numeric_float {text post : Str} (h : FloatLit text) (hend : NumberEnds post) :
    numeric (text ++ post) = (.flt ((text.filter (· != '_')).map lowE), text.length) := by
  obtain ⟨int, ds, frac, exp, rfl, hd, hint, hfrac, hexp, hne⟩ := h.parts
  have hpost := numberEnds_facts hend
  have hdig : isDigit = isDec := funext isDec_eq
  -- the byte behind the integer part
  have hafter : ∃ c r, frac ++ exp ++ post = c :: r ∧ (c = '.' ∨ c = 'e' ∨ c = 'E') ∧
      (c = '.' → isDec (r.ch 0) = true) := by
    cases hfrac with
    | some t ds' ht =>
      refine ⟨'.', t ++ exp ++ post, by simp, .inl rfl, fun _ => ?_⟩
      have := ht.first.1
      cases t with
      | nil => exact absurd rfl ht.ne_nil.1
      | cons a t' => exact this
    | none =>
      cases hexp with
      | none => exact absurd ⟨rfl, rfl⟩ hne
      | some e sign t ds' he _ _ =>
        refine ⟨e, sign ++ t ++ post, by simp, .inr he, ?_⟩
        rintro rfl; rcases he with h | h <;> exact absurd h (by decide)
  obtain ⟨c, r, hcr, hc, hcd⟩ := hafter
  have hdec : decimal (int ++ (frac ++ exp ++ post)) =
      (.flt (((int ++ frac ++ exp).filter (· != '_')).map lowE), (int ++ frac ++ exp).length) := by
    unfold decimal
    rw [hdig, digitRun_spec .dec hd (frac ++ exp ++ post)]
    · simp only [List.drop_left]
      rw [if_pos]
      · unfold floatPart
        have hpos : (if List.ch (frac ++ exp ++ post) 0 = '.' then
            ('.' :: (digitRun isDec (List.drop 1 (frac ++ exp ++ post))).1, (digitRun isDec (List.drop 1 (frac ++ exp ++ post))).2 + 1)
            else ([], 0)) = (frac.filter (· != '_'), frac.length) := by
          cases hfrac with
          | some t ds' ht =>
            rw [if_pos (by rfl)]
            have h1 : digitRun isDec (List.drop 1 ('.' :: t ++ exp ++ post)) = (ds', t.length) := by
              simp only [List.cons_append, List.drop_succ_cons, List.drop_zero, List.append_assoc]
              refine digitRun_spec .dec ht _ ?_
              intro c r he
              cases hexp with
              | none => exact ⟨(hpost c r he).1, (hpost c r he).2.1⟩
              | some e sign t ds' he' _ _ =>
                simp only [List.cons_append, List.cons.injEq] at he
                rw [← he.1]
                rcases he' with rfl | rfl <;> decide
            rw [h1]
            simp [ht.filter .dec]
          | none =>
            rw [if_neg]
            · rfl
            · rw [hcr]
              intro h
              have hce : c = '.' := h
              subst hce
              cases hexp with
              | none => exact hne ⟨rfl, rfl⟩
              | some e sign t ds' he _ _ =>
                simp only [List.nil_append, List.cons_append, List.cons.injEq] at hcr
                rw [hcr.1] at he
                rcases he with h | h <;> exact absurd h (by decide)
        rw [hdig, hpos]
        simp only [List.append_assoc, List.drop_left]
        rw [exponent_spec hexp hpost]
        have hfl : (frac.filter (· != '_')).map lowE = frac.filter (· != '_') := by
          cases hfrac with
          | none => rfl
          | some t ds' ht => simp [ht.filter .dec, ht.low, lowE]
        simp only [List.filter_append, List.map_append, hd.filter .dec, hd.low, hfl, List.length_append]
      · rw [hcr]
        rcases hc with rfl | rfl | rfl
        · exact .inl ⟨rfl, hcd rfl⟩
        · exact .inr (.inl rfl)
        · exact .inr (.inr rfl)
    · intro a b hab
      rw [hcr] at hab
      cases hab
      rcases hc with rfl | rfl | rfl <;> decide
  have hassoc : int ++ frac ++ exp ++ post = int ++ (frac ++ exp ++ post) := by simp
  rw [← hdec, hassoc]
  unfold numeric
  rcases hint with rfl | h0
  · have e0 : List.ch (['0'] ++ (frac ++ exp ++ post)) 0 = '0' := rfl
    have e1 : List.ch (['0'] ++ (frac ++ exp ++ post)) 1 = c := by rw [hcr]; rfl
    rw [e0, e1, if_pos rfl]
    rcases hc with rfl | rfl | rfl <;> rfl
  · rw [if_neg]
    intro he
    apply h0
    cases int with
    | nil => exact absurd rfl hd.ne_nil.1
    | cons a t => have : a = '0' := he; rw [this]; rfl

end NP
