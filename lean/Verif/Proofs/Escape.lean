import Verif.Proofs.Number
import Verif.Spec.Quoted
import Mathlib.Tactic.Ring

/-! Escapes in quoted literals. -/

namespace NP

open Spec

theorem take_run (p : Char → Bool) (n : Nat) (ds post : Str) (hd : ∀ c ∈ ds, p c = true) (hl : ds.length ≤ n)
    (he : ds.length < n → ∀ c r, post = c :: r → p c = false) : ((ds ++ post).take n).takeWhile p = ds := by
  induction ds generalizing n with
  | nil =>
    cases n with
    | zero => rfl
    | succ n =>
      cases post with
      | nil => rfl
      | cons c r => simp [he (Nat.succ_pos n) c r rfl]
  | cons d ds ih =>
    cases n with
    | zero => simp at hl
    | succ n =>
      rw [List.cons_append, List.take_succ_cons, List.takeWhile_cons, hd d List.mem_cons_self, if_pos rfl,
        ih n (fun c hc => hd c (List.mem_cons_of_mem _ hc)) (by simpa using hl)
          (fun h => he (by simpa using h))]

theorem foldl_valueZ (base : Nat) (f : Char → Int) (ds : Str) (h : ∀ c ∈ ds, f c = digitOf c) : ∀ a : Int,
    ds.foldl (fun a c => a * base + f c) a = a * base ^ ds.length + valueOf base ds := by
  induction ds with
  | nil => intro a; simp [valueOf]
  | cons c cs ih =>
    intro a
    rw [List.foldl_cons, ih (fun d hd => h d (List.mem_cons_of_mem _ hd)), h c List.mem_cons_self, valueOf,
      List.length_cons]
    push_cast
    ring

/-- The digit value as computed by `consume_hex_number`. -/
def hexVal (c : Char) : Int :=
  if between 'a' 'f' c then sval c - sval 'a' + 10
  else if between 'A' 'F' c then sval c - sval 'A' + 10
  else sval c - sval '0'

theorem hexVal_eq (c : Char) (h : isHex c = true) : hexVal c = digitOf c := by
  have := ascii_forall (p := fun c => !isHex c || decide (hexVal c = digitOf c)) (by decide +kernel) c (isHex_ascii c h)
  simpa [h] using this

theorem octVal_eq (c : Char) (h : isOct c = true) : sval c - sval '0' = digitOf c := by
  have := ascii_forall (p := fun c => !isOct c || decide (sval c - sval '0' = digitOf c)) (by decide +kernel) c
    (isHex_ascii c (dec_hex c (oct_dec c h)))
  simpa [h] using this

theorem hexNumber_spec (ds post : Str) (max : Nat) (hne : ds ≠ []) (hl : ds.length ≤ max)
    (hd : ∀ c ∈ ds, isHex c = true) (he : ds.length < max → ∀ c r, post = c :: r → isHex c = false) :
    hexNumber (ds ++ post) max = (↑(valueOf 16 ds), ds.length) := by
  cases ds with
  | nil => exact absurd rfl hne
  | cons d ds =>
    have hx : isXDigit = isHex := funext isHex_eq
    have hmore : ((d :: ds ++ post).tail.take (max - 1)).takeWhile isXDigit = ds := by
      rw [hx]
      simp only [List.length_cons] at hl he
      exact take_run isHex (max - 1) ds post (fun c hc => hd c (List.mem_cons_of_mem _ hc)) (by omega)
        (fun h => he (by omega))
    unfold hexNumber
    simp only [hmore]
    change (List.foldl (fun a c => a * 16 + hexVal c) (hexVal d) ds, _) = _
    have := foldl_valueZ 16 hexVal ds (fun c hc => hexVal_eq c (hd c (List.mem_cons_of_mem _ hc))) (hexVal d)
    rw [hexVal_eq d (hd d List.mem_cons_self)] at this ⊢
    rw [valueOf]
    push_cast at this ⊢
    rw [this]
    simp

theorem octalNumber_spec (ds post : Str) (max : Nat) (hne : ds ≠ []) (hl : ds.length ≤ max)
    (hd : ∀ c ∈ ds, isOct c = true) (he : ds.length < max → ∀ c r, post = c :: r → isOct c = false) :
    octalNumber (ds ++ post) max = (↑(valueOf 8 ds), ds.length) := by
  cases ds with
  | nil => exact absurd rfl hne
  | cons d ds =>
    have hx : isOctal = isOct := funext isOct_eq
    have hmore : ((d :: ds ++ post).tail.take (max - 1)).takeWhile isOctal = ds := by
      rw [hx]
      simp only [List.length_cons] at hl he
      exact take_run isOct (max - 1) ds post (fun c hc => hd c (List.mem_cons_of_mem _ hc)) (by omega)
        (fun h => he (by omega))
    unfold octalNumber
    simp only [hmore]
    change (List.foldl (fun a c => a * 8 + (sval c - sval '0')) (sval d - sval '0') ds, _) = _
    have := foldl_valueZ 8 (fun c => sval c - sval '0') ds
      (fun c hc => octVal_eq c (hd c (List.mem_cons_of_mem _ hc))) (sval d - sval '0')
    rw [octVal_eq d (hd d List.mem_cons_self)] at this ⊢
    rw [valueOf]
    push_cast at this ⊢
    rw [this]
    simp

theorem narrow_nat (n : Nat) : narrow (n : Int) = byte (n % 256) := by
  unfold narrow byte
  congr 1

theorem narrow_small (n : Nat) (h : n < 256) : narrow (n : Int) = byte n := by
  rw [narrow_nat, Nat.mod_eq_of_lt h]

/-- The encoder against the definition of UTF-8. -/
theorem utf8Encode_spec (n : Nat) (h : n < 0x200000) : ∃ bs, utf8Encode n = some bs ∧ Utf8 n bs := by
  have lead : ∀ (i a b : Nat), b < 2 ^ i → 2 ^ i * a ||| b = 2 ^ i * a + b :=
    fun i a b hb => (Nat.two_pow_add_eq_or_of_lt hb a).symm
  have cont : ∀ m : Nat, narrow ↑(0b10000000 ||| (m &&& 0x3f)) = byte (0x80 + m % 64) := by
    intro m
    rw [show (0x3f : Nat) = 2 ^ 6 - 1 from rfl, Nat.and_two_pow_sub_one_eq_mod,
      show (0b10000000 : Nat) = 2 ^ 6 * 2 from rfl, lead 6 2 _ (Nat.mod_lt _ (by decide)), narrow_small _ (by omega)]
    rfl
  unfold utf8Encode
  by_cases h1 : n < 0x80
  · rw [if_pos (by omega), narrow_small n (by omega)]
    exact ⟨_, rfl, .one n h1⟩
  rw [if_neg (by omega)]
  simp only [Int.toNat_natCast]
  by_cases h2 : n < 0x800
  · rw [if_pos h2]
    refine ⟨_, rfl, ?_⟩
    rw [cont, Nat.shiftRight_eq_div_pow, show (0b11000000 : Nat) = 2 ^ 5 * 6 from rfl, lead 5 6 _ (by omega),
      narrow_small _ (by omega)]
    have := Utf8.two (n / 64) (n % 64) (by omega) (by omega) (by omega)
    rwa [show n / 64 * 64 + n % 64 = n by omega] at this
  rw [if_neg h2]
  by_cases h3 : n < 0x10000
  · rw [if_pos h3]
    refine ⟨_, rfl, ?_⟩
    rw [cont, cont, Nat.shiftRight_eq_div_pow, Nat.shiftRight_eq_div_pow, show (0b11100000 : Nat) = 2 ^ 4 * 14 from rfl,
      lead 4 14 _ (by omega), narrow_small _ (by omega)]
    have := Utf8.three (n / 4096) (n / 64 % 64) (n % 64) (by omega) (by omega) (by omega) (by omega)
    rwa [show (n / 4096 * 64 + n / 64 % 64) * 64 + n % 64 = n by omega] at this
  rw [if_neg h3, if_pos h]
  refine ⟨_, rfl, ?_⟩
  rw [cont, cont, cont, Nat.shiftRight_eq_div_pow, Nat.shiftRight_eq_div_pow, Nat.shiftRight_eq_div_pow,
    show (0b11110000 : Nat) = 2 ^ 3 * 30 from rfl, lead 3 30 _ (by omega), narrow_small _ (by omega)]
  have := Utf8.four (n / 262144) (n / 4096 % 64) (n / 64 % 64) (n % 64) (by omega) (by omega) (by omega) (by omega)
    (by omega)
  rwa [show ((n / 262144 * 64 + n / 4096 % 64) * 64 + n / 64 % 64) * 64 + n % 64 = n by omega] at this

/-- A code point has one encoding. -/
theorem Spec.Utf8.unique {n : Nat} {a b : Str} (ha : Utf8 n a) (hb : Utf8 n b) : a = b := by
  generalize hn : n = m at hb
  cases ha <;> cases hb <;> first | omega | skip
  · subst hn; rfl
  · rename_i a b _ _ _ a' b' _ _ _
    have h1 : a = a' := by omega
    have h2 : b = b' := by omega
    rw [h1, h2]
  · rename_i a b c _ _ _ _ a' b' c' _ _ _ _
    have h1 : a = a' := by omega
    have h2 : b = b' := by omega
    have h3 : c = c' := by omega
    rw [h1, h2, h3]
  · rename_i a b c d _ _ _ _ _ a' b' c' d' _ _ _ _ _
    have h1 : a = a' := by omega
    have h2 : b = b' := by omega
    have h3 : c = c' := by omega
    have h4 : d = d' := by omega
    rw [h1, h2, h3, h4]

theorem utf8Encode_utf8 (n : Nat) (h : n < 0x200000) (bs : Str) (hb : Utf8 n bs) : utf8Encode n = some bs := by
  obtain ⟨bs', h1, h2⟩ := utf8Encode_spec n h
  rw [h1, h2.unique hb]

theorem hex_not (c : Char) (h : isHex c = true) : c ≠ '}' ∧ c ≠ ' ' ∧ c ≠ '{' := by
  refine ⟨?_, ?_, ?_⟩ <;> (rintro rfl; exact absurd h (by decide))

theorem space_run (sp post : Str) (hs : ∀ c ∈ sp, c = ' ') (he : ∀ c r, post = c :: r → c ≠ ' ') :
    (sp ++ post).takeWhile (· == ' ') = sp := by
  induction sp with
  | nil =>
    cases post with
    | nil => rfl
    | cons c r => have := he c r rfl; simp [this]
  | cons d sp ih =>
    rw [List.cons_append, List.takeWhile_cons, hs d List.mem_cons_self]
    simp [ih (fun c hc => hs c (List.mem_cons_of_mem _ hc))]

theorem hex_head (ds rest : Str) (hne : ds ≠ []) (hd : ∀ c ∈ ds, isHex c = true) :
    ∃ c r, ds ++ rest = c :: r ∧ isHex c = true := by
  cases ds with
  | nil => exact absurd rfl hne
  | cons d ds => exact ⟨d, _, rfl, hd d List.mem_cons_self⟩

theorem Spec.CodePoints.first {t bs : Str} (h : CodePoints t bs) (post : Str) :
    ∃ c r, t ++ post = c :: r ∧ isHex c = true := by
  cases h with
  | last ds sp _ hne _ hd => rw [List.append_assoc, List.append_assoc]; exact hex_head _ _ hne hd
  | cons ds sp _ t _ hne _ hd => rw [List.append_assoc, List.append_assoc]; exact hex_head _ _ hne hd

/-- One code point of the list. -/
theorem unicodeList_cons (fuel : Nat) (ds sp bs rest : Str) (hne : ds ≠ []) (hl : ds.length ≤ 6)
    (hd : ∀ c ∈ ds, isHex c = true) (hv : valueOf 16 ds < 0x110000) (hs : ∀ c ∈ sp, c = ' ')
    (hb : Utf8 (valueOf 16 ds) bs) (hx : ∀ c r, sp ++ rest = c :: r → isHex c = false)
    (hr : ∀ c r, rest = c :: r → c ≠ ' ') :
    unicodeList (fuel + 1) (ds ++ (sp ++ rest)) =
      match unicodeList fuel rest with
      | .ok more n => .ok (bs ++ more) (ds.length + sp.length + n)
      | .bad t n => .bad t (ds.length + sp.length + n)
      | .abort => .abort
      | .fuel => .fuel := by
  have hh := hexNumber_spec ds (sp ++ rest) 6 hne hl hd (fun _ => hx)
  obtain ⟨c, r, hc, hcx⟩ := hex_head ds (sp ++ rest) hne hd
  have h0 : (ds ++ (sp ++ rest)).ch 0 = c := by rw [hc]; rfl
  rw [unicodeList]
  simp only [h0, hh]
  rw [if_neg (hex_not c hcx).1, isHex_eq, hcx]
  simp only [Bool.not_true, Bool.false_eq_true, if_false]
  rw [utf8Encode_utf8 _ (by omega) bs hb]
  simp only [List.drop_left, space_run sp rest hs hr]
  rw [← List.append_assoc, ← List.length_append, List.drop_left]
  rfl

theorem unicodeList_spec {t bs : Str} (h : CodePoints t bs) (post : Str) : ∀ fuel, t.length < fuel →
    unicodeList fuel (t ++ post) = .ok bs t.length := by
  have close : ∀ fuel, 0 < fuel → unicodeList fuel ('}' :: post) = .ok [] 1 := by
    intro fuel hf
    obtain ⟨f, rfl⟩ : ∃ f, fuel = f + 1 := ⟨fuel - 1, by omega⟩
    rw [unicodeList]; rfl
  have spx : ∀ (sp rest : Str), (∀ c ∈ sp, c = ' ') → (sp = [] → ∀ c r, rest = c :: r → isHex c = false) →
      ∀ c r, sp ++ rest = c :: r → isHex c = false := by
    intro sp rest hs hr c r he
    cases sp with
    | nil => exact hr rfl c r he
    | cons d sp => cases he; rw [hs c List.mem_cons_self]; decide
  induction h with
  | last ds sp bs hne hl hd hv hs hb =>
    intro fuel hf
    simp only [List.length_append, List.length_cons, List.length_nil] at hf
    obtain ⟨f, rfl⟩ : ∃ f, fuel = f + 1 := ⟨fuel - 1, by omega⟩
    have hdl : 0 < ds.length := List.length_pos_iff.2 hne
    rw [List.append_assoc, List.append_assoc,
      unicodeList_cons f ds sp bs _ hne hl hd hv hs hb (spx sp _ hs (fun _ c r he => by cases he; decide))
        (fun c r he => by cases he; decide)]
    rw [show ['}'] ++ post = '}' :: post from rfl, close f (by omega)]
    simp [Nat.add_assoc]
  | cons ds sp bs t bs' hne hl hd hv hs hsp hb ht ih =>
    intro fuel hf
    simp only [List.length_append] at hf
    obtain ⟨f, rfl⟩ : ∃ f, fuel = f + 1 := ⟨fuel - 1, by omega⟩
    have hdl : 0 < ds.length := List.length_pos_iff.2 hne
    rw [List.append_assoc, List.append_assoc,
      unicodeList_cons f ds sp bs _ hne hl hd hv hs hb (spx sp _ hs (fun h => absurd h hsp))
        (fun c r he => by
          obtain ⟨c', r', h1, h2⟩ := ht.first post
          rw [h1] at he; cases he; exact (hex_not _ h2).2.1)]
    rw [ih f (by omega)]
    simp [Nat.add_assoc]

theorem printable_ascii (c : Char) (h : ' ' ≤ c ∧ c ≤ '~') : c.toNat < 128 := by
  have : c.toNat ≤ '~'.toNat := h.2
  have e : '~'.toNat = 126 := rfl
  omega

/-- The number of a control character as computed by `control_character`. -/
def controlNum (c : Char) : Int :=
  if c = '?' then 127
  else if between ' ' '>' c then sval c - sval ' '
  else if between '@' '_' c then sval c - sval '@'
  else if between '`' '~' c then sval c - sval '`'
  else 0

theorem controlNum_eq (c : Char) (h : ' ' ≤ c ∧ c ≤ '~') : controlNum c = controlOf c := by
  have := ascii_forall (p := fun c => !(decide (' ' ≤ c ∧ c ≤ '~')) || decide (controlNum c = controlOf c))
    (by decide +kernel) c (printable_ascii c h)
  simpa [h] using this

theorem controlOf_lt (c : Char) : controlOf c < 128 := by unfold controlOf; split <;> omega

/-- `consume_escaped_byte` against the meaning of escapes. -/
theorem escapedByte_spec {e bs post : Str} (h : Escape e bs post) : escapedByte (e ++ post) = .ok bs e.length := by
  cases h with
  | letter c b _ h =>
    have tab : ∀ p ∈ escapeLetters, ∀ post, escapedByte (p.1 :: post) = .ok [p.2] 1 := by
      intro p hp post
      simp only [escapeLetters, List.mem_cons, List.not_mem_nil, or_false] at hp
      rcases hp with rfl | rfl | rfl | rfl | rfl | rfl | rfl | rfl | rfl <;> rfl
    exact tab _ h post
  | itself c _ h =>
    have hc : ∀ d ∈ escapeSpecial, c ≠ d := fun d hd he => h (he ▸ hd)
    have ho : isOctal c = false := by
      by_contra ho
      have ho : isOctal c = true := by simpa using ho
      have ho' : isOct c = true := by rw [← isOct_eq]; exact ho
      have := ascii_forall (p := fun c => !isOct c || decide (c ∈ escapeSpecial)) (by decide +kernel) c
        (isHex_ascii c (dec_hex c (oct_dec c ho')))
      simp [ho'] at this
      exact h this
    have hch : ([c] ++ post).ch 0 = c := rfl
    unfold escapedByte
    simp only [hch, ho, Bool.false_eq_true, if_false]
    rw [if_neg (hc _ (by decide)), if_neg (hc _ (by decide)), if_neg (hc _ (by decide)), if_neg (hc _ (by decide)),
      if_neg (not_or.2 ⟨hc _ (by decide), hc _ (by decide)⟩), if_neg (hc _ (by decide)), if_neg (hc _ (by decide)),
      if_neg (hc _ (by decide)), if_neg (hc _ (by decide)), if_neg (hc _ (by decide)), if_neg (hc _ (by decide)),
      if_neg (hc _ (by decide)), if_neg (hc _ (by decide)), if_neg (hc _ (by decide))]
    rfl
  | lineEnd => rfl
  | octal ds _ hne hl hd he =>
    have h0 : isOctal ((e ++ post).ch 0) = true := by
      cases e with
      | nil => exact absurd rfl hne
      | cons d t => rw [isOct_eq]; exact hd d List.mem_cons_self
    unfold escapedByte
    simp only [h0, if_true]
    rw [octalNumber_spec e post 3 hne hl hd he, narrow_nat]
  | hex ds _ hne hl hd he =>
    have : escapedByte ('x' :: ds ++ post) = .ok [narrow (hexNumber (ds ++ post) 2).1] ((hexNumber (ds ++ post) 2).2 + 1) := rfl
    rw [this, hexNumber_spec ds post 2 hne hl hd he, narrow_small]
    · rfl
    · cases ds with
      | nil => exact absurd rfl hne
      | cons a t =>
        have lt : ∀ c, isHex c = true → digitOf c < 16 := by
          intro c hc
          have := ascii_forall (p := fun c => !isHex c || decide (digitOf c < 16)) (by decide +kernel) c (isHex_ascii c hc)
          simpa [hc] using this
        have ha := lt a (hd a List.mem_cons_self)
        cases t with
        | nil => simp [valueOf]; omega
        | cons b t =>
          have hb := lt b (hd b (by simp))
          cases t with
          | nil => simp [valueOf]; omega
          | cons c t => simp at hl
  | unicode ds bs _ hl hd hb =>
    have hne : ds ≠ [] := by rintro rfl; simp at hl
    obtain ⟨c, r, hc, hcx⟩ := hex_head ds post hne hd
    have h1 : ('u' :: ds ++ post).ch 1 = c := by rw [List.cons_append, hc]; rfl
    have h0 : ('u' :: ds ++ post).ch 0 = 'u' := rfl
    have hdrop : ('u' :: ds ++ post).drop 1 = ds ++ post := rfl
    have hv : valueOf 16 ds < 0x200000 := by
      generalize valueOf 16 ds = v at hb
      cases hb <;> omega
    unfold escapedByte
    simp only [h0, h1, hdrop]
    rw [if_neg (by decide), if_neg (by decide), if_pos trivial, if_neg (hex_not c hcx).2.2,
      hexNumber_spec ds post 4 hne (by omega) hd (fun h => absurd h (by omega))]
    simp only
    rw [utf8Encode_utf8 _ hv bs hb]
    rfl
  | codePoints t bs _ h =>
    have : escapedByte ('u' :: '{' :: t ++ post) = match unicodeList ((t ++ post).length + 3) (t ++ post) with
      | .ok bytes n => .ok bytes (n + 2)
      | .bad t n => .bad t (n + 2)
      | .abort => .abort
      | .fuel => .fuel := rfl
    rw [this, unicodeList_spec h post _ (by simp; omega)]
    rfl
  | control c _ h hc =>
    have : controlChar false ('C' :: '-' :: c :: post) = (some (controlNum c), 2) := by
      unfold controlChar
      exact if_neg (fun h => hc h.2.1)
    show (match controlChar false ('C' :: '-' :: c :: post) with
      | (some num, n) => Esc.ok [narrow num] (n + 1)
      | (none, n) => .bad .InvalidCharacterEscape n) = _
    rw [this, controlNum_eq c h]
    simp only
    rw [narrow_small _ (by have := controlOf_lt c; omega)]
    rfl
  | control' c _ h hc hm =>
    have : controlChar false ('c' :: c :: post) = (some (controlNum c), 1) := by
      have e1 : List.ch ('c' :: c :: post) 1 = c := rfl
      have e2 : List.ch ('c' :: c :: post) 2 = post.ch 0 := rfl
      unfold controlChar
      simp only [e1, if_neg hm]
      rw [if_neg (fun h => hc h.2.1), if_neg (by decide)]
      rfl
    show (match controlChar false ('c' :: c :: post) with
      | (some num, n) => Esc.ok [narrow num] (n + 1)
      | (none, n) => .bad .InvalidCharacterEscape n) = _
    rw [this, controlNum_eq c h]
    simp only
    rw [narrow_small _ (by have := controlOf_lt c; omega)]
    rfl
  | meta_ c _ h hc =>
    have e0 : List.ch (['M', '-', c] ++ post) 0 = 'M' := rfl
    have e1 : List.ch (['M', '-', c] ++ post) 1 = '-' := rfl
    have e2 : List.ch (['M', '-', c] ++ post) 2 = c := rfl
    have hb := printable_ascii c h
    unfold escapedByte
    simp only [e0, e1, e2]
    have : ¬ (c = '\\' ∧ (List.ch (['M', '-', c] ++ post) 3 = 'c' ∨ List.ch (['M', '-', c] ++ post) 3 = 'C')) :=
      fun h => hc h.1
    simp only [this, if_false]
    have hs : sval c + 128 = ((c.toNat + 128 : Nat) : Int) := by unfold sval; rw [if_pos hb]; push_cast; rfl
    rw [hs, narrow_small _ (by omega)]
    rfl
  | metaControl c _ h hc =>
    have : controlChar true ('C' :: '-' :: c :: post) = (some (controlNum c + 128), 2) := by
      unfold controlChar
      exact if_neg (by simp)
    show (match controlChar true ('C' :: '-' :: c :: post) with
      | (some num, n) => Esc.ok [narrow num] (n + 4)
      | (none, n) => .ok [narrow (-1)] (n + 4)) = _
    rw [this, controlNum_eq c h]
    simp only
    rw [show ((controlOf c : Int) + 128) = ((controlOf c + 128 : Nat) : Int) by push_cast; rfl,
      narrow_small _ (by have := controlOf_lt c; omega)]
    rfl
  | controlMeta c _ h hc =>
    have : controlChar false ('C' :: '-' :: '\\' :: 'M' :: '-' :: c :: post) = (some (controlNum c + 128), 5) := by
      unfold controlChar
      exact if_pos ⟨by decide, rfl, rfl⟩
    show (match controlChar false ('C' :: '-' :: '\\' :: 'M' :: '-' :: c :: post) with
      | (some num, n) => Esc.ok [narrow num] (n + 1)
      | (none, n) => .bad .InvalidCharacterEscape n) = _
    rw [this, controlNum_eq c h]
    simp only
    rw [show ((controlOf c : Int) + 128) = ((controlOf c + 128 : Nat) : Int) by push_cast; rfl,
      narrow_small _ (by have := controlOf_lt c; omega)]
    rfl

theorem Spec.Escape.ne_nil {e bs post : Str} (h : Escape e bs post) : e ≠ [] := by
  cases h <;> simp_all

/-- The loop of `consume_string` over a content. -/
theorem interpLoop_content {start stop : Char} {text bs post : Str} (h : Content start stop text bs post) :
    ∀ (fuel depth : Nat) (buf : Str) (n : Nat), text.length + post.length < fuel →
    ∃ fuel', post.length < fuel' ∧ interpLoop start stop fuel depth buf n (text ++ post) =
      interpLoop start stop fuel' depth (buf ++ bs) (n + text.length) post := by
  induction h with
  | nil post =>
    intro fuel depth buf n hf
    exact ⟨fuel, by simpa using hf, by simp⟩
  | plain c t bs post h0 h1 h2 h3 h4 ht ih =>
    intro fuel depth buf n hf
    obtain ⟨f, rfl⟩ : ∃ f, fuel = f + 1 := ⟨fuel - 1, by omega⟩
    simp only [List.length_cons] at hf
    obtain ⟨f', g1, g2⟩ := ih f depth (buf ++ [c]) (n + 1) (by omega)
    refine ⟨f', g1, ?_⟩
    have e0 : List.ch (c :: t ++ post) 0 = c := rfl
    have ed : (c :: t ++ post).drop 1 = t ++ post := rfl
    have e1 : c = '#' → List.ch (c :: t ++ post) 1 ≠ '{' := by
      intro hc he
      apply h4 hc
      obtain ⟨r, hr⟩ := List.ch_zero_cons (t ++ post) '{' he (by decide)
      rw [hr]; rfl
    rw [interpLoop]
    simp only [e0, ed]
    rw [if_neg h0, if_neg (fun h => h1 h.1), if_neg (fun h => e1 h.1 h.2), if_neg (fun h => h2 h.1), if_neg h3, g2]
    simp [Nat.add_assoc, Nat.add_comm 1]
  | escape e bs t bs' post hs he ht ih =>
    intro fuel depth buf n hf
    obtain ⟨f, rfl⟩ : ∃ f, fuel = f + 1 := ⟨fuel - 1, by omega⟩
    have hlen : 0 < e.length := List.length_pos_iff.2 he.ne_nil
    simp only [List.length_cons, List.length_append, List.cons_append] at hf
    obtain ⟨f', g1, g2⟩ := ih f depth (buf ++ bs) (n + 1 + e.length) (by omega)
    refine ⟨f', g1, ?_⟩
    have e0 : List.ch ('\\' :: e ++ t ++ post) 0 = '\\' := rfl
    have ed : ('\\' :: e ++ t ++ post).drop 1 = e ++ (t ++ post) := by simp
    have ed2 : ('\\' :: e ++ t ++ post).drop (1 + e.length) = t ++ post := by
      rw [Nat.add_comm 1]; simp
    rw [interpLoop]
    simp only [e0, ed]
    rw [if_neg (by decide), if_pos ⟨trivial, hs⟩, escapedByte_spec he]
    simp only
    rw [ed2, g2]
    simp only [List.length_cons, List.length_append, List.cons_append, List.append_assoc]
    congr 1
    omega
  | pair t bs t' bs' post h hne h1 h2 h3 ht ht' ih ih' =>
    intro fuel depth buf n hf
    obtain ⟨f, rfl⟩ : ∃ f, fuel = f + 1 := ⟨fuel - 1, by omega⟩
    simp only [List.length_cons, List.length_append, List.cons_append] at hf ih
    obtain ⟨f1, g1, g2⟩ := ih f (depth + 1) (buf ++ [start]) (n + 1) (by omega)
    obtain ⟨f2, rfl⟩ : ∃ f, f1 = f + 1 := ⟨f1 - 1, by omega⟩
    obtain ⟨f', g3, g4⟩ := ih' f2 depth (buf ++ [start] ++ bs ++ [stop]) (n + 1 + t.length + 1) (by omega)
    refine ⟨f', g3, ?_⟩
    have e0 : List.ch (start :: t ++ stop :: t' ++ post) 0 = start := rfl
    have ed : (start :: t ++ stop :: t' ++ post).drop 1 = t ++ (stop :: (t' ++ post)) := by simp
    rw [interpLoop]
    simp only [e0, ed]
    rw [if_neg h, if_neg (fun h => h1 h.1), if_neg (fun h => h2 h.1), if_pos ⟨trivial, hne⟩, g2, interpLoop]
    have e0 : List.ch (stop :: (t' ++ post)) 0 = stop := rfl
    have ed : (stop :: (t' ++ post)).drop 1 = t' ++ post := rfl
    simp only [e0, ed]
    rw [if_neg h3.1, if_neg (fun h => h3.2.1 h.1), if_neg (fun h => h3.2.2 h.1), if_neg (fun h => hne h.1.symm),
      if_pos trivial, if_pos (Nat.succ_pos _), Nat.add_sub_cancel, g4]
    simp only [List.length_cons, List.length_append, List.cons_append, List.append_assoc, List.nil_append]
    congr 1
    omega

end NP
