import Verif.Proofs.ParseRel2

/-! Three relations that all functions of the parser preserve. -/

namespace NP

/-! ### More fuel changes nothing -/

/-- `q` ends like `p` wherever `p` does not exhaust its fuel. -/
def Refines {α : Type} (p q : P α) : Prop := ∀ c s, p c s ≠ .fuel → q c s = p c s

theorem Refines.rfl {α : Type} {p : P α} : Refines p p := fun _ _ _ => Eq.refl _

theorem Refines.bind {α β : Type} {p q : P α} {p' q' : α → P β} (h : Refines p q) (h' : ∀ a, Refines (p' a) (q' a)) :
    Refines (p >>= p') (q >>= q') := by
  intro c s
  show P.bind p p' c s ≠ _ → P.bind q q' c s = P.bind p p' c s
  unfold P.bind
  intro hn
  have hp : p c s ≠ .fuel := by intro e; rw [e] at hn; exact hn (Eq.refl _)
  rw [h c s hp]
  revert hn
  cases p c s with
  | ok a s' => exact h' a c s'
  | _ => intro _; rfl

theorem Refines.loop {σ α : Type} {b b' : σ → P (Loop σ α)} (h : ∀ x, Refines (b x) (b' x)) :
    ∀ {n m : Nat}, n ≤ m → ∀ x, Refines (loop b n x) (loop b' m x)
  | 0, _, _, _ => fun _ _ hn => absurd (Eq.refl _) hn
  | n + 1, 0, hl, _ => absurd hl (by omega)
  | n + 1, m + 1, hl, x => by
    unfold NP.loop
    refine Refines.bind (h x) fun a => ?_
    cases a with
    | again y => exact Refines.loop h (by omega) y
    | done a => exact Refines.rfl

/-- More fuel changes nothing. -/
def monoRl : Rl where
  r := Refines
  f := (· ≤ ·)
  twice h := Nat.mul_le_mul_left 2 h
  prim _ := Refines.rfl
  bind := Refines.bind
  loop hl h := Refines.loop h hl _
  locals _ h := Refines.bind Refines.rfl fun _ => Refines.bind Refines.rfl fun _ => Refines.bind h fun _ => Refines.rfl

theorem knot_mono : ∀ n k, monoRl.Rec (knot n) (knot (n + k))
  | 0, k => by
    have hk : 2 ≤ (knot (0 + k)).fuel := by cases k <;> simp [knot]
    refine ⟨hk, ?_, ?_, ?_, ?_, ?_, ?_, ?_, ?_⟩
    all_goals
      intros
      intro c s h
      exact absurd (Eq.refl _) h
  | n + 1, k => by
    have := knot_rel (knot_mono n k) (show n + 3 ≤ n + k + 3 by omega)
    rwa [show n + 1 + k = n + k + 1 by omega]

/-- The outcome of a run does not depend on the bound for nested calls. -/
theorem parseTree_mono {n m : Nat} (h : n ≤ m) (c : Cx) (s : PS) (hf : parseTree (knot n) c s ≠ .fuel) :
    parseTree (knot m) c s = parseTree (knot n) c s := by
  obtain ⟨k, rfl⟩ := Nat.exists_eq_add_of_le h
  exact parseTree_rel (knot_mono n k) c s hf

/-! ### Properties of errors, properties of the state -/

/-- Every function has the property, when the primitives have and when it is preserved. -/
theorem knot_self (T : Rl) (hf : ∀ n, T.f n n) (h0 : ∀ {α : Type}, T.r (P.fuel : P α) P.fuel) :
    ∀ n, T.Rec (knot n) (knot n)
  | 0 => ⟨hf _, fun _ _ => h0, h0, fun _ => h0, fun _ => h0, fun _ _ _ => h0, fun _ => h0, h0, h0⟩
  | n + 1 => knot_rel (knot_self T hf h0 n) (hf _)

/-- All errors thrown satisfy `Q`. -/
def Throws (Q : Cx → SErr → Prop) {α : Type} (p : P α) : Prop := ∀ c s e, p c s = .err e → Q c e

/-- All states reached are related by `Q`. -/
def Moves (Q : PS → PS → Prop) {α : Type} (p : P α) : Prop := ∀ c s a s', p c s = .ok a s' → Q s s'

theorem Throws.bind {Q : Cx → SErr → Prop} {α β : Type} {p : P α} {f : α → P β} (h : Throws Q p)
    (h' : ∀ a, Throws Q (f a)) : Throws Q (p >>= f) := by
  intro c s e he
  change P.bind p f c s = _ at he
  unfold P.bind at he
  revert he
  cases hp : p c s with
  | ok a s' => exact h' a c s' e
  | err e' => intro he; cases he; exact h c s _ hp
  | _ => nofun

theorem Throws.loop {Q : Cx → SErr → Prop} {σ α : Type} {b : σ → P (Loop σ α)} (h : ∀ x, Throws Q (b x)) :
    ∀ (n : Nat) (x : σ), Throws Q (loop b n x)
  | 0, _ => fun _ _ _ h => by cases h
  | n + 1, x => by
    unfold NP.loop
    refine Throws.bind (h x) fun a => ?_
    cases a with
    | again y => exact Throws.loop h n y
    | done a => exact fun _ _ _ h => by cases h

theorem Moves.bind {Q : PS → PS → Prop} (ht : ∀ a b c, Q a b → Q b c → Q a c) {α β : Type} {p : P α} {f : α → P β}
    (h : Moves Q p) (h' : ∀ a, Moves Q (f a)) : Moves Q (p >>= f) := by
  intro c s a s' he
  change P.bind p f c s = _ at he
  unfold P.bind at he
  revert he
  cases hp : p c s with
  | ok b s1 => exact fun he => ht _ _ _ (h c s b s1 hp) (h' b c s1 a s' he)
  | _ => nofun

theorem Moves.loop {Q : PS → PS → Prop} (hr : ∀ a, Q a a) (ht : ∀ a b c, Q a b → Q b c → Q a c) {σ α : Type}
    {b : σ → P (Loop σ α)} (h : ∀ x, Moves Q (b x)) : ∀ (n : Nat) (x : σ), Moves Q (loop b n x)
  | 0, _ => fun _ _ _ _ h => by cases h
  | n + 1, x => by
    unfold NP.loop
    refine Moves.bind ht (h x) fun a => ?_
    cases a with
    | again y => exact Moves.loop hr ht h n y
    | done a => exact fun _ s _ _ h => by cases h; exact hr s

/-- The relation for errors. -/
def throwsRl (Q : Cx → SErr → Prop) (hp : ∀ {α : Type} {p : P α}, Prim p → Throws Q p) : Rl where
  r p _ := Throws Q p
  f _ _ := True
  twice h := h
  prim := hp
  bind := Throws.bind
  loop _ h := Throws.loop h _ _
  locals _ h := Throws.bind (fun _ _ _ h => by cases h) fun _ => Throws.bind (fun _ _ _ h => by cases h) fun _ =>
    Throws.bind h fun _ => Throws.bind (fun _ _ _ h => by cases h) fun _ => fun _ _ _ h => by cases h

/-- The relation for states; `hl`: what `withLocals` does to it. -/
def movesRl (Q : PS → PS → Prop) (hr : ∀ a, Q a a) (ht : ∀ a b c, Q a b → Q b c → Q a c)
    (hp : ∀ {α : Type} {p : P α}, Prim p → Moves Q p)
    (hl : ∀ s ls s', Q { s with locals := ls } s' → Q s { s' with locals := s.locals }) : Rl where
  r p _ := Moves Q p
  f _ _ := True
  twice h := h
  prim := hp
  bind := Moves.bind ht
  loop _ h := Moves.loop hr ht h _ _
  locals := by
    intro α p _ ls h c s a s' he
    simp only [withLocals, P.bind, P.get, bind, P.modify, pure, P.pure] at he
    revert he
    cases hq : p c { s with locals := ls } with
    | ok b s1 => intro he; cases he; exact hl s ls s1 (h _ _ _ _ hq)
    | _ => nofun

end NP
