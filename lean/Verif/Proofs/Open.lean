import Verif.Model.Visits
import Verif.Proofs.Step
import Verif.Proofs.Term
import Verif.Proofs.Nesting

/-! Literals that are still open. -/

namespace NP

/-- A literal lexer whose closing delimiter has not been read. -/
def Kind.isOpen : Kind → Bool
  | .base => false
  | .istr st _ _ => st != .EndToken && st != .Done
  | .regexp st _ => st != .EndToken && st != .Done
  | .words st _ _ _ _ => st != .EndToken && st != .Done

/-- A literal that is open and whose closing delimiter does not occur any more. -/
structure OpenAt (l : Lx) : Prop where
  kind : l.kind.isOpen = true
  stop : l.stopChar ≠ NUL
  rest : l.stopChar ∉ l.rest

theorem mem_drop {c : Char} {s : Str} {n : Nat} (h : c ∈ s.drop n) : c ∈ s := List.mem_of_mem_drop h

theorem ch_mem {s : Str} {k : Nat} {c : Char} (h : s.ch k = c) (hc : c ≠ NUL) : c ∈ s := by
  have hk := s.ch_ne_nul k (by rw [h]; exact hc)
  rw [s.ch_getElem k hk] at h
  exact h ▸ List.getElem_mem hk

theorem interpLoop_stop (start stop : Char) (fuel depth : Nat) (buf : Str) (n : Nat) (s : Str) (hs : stop ≠ NUL) :
    ∀ b d m, interpLoop start stop fuel depth buf n s = .stop b d m → stop ∈ s := by
  induction fuel generalizing depth buf n s with
  | zero => intro b d m h; simp [interpLoop] at h
  | succ fuel ih =>
    intro b d m h
    unfold interpLoop at h
    dsimp only at h
    ite_at h as h0
    · cases h
    ite_at h as h1
    · split at h
      · exact mem_drop (ih _ _ _ _ _ _ _ h)
      all_goals cases h
    ite_at h as h2
    · cases h
    ite_at h as h3
    · exact mem_drop (ih _ _ _ _ _ _ _ h)
    ite_at h as h4
    · exact ch_mem h4 hs
    · exact mem_drop (ih _ _ _ _ _ _ _ h)

theorem regexpLoop_stop (start stop : Char) (fuel depth : Nat) (buf : Str) (n : Nat) (s : Str) (hs : stop ≠ NUL) :
    ∀ b d m, regexpLoop start stop fuel depth buf n s = .stop b d m → stop ∈ s := by
  induction fuel generalizing depth buf n s with
  | zero => intro b d m h; simp [regexpLoop] at h
  | succ fuel ih =>
    intro b d m h
    unfold regexpLoop at h
    dsimp only at h
    ite_at h as h0
    · cases h
    ite_at h as h1
    · exact mem_drop (ih _ _ _ _ _ _ _ h)
    ite_at h as h2
    · cases h
    ite_at h as h3
    · exact mem_drop (ih _ _ _ _ _ _ _ h)
    ite_at h as h4
    · exact ch_mem h4 hs
    · exact mem_drop (ih _ _ _ _ _ _ _ h)

theorem wordLoop_stop (interp dyn : Bool) (start stop : Char) (fuel depth : Nat) (buf : Str) (n : Nat) (s : Str)
    (hs : stop ≠ NUL) : ∀ b d m, wordLoop interp dyn start stop fuel depth buf n s = .stop b d m → stop ∈ s := by
  induction fuel generalizing depth buf n s with
  | zero => intro b d m h; simp [wordLoop] at h
  | succ fuel ih =>
    intro b d m h
    unfold wordLoop at h
    dsimp only at h
    ite_at h as h0
    · cases h
    ite_at h as h1
    · exact mem_drop (ih _ _ _ _ _ _ _ h)
    ite_at h as h2
    · ite_at h as h5
      · cases h
      ite_at h as h6
      · cases h
      · exact mem_drop (ih _ _ _ _ _ _ _ h)
    ite_at h as h2
    · cases h
    ite_at h as h3
    · exact mem_drop (ih _ _ _ _ _ _ _ h)
    ite_at h as h4
    · exact ch_mem h4 hs
    · exact mem_drop (ih _ _ _ _ _ _ _ h)

theorem build_open (l : Lx) (o : Out) (hl : OpenAt l) (hw : l.kind.WF) (h : l.build = .ok o) :
    o.tok.type ≠ .Eof ∧ o.lx.kind.isOpen = true := by
  obtain ⟨hk, hs, hr⟩ := hl
  unfold Lx.build at h
  split at h
  · rename_i e; rw [e] at hk; cases hk
  · rename_i st e a ek
    rw [ek] at hk hw
    unfold Lx.buildIstr at h
    split at h
    · unfold Lx.istrConsume at h
      split at h
      · dsimp only at h
        ite_at h as hb <;> cases h <;> exact ⟨nofun, rfl⟩
      · rename_i hq
        exact absurd (interpLoop_stop _ _ _ _ _ _ _ hs _ _ _ hq) hr
      · dsimp only at h
        rw [if_neg (by simpa using hs)] at h
        cases h
        exact ⟨nofun, by simp [Lx.adv, ek, Kind.isOpen]⟩
      · rename_i n hq
        cases h
        have := interpLoop_ends l.startChar l.stopChar (l.rest.length + 1) l.pairDepth [] 0 l.rest
        rw [hq] at this
        refine ⟨?_, by simp [Lx.adv, ek, Kind.isOpen]⟩
        show _ ≠ _
        rcases this.2 with h | h <;> simp [Lx.tkCurLit, Lx.tkCur, h]
      · cases h
      · cases h
    · cases h; exact ⟨nofun, rfl⟩
    · cases h; exact ⟨nofun, rfl⟩
    · cases hk
    · cases hk
  · rename_i st op ek
    rw [ek] at hk
    unfold Lx.buildRegexp at h
    split at h
    · unfold Lx.regexpConsume at h
      split at h
      · cases h; exact ⟨nofun, rfl⟩
      · rename_i hq
        exact absurd (regexpLoop_stop _ _ _ _ _ _ _ hs _ _ _ hq) hr
      · cases h; exact ⟨nofun, by simp [Lx.adv, ek, Kind.isOpen]⟩
      all_goals cases h
    · cases h; exact ⟨nofun, rfl⟩
    · dsimp only at h
      rw [if_neg] at h
      · cases h; exact ⟨nofun, rfl⟩
      · intro hc
        exact hr (mem_drop (n := 1) (by rw [← Lx.adv_rest]; exact ch_mem hc hs))
    · cases hk
    · cases hk
  · rename_i st i s d b ek
    rw [ek] at hk
    have fin : ∀ (l : Lx) (d : Nat) (b : Str), (l.wordsDynFinish i s d b).tok.type ≠ .Eof ∧
        (l.wordsDynFinish i s d b).lx.kind.isOpen = true := by
      intro l d b
      unfold Lx.wordsDynFinish
      split
      · exact ⟨nofun, rfl⟩
      · exact ⟨nofun, rfl⟩
    have con : (l.wordsConsume st i s d = .ok o) → o.tok.type ≠ .Eof ∧ o.lx.kind.isOpen = true := by
      intro h
      unfold Lx.wordsConsume at h
      dsimp only at h
      split at h
      · ite_at h as hd
        · cases h; exact fin _ _ _
        · cases h; exact ⟨nofun, hk⟩
      · cases h; exact ⟨nofun, rfl⟩
      · rename_i hq
        exact absurd (wordLoop_stop _ _ _ _ _ _ _ _ _ hs _ _ _ hq) hr
      · cases h; exact ⟨nofun, hk⟩
      · cases h
    unfold Lx.buildWords at h
    split at h
    · exact con h
    · exact con h
    · cases h; exact ⟨nofun, rfl⟩
    · rw [if_neg] at h
      · cases h; exact ⟨nofun, rfl⟩
      · intro hc
        exact hr (ch_mem hc hs)
    · cases h; exact ⟨nofun, rfl⟩
    · cases h; exact ⟨nofun, rfl⟩
    · cases hk
    · cases hk

theorem step_open (l : Lx) (o : Out) (hl : OpenAt l) (hw : l.kind.WF) (h : l.step = .ok o) :
    o.tok.type ≠ .Eof ∧ OpenAt o.lx := by
  have s := step_shape l o hw h
  obtain ⟨b, hb, rfl⟩ := l.step_eq o h
  have hl' : OpenAt l.start := by
    refine ⟨by simpa using hl.kind, by simpa using hl.stop, ?_⟩
    rw [Lx.start_rest, Lx.start_stopChar]
    exact fun h => hl.rest (mem_drop h)
  obtain ⟨h1, h2⟩ := build_open l.start b hl' (by simpa using hw) hb
  refine ⟨h1, by simpa using h2, by rw [s.stop]; exact hl.stop, ?_⟩
  rw [s.stop]
  obtain ⟨n, hn, -⟩ := s.cur
  intro hm
  apply hl.rest
  unfold Lx.rest at hm ⊢
  rw [s.input, hn, Cursor.nextN_index, ← List.drop_drop] at hm
  exact mem_drop hm

theorem OpenAt.sync {p c : Lx} (h : OpenAt p) (hl : Link c p) : OpenAt (p.sync c) := by
  unfold Lx.sync
  split
  · rename_i ha
    refine ⟨h.kind, h.stop, ?_⟩
    intro hm
    apply h.rest
    have hi := hl.index ha
    unfold Lx.rest at hm ⊢
    simp only at hm
    obtain ⟨k, hk⟩ := Nat.exists_eq_add_of_le hi
    rw [hk, ← List.drop_drop] at hm
    exact mem_drop hm
  · exact h

theorem nextToken_open {src : Str} (ps : List Lx) : ∀ (l : Lx) (t : Token) (st : List Lx), StackOk src (l :: ps) →
    (∃ c ∈ l :: ps, OpenAt c) → nextToken l ps = .ok (t, st) → t.type ≠ .Eof ∧ ∃ c ∈ st, OpenAt c := by
  induction ps with
  | nil =>
    intro l t st hs ⟨c, hc, ho⟩ hn
    cases List.mem_singleton.1 hc
    unfold nextToken at hn
    split at hn <;> cases hn
    rename_i o hstep
    obtain ⟨h1, h2⟩ := step_open _ _ ho hs.head.wf hstep
    exact ⟨h1, _, by simp, h2⟩
  | cons p ps ih =>
    intro l t st hs ⟨c, hc, ho⟩ hn
    unfold nextToken at hn
    split at hn
    case h_1 o hstep =>
      ite_at hn as he
      · have hne : c ≠ l := by
          rintro rfl
          exact (step_open _ _ ho hs.head.wf hstep).1 he
        have hc' : c ∈ p :: ps := by
          rcases List.mem_cons.1 hc with h | h
          · exact absurd h hne
          · exact h
        have s := hs.1.shape hstep
        have hok := hs.step hstep
        rw [(s.eof he).1] at hok
        simp only [Option.toList_none, List.nil_append] at hok
        refine ih _ _ _ hok.pop ?_ hn
        rcases List.mem_cons.1 hc' with rfl | h
        · exact ⟨_, List.mem_cons_self, ho.sync hok.2.1⟩
        · exact ⟨c, List.mem_cons_of_mem _ h, ho⟩
      · cases hn
        refine ⟨he, ?_⟩
        rcases List.mem_cons.1 hc with rfl | h
        · exact ⟨o.lx, by simp, (step_open _ _ ho hs.head.wf hstep).2⟩
        · exact ⟨c, by simp at h ⊢; tauto, ho⟩
    all_goals cases hn

theorem setLast_open (t : Ttype) {st : List Lx} (h : ∃ c ∈ st, OpenAt c) : ∃ c ∈ setLast t st, OpenAt c := by
  induction st with
  | nil => exact h
  | cons l st ih =>
    obtain ⟨c, hc, ho⟩ := h
    cases st with
    | nil =>
      cases List.mem_singleton.1 hc
      exact ⟨_, List.mem_singleton.2 rfl, ⟨ho.kind, ho.stop, ho.rest⟩⟩
    | cons m ls =>
      unfold setLast
      rcases List.mem_cons.1 hc with rfl | h
      · exact ⟨_, List.mem_cons_self, ho⟩
      · obtain ⟨d, hd, ho'⟩ := ih ⟨c, h, ho⟩
        exact ⟨d, List.mem_cons_of_mem _ hd, ho'⟩

theorem tokensLoop_open {src : Str} (fuel : Nat) : ∀ (l : Lx) (ps : List Lx) (f : Filt) (ts : List Token),
    StackOk src (l :: ps) → (∃ c ∈ l :: ps, OpenAt c) → tokensLoop fuel l ps f = .ok ts →
    ∃ t, ts.getLast? = some t ∧ t.type.isValid = false := by
  induction fuel with
  | zero => intro l ps f ts _ _ h; cases h
  | succ fuel ih =>
    intro l ps f ts hs ho h
    unfold tokensLoop at h
    split at h
    case h_1 t st hn =>
      obtain ⟨h1, h2⟩ := nextToken_open ps l t st hs ho hn
      have hs' := (nextToken_ok ps l t st hs hn).2
      split at h
      · split at h
        · cases h
        · exact ih _ _ _ _ hs' h2 h
      · rename_i f' t' hf
        have hty : t'.type = t.type := Filt.step_type f t t' (by rw [hf])
        ite_at h as hterm
        · cases h
          refine ⟨t', ?_, ?_⟩
          · unfold Filt.step at hf
            ite_at hf as a1
            · cases hf
            ite_at hf as a2
            · split at hf <;> cases hf
            ite_at hf as a3
            · cases hf
            dsimp only at hf
            have : f'.out.head? = some t' := by
              revert hf
              split <;> intro hf
              · split at hf
                · cases hf; rfl
                · split at hf <;> cases hf <;> rfl
              · cases hf; rfl
            simp [this]
          · rcases hterm with h | h
            · exact absurd (hty ▸ h) h1
            · simpa using h
        · have h3 := setLast_open t'.type h2
          have h4 := hs'.setLast t'.type
          split at h
          · cases h
          · rename_i heq
            rw [heq] at h3 h4
            exact ih _ _ _ _ h4 h3 h
    all_goals cases h

/-! ### The states of the loop -/

theorem Visits.stackOk {src : Str} {st : List Lx} {f : Filt} (h : Visits src st f) : StackOk src st := by
  induction h with
  | init => exact .init
  | dropped l ps st f f' t _ hn _ ih => exact (nextToken_ok ps l t st ih hn).2
  | pushed l ps st f f' t t' _ hn _ _ ih => exact (nextToken_ok ps l t st ih hn).2.setLast _

/-- What is left to do from a visited state yields the vector of the whole source. -/
theorem Visits.lexes {src : Str} {l : Lx} {ps : List Lx} {f : Filt} {ts : List Token} (h : Visits src (l :: ps) f)
    (ht : Lexes src ts) : ∃ fuel, tokensLoop fuel l ps f = .ok ts := by
  obtain ⟨fuel, ht, -⟩ := ht
  have key : ∀ st f, Visits src st f → ∃ fuel, ∃ l ps, st = l :: ps ∧ tokensLoop fuel l ps f = .ok ts := by
    intro st f h
    induction h with
    | init => exact ⟨fuel, _, _, rfl, ht⟩
    | dropped l ps st f f' t hv hn hf ih =>
      obtain ⟨fuel, l', ps', he, h⟩ := ih
      cases he
      cases fuel with
      | zero => cases h
      | succ fuel =>
        unfold tokensLoop at h
        simp only [hn, hf] at h
        split at h
        · cases h
        · exact ⟨fuel, _, _, rfl, h⟩
    | pushed l ps st f f' t t' hv hn hf hterm ih =>
      obtain ⟨fuel, l', ps', he, h⟩ := ih
      cases he
      cases fuel with
      | zero => cases h
      | succ fuel =>
        unfold tokensLoop at h
        simp only [hn, hf] at h
        rw [if_neg (by simp [hterm])] at h
        split at h
        · cases h
        · rename_i heq
          exact ⟨fuel, _, _, heq, h⟩
  obtain ⟨fuel, l', ps', he, h'⟩ := key _ _ h
  cases he
  exact ⟨fuel, h'⟩

end NP
