import Verif.Proofs.Gram.Params
import Verif.Spec.GrammarText
import Verif.Proofs.ExprLex

/-! The tokens of a program, written with blanks, can be told apart. -/

namespace NP.Gram
open Spec

/-! ### Neighbours -/

/-- No method name is expected after the token. -/
def idle : Ttype → Bool
  | .DefKeyword | .Dot | .ConstantResolution => false
  | _ => true

/-- The next token has a blank in front, or is a bracket or `::`. -/
def Soft (nx : Option Want) : Prop :=
  ∀ b, nx = some b → b.ws ≠ some false ∨ b.p = .fixed (cs! "(") .LParen ∨ b.p = .fixed (cs! "[") .LBracket ∨
    b.p = .fixed (cs! "::") .ConstantResolution

/-- There is a next token, with a blank in front. -/
def Spacey (nx : Option Want) : Prop := ∃ b, nx = some b ∧ b.ws ≠ some false

/-- The type of the next token. -/
def nty (nx : Option Want) : Ttype := (nx.map (·.p.type)).getD .Eof

/-- Keywords and operators that any soft token may follow. -/
def easy (w : Str) (t : Ttype) : Bool :=
  (keywordTable.contains (w, t) && t != .DefinedKeyword && t != .AliasKeyword && t != .UndefKeyword) ||
    operatorEnd.any (·.1 == (w, t))

/-- Operators with blanks on both sides. -/
def wide (w : Str) (t : Ttype) : Bool :=
  [(cs! "<<", Ttype.LeftShift), (cs! "%", .Percent), (cs! "?", .TernaryQuestion), (cs! ":", .TernaryColon)].contains (w, t)

/-- A token between its neighbours. -/
inductive One : Ttype → Want → Option Want → Prop where
  | name {last : Ttype} {ws : Option Bool} {x : Str} {nx : Option Want} : last ≠ .Fixnum → Soft nx → One last ⟨ws, .name x⟩ nx
  | const {last : Ttype} {ws : Option Bool} {x : Str} {nx : Option Want} : Soft nx → One last ⟨ws, .const x⟩ nx
  | int {last : Ttype} {ws : Option Bool} {n : Nat} {nx : Option Want} : Soft nx → One last ⟨ws, .int n⟩ nx
  | str {last : Ttype} {ws : Option Bool} {x : Str} {nx : Option Want} : Soft nx → nty nx ≠ .ConstantResolution →
    One last ⟨ws, .str x⟩ nx
  | sym {last : Ttype} {ws : Option Bool} {x : Str} {nx : Option Want} : Soft nx → One last ⟨ws, .sym x⟩ nx
  | ivar {last : Ttype} {ws : Option Bool} {x : Str} {nx : Option Want} : Soft nx → One last ⟨ws, .ivar x⟩ nx
  | cvar {last : Ttype} {ws : Option Bool} {x : Str} {nx : Option Want} : Soft nx → One last ⟨ws, .cvar x⟩ nx
  | gvar {last : Ttype} {ws : Option Bool} {x : Str} {nx : Option Want} : Soft nx → One last ⟨ws, .gvar x⟩ nx
  | key {last : Ttype} {ws : Option Bool} {x : Str} {nx : Option Want} : beforeKey last = true → Spacey nx →
    One last ⟨ws, .key x⟩ nx
  | easy {last : Ttype} {ws : Option Bool} {w : Str} {t : Ttype} {nx : Option Want} : easy w t = true → idle last = true →
    Soft nx → One last ⟨ws, .fixed w t⟩ nx
  | sign {last : Ttype} {ws : Option Bool} {n : Nat} : idle last = true →
    One last ⟨ws, .fixed (cs! "-") .Minus⟩ (some ⟨some false, .int n⟩)
  | wide {last : Ttype} {ws : Option Bool} {w : Str} {t : Ttype} {nx : Option Want} : wide w t = true → idle last = true →
    ws ≠ some false → Spacey nx → One last ⟨ws, .fixed w t⟩ nx
  | slash {last : Ttype} {ws : Option Bool} {nx : Option Want} : endsValue last = true → Spacey nx →
    One last ⟨ws, .fixed (cs! "/") .Slash⟩ nx
  | slashEq {last : Ttype} {ws : Option Bool} {nx : Option Want} : endsValue last = true →
    One last ⟨ws, .fixed (cs! "/=") .SlashEqual⟩ nx
  | self_ {ws : Option Bool} : One .DefKeyword ⟨ws, .fixed (cs! "self") .SelfKeyword⟩ (some ⟨some false, .fixed (cs! ".") .Dot⟩)

/-- The first of the tokens, or else the one after them. -/
def hd (ts : List Want) (nx : Option Want) : Option Want :=
  match ts with
  | [] => nx
  | a :: _ => some a

/-- All of them between their neighbours. -/
def Chk : Ttype → List Want → Option Want → Prop
  | _, [], _ => True
  | last, a :: ts, nx => One last a (hd ts nx) ∧ Chk a.p.type ts nx

/-- The type of the last of the tokens, or else of the one before them. -/
def lst : Ttype → List Want → Ttype
  | last, [] => last
  | _, a :: ts => lst a.p.type ts

theorem hd_append : ∀ (xs ys : List Want) (nx : Option Want), hd (xs ++ ys) nx = hd xs (hd ys nx)
  | [], _, _ => rfl
  | _ :: _, _, _ => rfl

theorem lst_append : ∀ (last : Ttype) (xs ys : List Want), lst last (xs ++ ys) = lst (lst last xs) ys
  | _, [], _ => rfl
  | _, a :: xs, ys => lst_append a.p.type xs ys

theorem Chk.append : ∀ {last : Ttype} {xs ys : List Want} {nx : Option Want}, Chk last xs (hd ys nx) → Chk (lst last xs) ys nx →
    Chk last (xs ++ ys) nx
  | _, [], _, _, _, h => h
  | _, _ :: xs, ys, nx, h, h' => ⟨by show One _ _ (hd (xs ++ ys) nx); rw [hd_append]; exact h.1, Chk.append (xs := xs) h.2 h'⟩

/-! ### Their texts -/

def Want.item (w : Want) : Item := ⟨if w.ws = some false then [] else [' '], w.p⟩

def kOf (last : Ttype) : Nat := if idle last then 0 else 1

theorem expects_kOf (last t : Ttype) : expects (kOf last) t = kOf t := by
  unfold kOf
  cases idle last <;> cases t <;> rfl

/-- What may follow. -/
inductive After : Str → Prop where
  | nil : After []
  | blank (r : Str) : After (' ' :: r)
  | paren (r : Str) : After ('(' :: r)
  | bracket (r : Str) : After ('[' :: r)
  | colons (r : Str) : After (':' :: ':' :: r)

theorem item_blank {b : Want} (h : b.ws ≠ some false) : ∃ r, b.item.text = ' ' :: r := by
  unfold Want.item Item.text
  refine ⟨b.p.spell, ?_⟩
  rw [if_neg h]
  rfl

theorem item_text (b : Want) : (b.item.text = b.p.spell) ∨ b.item.text = ' ' :: b.p.spell := by
  unfold Want.item Item.text
  by_cases h : b.ws = some false
  · rw [if_pos h]; exact .inl rfl
  · rw [if_neg h]; exact .inr rfl

theorem Soft.after {ts : List Want} (h : Soft (hd ts none)) : After (layout (ts.map Want.item)) := by
  cases ts with
  | nil => exact .nil
  | cons b ts =>
    show After (b.item.text ++ layout (ts.map Want.item))
    rcases h b rfl with h | h | h | h
    · obtain ⟨r, hr⟩ := item_blank h
      rw [hr]
      exact .blank _
    all_goals
      rcases item_text b with hb | hb <;> rw [hb]
      · rw [h]; constructor
      · exact .blank _

theorem Spacey.after {ts : List Want} (h : Spacey (hd ts none)) : ∃ r, layout (ts.map Want.item) = ' ' :: r := by
  obtain ⟨b, hb, hw⟩ := h
  cases ts with
  | nil => cases hb
  | cons c ts =>
    cases hb
    obtain ⟨r, hr⟩ := item_blank hw
    exact ⟨r ++ layout (ts.map Want.item), by show b.item.text ++ _ = _; rw [hr]; rfl⟩

theorem After.word {s : Str} (h : After s) : WordStops s := by
  cases h
  · exact nofun
  all_goals
    rintro c r he
    cases he
    refine ⟨by decide, by decide, ?_⟩
    first | exact fun _ => ⟨_, rfl⟩ | exact fun h => absurd h (by decide)

theorem After.name {s : Str} (h : After s) : NameEnds s := fun c r he => (h.word c r he).1

theorem After.symbol {s : Str} (h : After s) {x : Str} (hx : SymbolText x []) : SymbolText x s := by
  have hc : ∀ c r, s = c :: r → c ∈ [' ', '(', '[', ':'] := by
    intro c r e
    cases h <;> cases e <;> decide
  cases hx with
  | op hw he =>
    have tab : ∀ p ∈ symbolEnd, ∀ c ∈ [' ', '(', '[', ':'], c ∉ p.2 := by decide +kernel
    exact .op hw fun c r e => tab _ hw c (hc c r e)
  | name h1 hn he hs => exact .name h1 hn h.name fun d r e hd => absurd hd (h.word d r e).2.1
  | suffixed h1 hn hd he =>
    have tab : ∀ c ∈ [' ', '(', '[', ':'], c ∉ ['=', '>', '~'] := by decide
    exact .suffixed h1 hn hd fun e r er => tab e (hc e r er)
  | var hs hn hne he => exact .var hs hn hne h.name

theorem After.number {s : Str} (h : After s) : NumberEnds s := by
  cases h
  · exact nofun
  all_goals
    rintro c r he
    cases he
    exact ⟨.inl (by decide), fun h => absurd h (by decide)⟩

theorem operatorEnd_free : operatorEnd.all (fun p => [' ', '(', '[', ':'].all fun c => !p.2.contains c) = true := by decide +kernel

theorem After.free {s : Str} (h : After s) {w : Str} {t : Ttype} {cs : List Char} (hm : ((w, t), cs) ∈ operatorEnd) :
    ∀ c r, s = c :: r → c ∉ cs := by
  have := List.all_eq_true.1 operatorEnd_free _ hm
  simp only [List.all_eq_true] at this
  intro c r he
  have hc : c ∈ [' ', '(', '[', ':'] := by
    cases h <;> cases he <;> simp
  simpa using this c hc

theorem easy_cases {w : Str} {t : Ttype} (h : easy w t = true) :
    ((w, t) ∈ keywordTable ∧ t ≠ .DefinedKeyword ∧ t ≠ .AliasKeyword ∧ t ≠ .UndefKeyword) ∨ ∃ cs, ((w, t), cs) ∈ operatorEnd := by
  simp only [easy, Bool.or_eq_true, Bool.and_eq_true, List.contains_iff_mem, bne_iff_ne, List.any_eq_true, beq_iff_eq] at h
  rcases h with h | ⟨p, hp, hq⟩
  · exact .inl ⟨h.1.1.1, h.1.1.2, h.1.2, h.2⟩
  · exact .inr ⟨p.2, by rw [← hq]; exact hp⟩

theorem One.fit {last : Ttype} {a : Want} {ts : List Want} (h : One last a (hd ts none)) (hl : Legal a.p) :
    FitOne (kOf last) last a.item (layout (ts.map Want.item)) := by
  have hk : idle last = true → kOf last = 0 := fun h => by unfold kOf; rw [if_pos h]
  have he : endsValue last = true → idle last = true := fun h => by cases last <;> first | rfl | cases h
  generalize hn : hd ts none = nx at h
  cases h with
  | name h hs => subst hn; exact ⟨hl, hs.after.word, h⟩
  | const hs => subst hn; exact ⟨hl, hs.after.word⟩
  | int hs => subst hn; exact ⟨hl, hs.after.number⟩
  | str hs h =>
    subst hn
    refine ⟨hl, fun r he => ?_⟩
    cases ts with
    | nil => cases he
    | cons b ts =>
      have he : b.item.text ++ layout (ts.map Want.item) = ':' :: r := he
      rcases hs b rfl with h' | h' | h' | h'
      · obtain ⟨r, hr⟩ := item_blank h'
        rw [hr] at he
        cases he
      · rcases item_text b with hb | hb <;> rw [hb, h'] at he <;> cases he
      · rcases item_text b with hb | hb <;> rw [hb, h'] at he <;> cases he
      · exact h (by simp only [nty, hd, Option.map_some, h']; rfl)
  | sym hs => subst hn; exact hs.after.symbol hl
  | ivar hs => subst hn; exact ⟨hl.1, hl.2, hs.after.name⟩
  | cvar hs => subst hn; exact ⟨hl.1, hl.2, hs.after.name⟩
  | gvar hs => subst hn; exact ⟨hl, hs.after.name⟩
  | key h hs =>
    subst hn
    obtain ⟨r, hr⟩ := hs.after
    exact ⟨hl, fun hf => (by subst hf; cases h), h, hk (by cases last <;> first | rfl | cases h), by rw [hr]; nofun⟩
  | easy h hi hs =>
    subst hn
    rcases easy_cases h with h | ⟨cs, h⟩
    · exact .inl ⟨h.1, h.2.1, h.2.2.1, h.2.2.2, hk hi, hs.after.word⟩
    · exact .inr (.inl ⟨cs, h, hk hi, hs.after.free h⟩)
  | sign hi =>
    rename_i ws n
    refine .inr (.inl ⟨['=', '>'], by decide, hk hi, ?_⟩)
    cases ts with
    | nil => cases hn
    | cons b ts =>
      cases hn
      obtain ⟨h, -, -⟩ := toDigits_facts n
      intro c r he
      have he : Nat.toDigits 10 n ++ layout (ts.map Want.item) = c :: r := he
      have hc : isDec c = true := by
        generalize Nat.toDigits 10 n = ds at h he
        cases h <;> cases he <;> assumption
      intro hm
      simp only [List.mem_cons, List.not_mem_nil, or_false] at hm
      rcases hm with rfl | rfl <;> exact absurd hc (by decide)
  | wide h hi hw hs =>
    subst hn
    refine .inr (.inr (.inl ⟨by simpa [Gram.wide] using h, hk hi, by unfold Item.ws Want.item; rw [if_neg hw]; rfl, hs.after⟩))
  | slash h hs =>
    subst hn
    exact .inr (.inr (.inr (.inl ⟨rfl, h, hk (he h), hs.after⟩)))
  | slashEq h => exact .inr (.inr (.inr (.inr (.inr ⟨rfl, h, hk (he h)⟩))))
  | self_ =>
    refine .inr (.inr (.inr (.inr (.inl ⟨rfl, rfl, ?_⟩))))
    cases ts with
    | nil => cases hn
    | cons b ts => cases hn; exact ⟨_, rfl⟩

theorem item_sp (b : Want) : Spec.Blank b.item.sp := by
  unfold Want.item
  by_cases h : b.ws = some false
  · rw [if_pos h]; exact .nil
  · rw [if_neg h]; exact .space _ .nil

theorem Chk.fit : ∀ {last : Ttype} {ts : List Want}, Chk last ts none → (∀ w ∈ ts, Legal w.p) → Fit (kOf last) last (ts.map Want.item) []
  | _, [], _, _ => trivial
  | last, a :: ts, h, hl => by
    refine ⟨item_sp a, by rw [List.append_nil]; exact h.1.fit (hl a (by simp)), ?_⟩
    rw [expects_kOf]
    exact Chk.fit h.2 fun w hw => hl w (by simp [hw])

/-! ### The tokens of programs -/

theorem soft_none : Soft none := nofun

theorem Soft.mk {ws : Option Bool} (h : ws ≠ some false) (p : Piece) : Soft (some ⟨ws, p⟩) := by
  rintro b hb
  cases hb
  exact .inl h

theorem none_ne : (none : Option Bool) ≠ some false := nofun

theorem soft_fix (w : Str) (t : Ttype) : Soft (some (fix w t)) := .mk none_ne _
theorem soft_want (p : Piece) : Soft (some ⟨none, p⟩) := .mk none_ne _
theorem soft_lparen : Soft (some lparen) := by rintro b hb; cases hb; exact .inr (.inl rfl)
theorem soft_lbracket : Soft (some (glued (cs! "[") .LBracket)) := by rintro b hb; cases hb; exact .inr (.inr (.inl rfl))
theorem soft_colons : Soft (some (glued (cs! "::") .ConstantResolution)) := by rintro b hb; cases hb; exact .inr (.inr (.inr rfl))
theorem soft_dot (safe : Bool) : Soft (some (dot safe)) := by cases safe <;> exact soft_fix _ _
theorem soft_open (d : Bool) : Soft (some (open_ d)) := by cases d <;> exact soft_fix _ _
theorem soft_close (d : Bool) : Soft (some (close d)) := by cases d <;> exact soft_fix _ _
theorem Spacey.soft {nx : Option Want} (h : Spacey nx) : Soft nx := by
  obtain ⟨b, rfl, h⟩ := h
  exact .mk h _

theorem spacey_ex (e : Ex .ex) {w : Option Bool} (hw : w ≠ some false) (nx : Option Want) : Spacey (hd (toks w e) nx) := by
  obtain ⟨p, ws, h, -⟩ := toks_first e rfl
  rw [h]
  exact ⟨_, rfl, hw⟩

theorem bop_ws (o : Bop) : o.ws ≠ some false := by cases o <;> nofun

theorem soft_append {xs ys : List Want} {nx : Option Want} (h : Soft (hd xs (hd ys nx))) : Soft (hd (xs ++ ys) nx) := by
  rw [hd_append]
  exact h

theorem soft_toks {k : Kind} (e : Ex k) : ∀ {nx : Option Want}, Soft nx → Soft (hd (toks none e) nx) := by
  intro nx h
  cases k with
  | ex => exact (spacey_ex e none_ne nx).soft
  | sts =>
    cases e with
    | snil => exact h
    | slast e => simp only [gtoks]; exact (spacey_ex e none_ne nx).soft
    | scons e ss => simp only [gtoks]; exact soft_append (spacey_ex e none_ne _).soft
  | args =>
    cases e with
    | anil => exact h
    | acons e a => simp only [gtoks]; exact soft_append (spacey_ex e none_ne _).soft
    | asplat e a => exact soft_fix _ _
    | apairs ps a =>
      simp only [gtoks]
      refine soft_append ?_
      have h' : Soft (hd (sep a (toks none a)) nx) := by
        unfold sep
        split
        · exact h
        · exact soft_fix _ _
      cases ps with
      | pnil => exact h'
      | pcons k v ps => simp only [gtoks]; exact soft_append (spacey_ex k none_ne _).soft
      | pkey x v ps => exact soft_want _
      | psplat e ps => exact soft_fix _ _
    | ablk e => exact soft_fix _ _
  | pairs =>
    cases e with
    | pnil => exact h
    | pcons k v ps => simp only [gtoks]; exact soft_append (spacey_ex k none_ne _).soft
    | pkey x v ps => exact soft_want _
    | psplat e ps => exact soft_fix _ _
  | els => cases e <;> first | exact h | exact soft_fix _ _
  | part =>
    cases e with
    | tnil => exact h
    | part ss =>
      simp only [gtoks]
      cases ss with
      | snil => exact h
      | slast e => simp only [gtoks]; exact (spacey_ex e none_ne nx).soft
      | scons e ss => simp only [gtoks]; exact soft_append (spacey_ex e none_ne _).soft
  | whens => cases e <;> first | exact h | exact soft_fix _ _
  | rescues => cases e <;> first | exact h | exact soft_fix _ _
  | blk => cases e <;> first | exact h | exact soft_fix _ _
  | prms => cases e <;> first | exact h | exact soft_want _

theorem lst_name? (o : Option Str) {last : Ttype} (h : idle last = true) : idle (lst last (name? o)) = true := by
  cases o
  · exact h
  · rfl

theorem lst_targets : ∀ (vs : List Var) (last : Ttype), idle last = true → idle (lst last (targets vs)) = true
  | [], _, h => h
  | v :: vs, _, _ => lst_targets vs v.piece.type (by cases v <;> rfl)

theorem lst_sep {k : Kind} {a : Ex k} {ts : List Want} {last : Ttype} (h : idle last = true)
    (h' : ∀ last, idle last = true → idle (lst last ts) = true) : idle (lst last (sep a ts)) = true := by
  unfold sep
  split
  · exact h
  · exact h' _ rfl

theorem lst_opt {k : Kind} {a : Ex k} {ts : List Want} {last : Ttype} (h : idle last = true)
    (h' : ∀ last, idle last = true → idle (lst last ts) = true) : idle (lst last (opt? a ts)) = true := by
  unfold opt?
  split
  · exact h
  · exact h' _ h

/-- No construct ends with a token after which a method name is expected. -/
theorem lst_idle {k : Kind} (e : Ex k) : ∀ {last : Ttype} {w : Option Bool}, idle last = true → idle (lst last (toks w e)) = true := by
  induction e with
  | int n => intro last w h; simp only [gtoks]; split <;> rfl
  | array a ih => intro last w h; simp only [gtoks]; split <;> simp only [lst, lst_append] <;> rfl
  | word x => intro last w h; cases x <;> rfl
  | var v => intro last w h; cases v <;> rfl
  | block d c ps b => intro last w h; simp only [gtoks, lst, lst_append]; cases d <;> rfl
  | lam d ps b => intro last w h; simp only [gtoks, lst, lst_append]; cases d <;> rfl
  | un o e ih => intro last w h; simp only [gtoks, lst]; exact ih (by cases o <;> rfl)
  | bin o l r ih1 ih2 => intro last w h; simp only [gtoks, lst, lst_append]; exact ih2 (by cases o <;> rfl)
  | opasgn v o e ih => intro last w h; simp only [gtoks, lst]; exact ih (by cases o <;> rfl)
  | opattr s r m o e _ ih => intro last w h; simp only [gtoks, lst, lst_append]; exact ih (by cases o <;> rfl)
  | opindex r a o e _ _ ih => intro last w h; simp only [gtoks, lst, lst_append]; exact ih (by cases o <;> rfl)
  | modi m l c _ ih => intro last w h; simp only [gtoks, lst, lst_append]; exact ih (by cases m <;> rfl)
  | jump0 j => intro last w h; cases j <;> rfl
  | jump j e ih => intro last w h; simp only [gtoks, lst]; exact ih (by cases j <;> rfl)
  | class_ x sup b => intro last w h; simp only [gtoks, lst, lst_append]; rfl
  | def_ s x ps b => intro last w h; simp only [gtoks, lst, lst_append]; rfl
  | qname x ps ih | qkey x ps ih =>
    intro last w h
    simp only [gtoks, lst]
    exact lst_sep rfl fun _ h => ih h
  | qsplat o ps ih | qkws o ps ih =>
    intro last w h
    simp only [gtoks, lst, lst_append]
    exact lst_sep (lst_name? o rfl) fun _ h => ih h
  | qdef x e ps ih1 ih2 | qkeyd x e ps ih1 ih2 =>
    intro last w h
    simp only [gtoks, lst, lst_append]
    exact lst_sep (ih1 rfl) fun _ h => ih2 h
  | qtup qs ps _ ih =>
    intro last w h
    simp only [gtoks, lst, lst_append]
    exact lst_sep rfl fun _ h => ih h
  | acons e a ih1 ih2 | asplat e a ih1 ih2 | apairs e a ih1 ih2 =>
    intro last w h
    simp only [gtoks, lst, lst_append]
    exact lst_sep (ih1 (by first | exact h | rfl)) fun _ h => ih2 h
  | pkey x v ps ih1 ih2 | psplat v ps ih1 ih2 =>
    intro last w h
    simp only [gtoks, lst, lst_append]
    exact lst_sep (ih1 rfl) fun _ h => ih2 h
  | pcons k v ps ih1 ih2 ih3 =>
    intro last w h
    simp only [gtoks, lst, lst_append]
    exact lst_sep (ih2 rfl) fun _ h => ih3 h
  | resc a v b rs ih1 ih2 ih3 => intro last w h; cases v <;> (simp only [gtoks, lst, lst_append]; exact ih3 (ih2 rfl))
  | cmd x a b ih1 ih2 => intro last w h; simp only [gtoks, lst, lst_append]; exact ih2 (ih1 rfl)
  | sendC s r x a b _ ih1 ih2 => intro last w h; simp only [gtoks, lst, lst_append]; exact ih2 (ih1 rfl)
  | elsif c a e ih1 ih2 ih3 => intro last w h; simp only [gtoks, lst, lst_append]; exact ih3 (ih2 rfl)
  | when_ a b e ih1 ih2 ih3 => intro last w h; simp only [gtoks, lst, lst_append]; exact ih3 (ih2 rfl)
  | in_ p b e ih1 ih2 => intro last w h; simp only [gtoks, lst, lst_append]; exact ih2 (ih1 rfl)
  | tern c a b ih1 ih2 ih3 => intro last w h; simp only [gtoks, lst, lst_append]; exact ih3 rfl
  | _ =>
    intro last w h
    simp only [gtoks, lst, lst_append]
    first | rfl | exact h | (rename_i ih; exact ih rfl) | (rename_i ih; exact ih h)

/-- What can be divided ends with a value. -/
theorem lst_value {k : Kind} (e : Ex k) : k = .ex → after e .Slash = true → ∀ {last : Ttype} {w : Option Bool},
    endsValue (lst last (toks w e)) = true := by
  induction e with
  | int n => intro _ _ last w; simp only [gtoks]; split <;> rfl
  | array a ih => intro _ _ last w; simp only [gtoks]; split <;> simp only [lst, lst_append] <;> rfl
  | word x => intro _ _ last w; cases x <;> rfl
  | var v => intro _ _ last w; cases v <;> rfl
  | block d c ps b => intro _ _ last w; simp only [gtoks, lst, lst_append]; cases d <;> rfl
  | lam d ps b => intro _ _ last w; simp only [gtoks, lst, lst_append]; cases d <;> rfl
  | un o e ih =>
    intro _ h last w
    simp only [gtoks, lst]
    simp only [gafter, Bool.and_eq_true] at h
    exact ih rfl h.2
  | bin o l r _ ih =>
    intro _ h last w
    simp only [gtoks, lst, lst_append]
    simp only [gafter, Bool.and_eq_true] at h
    exact ih rfl h.2
  | _ =>
    intro hk h last w
    first
    | exact absurd hk (by decide)
    | (simp only [gtoks, lst, lst_append]; rfl)
    | (simp only [gafter, Bool.and_eq_true] at h; exact absurd h.1 (by decide))
    | (simp only [gafter] at h; exact absurd h (by decide))

theorem closed_after {k : Kind} (ss : Ex k) : k = .sts → closed ss = true → ∀ {L : List Str}, WF L ss = true → ∀ ty, after ss ty = true := by
  induction ss with
  | snil => intro _ _ L _ ty; rfl
  | scons e ss _ ih =>
    intro _ hc L hw ty
    simp only [gwf, gafter, Bool.and_eq_true] at hw ⊢
    exact ⟨hw.2, ih rfl hc hw.1.2 ty⟩
  | slast e => exact fun _ h => by cases h
  | _ => exact nofun

/-! ### Parts without expressions -/

theorem chk_name? (o : Option Str) {last : Ttype} {nx : Option Want} (h : last ≠ .Fixnum) (hs : Soft nx) : Chk last (name? o) nx := by
  cases o
  · trivial
  · exact ⟨.name h hs, trivial⟩

theorem soft_name? (o : Option Str) {nx : Option Want} (h : Soft nx) : Soft (hd (name? o) nx) := by
  cases o
  · exact h
  · exact soft_want _

theorem soft_sep {k : Kind} {e : Ex k} {ts : List Want} {nx : Option Want} (h : Soft nx) : Soft (hd (sep e ts) nx) := by
  unfold sep
  split
  · exact h
  · exact soft_fix _ _

theorem spacey_sep {k : Kind} {e : Ex k} {ts : List Want} {nx : Option Want} (h : Spacey nx) : Spacey (hd (sep e ts) nx) := by
  unfold sep
  split
  · exact h
  · exact ⟨_, rfl, none_ne⟩

theorem bars_ne (ps : Ex .prms) {last : Ttype} (h : last ≠ .Fixnum) :
    lst last (opt? ps (bar :: (toks none ps ++ [bar]))) ≠ .Fixnum := by
  unfold opt?
  split
  · exact h
  · simp only [lst, lst_append]
    nofun

theorem lst_bars (ps : Ex .prms) {last : Ttype} (h : idle last = true) :
    idle (lst last (opt? ps (bar :: (toks none ps ++ [bar])))) = true :=
  lst_opt h fun _ _ => by simp only [lst, lst_append]; rfl

theorem lst_parens (ps : Ex .prms) {last : Ttype} (h : idle last = true) :
    idle (lst last (opt? ps (lparen :: (toks none ps ++ [rparen])))) = true :=
  lst_opt h fun _ _ => by simp only [lst, lst_append]; rfl

theorem one_var (v : Var) {last : Ttype} {w : Option Bool} {nx : Option Want} (h : last ≠ .Fixnum) (hs : Soft nx) :
    One last ⟨w, v.piece⟩ nx := by
  cases v
  · exact .name h hs
  · exact .ivar hs
  · exact .cvar hs
  · exact .gvar hs
  · exact .const hs

theorem var_value (v : Var) : endsValue v.piece.type = true := by cases v <;> rfl
theorem var_idle (v : Var) : idle v.piece.type = true := by cases v <;> rfl

theorem one_aop (o : Aop) {last : Ttype} {nx : Option Want} (h : endsValue last = true) (hs : Soft nx) :
    One last (fix (o.text ++ ['=']) o.type) nx := by
  have hi : idle last = true := by cases last <;> first | rfl | cases h
  cases o <;> first | exact .slashEq h | exact .easy (by decide +kernel) hi hs

theorem aop_ne (o : Aop) : o.type ≠ .Fixnum := by cases o <;> nofun
theorem aop_idle (o : Aop) : idle o.type = true := by cases o <;> rfl

theorem soft_targets (vs : List Var) {nx : Option Want} (h : Soft nx) : Soft (hd (targets vs) nx) := by
  cases vs
  · exact h
  · exact soft_fix _ _

theorem chk_targets : ∀ (vs : List Var) {last : Ttype} {nx : Option Want}, idle last = true → Soft nx → Chk last (targets vs) nx
  | [], _, _, _, _ => trivial
  | v :: vs, _, _, h, hs =>
    ⟨.easy (by decide +kernel) h (soft_want _), one_var v nofun (soft_targets vs hs), chk_targets vs (var_idle v) hs⟩

theorem one_bop (o : Bop) {l r : Ex .ex} {last : Ttype} {w : Option Bool} {nx : Option Want} (hi : idle last = true)
    (h : after l o.type = true) : One (lst last (toks w l)) ⟨o.ws, .fixed o.text o.type⟩ (hd (toks o.ws r) nx) := by
  have hs := spacey_ex r (bop_ws o) nx
  cases o <;> first
    | exact .easy (by decide +kernel) (lst_idle l hi) hs.soft
    | exact .wide (by decide +kernel) (lst_idle l hi) none_ne hs
    | exact .slash (lst_value l rfl h) hs

theorem bop_ne (o : Bop) : o.type ≠ .Fixnum := by cases o <;> nofun
theorem bop_idle (o : Bop) : idle o.type = true := by cases o <;> rfl

theorem chk_opt {k : Kind} {e : Ex k} {ts : List Want} {last : Ttype} {nx : Option Want} (h : e.isNil = false → Chk last ts nx) :
    Chk last (opt? e ts) nx := by
  unfold opt?
  cases he : e.isNil
  · exact h he
  · trivial

theorem soft_opt {k : Kind} {e : Ex k} {t : Want} {ts : List Want} {nx : Option Want} (h : Soft (some t)) (h' : Soft nx) :
    Soft (hd (opt? e (t :: ts)) nx) := by
  unfold opt?
  cases e.isNil
  · exact h
  · exact h'

theorem callee_after {L : List Str} {c : Ex .ex} (h : callee L c = true) :
    after c .DoKeyword = true ∧ after c .LCurlyBrace = true := by
  cases c <;> first | exact ⟨rfl, rfl⟩ | exact absurd h nofun

theorem part_after {e : Ex .part} {L : List Str} (hc : closed e = true) (hw : WF L e = true) (ty : Ttype) :
    after e ty = true := by
  cases e with
  | tnil => rfl
  | part ss => exact closed_after ss rfl hc hw ty

theorem lst_else {k : Kind} {e : Ex k} {last : Ttype} (h : idle last = true) :
    idle (lst last (opt? e (fix (cs! "else") .ElseKeyword :: toks none e))) = true :=
  lst_opt h fun _ _ => lst_idle e rfl

theorem lst_part {k : Kind} {e : Ex k} {w : Str} {t : Ttype} {last : Ttype} (h : idle last = true) :
    idle (lst last (opt? e (fix w t :: semi :: toks none e))) = true :=
  lst_opt h fun _ _ => lst_idle e rfl

/-- The first token is the key of a pair or of a keyword parameter. -/
def keyed : {k : Kind} → Ex k → Bool
  | _, .pkey _ _ _ => true
  | _, .apairs ps _ => keyed ps
  | _, .qkey _ _ | _, .qkeyd _ _ _ => true
  | _, _ => false

theorem simple_keyed {k : Kind} {a : Ex k} (h : simple a = true) : keyed a = false := by
  cases a <;> first | rfl | cases h

def fixedStart : Kind → Bool
  | .els | .whens | .rescues | .blk => true
  | _ => false

def openEnd : Kind → Bool
  | .whens | .rescues | .blk => false
  | _ => true

/-- Where it may stand, the tokens are between their neighbours. -/
def Fits {k : Kind} (e : Ex k) : Prop :=
  ∀ {L : List Str} {w : Option Bool} {last : Ttype} {nx : Option Want}, w ≠ some false → (fixedStart k = false → last ≠ .Fixnum) →
    idle last = true → (k = .args ∨ k = .pairs ∨ k = .prms → keyed e = true → beforeKey last = true) → Soft nx →
    (k = .prms → Spacey nx) → WF L e = true →
    (openEnd k = true → after e (nty nx) = true) → Chk last (toks w e) nx

theorem chk_bars {ps : Ex .prms} (h : Fits ps) {L : List Str} {last : Ttype} {nx : Option Want} (hi : idle last = true) (hs : Soft nx)
    (hw : WF L ps = true) (ha : after ps .Pipe = true) : Chk last (opt? ps (bar :: (toks none ps ++ [bar]))) nx :=
  chk_opt fun _ => ⟨.easy (by decide +kernel) hi (soft_append (soft_toks ps (soft_fix _ _))),
    Chk.append (h none_ne (fun _ => nofun) rfl (fun _ _ => rfl) (soft_fix _ _) (fun _ => ⟨_, rfl, none_ne⟩) hw fun _ => ha)
      ⟨.easy (by decide +kernel) (lst_idle ps rfl) hs, trivial⟩⟩

theorem chk_parens {ps : Ex .prms} (h : Fits ps) {L : List Str} {last : Ttype} {nx : Option Want} (hi : idle last = true) (hs : Soft nx)
    (hw : WF L ps = true) (ha : after ps .RParen = true) : Chk last (opt? ps (lparen :: (toks none ps ++ [rparen]))) nx :=
  chk_opt fun _ => ⟨.easy (by decide +kernel) hi (soft_append (soft_toks ps (soft_fix _ _))),
    Chk.append (h none_ne (fun _ => nofun) rfl (fun _ _ => rfl) (soft_fix _ _) (fun _ => ⟨_, rfl, none_ne⟩) hw fun _ => ha)
      ⟨.easy (by decide +kernel) (lst_idle ps rfl) hs, trivial⟩⟩

theorem lst_round (ps : Ex .prms) {last : Ttype} (h : idle last = true) :
    idle (lst last (opt? ps (fix (cs! "(") .LParen :: (toks none ps ++ [rparen])))) = true :=
  lst_opt h fun _ _ => by simp only [lst, lst_append]; rfl

theorem chk_round {ps : Ex .prms} (h : Fits ps) {L : List Str} {last : Ttype} {nx : Option Want} (hi : idle last = true) (hs : Soft nx)
    (hw : WF L ps = true) (ha : after ps .RParen = true) :
    Chk last (opt? ps (fix (cs! "(") .LParen :: (toks none ps ++ [rparen]))) nx :=
  chk_opt fun _ => ⟨.easy (by decide +kernel) hi (soft_append (soft_toks ps (soft_fix _ _))),
    Chk.append (h none_ne (fun _ => nofun) rfl (fun _ _ => rfl) (soft_fix _ _) (fun _ => ⟨_, rfl, none_ne⟩) hw fun _ => ha)
      ⟨.easy (by decide +kernel) (lst_idle ps rfl) hs, trivial⟩⟩

/-! ### Patterns -/

/-- A token with a blank in front that is not `::`. -/
def Tame (nx : Option Want) : Prop := Spacey nx ∧ nty nx ≠ .ConstantResolution

theorem Tame.fix (w : Str) {t : Ttype} (h : t ≠ .ConstantResolution) : Tame (some (fix w t)) := ⟨⟨_, rfl, none_ne⟩, h⟩

theorem Tame.soft {nx : Option Want} (h : Tame nx) : Soft nx := h.1.soft

theorem num_idle (n : Int) (last : Ttype) : idle (lst last (Pat.num n)) = true := by
  unfold Pat.num
  split <;> rfl

theorem num_tame (n : Int) (nx : Option Want) : Tame (hd (Pat.num n) nx) := by
  unfold Pat.num
  split <;> exact ⟨⟨_, rfl, none_ne⟩, nofun⟩

theorem num_chk (n : Int) {last : Ttype} {nx : Option Want} (hi : idle last = true) (hs : Soft nx) : Chk last (Pat.num n) nx := by
  unfold Pat.num
  split
  · exact ⟨.sign hi, .int hs, trivial⟩
  · exact ⟨.int hs, trivial⟩

theorem Pat.sep_tame {k : PKind} (r : Pat k) {ts : List Want} {nx : Option Want} (h : Tame nx) : Tame (hd (Pat.sep r ts) nx) := by
  unfold Pat.sep
  split
  · exact h
  · exact .fix _ nofun

theorem Pat.name_tame (o : Option Str) {nx : Option Want} (h : Tame nx) : Tame (hd (Pat.name? o) nx) := by
  cases o
  · exact h
  · exact ⟨⟨_, rfl, none_ne⟩, nofun⟩

theorem tame_append {xs ys : List Want} {nx : Option Want} (h : Tame (hd xs (hd ys nx))) : Tame (hd (xs ++ ys) nx) := by
  rw [hd_append]
  exact h

theorem Pat.tame {k : PKind} (p : Pat k) : ∀ {nx : Option Want}, (k = .pat ∨ Tame nx) → Tame (hd p.toks nx) := by
  induction p with
  | int n => exact fun _ => num_tame _ _
  | range e a b => exact fun _ => tame_append (num_tame _ _)
  | array ps ih =>
    intro nx h
    unfold Pat.toks
    split <;> exact .fix _ nofun
  | bind p x ih => exact fun _ => tame_append (ih (.inl rfl))
  | lcons p ps ih1 ih2 => exact fun h => tame_append (ih1 (.inl rfl))
  | lnil | hnil => exact fun h => h.resolve_left nofun
  | _ => exact fun _ => ⟨⟨_, rfl, none_ne⟩, nofun⟩

theorem Pat.sep_idle {k : PKind} {r : Pat k} {last : Ttype} (h : idle last = true)
    (h' : ∀ last, idle last = true → idle (lst last r.toks) = true) : idle (lst last (Pat.sep r r.toks)) = true := by
  unfold Pat.sep
  split
  · exact h
  · exact h' _ rfl

theorem Pat.name_idle (o : Option Str) {last : Ttype} (h : idle last = true) : idle (lst last (Pat.name? o)) = true := by
  cases o
  · exact h
  · rfl

theorem Pat.idle {k : PKind} (p : Pat k) : ∀ {last : Ttype}, idle last = true → idle (lst last p.toks) = true := by
  induction p with
  | int n => exact fun _ => num_idle _ _
  | range e a b => intro last _; simp only [Pat.toks, lst, lst_append]; exact num_idle _ _
  | array ps ih =>
    intro last h
    unfold Pat.toks
    split
    · rfl
    · simp only [lst, lst_append]; rfl
  | hash ps ih | group ps ih | bind ps x ih => intro last h; simp only [Pat.toks, lst, lst_append]; rfl
  | lcons p ps ih1 ih2 | hpair x p ps ih1 ih2 =>
    intro last h
    simp only [Pat.toks, lst, lst_append]
    exact sep_idle (ih1 (by first | exact h | rfl)) fun _ h => ih2 h
  | lsplat o ps ih =>
    intro last h
    simp only [Pat.toks, lst, lst_append]
    exact sep_idle (name_idle o rfl) fun _ h => ih h
  | hkey x ps ih =>
    intro last h
    simp only [Pat.toks, lst]
    exact sep_idle rfl fun _ h => ih h
  | hrest o => exact fun _ => name_idle o rfl
  | lnil | hnil => exact fun h => h
  | _ => exact fun _ => rfl

/-- Where it may stand, the tokens of a pattern are between their neighbours. -/
def PFits {k : PKind} (p : Pat k) : Prop :=
  ∀ {last : Ttype} {nx : Option Want}, last ≠ .Fixnum → Gram.idle last = true → (k = .pairs → beforeKey last = true) → Tame nx →
    Chk last p.toks nx

theorem Pat.sep_chk {k : PKind} {r : Pat k} (h : PFits r) {last : Ttype} {nx : Option Want} (hi : Gram.idle last = true) (hs : Tame nx) :
    Chk last (Pat.sep r r.toks) nx := by
  unfold Pat.sep
  split
  · trivial
  · refine ⟨.easy (by decide +kernel) hi (r.tame (.inr hs)).soft, h nofun rfl (fun _ => rfl) hs⟩

theorem Pat.name_chk (o : Option Str) {last : Ttype} {nx : Option Want} (h : last ≠ .Fixnum) (hs : Soft nx) : Chk last (Pat.name? o) nx := by
  cases o
  · trivial
  · exact ⟨.name h hs, trivial⟩

theorem Pat.fits {k : PKind} (p : Pat k) : PFits p := by
  induction p with
  | name x => exact fun hF hi hk hs => ⟨.name hF hs.soft, trivial⟩
  | int n => exact fun hF hi hk hs => num_chk n hi hs.soft
  | range e a b =>
    intro last nx hF hi hk hs
    refine Chk.append (num_chk a hi ?_) ⟨?_, num_chk b ?_ hs.soft⟩
    · cases e <;> exact soft_fix _ _
    · cases e <;> exact .easy (by decide +kernel) (num_idle _ _) (num_tame _ _).soft
    · cases e <;> rfl
  | str s => exact fun hF hi hk hs => ⟨.str hs.soft hs.2, trivial⟩
  | sym x => exact fun hF hi hk hs => ⟨.sym hs.soft, trivial⟩
  | nil => exact fun hF hi hk hs => ⟨.easy (by decide +kernel) hi hs.soft, trivial⟩
  | const x => exact fun hF hi hk hs => ⟨.const hs.soft, trivial⟩
  | pin x => exact fun hF hi hk hs => ⟨.easy (by decide +kernel) hi (soft_want _), .name nofun hs.soft, trivial⟩
  | array ps ih =>
    intro last nx hF hi hk hs
    unfold Pat.toks
    split
    · exact ⟨.easy (by decide +kernel) hi hs.soft, trivial⟩
    · exact ⟨.easy (by decide +kernel) hi (tame_append (ys := [Gram.fix (cs! "]") .RBracket]) (nx := nx) (ps.tame (.inr (.fix (cs! "]") (t := .RBracket) nofun)))).soft,
        Chk.append (ih nofun rfl nofun (.fix _ nofun)) ⟨.easy (by decide +kernel) (ps.idle rfl) hs.soft, trivial⟩⟩
  | hash ps ih =>
    intro last nx hF hi hk hs
    exact ⟨.easy (by decide +kernel) hi (tame_append (ys := [Gram.fix (cs! "}") .RCurlyBrace]) (nx := nx) (ps.tame (.inr (.fix (cs! "}") (t := .RCurlyBrace) nofun)))).soft,
      Chk.append (ih nofun rfl (fun _ => rfl) (.fix _ nofun)) ⟨.easy (by decide +kernel) (ps.idle rfl) hs.soft, trivial⟩⟩
  | group ps ih =>
    intro last nx hF hi hk hs
    exact ⟨.easy (by decide +kernel) hi (tame_append (ps.tame (.inl rfl))).soft,
      Chk.append (ih nofun rfl nofun (.fix _ nofun)) ⟨.easy (by decide +kernel) (ps.idle rfl) hs.soft, trivial⟩⟩
  | bind p x ih =>
    intro last nx hF hi hk hs
    exact Chk.append (ih hF hi nofun (.fix _ nofun)) ⟨.easy (by decide +kernel) (p.idle hi) (soft_want _), .name nofun hs.soft, trivial⟩
  | lnil | hnil => exact fun hF hi hk hs => trivial
  | lcons p ps ih1 ih2 =>
    intro last nx hF hi hk hs
    exact Chk.append (ih1 hF hi nofun (sep_tame _ hs)) (sep_chk ih2 (p.idle hi) hs)
  | lsplat o ps ih =>
    intro last nx hF hi hk hs
    exact ⟨.easy (by decide +kernel) hi (tame_append (name_tame o (sep_tame _ hs))).soft,
      Chk.append (name_chk o nofun (sep_tame _ hs).soft) (sep_chk ih (name_idle o rfl) hs)⟩
  | hkey x ps ih =>
    intro last nx hF hi hk hs
    exact ⟨.key (hk rfl) (sep_tame _ hs).1, sep_chk ih rfl hs⟩
  | hpair x p ps ih1 ih2 =>
    intro last nx hF hi hk hs
    exact ⟨.key (hk rfl) (tame_append (p.tame (.inl rfl))).1,
      Chk.append (ih1 nofun rfl nofun (sep_tame _ hs)) (sep_chk ih2 (p.idle rfl) hs)⟩
  | hrest o =>
    intro last nx hF hi hk hs
    exact ⟨.easy (by decide +kernel) hi (name_tame o hs).soft, name_chk o nofun hs.soft⟩
  | hnone => exact fun hF hi hk hs => ⟨.easy (by decide +kernel) hi (soft_fix _ _), .easy (by decide +kernel) rfl hs.soft, trivial⟩

theorem Pat.bars_tame {k : PKind} (ps : Pat k) {nx : Option Want} (h : Tame nx) : Tame (hd ps.bars nx) := by
  cases ps <;> first | exact h | exact .fix _ nofun

theorem Pat.bars_idle {k : PKind} (ps : Pat k) : ∀ {last : Ttype}, Gram.idle last = true → Gram.idle (lst last ps.bars) = true := by
  induction ps with
  | lcons p ps _ ih => intro last h; simp only [Pat.bars, lst, lst_append]; exact ih (p.idle rfl)
  | _ => exact fun h => h

theorem Pat.bars_chk {k : PKind} (ps : Pat k) : ∀ {last : Ttype} {nx : Option Want}, Gram.idle last = true → Tame nx → Chk last ps.bars nx := by
  induction ps with
  | lcons p ps _ ih =>
    intro last nx hi hs
    exact ⟨.easy (by decide +kernel) hi (tame_append (p.tame (.inl rfl))).soft,
      Chk.append (p.fits nofun rfl nofun (ps.bars_tame hs)) (ih (p.idle rfl) hs)⟩
  | _ => exact fun _ _ => trivial

theorem Top.tame (p : Top) {nx : Option Want} (h : Tame nx) : Tame (hd p.toks nx) := by
  cases p with
  | list ps => exact ps.tame (.inr h)
  | alts p ps => exact tame_append (p.tame (.inl rfl))

theorem Top.idle (p : Top) {last : Ttype} (h : Gram.idle last = true) : Gram.idle (lst last p.toks) = true := by
  cases p with
  | list ps => exact ps.idle h
  | alts p ps => simp only [Top.toks, lst_append]; exact ps.bars_idle (p.idle h)

theorem Top.fits (p : Top) {last : Ttype} {nx : Option Want} (hF : last ≠ .Fixnum) (hi : Gram.idle last = true) (hs : Tame nx) :
    Chk last p.toks nx := by
  cases p with
  | list ps => exact ps.fits hF hi nofun hs
  | alts p ps => exact Chk.append (p.fits hF hi nofun (ps.bars_tame hs)) (ps.bars_chk (p.idle hi) hs)

syntax "sft" : tactic
macro_rules | `(tactic| sft) => `(tactic| first
  | assumption
  | exact soft_none
  | exact soft_fix _ _
  | exact soft_want _
  | exact soft_lparen
  | exact soft_lbracket
  | exact soft_colons
  | exact soft_dot _
  | exact soft_open _
  | exact soft_close _
  | exact Soft.mk (bop_ws _) _
  | exact (spacey_ex _ none_ne _).soft
  | exact (spacey_ex _ (bop_ws _) _).soft
  | exact soft_toks _ (by sft)
  | exact soft_name? _ (by sft)
  | exact soft_targets _ (by sft)
  | exact soft_opt (by sft) (by sft)
  | exact soft_append (by sft))

syntax "idl" : tactic
macro_rules | `(tactic| idl) => `(tactic| first
  | assumption
  | rfl
  | exact lst_idle _ (by idl)
  | exact lst_bars _ (by idl)
  | exact lst_parens _ (by idl)
  | exact lst_round _ (by idl)
  | exact lst_targets _ _ (by idl)
  | exact var_idle _
  | exact aop_idle _
  | exact bop_idle _
  | exact lst_else (by idl)
  | exact lst_part (by idl)
  | (rw [lst_append]; idl))

syntax "onet" : tactic
macro_rules | `(tactic| onet) => `(tactic| first
  | exact One.easy (by decide +kernel) (by idl) (by sft)
  | exact One.name (by first | assumption | decide | nofun) (by sft)
  | exact One.const (by sft)
  | exact one_var _ (by first | assumption | decide | nofun) (by sft)
  | exact one_aop _ (by first | rfl | exact var_value _ | (rw [lst_append]; rfl)) (by sft)
  | exact one_bop _ (by idl) (by assumption)
  | exact One.wide (by decide +kernel) (by idl) none_ne (by rw [hd_append]; exact spacey_ex _ none_ne _)
  | exact One.key (by first | rfl | assumption) (by rw [hd_append]; exact spacey_ex _ none_ne _)
  | exact One.wide (by decide +kernel) (by idl) none_ne (spacey_ex _ none_ne _)
  | exact One.key (by first | rfl | assumption) (spacey_ex _ none_ne _))

set_option hygiene false in
syntax "chk" : tactic
set_option hygiene false in
macro_rules | `(tactic| chk) => `(tactic| first
  | exact trivial
  | (apply ih1
     · first | assumption | exact none_ne | exact bop_ws _
     · first | assumption | exact fun h => absurd h (by decide) | exact fun _ => bars_ne _ (by first | decide | nofun) | exact fun _ => bop_ne _ | exact fun _ => aop_ne _ | (intro _; decide) | exact fun _ => nofun
     · idl
     · first | exact fun _ _ => rfl | exact fun h => absurd h (by decide) | assumption | exact fun _ => hk1 | exact fun _ h => absurd h (by rw [hk1]; decide)
     · sft
     · first | exact fun h => absurd h (by decide) | exact fun _ => ⟨_, rfl, none_ne⟩ | assumption
     · assumption
     · first | (intro; assumption) | exact fun h => absurd h (by decide))
  | (apply ih2
     · first | assumption | exact none_ne | exact bop_ws _
     · first | assumption | exact fun h => absurd h (by decide) | exact fun _ => bars_ne _ (by first | decide | nofun) | exact fun _ => bop_ne _ | exact fun _ => aop_ne _ | (intro _; decide) | exact fun _ => nofun
     · idl
     · first | exact fun _ _ => rfl | exact fun h => absurd h (by decide) | assumption | exact fun _ => hk1 | exact fun _ h => absurd h (by rw [hk1]; decide)
     · sft
     · first | exact fun h => absurd h (by decide) | exact fun _ => ⟨_, rfl, none_ne⟩ | assumption
     · assumption
     · first | (intro; assumption) | exact fun h => absurd h (by decide))
  | (apply ih3
     · first | assumption | exact none_ne | exact bop_ws _
     · first | assumption | exact fun h => absurd h (by decide) | exact fun _ => bars_ne _ (by first | decide | nofun) | exact fun _ => bop_ne _ | exact fun _ => aop_ne _ | (intro _; decide) | exact fun _ => nofun
     · idl
     · first | exact fun _ _ => rfl | exact fun h => absurd h (by decide) | assumption | exact fun _ => hk1 | exact fun _ h => absurd h (by rw [hk1]; decide)
     · sft
     · first | exact fun h => absurd h (by decide) | exact fun _ => ⟨_, rfl, none_ne⟩ | assumption
     · assumption
     · first | (intro; assumption) | exact fun h => absurd h (by decide))
  | (apply ih4
     · first | assumption | exact none_ne | exact bop_ws _
     · first | assumption | exact fun h => absurd h (by decide) | exact fun _ => bars_ne _ (by first | decide | nofun) | exact fun _ => bop_ne _ | exact fun _ => aop_ne _ | (intro _; decide) | exact fun _ => nofun
     · idl
     · first | exact fun _ _ => rfl | exact fun h => absurd h (by decide) | assumption | exact fun _ => hk1 | exact fun _ h => absurd h (by rw [hk1]; decide)
     · sft
     · first | exact fun h => absurd h (by decide) | exact fun _ => ⟨_, rfl, none_ne⟩ | assumption
     · assumption
     · first | (intro; assumption) | exact fun h => absurd h (by decide))
  | exact ⟨by onet, by chk⟩
  | exact chk_name? _ (by first | assumption | decide | nofun) (by sft)
  | exact chk_bars ih1 (by idl) (by sft) (by assumption) (by assumption)
  | exact chk_bars ih2 (by idl) (by sft) (by assumption) (by assumption)
  | exact chk_parens ih1 (by idl) (by sft) (by assumption) (by assumption)
  | exact chk_round ih1 (by idl) (by sft) (by assumption) (by assumption)
  | exact chk_targets _ (by idl) (by sft)
  | exact Chk.append (by chk) (by chk))

theorem fits_int {n : Int} : Fits (.int n : Ex .ex) := by
  intro L w last nx hw hF hi hk hs hp hwf ha
  simp only [gtoks]
  split
  · exact ⟨.sign hi, .int hs, trivial⟩
  · exact ⟨.int hs, trivial⟩

theorem fits_str {s : Str} : Fits (.str s : Ex .ex) := by
  intro L w last nx hw hF hi hk hs hp hwf ha
  have ha := ha rfl
  simp only [gafter, Bool.and_eq_true, bne_iff_ne] at ha
  exact ⟨.str hs ha.2, trivial⟩

theorem fits_sym {x : Str} : Fits (.sym x : Ex .ex) := by
  exact fun hw hF hi hk hs hp hwf ha => ⟨.sym hs, trivial⟩

theorem fits_word {x : Word} : Fits (.word x : Ex .ex) := by
  intro L w last nx hw hF hi hk hs hp hwf ha
  cases x <;> exact ⟨.easy (by decide +kernel) hi hs, trivial⟩

theorem fits_var {v : Var} : Fits (.var v : Ex .ex) := by
  intro L w last nx hw hF hi hk hs hp hwf ha
  cases v
  · exact ⟨.name (hF rfl) hs, trivial⟩
  · exact ⟨.ivar hs, trivial⟩
  · exact ⟨.cvar hs, trivial⟩
  · exact ⟨.gvar hs, trivial⟩
  · exact ⟨.const hs, trivial⟩

theorem fits_array {a : Ex .args} (ih1 : Fits a) : Fits (.array a : Ex .ex) := by
  intro L w last nx hw hF hi hk hs hp hwf ha
  simp only [gwf, Bool.and_eq_true] at hwf
  obtain ⟨⟨⟨h1, h2⟩, h3⟩, h4⟩ := hwf
  simp only [gtoks]
  split
  · exact ⟨.easy (by decide +kernel) hi hs, trivial⟩
  · chk

theorem fits_hash {ps : Ex .pairs} (ih1 : Fits ps) : Fits (.hash ps : Ex .ex) := by
  intro L w last nx hw hF hi hk hs hp hwf ha
  simp only [gwf, Bool.and_eq_true] at hwf
  obtain ⟨h1, h2⟩ := hwf
  simp only [gtoks]
  chk

theorem fits_fcall {x : Str} {a : Ex .args} (ih1 : Fits a) : Fits (.fcall x a : Ex .ex) := by
  intro L w last nx hw hF hi hk hs hp hwf ha
  simp only [gwf, Bool.and_eq_true] at hwf
  obtain ⟨h1, h2⟩ := hwf
  have hF1 := hF rfl
  simp only [gtoks]
  chk

theorem fits_send {s : Bool} {r : Ex .ex} {m : Str} (ih1 : Fits r) : Fits (.send s r m : Ex .ex) := by
  intro L w last nx hw hF hi hk hs hp hwf ha
  simp only [gwf, Bool.and_eq_true] at hwf
  obtain ⟨h1, h2⟩ := hwf
  cases s
  all_goals
    simp only [gtoks]
    chk

theorem fits_sendA {s : Bool} {r : Ex .ex} {m : Str} {a : Ex .args} (ih1 : Fits r) (ih2 : Fits a) : Fits (.sendA s r m a : Ex .ex) := by
  intro L w last nx hw hF hi hk hs hp hwf ha
  simp only [gwf, Bool.and_eq_true] at hwf
  obtain ⟨⟨⟨h1, h2⟩, h3⟩, h4⟩ := hwf
  cases s
  all_goals
    simp only [gtoks]
    chk

theorem fits_cmd {x : Str} {a : Ex .args} {b : Ex .blk} (ih1 : Fits a) (ih2 : Fits b) : Fits (.cmd x a b : Ex .ex) := by
  intro L w last nx hw hF hi hk hs hp hwf ha
  simp only [gwf, Bool.and_eq_true] at hwf
  obtain ⟨⟨⟨⟨⟨⟨h1, h2⟩, h3⟩, h4⟩, h5⟩, h6⟩, h7⟩ := hwf
  have hF1 := hF rfl
  have ha := ha rfl
  simp only [gafter, Bool.and_eq_true, Bool.or_eq_true] at ha
  obtain ⟨-, ha⟩ := ha
  have hb : after a (nty (hd (toks none b) nx)) = true := by
    cases b
    · exact ha.resolve_left nofun
    · assumption
  simp only [gtoks]
  chk

theorem fits_sendC {s : Bool} {r : Ex .ex} {m : Str} {a : Ex .args} {b : Ex .blk} (ih1 : Fits r) (ih2 : Fits a) (ih3 : Fits b) : Fits (.sendC s r m a b : Ex .ex) := by
  intro L w last nx hw hF hi hk hs hp hwf ha
  simp only [gwf, Bool.and_eq_true] at hwf
  obtain ⟨⟨⟨⟨⟨⟨⟨h1, h2⟩, h3⟩, h4⟩, h5⟩, h6⟩, h7⟩, h8⟩ := hwf
  have ha := ha rfl
  simp only [gafter, Bool.and_eq_true, Bool.or_eq_true] at ha
  obtain ⟨-, ha⟩ := ha
  have hb : after a (nty (hd (toks none b) nx)) = true := by
    cases b
    · exact ha.resolve_left nofun
    · assumption
  cases s
  all_goals
    simp only [gtoks]
    chk

theorem fits_index {r : Ex .ex} {a : Ex .args} (ih1 : Fits r) (ih2 : Fits a) : Fits (.index r a : Ex .ex) := by
  intro L w last nx hw hF hi hk hs hp hwf ha
  simp only [gwf, Bool.and_eq_true] at hwf
  obtain ⟨⟨⟨⟨⟨h1, h2⟩, h3⟩, h4⟩, h5⟩, h6⟩ := hwf
  simp only [gtoks]
  chk

theorem fits_colon2 {r : Ex .ex} {x : Str} (ih1 : Fits r) : Fits (.colon2 r x : Ex .ex) := by
  intro L w last nx hw hF hi hk hs hp hwf ha
  simp only [gwf, Bool.and_eq_true] at hwf
  obtain ⟨h1, h2⟩ := hwf
  simp only [gtoks]
  chk

theorem fits_colon3 {x : Str} : Fits (.colon3 x : Ex .ex) := by
  intro L w last nx hw hF hi hk hs hp hwf ha
  simp only [gtoks]
  chk

theorem fits_super0 : Fits (.super0 : Ex .ex) := by
  intro L w last nx hw hF hi hk hs hp hwf ha
  simp only [gtoks]
  chk

theorem fits_superA {a : Ex .args} (ih1 : Fits a) : Fits (.superA a : Ex .ex) := by
  intro L w last nx hw hF hi hk hs hp hwf ha
  simp only [gwf, Bool.and_eq_true] at hwf
  obtain ⟨h1, h2⟩ := hwf
  simp only [gtoks]
  chk

theorem fits_yield0 : Fits (.yield0 : Ex .ex) := by
  intro L w last nx hw hF hi hk hs hp hwf ha
  simp only [gtoks]
  chk

theorem fits_yieldA {a : Ex .args} (ih1 : Fits a) : Fits (.yieldA a : Ex .ex) := by
  intro L w last nx hw hF hi hk hs hp hwf ha
  simp only [gwf, Bool.and_eq_true] at hwf
  obtain ⟨⟨h1, h2⟩, h3⟩ := hwf
  simp only [gtoks]
  chk

theorem fits_paren {ss : Ex .sts} (ih1 : Fits ss) : Fits (.paren ss : Ex .ex) := by
  intro L w last nx hw hF hi hk hs hp hwf ha
  simp only [gwf, Bool.and_eq_true] at hwf
  obtain ⟨h1, h2⟩ := hwf
  simp only [gtoks]
  chk

theorem fits_block {d : Bool} {c : Ex .ex} {ps : Ex .prms} {b : Ex .sts} (ih1 : Fits c) (ih2 : Fits ps) (ih3 : Fits b) : Fits (.block d c ps b : Ex .ex) := by
  intro L w last nx hw hF hi hk hs hp hwf ha
  simp only [gwf, Bool.and_eq_true] at hwf
  obtain ⟨⟨⟨⟨⟨⟨h1, h2⟩, h3⟩, h4⟩, h5⟩, h6⟩, h7⟩ := hwf
  have hc := callee_after h2
  cases d
  · have hc := hc.2
    simp only [gtoks]
    chk
  · have hc := hc.1
    simp only [gtoks]
    chk

theorem fits_lam {d : Bool} {ps : Ex .prms} {b : Ex .sts} (ih1 : Fits ps) (ih2 : Fits b) : Fits (.lam d ps b : Ex .ex) := by
  intro L w last nx hw hF hi hk hs hp hwf ha
  simp only [gwf, Bool.and_eq_true] at hwf
  obtain ⟨⟨⟨⟨h1, h2⟩, h3⟩, h4⟩, h5⟩ := hwf
  cases d
  all_goals
    simp only [gtoks]
    chk

theorem fits_un {o : Uop} {e : Ex .ex} (ih1 : Fits e) : Fits (.un o e : Ex .ex) := by
  intro L w last nx hw hF hi hk hs hp hwf ha
  simp only [gwf, Bool.and_eq_true] at hwf
  obtain ⟨⟨h1, h2⟩, h3⟩ := hwf
  have ha := ha rfl
  simp only [gafter, Bool.and_eq_true] at ha
  obtain ⟨ha1, ha⟩ := ha
  cases o
  all_goals
    simp only [gtoks]
    chk

theorem fits_notE {e : Ex .ex} (ih1 : Fits e) : Fits (.notE e : Ex .ex) := by
  intro L w last nx hw hF hi hk hs hp hwf ha
  simp only [gwf, Bool.and_eq_true] at hwf
  obtain ⟨h1, h2⟩ := hwf
  have ha := ha rfl
  simp only [gafter, Bool.and_eq_true] at ha
  obtain ⟨ha1, ha⟩ := ha
  simp only [gtoks]
  chk

theorem fits_bin {o : Bop} {l : Ex .ex} {r : Ex .ex} (ih1 : Fits l) (ih2 : Fits r) : Fits (.bin o l r : Ex .ex) := by
  intro L w last nx hw hF hi hk hs hp hwf ha
  simp only [gwf, Bool.and_eq_true] at hwf
  obtain ⟨⟨⟨h1, h2⟩, h3⟩, h4⟩ := hwf
  have ha := ha rfl
  simp only [gafter, Bool.and_eq_true] at ha
  obtain ⟨ha1, ha⟩ := ha
  simp only [gtoks]
  chk

theorem fits_tern {c : Ex .ex} {a : Ex .ex} {b : Ex .ex} (ih1 : Fits c) (ih2 : Fits a) (ih3 : Fits b) : Fits (.tern c a b : Ex .ex) := by
  intro L w last nx hw hF hi hk hs hp hwf ha
  simp only [gwf, Bool.and_eq_true] at hwf
  obtain ⟨⟨⟨⟨⟨⟨h1, h2⟩, h3⟩, h4⟩, h5⟩, h6⟩, h7⟩ := hwf
  have ha := ha rfl
  simp only [gafter, Bool.and_eq_true] at ha
  obtain ⟨ha1, ha⟩ := ha
  simp only [gtoks]
  chk

theorem fits_asgn {v : Var} {e : Ex .ex} (ih1 : Fits e) : Fits (.asgn v e : Ex .ex) := by
  intro L w last nx hw hF hi hk hs hp hwf ha
  simp only [gwf, Bool.and_eq_true] at hwf
  obtain ⟨h1, h2⟩ := hwf
  have ha := ha rfl
  simp only [gafter, Bool.and_eq_true] at ha
  obtain ⟨ha1, ha⟩ := ha
  have hF1 := hF rfl
  simp only [gtoks]
  chk

theorem fits_opasgn {v : Var} {o : Aop} {e : Ex .ex} (ih1 : Fits e) : Fits (.opasgn v o e : Ex .ex) := by
  intro L w last nx hw hF hi hk hs hp hwf ha
  simp only [gwf, Bool.and_eq_true] at hwf
  obtain ⟨h1, h2⟩ := hwf
  have ha := ha rfl
  simp only [gafter, Bool.and_eq_true] at ha
  obtain ⟨ha1, ha⟩ := ha
  have hF1 := hF rfl
  simp only [gtoks]
  chk

theorem fits_attr {s : Bool} {r : Ex .ex} {m : Str} {e : Ex .ex} (ih1 : Fits r) (ih2 : Fits e) : Fits (.attr s r m e : Ex .ex) := by
  intro L w last nx hw hF hi hk hs hp hwf ha
  simp only [gwf, Bool.and_eq_true] at hwf
  obtain ⟨⟨⟨h1, h2⟩, h3⟩, h4⟩ := hwf
  have ha := ha rfl
  simp only [gafter, Bool.and_eq_true] at ha
  obtain ⟨ha1, ha⟩ := ha
  cases s
  all_goals
    simp only [gtoks]
    chk

theorem fits_opattr {s : Bool} {r : Ex .ex} {m : Str} {o : Aop} {e : Ex .ex} (ih1 : Fits r) (ih2 : Fits e) : Fits (.opattr s r m o e : Ex .ex) := by
  intro L w last nx hw hF hi hk hs hp hwf ha
  simp only [gwf, Bool.and_eq_true] at hwf
  obtain ⟨⟨⟨⟨h1, h2⟩, h3⟩, h4⟩, h5⟩ := hwf
  have ha := ha rfl
  simp only [gafter, Bool.and_eq_true] at ha
  obtain ⟨ha1, ha⟩ := ha
  cases s
  all_goals
    simp only [gtoks]
    chk

theorem fits_setIndex {r : Ex .ex} {a : Ex .args} {e : Ex .ex} (ih1 : Fits r) (ih2 : Fits a) (ih3 : Fits e) : Fits (.setIndex r a e : Ex .ex) := by
  intro L w last nx hw hF hi hk hs hp hwf ha
  simp only [gwf, Bool.and_eq_true] at hwf
  obtain ⟨⟨⟨⟨⟨⟨⟨h1, h2⟩, h3⟩, h4⟩, h5⟩, h6⟩, h7⟩, h8⟩ := hwf
  have ha := ha rfl
  simp only [gafter, Bool.and_eq_true] at ha
  obtain ⟨ha1, ha⟩ := ha
  simp only [gtoks]
  chk

theorem fits_opindex {r : Ex .ex} {a : Ex .args} {o : Aop} {e : Ex .ex} (ih1 : Fits r) (ih2 : Fits a) (ih3 : Fits e) : Fits (.opindex r a o e : Ex .ex) := by
  intro L w last nx hw hF hi hk hs hp hwf ha
  simp only [gwf, Bool.and_eq_true] at hwf
  obtain ⟨⟨⟨⟨⟨⟨⟨h1, h2⟩, h3⟩, h4⟩, h5⟩, h6⟩, h7⟩, h8⟩ := hwf
  have ha := ha rfl
  simp only [gafter, Bool.and_eq_true] at ha
  obtain ⟨ha1, ha⟩ := ha
  simp only [gtoks]
  chk

theorem fits_masgn {v : Var} {u : Var} {vs : List Var} {e : Ex .ex} (ih1 : Fits e) : Fits (.masgn v u vs e : Ex .ex) := by
  intro L w last nx hw hF hi hk hs hp hwf ha
  simp only [gwf, Bool.and_eq_true] at hwf
  obtain ⟨h1, h2⟩ := hwf
  have ha := ha rfl
  simp only [gafter, Bool.and_eq_true] at ha
  obtain ⟨ha1, ha⟩ := ha
  have hF1 := hF rfl
  simp only [gtoks]
  chk

theorem fits_masgnL {v : Var} {u : Var} {vs : List Var} {e : Ex .ex} {a : Ex .args} (ih1 : Fits e) (ih2 : Fits a) : Fits (.masgnL v u vs e a : Ex .ex) := by
  intro L w last nx hw hF hi hk hs hp hwf ha
  simp only [gwf, Bool.and_eq_true] at hwf
  obtain ⟨⟨⟨⟨⟨h1, h2⟩, h3⟩, h4⟩, h5⟩, h6⟩ := hwf
  have ha := ha rfl
  simp only [gafter, Bool.and_eq_true] at ha
  obtain ⟨ha1, ha⟩ := ha
  have hF1 := hF rfl
  simp only [gtoks]
  chk

theorem fits_modi {m : Modi} {l : Ex .ex} {c : Ex .ex} (ih1 : Fits l) (ih2 : Fits c) : Fits (.modi m l c : Ex .ex) := by
  intro L w last nx hw hF hi hk hs hp hwf ha
  simp only [gwf, Bool.and_eq_true] at hwf
  obtain ⟨⟨⟨⟨h1, h2⟩, h3⟩, h4⟩, h5⟩ := hwf
  have ha := ha rfl
  simp only [gafter, Bool.and_eq_true] at ha
  obtain ⟨ha1, ha⟩ := ha
  cases m
  all_goals
    simp only [gtoks]
    chk

theorem fits_rescueM {l : Ex .ex} {r : Ex .ex} (ih1 : Fits l) (ih2 : Fits r) : Fits (.rescueM l r : Ex .ex) := by
  intro L w last nx hw hF hi hk hs hp hwf ha
  simp only [gwf, Bool.and_eq_true] at hwf
  obtain ⟨⟨⟨h1, h2⟩, h3⟩, h4⟩ := hwf
  have ha := ha rfl
  simp only [gafter, Bool.and_eq_true] at ha
  obtain ⟨ha1, ha⟩ := ha
  simp only [gtoks]
  chk

theorem fits_if_ {c : Ex .ex} {a : Ex .sts} {e : Ex .els} (ih1 : Fits c) (ih2 : Fits a) (ih3 : Fits e) : Fits (.if_ c a e : Ex .ex) := by
  intro L w last nx hw hF hi hk hs hp hwf ha
  simp only [gwf, Bool.and_eq_true] at hwf
  obtain ⟨⟨⟨⟨⟨h1, h2⟩, h3⟩, h4⟩, h5⟩, h6⟩ := hwf
  have hb : after a (nty (hd (toks none e ++ [end_]) nx)) = true := by
    rw [hd_append]
    cases e <;> assumption
  simp only [gtoks]
  chk

theorem fits_unless_ {c : Ex .ex} {a : Ex .sts} {e : Ex .part} (ih1 : Fits c) (ih2 : Fits a) (ih3 : Fits e) : Fits (.unless_ c a e : Ex .ex) := by
  intro L w last nx hw hF hi hk hs hp hwf ha
  simp only [gwf, Bool.and_eq_true] at hwf
  obtain ⟨⟨⟨⟨⟨h1, h2⟩, h3⟩, h4⟩, h5⟩, h6⟩ := hwf
  have hb : after a (nty (hd (opt? e (fix (cs! "else") .ElseKeyword :: toks none e) ++ [end_]) nx)) = true := by
    rw [hd_append]
    cases e <;> assumption
  simp only [gtoks]
  refine ⟨by onet, Chk.append (by chk) ⟨by onet, Chk.append (by chk) (Chk.append (chk_opt fun _ => ?_) ?_)⟩⟩
  · chk
  · chk

theorem fits_while_ {n : Bool} {c : Ex .ex} {a : Ex .sts} (ih1 : Fits c) (ih2 : Fits a) : Fits (.while_ n c a : Ex .ex) := by
  intro L w last nx hw hF hi hk hs hp hwf ha
  simp only [gwf, Bool.and_eq_true] at hwf
  obtain ⟨⟨⟨⟨h1, h2⟩, h3⟩, h4⟩, h5⟩ := hwf
  cases n
  all_goals
    simp only [gtoks]
    chk

theorem fits_for_ {v : Var} {e : Ex .ex} {a : Ex .sts} (ih1 : Fits e) (ih2 : Fits a) : Fits (.for_ v e a : Ex .ex) := by
  intro L w last nx hw hF hi hk hs hp hwf ha
  simp only [gwf, Bool.and_eq_true] at hwf
  obtain ⟨⟨⟨⟨⟨h1, h2⟩, h3⟩, h4⟩, h5⟩, h6⟩ := hwf
  simp only [gtoks]
  chk

theorem fits_case_ {s : Ex .ex} {ws : Ex .whens} {e : Ex .part} (ih1 : Fits s) (ih2 : Fits ws) (ih3 : Fits e) : Fits (.case_ s ws e : Ex .ex) := by
  intro L w last nx hw hF hi hk hs hp hwf ha
  simp only [gwf, Bool.and_eq_true] at hwf
  obtain ⟨⟨⟨⟨⟨⟨⟨h1, h2⟩, h3⟩, h4⟩, h5⟩, h6⟩, h7⟩, h8⟩ := hwf
  simp only [gtoks]
  refine ⟨by onet, Chk.append (by chk) ⟨by onet, Chk.append (by chk) (Chk.append (chk_opt fun _ => ?_) ?_)⟩⟩
  · chk
  · chk

theorem fits_case0 {ws : Ex .whens} {e : Ex .part} (ih1 : Fits ws) (ih2 : Fits e) : Fits (.case0 ws e : Ex .ex) := by
  intro L w last nx hw hF hi hk hs hp hwf ha
  simp only [gwf, Bool.and_eq_true] at hwf
  obtain ⟨⟨⟨⟨h1, h2⟩, h3⟩, h4⟩, h5⟩ := hwf
  simp only [gtoks]
  refine ⟨by onet, Chk.append (by chk) (Chk.append (chk_opt fun _ => ?_) ?_)⟩
  · chk
  · chk

theorem fits_begin_ {b : Ex .sts} {rs : Ex .rescues} {el : Ex .part} {en : Ex .part} (ih1 : Fits b) (ih2 : Fits rs) (ih3 : Fits el) (ih4 : Fits en) : Fits (.begin_ b rs el en : Ex .ex) := by
  intro L w last nx hw hF hi hk hs hp hwf ha
  simp only [gwf, Bool.and_eq_true] at hwf
  obtain ⟨⟨⟨⟨⟨⟨⟨⟨h1, h2⟩, h3⟩, h4⟩, h5⟩, h6⟩, h7⟩, h8⟩, h9⟩ := hwf
  have hb := closed_after b rfl h2 h1
  have hel := part_after h5 h4
  have hen := part_after h7 h6
  have hb := hb (nty (hd (toks none rs ++ (opt? el (fix (cs! "else") .ElseKeyword :: semi :: toks none el) ++
      (opt? en (fix (cs! "ensure") .EnsureKeyword :: semi :: toks none en) ++ [end_]))) nx))
  have hel := hel (nty (hd (opt? en (fix (cs! "ensure") .EnsureKeyword :: semi :: toks none en) ++ [end_]) nx))
  have hen := hen (nty (hd [end_] nx))
  simp only [gtoks]
  refine ⟨by onet, by onet, Chk.append (by chk) (Chk.append (by chk)
    (Chk.append (chk_opt fun _ => ?_) (Chk.append (chk_opt fun _ => ?_) ?_)))⟩
  · chk
  · chk
  · chk

theorem fits_def_ {s : Bool} {x : Str} {ps : Ex .prms} {b : Ex .sts} (ih1 : Fits ps) (ih2 : Fits b) : Fits (.def_ s x ps b : Ex .ex) := by
  intro L w last nx hw hF hi hk hs hp hwf ha
  simp only [gwf, Bool.and_eq_true] at hwf
  obtain ⟨⟨⟨⟨h1, h2⟩, h3⟩, h4⟩, h5⟩ := hwf
  simp only [gtoks]
  cases s
  · chk
  · refine ⟨by onet, .self_, .easy (by decide +kernel) rfl (soft_want _), by chk⟩

theorem fits_defE {s : Bool} {x : Str} {ps : Ex .prms} {e : Ex .ex} (ih1 : Fits ps) (ih2 : Fits e) : Fits (.defE s x ps e : Ex .ex) := by
  intro L w last nx hw hF hi hk hs hp hwf ha
  simp only [gwf, Bool.and_eq_true] at hwf
  obtain ⟨⟨⟨⟨⟨h1, h2⟩, h3⟩, h4⟩, h5⟩, h6⟩ := hwf
  have ha := ha rfl
  simp only [gafter, Bool.and_eq_true] at ha
  obtain ⟨ha1, ha⟩ := ha
  simp only [gtoks]
  cases s
  · chk
  · refine ⟨by onet, .self_, .easy (by decide +kernel) rfl (soft_want _), by chk⟩

theorem fits_sclass {e : Ex .ex} {b : Ex .sts} (ih1 : Fits e) (ih2 : Fits b) : Fits (.sclass e b : Ex .ex) := by
  intro L w last nx hw hF hi hk hs hp hwf ha
  simp only [gwf, Bool.and_eq_true] at hwf
  obtain ⟨⟨⟨⟨⟨⟨h1, h2⟩, h3⟩, h4⟩, h5⟩, h6⟩, h7⟩ := hwf
  simp only [gtoks]
  chk

theorem fits_postexe {b : Ex .sts} (ih1 : Fits b) : Fits (.postexe b : Ex .ex) := by
  intro L w last nx hw hF hi hk hs hp hwf ha
  simp only [gwf, Bool.and_eq_true] at hwf
  obtain ⟨⟨h1, h2⟩, h3⟩ := hwf
  simp only [gtoks]
  chk

theorem fits_class_ {x : Str} {sup : Option Str} {b : Ex .sts} (ih1 : Fits b) : Fits (.class_ x sup b : Ex .ex) := by
  intro L w last nx hw hF hi hk hs hp hwf ha
  simp only [gwf, Bool.and_eq_true] at hwf
  obtain ⟨h1, h2⟩ := hwf
  cases sup
  all_goals
    simp only [gtoks]
    chk

theorem fits_module_ {x : Str} {b : Ex .sts} (ih1 : Fits b) : Fits (.module_ x b : Ex .ex) := by
  intro L w last nx hw hF hi hk hs hp hwf ha
  simp only [gwf, Bool.and_eq_true] at hwf
  obtain ⟨h1, h2⟩ := hwf
  simp only [gtoks]
  chk

theorem fits_ret0 : Fits (.ret0 : Ex .ex) := by
  intro L w last nx hw hF hi hk hs hp hwf ha
  simp only [gtoks]
  chk

theorem fits_ret {e : Ex .ex} (ih1 : Fits e) : Fits (.ret e : Ex .ex) := by
  intro L w last nx hw hF hi hk hs hp hwf ha
  simp only [gwf, Bool.and_eq_true] at hwf
  obtain ⟨⟨h1, h2⟩, h3⟩ := hwf
  have ha := ha rfl
  simp only [gafter, Bool.and_eq_true] at ha
  obtain ⟨⟨ha1, ha2⟩, ha⟩ := ha
  simp only [gtoks]
  chk

theorem fits_jump0 {j : Jump} : Fits (.jump0 j : Ex .ex) := by
  intro L w last nx hw hF hi hk hs hp hwf ha
  cases j
  all_goals
    simp only [gtoks]
    chk

theorem fits_jump {j : Jump} {e : Ex .ex} (ih1 : Fits e) : Fits (.jump j e : Ex .ex) := by
  intro L w last nx hw hF hi hk hs hp hwf ha
  simp only [gwf, Bool.and_eq_true] at hwf
  obtain ⟨⟨h1, h2⟩, h3⟩ := hwf
  have ha := ha rfl
  simp only [gafter, Bool.and_eq_true] at ha
  obtain ⟨ha1, ha⟩ := ha
  cases j
  all_goals
    simp only [gtoks]
    chk

theorem fits_snil : Fits (.snil : Ex .sts) := by
  intro L w last nx hw hF hi hk hs hp hwf ha
  simp only [gtoks]
  chk

theorem fits_slast {e : Ex .ex} (ih1 : Fits e) : Fits (.slast e : Ex .sts) := by
  intro L w last nx hw hF hi hk hs hp hwf ha
  simp only [gwf] at hwf
  have ha := ha rfl
  simp only [gafter] at ha
  simp only [gtoks]
  chk

theorem fits_scons {e : Ex .ex} {ss : Ex .sts} (ih1 : Fits e) (ih2 : Fits ss) : Fits (.scons e ss : Ex .sts) := by
  intro L w last nx hw hF hi hk hs hp hwf ha
  simp only [gwf, Bool.and_eq_true] at hwf
  obtain ⟨⟨h1, h2⟩, h3⟩ := hwf
  have ha := ha rfl
  simp only [gafter, Bool.and_eq_true] at ha
  obtain ⟨ha1, ha⟩ := ha
  simp only [gtoks]
  chk

theorem fits_anil : Fits (.anil : Ex .args) := by
  intro L w last nx hw hF hi hk hs hp hwf ha
  simp only [gtoks]
  chk

theorem fits_acons {e : Ex .ex} {a : Ex .args} (ih1 : Fits e) (ih2 : Fits a) : Fits (.acons e a : Ex .args) := by
  intro L w last nx hw hF hi hk hs hp hwf ha
  simp only [gwf, Bool.and_eq_true] at hwf
  obtain ⟨⟨⟨h1, h2⟩, h3⟩, h4⟩ := hwf
  simp only [gtoks]
  have ha := ha rfl
  simp only [gafter] at ha
  unfold sep
  cases hn : a.isNil
  · simp only [hn, Bool.false_eq_true, if_false, Bool.and_eq_true] at ha h4 ⊢
    obtain ⟨ha1, ha⟩ := ha
    chk
  · simp only [hn, if_true, List.append_nil] at ha ⊢
    chk

theorem fits_asplat {e : Ex .ex} {a : Ex .args} (ih1 : Fits e) (ih2 : Fits a) : Fits (.asplat e a : Ex .args) := by
  intro L w last nx hw hF hi hk hs hp hwf ha
  simp only [gwf, Bool.and_eq_true] at hwf
  obtain ⟨⟨⟨h1, h2⟩, h3⟩, h4⟩ := hwf
  simp only [gtoks]
  have ha := ha rfl
  simp only [gafter] at ha
  unfold sep
  cases hn : a.isNil
  · simp only [hn, Bool.false_eq_true, if_false, Bool.and_eq_true] at ha h4 ⊢
    obtain ⟨ha1, ha⟩ := ha
    chk
  · simp only [hn, if_true, List.append_nil] at ha ⊢
    chk

theorem fits_apairs {ps : Ex .pairs} {a : Ex .args} (ih1 : Fits ps) (ih2 : Fits a) : Fits (.apairs ps a : Ex .args) := by
  intro L w last nx hw hF hi hk hs hp hwf ha
  simp only [gwf, Bool.and_eq_true] at hwf
  obtain ⟨⟨⟨⟨h1, h2⟩, h3⟩, h4⟩, h5⟩ := hwf
  have hk1 := hk (.inl rfl)
  simp only [gtoks]
  have ha := ha rfl
  simp only [gafter] at ha
  unfold sep
  cases hn : a.isNil
  · simp only [hn, Bool.false_eq_true, if_false, Bool.and_eq_true] at ha h4 ⊢
    obtain ⟨ha1, ha⟩ := ha
    chk
  · simp only [hn, if_true, List.append_nil] at ha ⊢
    chk

theorem fits_ablk {e : Ex .ex} (ih1 : Fits e) : Fits (.ablk e : Ex .args) := by
  intro L w last nx hw hF hi hk hs hp hwf ha
  simp only [gwf] at hwf
  have ha := ha rfl
  simp only [gafter, Bool.and_eq_true] at ha
  obtain ⟨ha1, ha⟩ := ha
  simp only [gtoks]
  chk

theorem fits_pnil : Fits (.pnil : Ex .pairs) := by
  intro L w last nx hw hF hi hk hs hp hwf ha
  simp only [gtoks]
  chk

theorem fits_pcons {k : Ex .ex} {v : Ex .ex} {ps : Ex .pairs} (ih1 : Fits k) (ih2 : Fits v) (ih3 : Fits ps) : Fits (.pcons k v ps : Ex .pairs) := by
  intro L w last nx hw hF hi hk hs hp hwf ha
  simp only [gwf, Bool.and_eq_true] at hwf
  obtain ⟨⟨⟨⟨⟨⟨h1, h2⟩, h3⟩, h4⟩, h5⟩, h6⟩, h7⟩ := hwf
  simp only [gtoks]
  have ha := ha rfl
  simp only [gafter] at ha
  unfold sep
  cases hn : ps.isNil
  · simp only [hn, Bool.false_eq_true, if_false, Bool.and_eq_true] at ha h7 ⊢
    obtain ⟨ha1, ha⟩ := ha
    chk
  · simp only [hn, if_true, List.append_nil] at ha ⊢
    chk

theorem fits_pkey {x : Str} {v : Ex .ex} {ps : Ex .pairs} (ih1 : Fits v) (ih2 : Fits ps) : Fits (.pkey x v ps : Ex .pairs) := by
  intro L w last nx hw hF hi hk hs hp hwf ha
  simp only [gwf, Bool.and_eq_true] at hwf
  obtain ⟨⟨⟨h1, h2⟩, h3⟩, h4⟩ := hwf
  have hk1 := hk (.inr (.inl rfl)) rfl
  simp only [gtoks]
  have ha := ha rfl
  simp only [gafter] at ha
  unfold sep
  cases hn : ps.isNil
  · simp only [hn, Bool.false_eq_true, if_false, Bool.and_eq_true] at ha h4 ⊢
    obtain ⟨ha1, ha⟩ := ha
    chk
  · simp only [hn, if_true, List.append_nil] at ha ⊢
    chk

theorem fits_psplat {e : Ex .ex} {ps : Ex .pairs} (ih1 : Fits e) (ih2 : Fits ps) : Fits (.psplat e ps : Ex .pairs) := by
  intro L w last nx hw hF hi hk hs hp hwf ha
  simp only [gwf, Bool.and_eq_true] at hwf
  obtain ⟨⟨⟨h1, h2⟩, h3⟩, h4⟩ := hwf
  simp only [gtoks]
  have ha := ha rfl
  simp only [gafter] at ha
  unfold sep
  cases hn : ps.isNil
  · simp only [hn, Bool.false_eq_true, if_false, Bool.and_eq_true] at ha h4 ⊢
    obtain ⟨ha1, ha⟩ := ha
    chk
  · simp only [hn, if_true, List.append_nil] at ha ⊢
    chk

theorem fits_enil : Fits (.enil : Ex .els) := by
  intro L w last nx hw hF hi hk hs hp hwf ha
  simp only [gtoks]
  chk

theorem fits_els {ss : Ex .sts} (ih1 : Fits ss) : Fits (.els ss : Ex .els) := by
  intro L w last nx hw hF hi hk hs hp hwf ha
  simp only [gwf] at hwf
  have ha := ha rfl
  simp only [gafter] at ha
  simp only [gtoks]
  chk

theorem fits_elsif {c : Ex .ex} {a : Ex .sts} {e : Ex .els} (ih1 : Fits c) (ih2 : Fits a) (ih3 : Fits e) : Fits (.elsif c a e : Ex .els) := by
  intro L w last nx hw hF hi hk hs hp hwf ha
  simp only [gwf, Bool.and_eq_true] at hwf
  obtain ⟨⟨⟨⟨h1, h2⟩, h3⟩, h4⟩, h5⟩ := hwf
  have ha := ha rfl
  simp only [gafter] at ha
  have hb : after a (nty (hd (toks none e) nx)) = true := by
    cases e
    · exact ha
    · assumption
    · assumption
  have hE : after e (nty nx) = true := by
    cases e
    · rfl
    · exact ha
    · exact ha
  simp only [gtoks]
  chk

theorem fits_tnil : Fits (.tnil : Ex .part) := by
  intro L w last nx hw hF hi hk hs hp hwf ha
  simp only [gtoks]
  chk

theorem fits_part {ss : Ex .sts} (ih1 : Fits ss) : Fits (.part ss : Ex .part) := by
  intro L w last nx hw hF hi hk hs hp hwf ha
  simp only [gwf] at hwf
  have ha := ha rfl
  simp only [gafter] at ha
  simp only [gtoks]
  chk

theorem fits_wnil : Fits (.wnil : Ex .whens) := by
  intro L w last nx hw hF hi hk hs hp hwf ha
  simp only [gtoks]
  chk

theorem fits_when_ {a : Ex .args} {b : Ex .sts} {ws : Ex .whens} (ih1 : Fits a) (ih2 : Fits b) (ih3 : Fits ws) : Fits (.when_ a b ws : Ex .whens) := by
  intro L w last nx hw hF hi hk hs hp hwf ha
  simp only [gwf, Bool.and_eq_true] at hwf
  obtain ⟨⟨⟨⟨⟨⟨⟨h1, h2⟩, h3⟩, h4⟩, h5⟩, h6⟩, h7⟩, h8⟩ := hwf
  have hk1 := simple_keyed h2
  have hb := closed_after b rfl h6 h5 (nty (hd (toks none ws) nx))
  simp only [gtoks]
  chk

theorem fits_in_ {p : Top} {b : Ex .sts} {ws : Ex .whens} (ih1 : Fits b) (ih2 : Fits ws) : Fits (.in_ p b ws : Ex .whens) := by
  intro L w last nx hw hF hi hk hs hp hwf ha
  simp only [gwf, Bool.and_eq_true] at hwf
  obtain ⟨⟨⟨⟨h1, h2⟩, h3⟩, h4⟩, h5⟩ := hwf
  have hb := closed_after b rfl h3 h2 (nty (hd (toks none ws) nx))
  simp only [gtoks]
  have ht : Tame (some (fix (cs! "then") .ThenKeyword)) := .fix _ nofun
  exact ⟨.easy (by decide +kernel) hi (soft_append (p.tame ht).soft),
    Chk.append (p.fits nofun rfl ht) ⟨.easy (by decide +kernel) (p.idle rfl) (by sft), by chk⟩⟩

theorem fits_rnil : Fits (.rnil : Ex .rescues) := by
  intro L w last nx hw hF hi hk hs hp hwf ha
  simp only [gtoks]
  chk

theorem fits_resc {a : Ex .args} {v : Option Var} {b : Ex .sts} {rs : Ex .rescues} (ih1 : Fits a) (ih2 : Fits b) (ih3 : Fits rs) : Fits (.resc a v b rs : Ex .rescues) := by
  intro L w last nx hw hF hi hk hs hp hwf ha
  cases v
  all_goals
    simp only [gwf, Bool.and_eq_true] at hwf
    obtain ⟨⟨⟨⟨⟨h1, h2⟩, h3⟩, h4⟩, h5⟩, h6⟩ := hwf
    have hk1 := simple_keyed h2
    have hb := closed_after b rfl h5 h4 (nty (hd (toks none rs) nx))
    simp only [gtoks]
    chk

theorem fits_bnil : Fits (.bnil : Ex .blk) := by
  intro L w last nx hw hF hi hk hs hp hwf ha
  simp only [gtoks]
  chk

theorem fits_bdo {ps : Ex .prms} {b : Ex .sts} (ih1 : Fits ps) (ih2 : Fits b) : Fits (.bdo ps b : Ex .blk) := by
  intro L w last nx hw hF hi hk hs hp hwf ha
  simp only [gwf, Bool.and_eq_true] at hwf
  obtain ⟨⟨⟨⟨h1, h2⟩, h3⟩, h4⟩, h5⟩ := hwf
  simp only [gtoks]
  chk

theorem fits_qnil : Fits (.qnil : Ex .prms) := by
  intro L w last nx hw hF hi hk hs hp hwf ha
  simp only [gtoks]
  chk

theorem chk_sep {ps : Ex .prms} (h : Fits ps) {L : List Str} {last : Ttype} {nx : Option Want} (hi : idle last = true) (hs : Soft nx)
    (hp : Spacey nx) (hw : WF L ps = true) (ha : ps.isNil = false → after ps (nty nx) = true) : Chk last (sep ps (toks none ps)) nx := by
  unfold sep
  cases hn : ps.isNil
  · refine ⟨.easy (by decide +kernel) hi (soft_toks ps hs), ?_⟩
    exact h none_ne (fun _ => nofun) rfl (fun _ _ => rfl) hs (fun _ => hp) hw fun _ => ha hn
  · trivial

theorem sep_after {e : Ex .ex} {ps : Ex .prms} {nx : Option Want}
    (ha : (if ps.isNil = true then after e (nty nx) else after e .Comma && after ps (nty nx)) = true) :
    after e (nty (hd (sep ps (toks none ps)) nx)) = true ∧ (ps.isNil = false → after ps (nty nx) = true) := by
  unfold sep
  cases hn : ps.isNil
  · simp only [hn, Bool.false_eq_true, if_false, Bool.and_eq_true] at ha
    exact ⟨ha.1, fun _ => ha.2⟩
  · simp only [hn, if_true] at ha
    exact ⟨ha, nofun⟩

theorem fits_qname {x : Str} {ps : Ex .prms} (ih1 : Fits ps) : Fits (.qname x ps : Ex .prms) := by
  intro L w last nx hw hF hi hk hs hp hwf ha
  simp only [gwf] at hwf
  have ha := ha rfl
  simp only [gafter] at ha
  simp only [gtoks]
  exact ⟨.name (hF rfl) (soft_sep hs), chk_sep ih1 rfl hs (hp rfl) hwf fun _ => ha⟩

theorem fits_qkey {x : Str} {ps : Ex .prms} (ih1 : Fits ps) : Fits (.qkey x ps : Ex .prms) := by
  intro L w last nx hw hF hi hk hs hp hwf ha
  simp only [gwf] at hwf
  have ha := ha rfl
  simp only [gafter] at ha
  simp only [gtoks]
  exact ⟨.key (hk (.inr (.inr rfl)) rfl) (spacey_sep (hp rfl)), chk_sep ih1 rfl hs (hp rfl) hwf fun _ => ha⟩

theorem fits_qsplat {o : Option Str} {ps : Ex .prms} (ih1 : Fits ps) : Fits (.qsplat o ps : Ex .prms) := by
  intro L w last nx hw hF hi hk hs hp hwf ha
  simp only [gwf] at hwf
  have ha := ha rfl
  simp only [gafter] at ha
  simp only [gtoks]
  exact ⟨.easy (by decide +kernel) hi (soft_append (soft_name? o (soft_sep hs))), Chk.append (chk_name? o nofun (soft_sep hs)) (chk_sep ih1 (lst_name? o rfl) hs (hp rfl) hwf fun _ => ha)⟩

theorem fits_qkws {o : Option Str} {ps : Ex .prms} (ih1 : Fits ps) : Fits (.qkws o ps : Ex .prms) := by
  intro L w last nx hw hF hi hk hs hp hwf ha
  simp only [gwf] at hwf
  have ha := ha rfl
  simp only [gafter] at ha
  simp only [gtoks]
  exact ⟨.easy (by decide +kernel) hi (soft_append (soft_name? o (soft_sep hs))), Chk.append (chk_name? o nofun (soft_sep hs)) (chk_sep ih1 (lst_name? o rfl) hs (hp rfl) hwf fun _ => ha)⟩

theorem fits_qdef {x : Str} {e : Ex .ex} {ps : Ex .prms} (ih1 : Fits e) (ih2 : Fits ps) : Fits (.qdef x e ps : Ex .prms) := by
  intro L w last nx hw hF hi hk hs hp hwf ha
  simp only [gwf, Bool.and_eq_true] at hwf
  obtain ⟨⟨⟨h1, h2⟩, h3⟩, h4⟩ := hwf
  have ha := ha rfl
  simp only [gafter] at ha
  obtain ⟨ha1, ha2⟩ := sep_after ha
  simp only [gtoks]
  exact ⟨.name (hF rfl) (soft_fix _ _), by onet, Chk.append (by chk) (chk_sep ih2 (lst_idle e rfl) hs (hp rfl) h2 ha2)⟩

theorem fits_qkeyd {x : Str} {e : Ex .ex} {ps : Ex .prms} (ih1 : Fits e) (ih2 : Fits ps) : Fits (.qkeyd x e ps : Ex .prms) := by
  intro L w last nx hw hF hi hk hs hp hwf ha
  simp only [gwf, Bool.and_eq_true] at hwf
  obtain ⟨⟨⟨⟨h1, h2⟩, h3⟩, h4⟩, h5⟩ := hwf
  have ha := ha rfl
  simp only [gafter] at ha
  obtain ⟨ha1, ha2⟩ := sep_after ha
  have hk1 := hk (.inr (.inr rfl)) rfl
  simp only [gtoks]
  exact ⟨by onet, Chk.append (by chk) (chk_sep ih2 (lst_idle e rfl) hs (hp rfl) h2 ha2)⟩

theorem fits_qtup {qs : Ex .prms} {ps : Ex .prms} (ih1 : Fits qs) (ih2 : Fits ps) : Fits (.qtup qs ps : Ex .prms) := by
  intro L w last nx hw hF hi hk hs hp hwf ha
  simp only [gwf, Bool.and_eq_true] at hwf
  obtain ⟨⟨⟨⟨h1, h2⟩, h3⟩, h4⟩, h5⟩ := hwf
  have ha := ha rfl
  simp only [gafter] at ha
  have hq := tuple_after rfl h3 .RParen
  simp only [gtoks]
  exact ⟨by onet, Chk.append (by chk) ⟨by onet, chk_sep ih2 rfl hs (hp rfl) h5 fun _ => ha⟩⟩

theorem fits_qblk {x : Str} : Fits (.qblk x : Ex .prms) := by
  intro L w last nx hw hF hi hk hs hp hwf ha
  simp only [gtoks]
  chk

theorem fits {k : Kind} (e : Ex k) : Fits e := by
  induction e with
  | int _ => exact fits_int
  | str _ => exact fits_str
  | sym _ => exact fits_sym
  | word _ => exact fits_word
  | var _ => exact fits_var
  | array _ ih1 => exact fits_array ih1
  | hash _ ih1 => exact fits_hash ih1
  | fcall _ _ ih1 => exact fits_fcall ih1
  | send _ _ _ ih1 => exact fits_send ih1
  | sendA _ _ _ _ ih1 ih2 => exact fits_sendA ih1 ih2
  | cmd _ _ _ ih1 ih2 => exact fits_cmd ih1 ih2
  | sendC _ _ _ _ _ ih1 ih2 ih3 => exact fits_sendC ih1 ih2 ih3
  | index _ _ ih1 ih2 => exact fits_index ih1 ih2
  | colon2 _ _ ih1 => exact fits_colon2 ih1
  | colon3 _ => exact fits_colon3
  | super0 => exact fits_super0
  | superA _ ih1 => exact fits_superA ih1
  | yield0 => exact fits_yield0
  | yieldA _ ih1 => exact fits_yieldA ih1
  | paren _ ih1 => exact fits_paren ih1
  | block _ _ _ _ ih1 ih2 ih3 => exact fits_block ih1 ih2 ih3
  | lam _ _ _ ih1 ih2 => exact fits_lam ih1 ih2
  | un _ _ ih1 => exact fits_un ih1
  | notE _ ih1 => exact fits_notE ih1
  | bin _ _ _ ih1 ih2 => exact fits_bin ih1 ih2
  | tern _ _ _ ih1 ih2 ih3 => exact fits_tern ih1 ih2 ih3
  | asgn _ _ ih1 => exact fits_asgn ih1
  | opasgn _ _ _ ih1 => exact fits_opasgn ih1
  | attr _ _ _ _ ih1 ih2 => exact fits_attr ih1 ih2
  | opattr _ _ _ _ _ ih1 ih2 => exact fits_opattr ih1 ih2
  | setIndex _ _ _ ih1 ih2 ih3 => exact fits_setIndex ih1 ih2 ih3
  | opindex _ _ _ _ ih1 ih2 ih3 => exact fits_opindex ih1 ih2 ih3
  | masgn _ _ _ _ ih1 => exact fits_masgn ih1
  | masgnL _ _ _ _ _ ih1 ih2 => exact fits_masgnL ih1 ih2
  | modi _ _ _ ih1 ih2 => exact fits_modi ih1 ih2
  | rescueM _ _ ih1 ih2 => exact fits_rescueM ih1 ih2
  | if_ _ _ _ ih1 ih2 ih3 => exact fits_if_ ih1 ih2 ih3
  | unless_ _ _ _ ih1 ih2 ih3 => exact fits_unless_ ih1 ih2 ih3
  | while_ _ _ _ ih1 ih2 => exact fits_while_ ih1 ih2
  | for_ _ _ _ ih1 ih2 => exact fits_for_ ih1 ih2
  | case_ _ _ _ ih1 ih2 ih3 => exact fits_case_ ih1 ih2 ih3
  | case0 _ _ ih1 ih2 => exact fits_case0 ih1 ih2
  | begin_ _ _ _ _ ih1 ih2 ih3 ih4 => exact fits_begin_ ih1 ih2 ih3 ih4
  | def_ _ _ _ _ ih1 ih2 => exact fits_def_ ih1 ih2
  | defE _ _ _ _ ih1 ih2 => exact fits_defE ih1 ih2
  | sclass _ _ ih1 ih2 => exact fits_sclass ih1 ih2
  | postexe _ ih1 => exact fits_postexe ih1
  | class_ _ _ _ ih1 => exact fits_class_ ih1
  | module_ _ _ ih1 => exact fits_module_ ih1
  | ret0 => exact fits_ret0
  | ret _ ih1 => exact fits_ret ih1
  | jump0 _ => exact fits_jump0
  | jump _ _ ih1 => exact fits_jump ih1
  | snil => exact fits_snil
  | slast _ ih1 => exact fits_slast ih1
  | scons _ _ ih1 ih2 => exact fits_scons ih1 ih2
  | anil => exact fits_anil
  | acons _ _ ih1 ih2 => exact fits_acons ih1 ih2
  | asplat _ _ ih1 ih2 => exact fits_asplat ih1 ih2
  | apairs _ _ ih1 ih2 => exact fits_apairs ih1 ih2
  | ablk _ ih1 => exact fits_ablk ih1
  | pnil => exact fits_pnil
  | pcons _ _ _ ih1 ih2 ih3 => exact fits_pcons ih1 ih2 ih3
  | pkey _ _ _ ih1 ih2 => exact fits_pkey ih1 ih2
  | psplat _ _ ih1 ih2 => exact fits_psplat ih1 ih2
  | enil => exact fits_enil
  | els _ ih1 => exact fits_els ih1
  | elsif _ _ _ ih1 ih2 ih3 => exact fits_elsif ih1 ih2 ih3
  | tnil => exact fits_tnil
  | part _ ih1 => exact fits_part ih1
  | wnil => exact fits_wnil
  | when_ _ _ _ ih1 ih2 ih3 => exact fits_when_ ih1 ih2 ih3
  | in_ _ _ _ ih1 ih2 => exact fits_in_ ih1 ih2
  | rnil => exact fits_rnil
  | resc _ _ _ _ ih1 ih2 ih3 => exact fits_resc ih1 ih2 ih3
  | bnil => exact fits_bnil
  | bdo _ _ ih1 ih2 => exact fits_bdo ih1 ih2
  | qnil => exact fits_qnil
  | qname _ _ ih1 => exact fits_qname ih1
  | qdef _ _ _ ih1 ih2 => exact fits_qdef ih1 ih2
  | qtup _ _ ih1 ih2 => exact fits_qtup ih1 ih2
  | qsplat _ _ ih1 => exact fits_qsplat ih1
  | qkey _ _ ih1 => exact fits_qkey ih1
  | qkeyd _ _ _ ih1 ih2 => exact fits_qkeyd ih1 ih2
  | qkws _ _ ih1 => exact fits_qkws ih1
  | qblk _ => exact fits_qblk

/-- The tokens of a program, with blanks wherever they are allowed, are between their neighbours. -/
theorem spaced_fit {ss : Ex .sts} (h : Program ss) (hl : ∀ w ∈ toks none ss, Legal w.p) : Fit 0 .Invalid (spaced ss) [] :=
  (fits ss (last := .Invalid) none_ne (fun _ => nofun) rfl nofun soft_none nofun h.1 (fun _ => h.2)).fit hl

end NP.Gram
