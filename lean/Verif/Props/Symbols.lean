import Verif.Props.Grammar
import Verif.Props.Quoted

/-!
C48: symbols. `SymbolText x post` (Verif/Spec/Layout.lean): in front of `post`, `x` is the whole name of a symbol. It leaves
out the texts behind a name for which the lexer departs from Ruby (`C48_false`).
-/

namespace NP
open Spec Gram

/-- C48: a colon with the name of a symbol directly behind it is one token with this name, at program level or in an
interpolation; the lexer goes on directly behind the name. `_partial`: `SymbolText` allows no `=`, `>` or `~` behind the
suffix of a name, and only `=>` behind a name without suffix. -/
theorem C48_partial (l : Lx) (ps : List Lx) (hk : l.kind = .base) (hst : l.stopChar = NUL ∨ l.stopChar = '}')
    (hsc : l.startChar ≠ ':') (pre x post : Str) (hr : l.rest = pre ++ (':' :: x ++ post)) (hb : Spec.Blank pre)
    (hx : SymbolText x post) (hl : l.lastType ≠ .InterpolatedStringEnd) :
    ∃ t l', t.key = (.Symbol, some x) ∧ Emits (l :: ps) [t] (setLast .Symbol (l' :: ps)) ∧
      Continues l l' (pre.length + (x.length + 1)) := by
  obtain ⟨h1, h2, h3, h4⟩ := base_start' l hk hst ':' hsc pre _ hr hb rfl (by decide)
  rw [symbol_dispatch l.start x post h2 hx (by simpa using hl)] at h1
  obtain ⟨l', e1, e2⟩ := one_emits l ps pre.length _ _ h3 h1 rfl
  exact ⟨_, l', rfl, e1, e2⟩

/-- C48 for the tree: a source that is one symbol is parsed to it. -/
theorem C48_tree (x : Str) (hx : SymbolText x []) (file : Str) :
    ∃ n s, Parses (':' :: x) file (.ok n s) ∧ n.toSexp = some (.node (cs! "lit") [.sym x]) := by
  have h := C41_partial (.slast (.sym x)) ⟨rfl, rfl⟩ [.tok ⟨[], .sym x⟩]
    ⟨[], _, rfl, nofun, .cons (es := []) ⟨.inl rfl, nofun⟩ nofun (.inl rfl) .nil⟩ [] ⟨⟨.nil, hx⟩, trivial⟩ .nil
    (by simp) file
  simpa [text, Part.text, Item.text, Piece.spell, prog, sx, bod, nd] using h

/-- Different names are different symbols. -/
theorem C48_injective (x y : Str) (hx : SymbolText x []) (hy : SymbolText y []) (file : Str) (n m : Node) (s s' : PS)
    (h : Parses (':' :: x) file (.ok n s)) (h' : Parses (':' :: y) file (.ok m s')) (he : n.toSexp = m.toSexp) : x = y := by
  obtain ⟨n1, s1, p1, e1⟩ := C48_tree x hx file
  obtain ⟨n2, s2, p2, e2⟩ := C48_tree y hy file
  obtain ⟨ts, hl, hr⟩ := h.ok
  obtain ⟨ts', hl', hr'⟩ := p1.ok
  cases hl.unique hl'
  rw [hr] at hr'
  cases hr'
  obtain ⟨us, hl, hr⟩ := h'.ok
  obtain ⟨us', hl', hr'⟩ := p2.ok
  cases hl.unique hl'
  rw [hr] at hr'
  cases hr'
  rw [e1, e2] at he
  simpa using he

/-- C48 is false of the code behind names: Ruby reads `:a==b` as `:a == b`, `:a=~b` as `:a =~ b`, `:a!=b` as `:a != b`,
`:a?>b` as `:a? > b` and `:!@` as `:!`. -/
theorem C48_false :
    (tokensFuel 40 (cs! ":a==b")).lits = [(.Symbol, some (cs! "a=")), (.Equal, none), (.BareName, some (cs! "b")), (.Eof, none)] ∧
    (tokensFuel 40 (cs! ":a=~b")).lits = [(.Symbol, some (cs! "a=")), (.Tilde, none), (.BareName, some (cs! "b")), (.Eof, none)] ∧
    (tokensFuel 40 (cs! ":a!=b")).lits = [(.Symbol, some (cs! "a!")), (.Equal, none), (.BareName, some (cs! "b")), (.Eof, none)] ∧
    (tokensFuel 40 (cs! ":a?>b")).types.take 1 = [.Symbol] ∧
    (tokensFuel 40 (cs! ":a?>b")).lits.take 1 = [(.Symbol, some (cs! "a"))] ∧
    (tokensFuel 40 (cs! ":!@")).lits = [(.Symbol, some (cs! "!@")), (.Eof, none)] := by decide +kernel

/-! ### Non-vacuity -/

example : SymbolText (cs! "[]=") (cs! ", 1)") ∧ SymbolText (cs! "empty?") (cs! ".to_proc") ∧ SymbolText (cs! "a") (cs! "=>1}") ∧
    SymbolText (cs! "@@x") (cs! "]") ∧ SymbolText (cs! "class") [] := by
  have hn : ∀ {s : Str}, s.all nameByte = true → ∀ b ∈ s, nameByte b = true := fun h => List.all_eq_true.1 h
  refine ⟨.op (cs := []) (by decide) nofun, ?_, ?_, ?_, ?_⟩
  · exact .suffixed (c := 'e') (d := '?') (n := cs! "mpty") (by decide) (hn (by decide)) (by decide) fun _ _ e => by cases e; decide
  · exact .name (by decide) nofun (fun _ _ e => by cases e; decide) fun _ _ e _ => by cases e; exact ⟨rfl, _, rfl⟩
  · exact .var (s := cs! "@@") (n := cs! "x") (by decide) (hn (by decide)) nofun fun _ _ e => by cases e; decide
  · exact .name (by decide) (hn (by decide)) nofun nofun

example : (tokensFuel 40 (cs! "{:a=>:b?}")).lits = [(.LCurlyBrace, none), (.Symbol, some (cs! "a")), (.HashRocket, none),
    (.Symbol, some (cs! "b?")), (.RCurlyBrace, none), (.Eof, none)] := by decide +kernel

end NP
