import Verif.Proofs.Gram.Prim

/-! S-expressions of nodes from the S-expressions of their parts. -/

namespace NP.Gram
open Spec

/-- The S-expression of a node. -/
structure Nsx (n : Node) (x : Sexp) : Prop where
  nn : n.isNil = false
  tr : tr false n = some ⟨x, none⟩

/-- The S-expressions of nodes. -/
def Lsx (ns : List Node) (xs : List Sexp) : Prop := ∃ rs, trList false ns = some rs ∧ apps ns rs = xs

theorem Nsx.app {n : Node} {x : Sexp} (h : Nsx n x) : appOf n ⟨x, none⟩ = x := by
  unfold appOf
  rw [h.nn]
  rfl

theorem plain_nil {n : Node} (h : plain n = true) : n.isNil = false := by
  cases n <;> first | rfl | cases h

theorem Good.nsx {L : List Str} {e : Ex .ex} {n : Node} (h : Good L e n) : ∃ x, sx L e = [x] ∧ Nsx n x := by
  obtain ⟨x, h1, h2⟩ := h.tr
  exact ⟨x, h1, plain_nil h.plain, h2⟩

theorem Good.of {L : List Str} {e : Ex .ex} {n : Node} {x : Sexp} (h : sx L e = [x]) (h' : Nsx n x) (hp : Gram.plain n = true)
    (hs : shapeOf n = Gram.shape e) : Good L e n := ⟨⟨x, h, h'.tr⟩, hp, hs⟩

theorem Lsx.nil : Lsx [] [] := ⟨[], by simp only [trList], rfl⟩

theorem Lsx.cons {n : Node} {x : Sexp} {ns : List Node} {xs : List Sexp} (h : Nsx n x) (h' : Lsx ns xs) :
    Lsx (n :: ns) (x :: xs) := by
  obtain ⟨rs, h1, h2⟩ := h'
  refine ⟨⟨x, none⟩ :: rs, by simp only [trList, h.tr, h1, Option.bind_eq_bind, Option.bind_some], ?_⟩
  show appOf n _ :: apps ns rs = _
  rw [h.app, h2]

theorem Lsx.one {n : Node} {x : Sexp} (h : Nsx n x) : Lsx [n] [x] := .cons h .nil

theorem Lsx.append : ∀ {ns : List Node} {xs : List Sexp} {ms : List Node} {ys : List Sexp}, Lsx ns xs → Lsx ms ys →
    Lsx (ns ++ ms) (xs ++ ys)
  | [], xs, _, _, ⟨rs, h1, h2⟩, h' => by
    simp only [trList, Option.some.injEq] at h1
    subst h1
    subst h2
    exact h'
  | n :: ns, xs, _, _, ⟨rs, h1, h2⟩, ⟨qs, h3, h4⟩ => by
    simp only [trList, Option.bind_eq_bind, Option.bind_eq_some_iff] at h1
    obtain ⟨r, hr, rs', hrs, hh⟩ := h1
    cases hh
    obtain ⟨us, h5, h6⟩ := Lsx.append ⟨rs', hrs, rfl⟩ ⟨qs, h3, h4⟩
    refine ⟨r :: us, by simp only [trList, List.cons_append, hr, h5, Option.bind_eq_bind, Option.bind_some], ?_⟩
    rw [← h2]
    show appOf n r :: apps (ns ++ _) us = appOf n r :: apps ns rs' ++ _
    rw [h6]
    rfl

theorem trList_length : ∀ {ns : List Node} {rs : List TR}, trList false ns = some rs → rs.length = ns.length
  | [], _, h => by simp only [trList, Option.some.injEq] at h; subst h; rfl
  | n :: ns, rs, h => by
    simp only [trList, Option.bind_eq_bind, Option.bind_eq_some_iff] at h
    obtain ⟨r, -, rs', hrs, hh⟩ := h
    cases hh
    simp only [List.length_cons, trList_length hrs]

theorem apps_length : ∀ {ns : List Node} {rs : List TR}, rs.length = ns.length → (apps ns rs).length = ns.length
  | [], _, _ => by simp [apps]
  | _ :: _, [], h => by cases h
  | _ :: ns, _ :: rs, h => by simp only [apps, List.length_cons, apps_length (Nat.succ.inj h)]

/-- A body. -/
theorem bodySexp_eq {ns : List Node} {rs : List TR} (h : trList false ns = some rs) : bodySexp ns rs = bod (apps ns rs) := by
  have hl := trList_length h
  match ns, rs, hl with
  | [], [], _ => rfl
  | [_], [_], _ => rfl
  | _ :: _ :: _, _ :: _ :: _, _ => rfl

theorem Lsx.isEmpty {ns : List Node} {xs : List Sexp} (h : Lsx ns xs) : ns.isEmpty = xs.isEmpty := by
  obtain ⟨rs, h1, rfl⟩ := h
  have := apps_length (trList_length h1)
  cases ns <;> cases hx : apps _ rs <;> first | rfl | (rw [hx] at this; cases this)

theorem opt_eq (xs : List Sexp) : (if xs.isEmpty then Sexp.nil else bod xs) = opt xs := by cases xs <;> rfl
theorem some_eq (xs : List Sexp) : (if xs.isEmpty then [] else [bod xs]) = some? xs := by cases xs <;> rfl
theorem orElse_eq (y : Sexp) (xs : List Sexp) : (if xs.isEmpty then [y] else xs) = orElse y xs := by cases xs <;> rfl

/-- Compute an S-expression. -/
macro "trsim" "[" xs:Lean.Parser.Tactic.simpLemma,* "]" : tactic =>
  `(tactic| simp only [tr, trOpt, trBody, Option.bind_eq_bind, Option.bind_some, mk, Bool.false_eq_true, if_false, $xs,*])

section
variable {t : Token} {a b c : Node} {x y z : Sexp} {ns ms : List Node} {xs ys : List Sexp}

theorem Nsx.infixOp (h : Nsx a x) (h' : Nsx b y) (op : Str) :
    Nsx (.infixOp t a op b) (.node (cs! "call") [x, .sym op, y]) := ⟨rfl, by trsim [h.tr, h.app, h'.tr, h'.app]⟩

theorem Nsx.logicalAnd (h : Nsx a x) (h' : Nsx b y) : Nsx (.logicalAnd t a b) (.node (cs! "and") [x, y]) :=
  ⟨rfl, by trsim [h.tr, h.app, h'.tr, h'.app]⟩

theorem Nsx.logicalOr (h : Nsx a x) (h' : Nsx b y) : Nsx (.logicalOr t a b) (.node (cs! "or") [x, y]) :=
  ⟨rfl, by trsim [h.tr, h.app, h'.tr, h'.app]⟩

theorem Nsx.rangeInt (i j : Int) (u v : Token) (e : Bool) :
    Nsx (.range t (.fixnum u i) (.fixnum v j) e) (.node (cs! "lit") [.range i j e]) := ⟨rfl, by trsim []⟩

theorem Nsx.range (h : Nsx a x) (h' : Nsx b y) (e : Bool) (hs : (shapeOf a).isInt = false ∨ (shapeOf b).isInt = false) :
    Nsx (.range t a b e) (.node (if e then cs! "dot3" else cs! "dot2") [x, y]) := by
  refine ⟨rfl, ?_⟩
  trsim [h.tr, h'.tr]
  split
  · rcases hs with hs | hs <;> cases hs
  · rw [h.app, h'.app]

theorem Nsx.call (h : Nsx a x) (h' : Lsx ns xs) (m : Str) : Nsx (.call t a m ns) (.node (cs! "call") (x :: .sym m :: xs)) := by
  obtain ⟨rs, h1, h2⟩ := h'
  exact ⟨rfl, by trsim [h.tr, h.app, h1, h2]⟩

/-- A call without a receiver. -/
theorem Nsx.fcall (h' : Lsx ns xs) (u : Token) (m : Str) :
    Nsx (.call t (.nil u) m ns) (.node (cs! "call") (.nil :: .sym m :: xs)) := by
  obtain ⟨rs, h1, h2⟩ := h'
  exact ⟨rfl, by trsim [h1, h2, appOf, Node.isNil, if_true]⟩

theorem Nsx.safeCall (h : Nsx a x) (h' : Lsx ns xs) (m : Str) :
    Nsx (.safeCall t a m ns) (.node (cs! "safe_call") (x :: .sym m :: xs)) := by
  obtain ⟨rs, h1, h2⟩ := h'
  exact ⟨rfl, by trsim [h.tr, h.app, h1, h2]⟩

theorem Nsx.notMatch (h : Nsx a x) : Nsx (.notMatch t a) (.node (cs! "not") [x]) := ⟨rfl, by trsim [h.tr, h.app]⟩
theorem Nsx.not_ (h : Nsx a x) : Nsx (.not_ t a) (.node (cs! "call") [x, .sym (cs! "!")]) := ⟨rfl, by trsim [h.tr, h.app]⟩

theorem Nsx.unaryOp (h : Nsx a x) (op : Str) : Nsx (.unaryOp t op a) (.node (cs! "call") [x, .sym op]) :=
  ⟨rfl, by trsim [h.tr, h.app]⟩

theorem Nsx.array (h : Lsx ns xs) : Nsx (.array t ns) (.node (cs! "array") xs) := by
  obtain ⟨rs, h1, h2⟩ := h
  exact ⟨rfl, by trsim [h1, h2]⟩

theorem Nsx.hash (h : Lsx ns xs) (b : Bool) : Nsx (.hash t b ns) (.node (if b then cs! "bare_hash" else cs! "hash") xs) := by
  obtain ⟨rs, h1, h2⟩ := h
  exact ⟨rfl, by trsim [h1, h2]⟩

theorem Nsx.splat (h : Nsx a x) : Nsx (.splat t (some a)) (.node (cs! "splat") [x]) := ⟨rfl, by trsim [h.tr, h.app]⟩
theorem Nsx.keywordSplat (h : Nsx a x) : Nsx (.keywordSplat t a) (.node (cs! "kwsplat") [x]) := ⟨rfl, by trsim [h.tr, h.app]⟩
theorem Nsx.blockPass (h : Nsx a x) : Nsx (.blockPass t a) (.node (cs! "block_pass") [x]) := ⟨rfl, by trsim [h.tr, h.app]⟩
theorem Nsx.symbolKey (s : Str) : Nsx (.symbolKey t s) (.node (cs! "lit") [.sym s]) := ⟨rfl, by trsim []⟩
theorem Nsx.colon2 (h : Nsx a x) (s : Str) : Nsx (.colon2 t a s) (.node (cs! "colon2") [x, .sym s]) :=
  ⟨rfl, by trsim [h.tr, h.app]⟩

theorem Nsx.superA (h : Lsx ns xs) : Nsx (.super t true ns) (.node (cs! "super") xs) := by
  have he := h.isEmpty
  obtain ⟨rs, h1, h2⟩ := h
  refine ⟨rfl, ?_⟩
  trsim [h1, h2]
  cases ns with
  | nil =>
    cases xs with
    | nil => rfl
    | cons => cases he
  | cons n ns => rfl

theorem Nsx.yield (h : Lsx ns xs) : Nsx (.yield t ns) (.node (cs! "yield") xs) := by
  obtain ⟨rs, h1, h2⟩ := h
  exact ⟨rfl, by trsim [h1, h2]⟩

theorem Nsx.block (h : Lsx ns xs) : Nsx (.block t ns) (.node (cs! "block") xs) := by
  obtain ⟨rs, h1, h2⟩ := h
  exact ⟨rfl, by trsim [h1, h2]⟩

theorem Nsx.if_ (h : Nsx a x) (h' : Nsx b y) (h'' : Nsx c z) : Nsx (.if_ t a b c) (.node (cs! "if") [x, y, z]) :=
  ⟨rfl, by trsim [h.tr, h.app, h'.tr, h'.app, h''.tr, h''.app]⟩

/-- A node or nothing. -/
structure Osx (n : Node) (x : Sexp) : Prop where
  tr : ∃ r, NP.tr false n = some r ∧ appOf n r = x

theorem Nsx.osx (h : Nsx a x) : Osx a x := ⟨_, h.tr, h.app⟩
theorem Osx.nil : Osx (.nil t) .nil := ⟨_, by trsim []; rfl, rfl⟩

theorem Nsx.ifO (h : Nsx a x) (h' : Osx b y) (h'' : Osx c z) : Nsx (.if_ t a b c) (.node (cs! "if") [x, y, z]) := by
  obtain ⟨r, h1, h2⟩ := h'
  obtain ⟨r', h3, h4⟩ := h''
  exact ⟨rfl, by trsim [h.tr, h.app, h1, h2, h3, h4]⟩

theorem Nsx.while_ (h : Nsx a x) (h' : Lsx ns xs) : Nsx (.while_ t a ns true) (.node (cs! "while") [x, opt xs, .true_]) := by
  have he := h'.isEmpty
  obtain ⟨rs, h1, h2⟩ := h'
  refine ⟨rfl, ?_⟩
  trsim [h.tr, h.app, h1, bodySexp_eq h1, h2, he, if_true]
  rw [opt_eq]

theorem Nsx.until_ (h : Nsx a x) (h' : Lsx ns xs) : Nsx (.until_ t a ns true) (.node (cs! "until") [x, opt xs, .true_]) := by
  have he := h'.isEmpty
  obtain ⟨rs, h1, h2⟩ := h'
  refine ⟨rfl, ?_⟩
  trsim [h.tr, h.app, h1, bodySexp_eq h1, h2, he, if_true]
  rw [opt_eq]

theorem Nsx.for_ (h : Nsx a x) (hb : b.isNil = false) (h'' : NP.tr true b = some ⟨y, none⟩) (h' : Lsx ns xs) :
    Nsx (.for_ t a b ns) (.node (cs! "for") (x :: y :: some? xs)) := by
  have he := h'.isEmpty
  obtain ⟨rs, h1, h2⟩ := h'
  refine ⟨rfl, ?_⟩
  trsim [h.tr, h.app, h'', h1, bodySexp_eq h1, h2, he]
  rw [some_eq]
  unfold appOf
  rw [hb]
  rfl

theorem Nsx.caseWhen (h : Nsx a x) (h' : Lsx ns xs) : Nsx (.caseWhen t a ns) (.node (cs! "when") (x :: orElse .nil xs)) := by
  have he := h'.isEmpty
  obtain ⟨rs, h1, h2⟩ := h'
  refine ⟨rfl, ?_⟩
  trsim [h.tr, h.app, h1, bodyOrNil, h2, he]
  rw [orElse_eq]

theorem Nsx.case_ (h : Osx a x) (h' : Lsx ns xs) : Nsx (.case_ t a ns none) (.node (cs! "case") (x :: xs ++ [.nil])) := by
  obtain ⟨r, h3, h4⟩ := h
  obtain ⟨rs, h1, h2⟩ := h'
  exact ⟨rfl, by trsim [h3, h4, h1, h2]⟩

theorem Nsx.caseElse (h : Osx a x) (h' : Lsx ns xs) (h'' : Lsx ms ys) :
    Nsx (.case_ t a ns (some ms)) (.node (cs! "case") (x :: xs ++ [bod ys])) := by
  obtain ⟨r, h5, h6⟩ := h
  obtain ⟨rs, h1, h2⟩ := h'
  obtain ⟨qs, h3, h4⟩ := h''
  exact ⟨rfl, by trsim [h5, h6, h1, h2, h3, bodySexp_eq h3, h4]⟩

theorem Nsx.return_ (h : Nsx a x) : Nsx (.return_ t a) (.node (cs! "return") [x]) := ⟨rfl, by trsim [h.tr, h.nn]⟩
theorem Nsx.break_ (h : Nsx a x) : Nsx (.break_ t (some a)) (.node (cs! "break") [x]) := ⟨rfl, by trsim [h.tr, h.app]⟩
theorem Nsx.next (h : Nsx a x) : Nsx (.next t (some a)) (.node (cs! "next") [x]) := ⟨rfl, by trsim [h.tr, h.app]⟩

/-! ### Blocks and definitions -/

/-- The S-expression of a parameter; `b` tells that it may stand in parentheses. -/
def Q1 (b : Bool) (n : Node) (x : Sexp) : Prop :=
  ∃ r, NP.tr false n = some r ∧ methodArg n r = some x ∧ (b = true → ∀ ns rs, masgnArgs (n :: ns) (r :: rs) = x :: masgnArgs ns rs)

/-- The S-expressions of parameters. -/
def Qsx (b : Bool) (ns : List Node) (xs : List Sexp) : Prop :=
  ∃ rs, trList false ns = some rs ∧ methodArgs ns rs = some xs ∧ (b = true → masgnArgs ns rs = xs)

theorem Qsx.nil (b : Bool) : Qsx b [] [] := ⟨[], by simp only [trList], rfl, fun _ => rfl⟩

theorem Qsx.cons {b : Bool} {n : Node} {x : Sexp} {ns : List Node} {xs : List Sexp} (h : Q1 b n x) (h' : Qsx b ns xs) :
    Qsx b (n :: ns) (x :: xs) := by
  obtain ⟨r, h1, h2, h3⟩ := h
  obtain ⟨rs, h4, h5, h6⟩ := h'
  refine ⟨r :: rs, by simp only [trList, h1, h4, Option.bind_eq_bind, Option.bind_some], ?_, fun hb => by rw [h3 hb, h6 hb]⟩
  simp only [methodArgs, h2, h5, Option.bind_eq_bind, Option.bind_some]

theorem Qsx.weak {b : Bool} {ns : List Node} {xs : List Sexp} (h : Qsx b ns xs) : Qsx false ns xs := by
  obtain ⟨rs, h4, h5, -⟩ := h
  exact ⟨rs, h4, h5, nofun⟩

theorem Q1.arg (c : Bool) (t : Token) (o : Option Str) (b s k : Bool) : Q1 c (.arg t o b s k none) (argName o b s k) :=
  ⟨_, rfl, rfl, fun _ _ _ => rfl⟩

theorem Q1.value {n : Node} {y : Sexp} (h : Nsx n y) (t : Token) (x : Str) :
    Q1 false (.arg t (some x) false false false (some n)) (.node (cs! "lasgn") [.sym x, y]) :=
  ⟨_, by simp only [NP.tr, trOpt, h.tr, h.app, Option.bind_eq_bind, Option.bind_some, mk]; rfl, rfl, nofun⟩

theorem Q1.key (t : Token) (x : Str) : Q1 false (.keywordArg t x none) (.node (cs! "kwarg") [.sym x]) :=
  ⟨_, by simp only [NP.tr, trOpt, Option.bind_eq_bind, Option.bind_some, mk]; rfl, rfl, nofun⟩

theorem Q1.keyValue {n : Node} {y : Sexp} (h : Nsx n y) (t : Token) (x : Str) :
    Q1 false (.keywordArg t x (some n)) (.node (cs! "kwarg") [.sym x, y]) :=
  ⟨_, by simp only [NP.tr, trOpt, h.tr, h.app, Option.bind_eq_bind, Option.bind_some, mk]; rfl, rfl, nofun⟩

theorem Q1.tup {ns : List Node} {xs : List Sexp} (h : Qsx true ns xs) (b : Bool) (t : Token) :
    Q1 b (.multipleAssignmentArg t ns) (.node (cs! "masgn") xs) := by
  obtain ⟨rs, h1, -, h2⟩ := h
  exact ⟨_, by simp only [NP.tr, h1, h2 rfl, Option.bind_eq_bind, Option.bind_some, mk]; rfl, rfl, fun _ _ _ => rfl⟩

theorem Nsx.iter {b : Bool} {args : List Node} {ps : List Sexp} (h : Nsx a x) (ha : Qsx b args ps) (h' : Lsx ns xs) :
    Nsx (.iter t a (!ps.isEmpty) args ns) (.node (cs! "iter") (x :: params ps :: some? xs)) := by
  have he := h'.isEmpty
  obtain ⟨rs, h1, h2⟩ := h'
  obtain ⟨qs, h3, h4, -⟩ := ha
  refine ⟨rfl, ?_⟩
  cases ps with
  | nil =>
    trsim [h.tr, h.app, h1, bodySexp_eq h1, h2, he, h3, List.isEmpty_nil, Bool.not_true]
    rw [some_eq]
    rfl
  | cons p ps =>
    trsim [h.tr, h.app, h1, bodySexp_eq h1, h2, he, h3, h4, List.isEmpty_cons, Bool.not_false, if_true]
    rw [some_eq]
    rfl

/-- The head of a lambda. -/
theorem Nsx.stabby (u : Token) (b : Bool) (args : List Node) : Nsx (.stabbyProc u b args) (.node (cs! "lambda") []) :=
  ⟨rfl, by trsim []⟩

/-- The head of `END`. -/
theorem Nsx.endBlock (u : Token) : Nsx (.endBlock u) (.node (cs! "postexe") []) := ⟨rfl, by trsim []⟩

theorem Nsx.sclass (h : Nsx a x) (h' : Lsx ns xs) : Nsx (.sclass t a ns) (.node (cs! "sclass") (x :: xs)) := by
  obtain ⟨rs, h1, h2⟩ := h'
  exact ⟨rfl, by trsim [h.tr, h.app, h1, h2]⟩

theorem Nsx.defn {b : Bool} {args : List Node} {ps : List Sexp} (ha : Qsx b args ps) (h' : Lsx ns xs) (m : Str) :
    Nsx (.def_ t none m args ns)
      (.node (cs! "defn") (.sym m :: .node (cs! "args") ps :: orElse (.node (cs! "nil") []) xs)) := by
  have he := h'.isEmpty
  obtain ⟨rs, h1, h2⟩ := h'
  obtain ⟨qs, h3, h4, -⟩ := ha
  refine ⟨rfl, ?_⟩
  trsim [h1, h2, he, h3, h4, Option.isSome_none, List.nil_append]
  rw [nilSexp, orElse_eq]
  rfl

theorem Nsx.defs {b : Bool} {args : List Node} {ps : List Sexp} (ha : Qsx b args ps) (h' : Lsx ns xs) (m : Str) (u : Token) :
    Nsx (.def_ t (some (.self u)) m args ns) (.node (cs! "defs") (.node (cs! "self") [] :: .sym m ::
      .node (cs! "args") ps :: orElse (.node (cs! "nil") []) xs)) := by
  have he := h'.isEmpty
  obtain ⟨rs, h1, h2⟩ := h'
  obtain ⟨qs, h3, h4, -⟩ := ha
  refine ⟨rfl, ?_⟩
  trsim [h1, h2, he, h3, h4, Option.isSome_some, if_true, appOf, Node.isNil]
  rw [nilSexp, orElse_eq]
  rfl

theorem Nsx.class_ {u : Token} {m : Str} {l : Bool} (hu : u.type = .Constant) (hm : u.lit = some m) (h : Osx a x)
    (h' : Lsx ns xs) : Nsx (.class_ t (.identifier u l) a ns) (.node (cs! "class") (.sym m :: x :: xs)) := by
  obtain ⟨r, h3, h4⟩ := h
  obtain ⟨rs, h1, h2⟩ := h'
  exact ⟨rfl, by trsim [h1, h2, h3, h4, identSexp, hu, hm, nameSexp, Option.map_some]⟩

theorem Nsx.module_ {u : Token} {m : Str} {l : Bool} (hu : u.type = .Constant) (hm : u.lit = some m) (h' : Lsx ns xs) :
    Nsx (.module_ t (.identifier u l) ns) (.node (cs! "module") (.sym m :: xs)) := by
  obtain ⟨rs, h1, h2⟩ := h'
  exact ⟨rfl, by trsim [h1, h2, identSexp, hu, hm, nameSexp, Option.map_some]⟩

/-! ### Exceptions -/

theorem Nsx.resbody (h : Lsx ns xs) (h' : Lsx ms ys) :
    Nsx (.beginRescue t ns none ms) (.node (cs! "resbody") (exceptions xs none :: orElse .nil ys)) := by
  have he := h'.isEmpty
  obtain ⟨rs, h1, h2⟩ := h
  obtain ⟨qs, h3, h4⟩ := h'
  refine ⟨rfl, ?_⟩
  trsim [h1, h2, h3, h4, trName, bodyOrNil, he]
  rw [orElse_eq]
  rfl

/-- The target of an assignment. -/
structure Target (n : Node) (v : Var) : Prop where
  tgt : n.isTarget = true
  nn : n.isNil = false
  tr : NP.tr true n = some ⟨.node v.set [.sym v.name], none⟩

theorem VarTok.target {v : Var} (h : VarTok v t) (l : Bool) : Target (.identifier t l) v := by
  refine ⟨rfl, rfl, ?_⟩
  cases h with
  | loc h1 h2 | ivar h1 h2 | cvar h1 h2 | gvar h1 h2 | const h1 h2 =>
    trsim [identSexp, h1, h2, if_true]
    rfl

theorem Nsx.resbodyV {v : Var} (h : Lsx ns xs) (h' : Lsx ms ys) (ht : Target a v) :
    Nsx (.beginRescue t ns (some a) ms) (.node (cs! "resbody") (exceptions xs (some v) :: orElse .nil ys)) := by
  have he := h'.isEmpty
  obtain ⟨rs, h1, h2⟩ := h
  obtain ⟨qs, h3, h4⟩ := h'
  refine ⟨rfl, ?_⟩
  trsim [h1, h2, h3, h4, trName, bodyOrNil, he, ht.tr, assignTo, ht.tgt, if_true]
  rw [orElse_eq]
  rfl

/-! ### Assignments -/

theorem Nsx.assignment {v : Var} (ht : Target a v) (h : Nsx b y) :
    Nsx (.assignment t a b) (.node v.set [.sym v.name, y]) :=
  ⟨rfl, by trsim [ht.tr, h.tr, h.app, assignTo, ht.tgt, if_true, Sexp.push, List.cons_append, List.nil_append]⟩

theorem Nsx.attr (h : Nsx a x) (h' : Nsx b y) (h'' : Lsx ns xs) (m : Str) (u : Token) :
    Nsx (.assignment t (.call u a m ns) b) (.node (cs! "attrasgn") (x :: .sym (m ++ ['=']) :: (xs ++ [y]))) := by
  obtain ⟨rs, h1, h2⟩ := h''
  exact ⟨rfl, by trsim [h.tr, h.app, h'.tr, h'.app, h1, h2, assignTo, Node.isTarget, if_true, Sexp.push, List.cons_append]⟩

theorem Nsx.safeAttr (h : Nsx a x) (h' : Nsx b y) (m : Str) (u : Token) :
    Nsx (.assignment t (.safeCall u a m []) b) (.node (cs! "safe_attrasgn") [x, .sym (m ++ ['=']), y]) :=
  ⟨rfl, by trsim [h.tr, h.app, h'.tr, h'.app, trList, apps, assignTo, Node.isTarget, if_true, Sexp.push, List.cons_append,
    List.nil_append]⟩

theorem VarTok.setS {v : Var} (h : VarTok v t) (l : Bool) : identSexp true t l = some (.node v.set [.sym v.name]) := by
  cases h with
  | loc h1 h2 | ivar h1 h2 | cvar h1 h2 | gvar h1 h2 | const h1 h2 =>
    simp only [identSexp, h1, h2, if_true, Option.bind_eq_bind, Option.bind_some]
    rfl

theorem VarTok.getS {v : Var} (h : VarTok v t) : identSexp false t true = some (.node v.get [.sym v.name]) := by
  cases h with
  | loc h1 h2 | ivar h1 h2 | cvar h1 h2 | gvar h1 h2 | const h1 h2 =>
    simp only [identSexp, h1, h2, if_true, Option.bind_eq_bind, Option.bind_some]
    rfl

theorem app_ident (l : Bool) (r : TR) : appOf (.identifier t l) r = r.sx := rfl
theorem app_call (m : Str) (r : TR) : appOf (.call t a m ns) r = r.sx := rfl
theorem app_safe (m : Str) (r : TR) : appOf (.safeCall t a m ns) r = r.sx := rfl

theorem app_array (r : TR) : appOf (.array t ns) r = r.sx := rfl
theorem app_toArray (r : TR) : appOf (.toArray t a) r = r.sx := rfl

/-- The value of a variable that is one. -/
theorem VarTok.value {v : Var} (h : VarTok v t) : Nsx (.identifier t true) (.node v.get [.sym v.name]) := by
  refine ⟨rfl, ?_⟩
  cases h with
  | loc h1 h2 | ivar h1 h2 | cvar h1 h2 | gvar h1 h2 | const h1 h2 =>
    trsim [identSexp, h1, h2, if_true]
    rfl

theorem Nsx.opAssign {v : Var} {u : Token} (h : VarTok v u) (h' : Nsx b y) (op : Str) :
    Nsx (.opAssign t op (.identifier u true) b)
      (.node v.set [.sym v.name, .node (cs! "call") [.node v.get [.sym v.name], .sym op, y]]) :=
  ⟨rfl, by trsim [h.setS, h.getS, app_ident, h'.tr, h'.app, Sexp.push, List.cons_append, List.nil_append]⟩

theorem Nsx.opAssignAnd {v : Var} {u : Token} (h : VarTok v u) (h' : Nsx b y) :
    Nsx (.opAssignAnd t (.identifier u true) b)
      (.node (cs! "op_asgn_and") [.node v.get [.sym v.name], .node v.set [.sym v.name, y]]) :=
  ⟨rfl, by trsim [h.setS, h.getS, app_ident, h'.tr, h'.app, assignTo, Node.isTarget, if_true, Sexp.push,
    List.cons_append, List.nil_append]⟩

theorem Nsx.opAssignOr {v : Var} {u : Token} (h : VarTok v u) (h' : Nsx b y) :
    Nsx (.opAssignOr t (.identifier u true) b)
      (.node (cs! "op_asgn_or") [.node v.get [.sym v.name], .node v.set [.sym v.name, y]]) :=
  ⟨rfl, by trsim [h.setS, h.getS, app_ident, h'.tr, h'.app, assignTo, Node.isTarget, if_true, Sexp.push,
    List.cons_append, List.nil_append]⟩

/-- A call of a method without arguments. -/
def sendN (safe : Bool) (u : Token) (a : Node) (m : Str) : Node := if safe then .safeCall u a m [] else .call u a m []

theorem Nsx.send (h : Nsx a x) (safe : Bool) (m : Str) : Nsx (sendN safe t a m) (.node (Gram.call safe) [x, .sym m]) := by
  cases safe
  · exact h.call .nil m
  · exact h.safeCall .nil m

theorem Nsx.attrS (h : Nsx a x) (h' : Nsx b y) (safe : Bool) (m : Str) (u : Token) :
    Nsx (.assignment t (sendN safe u a m) b) (.node (attrasgn safe) [x, .sym (m ++ ['=']), y]) := by
  cases safe
  · exact h.attr h' .nil m u
  · exact h.safeAttr h' m u

theorem Nsx.attrAnd (h : Nsx a x) (h' : Nsx b y) (safe : Bool) (m : Str) (u : Token) :
    Nsx (.opAssignAnd t (sendN safe u a m) b)
      (.node (cs! "op_asgn_and") [.node (Gram.call safe) [x, .sym m], .node (attrasgn safe) [x, .sym (m ++ ['=']), y]]) := by
  refine ⟨rfl, ?_⟩
  cases safe <;>
  · unfold sendN
    trsim [h.tr, h.app, h'.tr, h'.app, trList, apps, assignTo, Node.isTarget, if_true, Sexp.push, app_call, app_safe,
      List.cons_append, List.nil_append]
    rfl

theorem Nsx.attrOr (h : Nsx a x) (h' : Nsx b y) (safe : Bool) (m : Str) (u : Token) :
    Nsx (.opAssignOr t (sendN safe u a m) b)
      (.node (cs! "op_asgn_or") [.node (Gram.call safe) [x, .sym m], .node (attrasgn safe) [x, .sym (m ++ ['=']), y]]) := by
  refine ⟨rfl, ?_⟩
  cases safe <;>
  · unfold sendN
    trsim [h.tr, h.app, h'.tr, h'.app, trList, apps, assignTo, Node.isTarget, if_true, Sexp.push, app_call, app_safe,
      List.cons_append, List.nil_append]
    rfl

theorem Nsx.opAttr (h : Nsx a x) (h' : Nsx b y) (op m : Str) (safe : Bool) (hm : m ≠ cs! "[]=") :
    Nsx (.opAssignAccessor t op a m b [] safe)
      (.node (if safe then cs! "safe_op_asgn2" else cs! "op_asgn2") [x, .sym m, .sym op, y]) :=
  ⟨rfl, by trsim [h.tr, h.app, h'.tr, h'.app, trList, if_neg hm, List.isEmpty_nil, if_true]⟩

theorem Nsx.opIndex (h : Nsx a x) (h' : Nsx b y) (h'' : Lsx ns xs) (hn : ns ≠ []) (op : Str) :
    Nsx (.opAssignAccessor t op a (cs! "[]=") b ns false)
      (.node (cs! "op_asgn1") [x, .node (cs! "arglist") xs, .sym op, y]) := by
  obtain ⟨rs, h1, h2⟩ := h''
  have : ns.isEmpty = false := by cases ns <;> first | rfl | exact absurd rfl hn
  exact ⟨rfl, by trsim [h.tr, h.app, h'.tr, h'.app, h1, h2, if_true, this]⟩

/-- Targets of an assignment. -/
theorem targets_sexps {us : List Node} {vs : List Var} (h : List.Forall₂ Target us vs) :
    ∃ rs, trList true us = some rs ∧ apps us rs = vs.map fun v => .node v.set [.sym v.name] := by
  induction h with
  | nil => exact ⟨[], by simp only [trList], rfl⟩
  | cons h _ ih =>
    obtain ⟨rs, h1, h2⟩ := ih
    refine ⟨⟨_, none⟩ :: rs, by simp only [trList, h.tr, h1, Option.bind_eq_bind, Option.bind_some]; rfl, ?_⟩
    show appOf _ _ :: apps _ rs = _
    rw [h2]
    unfold appOf
    rw [h.nn]
    rfl

theorem Nsx.masgn {us : List Node} {vs : List Var} {u v : Token} {k : Nat} (ht : List.Forall₂ Target us vs) (h : Nsx b y) :
    Nsx (.assignment t (.multipleAssignment u us k) (.toArray v b))
      (.node (cs! "masgn") [sets vs, .node (cs! "to_ary") [y]]) := by
  obtain ⟨rs, h1, h2⟩ := targets_sexps ht
  exact ⟨rfl, by trsim [h1, h2, h.tr, h.app, assignTo, Node.isTarget, if_true, Sexp.push, app_toArray, app_array,
    List.cons_append, List.nil_append, sets]⟩

theorem Nsx.masgnL {us : List Node} {vs : List Var} {u v : Token} {k : Nat} (ht : List.Forall₂ Target us vs) (h : Lsx ns xs) :
    Nsx (.assignment t (.multipleAssignment u us k) (.array v ns))
      (.node (cs! "masgn") [sets vs, .node (cs! "array") xs]) := by
  obtain ⟨rs, h1, h2⟩ := targets_sexps ht
  obtain ⟨qs, h3, h4⟩ := h
  exact ⟨rfl, by trsim [h1, h2, h3, h4, assignTo, Node.isTarget, if_true, Sexp.push, app_toArray, app_array,
    List.cons_append, List.nil_append, sets]⟩

/-! ### Bodies with `rescue` clauses -/

/-- The body of `else`. -/
def elseSexp (els : Option (List Node)) (es : List TR) : List Sexp :=
  match els with
  | some (e :: el) => [bodySexp (e :: el) es]
  | _ => []

/-- An optional body. -/
inductive Psx : Option (List Node) → Option (List Sexp) → Prop where
  | none : Psx none none
  | some {ns : List Node} {xs : List Sexp} : Lsx ns xs → Psx (some ns) (some xs)

theorem Nsx.begin_ {els ens : Option (List Node)} {el en : Option (List Sexp)} (hb : Lsx ns xs) (hr : Lsx ms ys)
    (he : Psx els el) (hn : Psx ens en) : ∃ x, rescued xs ys el en = [x] ∧ Nsx (.begin_ t ns ms els ens) x := by
  have hbe := hb.isEmpty
  have hre := hr.isEmpty
  obtain ⟨rs, h1, h2⟩ := hb
  obtain ⟨qs, h3, h4⟩ := hr
  have hels : ∃ es, trBody false els = some es ∧ elseSexp els es = some? (el.getD []) := by
    cases he with
    | none => exact ⟨[], by simp only [trBody], rfl⟩
    | some h =>
      have hee := h.isEmpty
      obtain ⟨us, h5, h6⟩ := h
      refine ⟨us, by simp only [trBody, h5], ?_⟩
      rename_i ks zs
      cases ks with
      | nil =>
        cases zs with
        | nil => rfl
        | cons => cases hee
      | cons k ks =>
        show [bodySexp (k :: ks) us] = some? zs
        rw [bodySexp_eq h5, h6]
        cases zs with
        | nil => cases hee
        | cons => rfl
  obtain ⟨es, h7, h8⟩ := hels
  cases hn with
  | none =>
    refine ⟨_, rfl, rfl, ?_⟩
    trsim [h1, h3, h4, h7, bodySexp_eq h1, h2, hbe, some_eq, ← h8]
    rfl
  | some h =>
    have hee := h.isEmpty
    obtain ⟨us, h5, h6⟩ := h
    have hlast : ∀ zs : List Sexp, (if zs.isEmpty then nilSexp else bod zs) = bod (orElse (.node (cs! "nil") []) zs) := by
      intro zs
      cases zs <;> rfl
    by_cases hre' : ys.isEmpty = true
    · refine ⟨_, by simp only [rescued, if_pos hre']; rfl, rfl, ?_⟩
      trsim [h1, h3, h4, h5, h7, bodySexp_eq h1, bodySexp_eq h5, h2, h6, hbe, some_eq, hre, if_pos hre', hee, hlast, ← h8]
      rfl
    · refine ⟨_, by simp only [rescued, if_neg hre']; rfl, rfl, ?_⟩
      trsim [h1, h3, h4, h5, h7, bodySexp_eq h1, bodySexp_eq h5, h2, h6, hbe, some_eq, hre, if_neg hre', hee, hlast, ← h8]
      rfl

end

end NP.Gram
