import Verif.Spec.Numbers
import Verif.Proofs.Cnt.Attr
import Verif.Model.Parser

/-!
How many numbers there are in a tree. Numbers are counted with weights: a weight that is one for a single token and zero for
all others counts how often this token occurs.
-/

namespace NP.Cnt

open Spec

set_option linter.unusedSimpArgs false


variable {w : Option Token → Nat}

/-- The weight of a token, if it is a number. -/
def tw (w : Option Token → Nat) (t : Token) : Nat := if isNumber t then w (some t) else 0
/-- The weight of the numbers passed so far. -/
def u (w : Option Token → Nat) (s : PS) : Nat := (s.prev.map (tw w)).sum
/-- The weight of the numbers in a tree. -/
def wt (w : Option Token → Nat) (n : Node) : Nat := ((nums n).map w).sum
def wts (w : Option Token → Nat) (ns : List Node) : Nat := ((numsL ns).map w).sum
def wto (w : Option Token → Nat) (o : Option Node) : Nat := ((numsO o).map w).sum
def wtb (w : Option Token → Nat) (o : Option (List Node)) : Nat := ((numsB o).map w).sum
/-- The weight of what precedes a block. -/
def wti (w : Option Token → Nat) : Node → Nat
  | .stabbyProc .. => 0
  | n => wt w n

local macro "cw" : tactic => `(tactic| simp [wt, wts, wto, wtb, nums, Nat.add_assoc])

/-- Values and their weight. -/
class Weigh (α : Type) where
  of : (Option Token → Nat) → α → Nat

instance : Weigh Node := ⟨wt⟩
instance : Weigh Token := ⟨fun _ _ => 0⟩
instance : Weigh Unit := ⟨fun _ _ => 0⟩
instance : Weigh PUnit.{1} := ⟨fun _ _ => 0⟩
instance : Weigh Bool := ⟨fun _ _ => 0⟩
instance : Weigh Char := ⟨fun _ _ => 0⟩
instance : Weigh Nat := ⟨fun _ _ => 0⟩
instance : Weigh Ttype := ⟨fun _ _ => 0⟩
instance : Weigh Str := ⟨fun _ _ => 0⟩
instance : Weigh (Option Str) := ⟨fun _ _ => 0⟩
instance : Weigh (List Str) := ⟨fun _ _ => 0⟩
instance : Weigh (List Node) := ⟨wts⟩
instance : Weigh (Option Node) := ⟨wto⟩
instance : Weigh (Option (List Node)) := ⟨wtb⟩
instance {α β : Type} [Weigh α] [Weigh β] : Weigh (α × β) := ⟨fun w p => Weigh.of w p.1 + Weigh.of w p.2⟩
instance : Weigh Blk := ⟨fun w b => wts w b.nodes⟩
instance {σ α : Type} [Weigh σ] [Weigh α] : Weigh (Loop σ α) := ⟨fun w l =>
  match l with
  | .again x => Weigh.of w x
  | .done a => Weigh.of w a⟩

@[cwt] theorem of_node {n : Node} : Weigh.of w n = wt w n := rfl
@[cwt] theorem of_tok {n : Token} : Weigh.of w n = 0 := rfl
@[cwt] theorem of_unit {n : Unit} : Weigh.of w n = 0 := rfl
@[cwt] theorem of_bool {n : Bool} : Weigh.of w n = 0 := rfl
@[cwt] theorem of_ty {n : Ttype} : Weigh.of w n = 0 := rfl
@[cwt] theorem of_nat {n : Nat} : Weigh.of w n = 0 := rfl
@[cwt] theorem of_str {n : Str} : Weigh.of w n = 0 := rfl
@[cwt] theorem of_strs {n : List Str} : Weigh.of w n = 0 := rfl
@[cwt] theorem of_ostr {n : Option Str} : Weigh.of w n = 0 := rfl
@[cwt] theorem of_nodes {n : List Node} : Weigh.of w n = wts w n := rfl
@[cwt] theorem of_onode {n : Option Node} : Weigh.of w n = wto w n := rfl
@[cwt] theorem of_onodes {n : Option (List Node)} : Weigh.of w n = wtb w n := rfl
@[cwt] theorem of_prod {α β : Type} [Weigh α] [Weigh β] {p : α × β} : Weigh.of w p = Weigh.of w p.1 + Weigh.of w p.2 := rfl
@[cwt] theorem of_blk {b : Blk} : Weigh.of w b = wts w b.nodes := rfl
@[cwt] theorem of_again {σ α : Type} [Weigh σ] [Weigh α] {x : σ} :
    Weigh.of w (Loop.again x : Loop σ α) = Weigh.of w x := rfl
@[cwt] theorem of_done {σ α : Type} [Weigh σ] [Weigh α] {x : α} :
    Weigh.of w (Loop.done x : Loop σ α) = Weigh.of w x := rfl

@[cwt] theorem wts_nil : wts w [] = 0 := by simp [wts, numsL]
@[cwt] theorem wts_cons {n : Node} {l : List Node} : wts w (n :: l) = wt w n + wts w l := by simp [wts, wt, numsL]
@[cwt] theorem wts_append {l m : List Node} : wts w (l ++ m) = wts w l + wts w m := by
  induction l with
  | nil => simp [wts_nil]
  | cons n l ih => rw [List.cons_append, wts_cons, wts_cons, ih]; omega
@[cwt] theorem wto_none : wto w none = 0 := by simp [wto, numsO]
@[cwt] theorem wto_some {n : Node} : wto w (some n) = wt w n := by simp [wto, wt, numsO]
@[cwt] theorem wtb_none : wtb w none = 0 := by simp [wtb, numsB]
@[cwt] theorem wtb_some {n : List Node} : wtb w (some n) = wts w n := by simp [wtb, wts, numsB]

@[cwt] theorem wt_alias_ {t : Token} {newName : Node} {oldName : Node} :
    wt w (.alias_ t newName oldName) = wt w newName + wt w oldName := by cw
@[cwt] theorem wt_arg {t : Token} {name : Option Str} {block : Bool} {splat : Bool} {kwsplat : Bool} {value : Option Node} :
    wt w (.arg t name block splat kwsplat value) = wto w value := by cw
@[cwt] theorem wt_array {t : Token} {nodes : List Node} :
    wt w (.array t nodes) = wts w nodes := by cw
@[cwt] theorem wt_arrayPattern {t : Token} {nodes : List Node} :
    wt w (.arrayPattern t nodes) = wts w nodes := by cw
@[cwt] theorem wt_assignment {t : Token} {ident : Node} {value : Node} :
    wt w (.assignment t ident value) = wt w ident + wt w value := by cw
@[cwt] theorem wt_backRef {t : Token} {ref : Char} : wt w (.backRef t ref) = 0 := by cw
@[cwt] theorem wt_begin_ {t : Token} {body : List Node} {rescues : List Node} {els : Option (List Node)} {ens : Option (List Node)} :
    wt w (.begin_ t body rescues els ens) = wts w body + wts w rescues + wtb w els + wtb w ens := by cw
@[cwt] theorem wt_beginBlock {t : Token} : wt w (.beginBlock t) = 0 := by cw
@[cwt] theorem wt_beginRescue {t : Token} {exceptions : List Node} {name : Option Node} {body : List Node} :
    wt w (.beginRescue t exceptions name body) = wts w exceptions + wto w name + wts w body := by cw
@[cwt] theorem wt_block {t : Token} {nodes : List Node} :
    wt w (.block t nodes) = wts w nodes := by cw
@[cwt] theorem wt_blockPass {t : Token} {node : Node} :
    wt w (.blockPass t node) = wt w node := by cw
@[cwt] theorem wt_break_ {t : Token} {arg : Option Node} :
    wt w (.break_ t arg) = wto w arg := by cw
@[cwt] theorem wt_call {t : Token} {recv : Node} {msg : Str} {args : List Node} :
    wt w (.call t recv msg args) = wt w recv + wts w args := by cw
@[cwt] theorem wt_case_ {t : Token} {subject : Node} {nodes : List Node} {els : Option (List Node)} :
    wt w (.case_ t subject nodes els) = wt w subject + wts w nodes + wtb w els := by cw
@[cwt] theorem wt_caseIn {t : Token} {pattern : Node} {body : List Node} :
    wt w (.caseIn t pattern body) = wt w pattern + wts w body := by cw
@[cwt] theorem wt_caseWhen {t : Token} {cond : Node} {body : List Node} :
    wt w (.caseWhen t cond body) = wt w cond + wts w body := by cw
@[cwt] theorem wt_class_ {t : Token} {name : Node} {super : Node} {body : List Node} :
    wt w (.class_ t name super body) = wt w name + wt w super + wts w body := by cw
@[cwt] theorem wt_colon2 {t : Token} {left : Node} {name : Str} :
    wt w (.colon2 t left name) = wt w left := by cw
@[cwt] theorem wt_colon3 {t : Token} {name : Str} : wt w (.colon3 t name) = 0 := by cw
@[cwt] theorem wt_complex {t : Token} {value : Node} :
    wt w (.complex t value) = wt w value := by cw
@[cwt] theorem wt_constant {t : Token} : wt w (.constant t) = 0 := by cw
@[cwt] theorem wt_def_ {t : Token} {self : Option Node} {name : Str} {args : List Node} {body : List Node} :
    wt w (.def_ t self name args body) = wto w self + wts w args + wts w body := by cw
@[cwt] theorem wt_defined {t : Token} {arg : Node} :
    wt w (.defined t arg) = wt w arg := by cw
@[cwt] theorem wt_encoding {t : Token} : wt w (.encoding t) = 0 := by cw
@[cwt] theorem wt_endBlock {t : Token} : wt w (.endBlock t) = 0 := by cw
@[cwt] theorem wt_evaluateToString {t : Token} {node : Option Node} :
    wt w (.evaluateToString t node) = wto w node := by cw
@[cwt] theorem wt_false_ {t : Token} : wt w (.false_ t) = 0 := by cw
@[cwt] theorem wt_for_ {t : Token} {expr : Node} {vars : Node} {body : List Node} :
    wt w (.for_ t expr vars body) = wt w expr + wt w vars + wts w body := by cw
@[cwt] theorem wt_forwardArgs {t : Token} : wt w (.forwardArgs t) = 0 := by cw
@[cwt] theorem wt_hash {t : Token} {bare : Bool} {nodes : List Node} :
    wt w (.hash t bare nodes) = wts w nodes := by cw
@[cwt] theorem wt_hashPattern {t : Token} {nodes : List Node} :
    wt w (.hashPattern t nodes) = wts w nodes := by cw
@[cwt] theorem wt_identifier {t : Token} {lvar : Bool} :
    wt w (.identifier t lvar) = 0 := by cw
@[cwt] theorem wt_if_ {t : Token} {cond : Node} {yes : Node} {no : Node} :
    wt w (.if_ t cond yes no) = wt w cond + wt w yes + wt w no := by cw
@[cwt] theorem wt_infixOp {t : Token} {left : Node} {op : Str} {right : Node} :
    wt w (.infixOp t left op right) = wt w left + wt w right := by cw
@[cwt] theorem wt_interpolatedRegexp {t : Token} {nodes : List Node} {opts : Nat} :
    wt w (.interpolatedRegexp t nodes opts) = wts w nodes := by cw
@[cwt] theorem wt_interpolatedShell {t : Token} {nodes : List Node} :
    wt w (.interpolatedShell t nodes) = wts w nodes := by cw
@[cwt] theorem wt_interpolatedString {t : Token} {nodes : List Node} :
    wt w (.interpolatedString t nodes) = wts w nodes := by cw
@[cwt] theorem wt_interpolatedSymbol {t : Token} {nodes : List Node} :
    wt w (.interpolatedSymbol t nodes) = wts w nodes := by cw
@[cwt] theorem wt_interpolatedSymbolKey {t : Token} {nodes : List Node} :
    wt w (.interpolatedSymbolKey t nodes) = wts w nodes := by cw
@[cwt] theorem wt_keywordArg {t : Token} {name : Str} {value : Option Node} :
    wt w (.keywordArg t name value) = wto w value := by cw
@[cwt] theorem wt_keywordRestPattern {t : Token} {name : Option Str} :
    wt w (.keywordRestPattern t name) = 0 := by cw
@[cwt] theorem wt_keywordSplat {t : Token} {node : Node} :
    wt w (.keywordSplat t node) = wt w node := by cw
@[cwt] theorem wt_logicalAnd {t : Token} {left : Node} {right : Node} :
    wt w (.logicalAnd t left right) = wt w left + wt w right := by cw
@[cwt] theorem wt_logicalOr {t : Token} {left : Node} {right : Node} :
    wt w (.logicalOr t left right) = wt w left + wt w right := by cw
@[cwt] theorem wt_match_ {t : Token} {regexp : Node} {arg : Option Node} {regexpOnLeft : Bool} :
    wt w (.match_ t regexp arg regexpOnLeft) = wt w regexp + wto w arg := by cw
@[cwt] theorem wt_module_ {t : Token} {name : Node} {body : List Node} :
    wt w (.module_ t name body) = wt w name + wts w body := by cw
@[cwt] theorem wt_multipleAssignment {t : Token} {nodes : List Node} {depth : Nat} :
    wt w (.multipleAssignment t nodes depth) = wts w nodes := by cw
@[cwt] theorem wt_multipleAssignmentArg {t : Token} {nodes : List Node} :
    wt w (.multipleAssignmentArg t nodes) = wts w nodes := by cw
@[cwt] theorem wt_next {t : Token} {arg : Option Node} :
    wt w (.next t arg) = wto w arg := by cw
@[cwt] theorem wt_nil {t : Token} : wt w (.nil t) = 0 := by cw
@[cwt] theorem wt_nilSexp {t : Token} : wt w (.nilSexp t) = 0 := by cw
@[cwt] theorem wt_not_ {t : Token} {expr : Node} : wt w (.not_ t expr) = wt w expr := by cw
@[cwt] theorem wt_notMatch {t : Token} {expr : Node} :
    wt w (.notMatch t expr) = wt w expr := by cw
@[cwt] theorem wt_nthRef {t : Token} {num : Int} : wt w (.nthRef t num) = 0 := by cw
@[cwt] theorem wt_opAssign {t : Token} {op : Str} {name : Node} {value : Node} :
    wt w (.opAssign t op name value) = wt w name + wt w value := by cw
@[cwt] theorem wt_opAssignAccessor {t : Token} {op : Str} {recv : Node} {msg : Str} {value : Node} {args : List Node} {safe : Bool} :
    wt w (.opAssignAccessor t op recv msg value args safe) = wt w recv + wt w value + wts w args := by cw
@[cwt] theorem wt_opAssignAnd {t : Token} {name : Node} {value : Node} :
    wt w (.opAssignAnd t name value) = wt w name + wt w value := by cw
@[cwt] theorem wt_opAssignOr {t : Token} {name : Node} {value : Node} :
    wt w (.opAssignOr t name value) = wt w name + wt w value := by cw
@[cwt] theorem wt_pin {t : Token} {ident : Node} : wt w (.pin t ident) = wt w ident := by cw
@[cwt] theorem wt_range {t : Token} {first : Node} {last : Node} {excl : Bool} :
    wt w (.range t first last excl) = wt w first + wt w last := by cw
@[cwt] theorem wt_rational {t : Token} {value : Node} :
    wt w (.rational t value) = wt w value := by cw
@[cwt] theorem wt_redo {t : Token} : wt w (.redo t) = 0 := by cw
@[cwt] theorem wt_regexp {t : Token} {pattern : Str} {opts : Nat} :
    wt w (.regexp t pattern opts) = 0 := by cw
@[cwt] theorem wt_retry {t : Token} : wt w (.retry t) = 0 := by cw
@[cwt] theorem wt_return_ {t : Token} {value : Node} :
    wt w (.return_ t value) = wt w value := by cw
@[cwt] theorem wt_safeCall {t : Token} {recv : Node} {msg : Str} {args : List Node} :
    wt w (.safeCall t recv msg args) = wt w recv + wts w args := by cw
@[cwt] theorem wt_sclass {t : Token} {klass : Node} {body : List Node} :
    wt w (.sclass t klass body) = wt w klass + wts w body := by cw
@[cwt] theorem wt_self {t : Token} : wt w (.self t) = 0 := by cw
@[cwt] theorem wt_shadowArg {t : Token} {names : List Str} :
    wt w (.shadowArg t names) = 0 := by cw
@[cwt] theorem wt_shell {t : Token} {str : Str} : wt w (.shell t str) = 0 := by cw
@[cwt] theorem wt_splat {t : Token} {node : Option Node} :
    wt w (.splat t node) = wto w node := by cw
@[cwt] theorem wt_splatValue {t : Token} {value : Node} :
    wt w (.splatValue t value) = wt w value := by cw
@[cwt] theorem wt_stabbyProc {t : Token} {hasArgs : Bool} {args : List Node} :
    wt w (.stabbyProc t hasArgs args) = wts w args := by cw
@[cwt] theorem wt_string {t : Token} {str : Str} : wt w (.string t str) = 0 := by cw
@[cwt] theorem wt_super {t : Token} {parens : Bool} {args : List Node} :
    wt w (.super t parens args) = wts w args := by cw
@[cwt] theorem wt_symbol {t : Token} {name : Str} : wt w (.symbol t name) = 0 := by cw
@[cwt] theorem wt_symbolKey {t : Token} {name : Str} : wt w (.symbolKey t name) = 0 := by cw
@[cwt] theorem wt_toArray {t : Token} {value : Node} :
    wt w (.toArray t value) = wt w value := by cw
@[cwt] theorem wt_true_ {t : Token} : wt w (.true_ t) = 0 := by cw
@[cwt] theorem wt_unaryOp {t : Token} {op : Str} {right : Node} :
    wt w (.unaryOp t op right) = wt w right := by cw
@[cwt] theorem wt_undef {t : Token} {args : List Node} :
    wt w (.undef t args) = wts w args := by cw
@[cwt] theorem wt_until_ {t : Token} {cond : Node} {body : List Node} {pre : Bool} :
    wt w (.until_ t cond body pre) = wt w cond + wts w body := by cw
@[cwt] theorem wt_valias {t : Token} {newName : Str} {oldName : Str} :
    wt w (.valias t newName oldName) = 0 := by cw
@[cwt] theorem wt_while_ {t : Token} {cond : Node} {body : List Node} {pre : Bool} :
    wt w (.while_ t cond body pre) = wt w cond + wts w body := by cw
@[cwt] theorem wt_yield {t : Token} {args : List Node} :
    wt w (.yield t args) = wts w args := by cw
@[cwt] theorem wt_iter {t : Token} {call : Node} {hasArgs : Bool} {args body : List Node} :
    wt w (.iter t call hasArgs args body) = wti w call + wts w args + wts w body := by
  cases call <;> simp [wt, wts, wti, nums, Nat.add_assoc]

@[cwt] theorem wti_stabby {t : Token} {hasArgs : Bool} {args : List Node} : wti w (.stabbyProc t hasArgs args) = 0 := rfl
theorem wti_of {n : Node} (h : ∀ t b l, n ≠ .stabbyProc t b l) : wti w n = wt w n := by
  cases n <;> first | rfl | exact absurd rfl (h _ _ _)

theorem wt_fixnum {t : Token} (h : t.type = .Fixnum) : wt w (.fixnum t t.fix) = w (some t) := by
  simp [wt, nums, h]
theorem wt_line {t : Token} (h : t.type = .LINEKeyword) : wt w (.fixnum t (t.line + 1)) = 0 := by
  have : (↑t.line + 1 : Int).natAbs = t.line + 1 := by omega
  simp [wt, nums, h, this]
theorem wt_bignum {t : Token} {s : Str} (h : t.lit = some s) (k : t.type = .Bignum) :
    wt w (.bignum t s) = w (some t) := by
  simp [wt, nums, h, k]
theorem wt_float {t : Token} {b : Bool} (h : t.type = .Float) : wt w (.float t b t.flt) = w (some t) := by
  simp [wt, nums, h]

theorem wt_signed {ty : Ttype} {n m : Node} (e : signed ty n = some m) : wt w m = wt w n := by
  unfold signed at e
  split at e
  · split at e
    · split at e <;> cases e
      rename_i num hn
      have : unsigned num = num := by
        unfold unsigned
        split
        · exact absurd rfl hn
        · rfl
      simp only [wt, nums, this]
      rfl
    · split at e <;> cases e
      simp [wt, nums]
    · split at e <;> cases e
      simp [wt, nums]
    · cases e
  · split at e <;> cases e
    rfl

end NP.Cnt
