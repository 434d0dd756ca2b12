import Verif.Spec.Bare
import Verif.Proofs.Era.Attr
import Verif.Model.Parser

/-! Taking the positions out of the values that the functions of the parser work with. -/

namespace NP.Era

open Spec

/-- Values with positions in them. -/
class Er (α : Type) where
  er : α → α

export Er (er)

instance : Er Node := ⟨bare⟩
instance : Er (List Node) := ⟨bareL⟩
instance : Er (Option Node) := ⟨bareO⟩
instance : Er (Option (List Node)) := ⟨bareB⟩
instance : Er Token := ⟨bareTok⟩
instance : Er PUnit.{1} := ⟨id⟩
instance : Er Bool := ⟨id⟩
instance : Er Char := ⟨id⟩
instance : Er Nat := ⟨id⟩
instance : Er Ttype := ⟨id⟩
instance : Er Str := ⟨id⟩
instance : Er (Option Str) := ⟨id⟩
instance : Er (List Str) := ⟨id⟩
instance : Er (List (List Node)) := ⟨List.map bareL⟩
instance {α β : Type} [Er α] [Er β] : Er (α × β) := ⟨fun p => (er p.1, er p.2)⟩
instance : Er Blk := ⟨fun b => ⟨er b.tok, er b.nodes⟩⟩
instance : Er PS := ⟨fun s => { s with prev := s.prev.map bareTok, rest := s.rest.map bareTok }⟩
instance {σ α : Type} [Er σ] [Er α] : Er (Loop σ α) := ⟨fun l =>
  match l with
  | .again x => .again (er x)
  | .done a => .done (er a)⟩

local macro "nrw" : tactic => `(tactic| (unfold er; first | rfl | (simp only [instErNode]; rw [bare]; rfl)))

@[ner] theorem er_unit {x : Unit} : er x = x := rfl
@[ner] theorem er_punit {x : PUnit.{1}} : er x = x := rfl
@[ner] theorem er_bool {x : Bool} : er x = x := rfl
@[ner] theorem er_char {x : Char} : er x = x := rfl
@[ner] theorem er_nat {x : Nat} : er x = x := rfl
@[ner] theorem er_ttype {x : Ttype} : er x = x := rfl
@[ner] theorem er_str {x : Str} : er x = x := rfl
@[ner] theorem er_ostr {x : Option Str} : er x = x := rfl
@[ner] theorem er_strs {x : List Str} : er x = x := rfl
@[ner] theorem er_pair {α β : Type} [Er α] [Er β] {a : α} {b : β} : er (a, b) = (er a, er b) := rfl
@[ner] theorem er_fst {α β : Type} [Er α] [Er β] {p : α × β} : (er p).1 = er p.1 := rfl
@[ner] theorem er_snd {α β : Type} [Er α] [Er β] {p : α × β} : (er p).2 = er p.2 := rfl
@[ner] theorem er_again {σ α : Type} [Er σ] [Er α] {x : σ} : er (Loop.again x : Loop σ α) = .again (er x) := rfl
@[ner] theorem er_done {σ α : Type} [Er σ] [Er α] {a : α} : er (Loop.done a : Loop σ α) = .done (er a) := rfl
@[ner] theorem er_blk {t : Token} {ns : List Node} : er (Blk.mk t ns) = ⟨er t, er ns⟩ := rfl
@[ner] theorem er_tok {b : Blk} : (er b).tok = er b.tok := rfl
@[ner] theorem er_nodes {b : Blk} : (er b).nodes = er b.nodes := rfl
@[ner] theorem er_type {t : Token} : (er t).type = t.type := rfl
@[ner] theorem er_lit {t : Token} : (er t).lit = t.lit := rfl
@[ner] theorem er_fix {t : Token} : (er t).fix = t.fix := rfl
@[ner] theorem er_flt {t : Token} : (er t).flt = if t.type = .Float then t.flt else [] := rfl
@[ner] theorem er_ws {t : Token} : (er t).ws = t.ws := rfl
@[ner] theorem er_doc {t : Token} : (er t).doc = none := rfl
@[ner] theorem er_line {t : Token} : (er t).line = 0 := rfl
@[ner] theorem er_col {t : Token} : (er t).col = 0 := rfl
@[ner] theorem er_none : er (none : Option Node) = none := rfl
@[ner] theorem er_some {n : Node} : er (some n) = some (er n) := rfl
@[ner] theorem er_noneB : er (none : Option (List Node)) = none := rfl
@[ner] theorem er_someB {l : List Node} : er (some l) = some (er l) := rfl
@[ner] theorem er_nilL : er ([] : List Node) = [] := rfl
@[ner] theorem er_cons {n : Node} {l : List Node} : er (n :: l) = er n :: er l := rfl
@[ner] theorem er_append {l m : List Node} : er (l ++ m) = er l ++ er m := by
  induction l with
  | nil => rfl
  | cons n l ih =>
    rw [List.cons_append, er_cons, ih]
    rfl
@[ner] theorem er_nils : er ([] : List (List Node)) = [] := rfl
@[ner] theorem er_conss {n : List Node} {l : List (List Node)} : er (n :: l) = er n :: er l := rfl
@[ner] theorem er_appends {l m : List (List Node)} : er (l ++ m) = er l ++ er m := List.map_append
@[ner] theorem er_flatten {l : List (List Node)} : er l.flatten = (er l).flatten := by
  induction l with
  | nil => rfl
  | cons n l ih =>
    rw [List.flatten_cons, er_append, ih]
    rfl
theorem er_map {l : List Node} : er l = l.map er := by
  induction l with
  | nil => rfl
  | cons n l ih => rw [er_cons, ih]; rfl
@[ner] theorem er_isEmpty {l : List Node} : (er l).isEmpty = l.isEmpty := by cases l <;> rfl
@[ner] theorem er_getLast {l : List Node} : (er l).getLast? = er l.getLast? := by
  rw [er_map, List.getLast?_map]
  cases l.getLast? <;> rfl
@[ner] theorem er_fixnum {t : Token} {v : Int} :
    er (Node.fixnum t v) = .fixnum (er t) (if t.type = .LINEKeyword then v.sign else v) := by nrw
@[ner] theorem er_alias_ {t : Token} {newName : Node} {oldName : Node} :
    er (Node.alias_ t newName oldName) = .alias_ (er t) (er newName) (er oldName) := by nrw
@[ner] theorem er_arg {t : Token} {name : Option Str} {block : Bool} {splat : Bool} {kwsplat : Bool} {value : Option Node} :
    er (Node.arg t name block splat kwsplat value) = .arg (er t) name block splat kwsplat (er value) := by nrw
@[ner] theorem er_array {t : Token} {nodes : List Node} :
    er (Node.array t nodes) = .array (er t) (er nodes) := by nrw
@[ner] theorem er_arrayPattern {t : Token} {nodes : List Node} :
    er (Node.arrayPattern t nodes) = .arrayPattern (er t) (er nodes) := by nrw
@[ner] theorem er_assignment {t : Token} {ident : Node} {value : Node} :
    er (Node.assignment t ident value) = .assignment (er t) (er ident) (er value) := by nrw
@[ner] theorem er_backRef {t : Token} {ref : Char} :
    er (Node.backRef t ref) = .backRef (er t) ref := by nrw
@[ner] theorem er_begin_ {t : Token} {body : List Node} {rescues : List Node} {els : Option (List Node)} {ens : Option (List Node)} :
    er (Node.begin_ t body rescues els ens) = .begin_ (er t) (er body) (er rescues) (er els) (er ens) := by nrw
@[ner] theorem er_beginBlock {t : Token} :
    er (Node.beginBlock t) = .beginBlock (er t) := by nrw
@[ner] theorem er_beginRescue {t : Token} {exceptions : List Node} {name : Option Node} {body : List Node} :
    er (Node.beginRescue t exceptions name body) = .beginRescue (er t) (er exceptions) (er name) (er body) := by nrw
@[ner] theorem er_bignum {t : Token} {num : Str} :
    er (Node.bignum t num) = .bignum (er t) num := by nrw
@[ner] theorem er_block {t : Token} {nodes : List Node} :
    er (Node.block t nodes) = .block (er t) (er nodes) := by nrw
@[ner] theorem er_blockPass {t : Token} {node : Node} :
    er (Node.blockPass t node) = .blockPass (er t) (er node) := by nrw
@[ner] theorem er_break_ {t : Token} {arg : Option Node} :
    er (Node.break_ t arg) = .break_ (er t) (er arg) := by nrw
@[ner] theorem er_call {t : Token} {recv : Node} {msg : Str} {args : List Node} :
    er (Node.call t recv msg args) = .call (er t) (er recv) msg (er args) := by nrw
@[ner] theorem er_case_ {t : Token} {subject : Node} {nodes : List Node} {els : Option (List Node)} :
    er (Node.case_ t subject nodes els) = .case_ (er t) (er subject) (er nodes) (er els) := by nrw
@[ner] theorem er_caseIn {t : Token} {pattern : Node} {body : List Node} :
    er (Node.caseIn t pattern body) = .caseIn (er t) (er pattern) (er body) := by nrw
@[ner] theorem er_caseWhen {t : Token} {cond : Node} {body : List Node} :
    er (Node.caseWhen t cond body) = .caseWhen (er t) (er cond) (er body) := by nrw
@[ner] theorem er_class_ {t : Token} {name : Node} {super : Node} {body : List Node} :
    er (Node.class_ t name super body) = .class_ (er t) (er name) (er super) (er body) := by nrw
@[ner] theorem er_colon2 {t : Token} {left : Node} {name : Str} :
    er (Node.colon2 t left name) = .colon2 (er t) (er left) name := by nrw
@[ner] theorem er_colon3 {t : Token} {name : Str} :
    er (Node.colon3 t name) = .colon3 (er t) name := by nrw
@[ner] theorem er_complex {t : Token} {value : Node} :
    er (Node.complex t value) = .complex (er t) (er value) := by nrw
@[ner] theorem er_constant {t : Token} :
    er (Node.constant t) = .constant (er t) := by nrw
@[ner] theorem er_def_ {t : Token} {self : Option Node} {name : Str} {args : List Node} {body : List Node} :
    er (Node.def_ t self name args body) = .def_ (er t) (er self) name (er args) (er body) := by nrw
@[ner] theorem er_defined {t : Token} {arg : Node} :
    er (Node.defined t arg) = .defined (er t) (er arg) := by nrw
@[ner] theorem er_encoding {t : Token} :
    er (Node.encoding t) = .encoding (er t) := by nrw
@[ner] theorem er_endBlock {t : Token} :
    er (Node.endBlock t) = .endBlock (er t) := by nrw
@[ner] theorem er_evaluateToString {t : Token} {node : Option Node} :
    er (Node.evaluateToString t node) = .evaluateToString (er t) (er node) := by nrw
@[ner] theorem er_false_ {t : Token} :
    er (Node.false_ t) = .false_ (er t) := by nrw
@[ner] theorem er_float {t : Token} {neg : Bool} {txt : Str} :
    er (Node.float t neg txt) = .float (er t) neg txt := by nrw
@[ner] theorem er_for_ {t : Token} {expr : Node} {vars : Node} {body : List Node} :
    er (Node.for_ t expr vars body) = .for_ (er t) (er expr) (er vars) (er body) := by nrw
@[ner] theorem er_forwardArgs {t : Token} :
    er (Node.forwardArgs t) = .forwardArgs (er t) := by nrw
@[ner] theorem er_hash {t : Token} {bare : Bool} {nodes : List Node} :
    er (Node.hash t bare nodes) = .hash (er t) bare (er nodes) := by nrw
@[ner] theorem er_hashPattern {t : Token} {nodes : List Node} :
    er (Node.hashPattern t nodes) = .hashPattern (er t) (er nodes) := by nrw
@[ner] theorem er_identifier {t : Token} {lvar : Bool} :
    er (Node.identifier t lvar) = .identifier (er t) lvar := by nrw
@[ner] theorem er_if_ {t : Token} {cond : Node} {yes : Node} {no : Node} :
    er (Node.if_ t cond yes no) = .if_ (er t) (er cond) (er yes) (er no) := by nrw
@[ner] theorem er_infixOp {t : Token} {left : Node} {op : Str} {right : Node} :
    er (Node.infixOp t left op right) = .infixOp (er t) (er left) op (er right) := by nrw
@[ner] theorem er_iter {t : Token} {call : Node} {hasArgs : Bool} {args : List Node} {body : List Node} :
    er (Node.iter t call hasArgs args body) = .iter (er t) (er call) hasArgs (er args) (er body) := by nrw
@[ner] theorem er_interpolatedRegexp {t : Token} {nodes : List Node} {opts : Nat} :
    er (Node.interpolatedRegexp t nodes opts) = .interpolatedRegexp (er t) (er nodes) opts := by nrw
@[ner] theorem er_interpolatedShell {t : Token} {nodes : List Node} :
    er (Node.interpolatedShell t nodes) = .interpolatedShell (er t) (er nodes) := by nrw
@[ner] theorem er_interpolatedString {t : Token} {nodes : List Node} :
    er (Node.interpolatedString t nodes) = .interpolatedString (er t) (er nodes) := by nrw
@[ner] theorem er_interpolatedSymbol {t : Token} {nodes : List Node} :
    er (Node.interpolatedSymbol t nodes) = .interpolatedSymbol (er t) (er nodes) := by nrw
@[ner] theorem er_interpolatedSymbolKey {t : Token} {nodes : List Node} :
    er (Node.interpolatedSymbolKey t nodes) = .interpolatedSymbolKey (er t) (er nodes) := by nrw
@[ner] theorem er_keywordArg {t : Token} {name : Str} {value : Option Node} :
    er (Node.keywordArg t name value) = .keywordArg (er t) name (er value) := by nrw
@[ner] theorem er_keywordRestPattern {t : Token} {name : Option Str} :
    er (Node.keywordRestPattern t name) = .keywordRestPattern (er t) name := by nrw
@[ner] theorem er_keywordSplat {t : Token} {node : Node} :
    er (Node.keywordSplat t node) = .keywordSplat (er t) (er node) := by nrw
@[ner] theorem er_logicalAnd {t : Token} {left : Node} {right : Node} :
    er (Node.logicalAnd t left right) = .logicalAnd (er t) (er left) (er right) := by nrw
@[ner] theorem er_logicalOr {t : Token} {left : Node} {right : Node} :
    er (Node.logicalOr t left right) = .logicalOr (er t) (er left) (er right) := by nrw
@[ner] theorem er_match_ {t : Token} {regexp : Node} {arg : Option Node} {regexpOnLeft : Bool} :
    er (Node.match_ t regexp arg regexpOnLeft) = .match_ (er t) (er regexp) (er arg) regexpOnLeft := by nrw
@[ner] theorem er_module_ {t : Token} {name : Node} {body : List Node} :
    er (Node.module_ t name body) = .module_ (er t) (er name) (er body) := by nrw
@[ner] theorem er_multipleAssignment {t : Token} {nodes : List Node} {depth : Nat} :
    er (Node.multipleAssignment t nodes depth) = .multipleAssignment (er t) (er nodes) depth := by nrw
@[ner] theorem er_multipleAssignmentArg {t : Token} {nodes : List Node} :
    er (Node.multipleAssignmentArg t nodes) = .multipleAssignmentArg (er t) (er nodes) := by nrw
@[ner] theorem er_next {t : Token} {arg : Option Node} :
    er (Node.next t arg) = .next (er t) (er arg) := by nrw
@[ner] theorem er_nil {t : Token} :
    er (Node.nil t) = .nil (er t) := by nrw
@[ner] theorem er_nilSexp {t : Token} :
    er (Node.nilSexp t) = .nilSexp (er t) := by nrw
@[ner] theorem er_not_ {t : Token} {expr : Node} :
    er (Node.not_ t expr) = .not_ (er t) (er expr) := by nrw
@[ner] theorem er_notMatch {t : Token} {expr : Node} :
    er (Node.notMatch t expr) = .notMatch (er t) (er expr) := by nrw
@[ner] theorem er_nthRef {t : Token} {num : Int} :
    er (Node.nthRef t num) = .nthRef (er t) num := by nrw
@[ner] theorem er_opAssign {t : Token} {op : Str} {name : Node} {value : Node} :
    er (Node.opAssign t op name value) = .opAssign (er t) op (er name) (er value) := by nrw
@[ner] theorem er_opAssignAccessor {t : Token} {op : Str} {recv : Node} {msg : Str} {value : Node} {args : List Node} {safe : Bool} :
    er (Node.opAssignAccessor t op recv msg value args safe) = .opAssignAccessor (er t) op (er recv) msg (er value) (er args) safe := by nrw
@[ner] theorem er_opAssignAnd {t : Token} {name : Node} {value : Node} :
    er (Node.opAssignAnd t name value) = .opAssignAnd (er t) (er name) (er value) := by nrw
@[ner] theorem er_opAssignOr {t : Token} {name : Node} {value : Node} :
    er (Node.opAssignOr t name value) = .opAssignOr (er t) (er name) (er value) := by nrw
@[ner] theorem er_pin {t : Token} {ident : Node} :
    er (Node.pin t ident) = .pin (er t) (er ident) := by nrw
@[ner] theorem er_range {t : Token} {first : Node} {last : Node} {excl : Bool} :
    er (Node.range t first last excl) = .range (er t) (er first) (er last) excl := by nrw
@[ner] theorem er_rational {t : Token} {value : Node} :
    er (Node.rational t value) = .rational (er t) (er value) := by nrw
@[ner] theorem er_redo {t : Token} :
    er (Node.redo t) = .redo (er t) := by nrw
@[ner] theorem er_regexp {t : Token} {pattern : Str} {opts : Nat} :
    er (Node.regexp t pattern opts) = .regexp (er t) pattern opts := by nrw
@[ner] theorem er_retry {t : Token} :
    er (Node.retry t) = .retry (er t) := by nrw
@[ner] theorem er_return_ {t : Token} {value : Node} :
    er (Node.return_ t value) = .return_ (er t) (er value) := by nrw
@[ner] theorem er_safeCall {t : Token} {recv : Node} {msg : Str} {args : List Node} :
    er (Node.safeCall t recv msg args) = .safeCall (er t) (er recv) msg (er args) := by nrw
@[ner] theorem er_sclass {t : Token} {klass : Node} {body : List Node} :
    er (Node.sclass t klass body) = .sclass (er t) (er klass) (er body) := by nrw
@[ner] theorem er_self {t : Token} :
    er (Node.self t) = .self (er t) := by nrw
@[ner] theorem er_shadowArg {t : Token} {names : List Str} :
    er (Node.shadowArg t names) = .shadowArg (er t) names := by nrw
@[ner] theorem er_shell {t : Token} {str : Str} :
    er (Node.shell t str) = .shell (er t) str := by nrw
@[ner] theorem er_splat {t : Token} {node : Option Node} :
    er (Node.splat t node) = .splat (er t) (er node) := by nrw
@[ner] theorem er_splatValue {t : Token} {value : Node} :
    er (Node.splatValue t value) = .splatValue (er t) (er value) := by nrw
@[ner] theorem er_stabbyProc {t : Token} {hasArgs : Bool} {args : List Node} :
    er (Node.stabbyProc t hasArgs args) = .stabbyProc (er t) hasArgs (er args) := by nrw
@[ner] theorem er_string {t : Token} {str : Str} :
    er (Node.string t str) = .string (er t) str := by nrw
@[ner] theorem er_super {t : Token} {parens : Bool} {args : List Node} :
    er (Node.super t parens args) = .super (er t) parens (er args) := by nrw
@[ner] theorem er_symbol {t : Token} {name : Str} :
    er (Node.symbol t name) = .symbol (er t) name := by nrw
@[ner] theorem er_symbolKey {t : Token} {name : Str} :
    er (Node.symbolKey t name) = .symbolKey (er t) name := by nrw
@[ner] theorem er_toArray {t : Token} {value : Node} :
    er (Node.toArray t value) = .toArray (er t) (er value) := by nrw
@[ner] theorem er_true_ {t : Token} :
    er (Node.true_ t) = .true_ (er t) := by nrw
@[ner] theorem er_unaryOp {t : Token} {op : Str} {right : Node} :
    er (Node.unaryOp t op right) = .unaryOp (er t) op (er right) := by nrw
@[ner] theorem er_undef {t : Token} {args : List Node} :
    er (Node.undef t args) = .undef (er t) (er args) := by nrw
@[ner] theorem er_until_ {t : Token} {cond : Node} {body : List Node} {pre : Bool} :
    er (Node.until_ t cond body pre) = .until_ (er t) (er cond) (er body) pre := by nrw
@[ner] theorem er_valias {t : Token} {newName : Str} {oldName : Str} :
    er (Node.valias t newName oldName) = .valias (er t) newName oldName := by nrw
@[ner] theorem er_while_ {t : Token} {cond : Node} {body : List Node} {pre : Bool} :
    er (Node.while_ t cond body pre) = .while_ (er t) (er cond) (er body) pre := by nrw
@[ner] theorem er_yield {t : Token} {args : List Node} :
    er (Node.yield t args) = .yield (er t) (er args) := by nrw

@[ner] theorem er_cur {s : PS} : (er s).cur = er s.cur := by
  unfold PS.cur
  show (s.rest.map bareTok).headD {} = _
  cases s.rest <;> rfl
@[ner] theorem er_peek {s : PS} : (er s).peek = er s.peek := by
  unfold PS.peek
  show (s.rest.map bareTok).tail.headD {} = _
  rcases s.rest with _ | ⟨_, _ | _⟩ <;> rfl
@[ner] theorem er_prevTok {s : PS} : (er s).prevTok = er s.prevTok := by
  unfold PS.prevTok
  show (s.prev.map bareTok).headD {} = _
  cases s.prev <;> rfl
@[ner] theorem er_locals {s : PS} : (er s).locals = s.locals := rfl
@[ner] theorem er_depth {s : PS} : (er s).depth = s.depth := rfl
@[ner] theorem er_precs {s : PS} : (er s).precs = s.precs := rfl

local macro "nc" : tactic => `(tactic| (simp only [ner]; try rfl))

@[ner] theorem er_nodeTok {n : Node} : (er n).tok = er n.tok := by cases n <;> nc
@[ner] theorem er_isCallable {n : Node} : (er n).isCallable = n.isCallable := by cases n <;> nc
@[ner] theorem er_isAssignable {n : Node} : (er n).isAssignable = n.isAssignable := by
  cases n <;> simp only [ner, Node.isAssignable]
@[ner] theorem er_isNumeric {n : Node} : (er n).isNumeric = n.isNumeric := by cases n <;> nc
@[ner] theorem er_isSymbolKey {n : Node} : (er n).isSymbolKey = n.isSymbolKey := by cases n <;> nc
@[ner] theorem er_canAcceptABlock {n : Node} : (er n).canAcceptABlock = n.canAcceptABlock := by cases n <;> nc
@[ner] theorem er_canBeConcatenated {n : Node} : (er n).canBeConcatenated = n.canBeConcatenated := by cases n <;> nc
@[ner] theorem er_isBlockPass {n : Node} : (er n).isBlockPass = n.isBlockPass := by cases n <;> nc
@[ner] theorem er_isSplat {n : Node} : (er n).isSplat = n.isSplat := by cases n <;> nc
@[ner] theorem er_isKeywordSplat {n : Node} : (er n).isKeywordSplat = n.isKeywordSplat := by cases n <;> nc
@[ner] theorem er_isLvar {n : Node} : (er n).isLvar = n.isLvar := by cases n <;> nc
@[ner] theorem er_args {n : Node} : (er n).args? = er n.args? := by cases n <;> nc
@[ner] theorem er_hasBlockPass {n : Node} : (er n).hasBlockPass = n.hasBlockPass := by
  unfold Node.hasBlockPass
  rw [er_args]
  cases n.args? with
  | none => rfl
  | some l =>
    simp only [ner]
    cases l.getLast? with
    | none => rfl
    | some n =>
      simp only [ner, Option.map_some, Option.getD_some]
@[ner] theorem er_addArg {n a : Node} : er (n.addArg a) = (er n).addArg (er a) := by
  cases n <;> simp only [ner, Node.addArg]
@[ner] theorem er_bracketIsRef {n : Node} {t : Token} : bracketIsRef (er n) (er t) = bracketIsRef n t := by
  unfold bracketIsRef
  nc
@[ner] theorem er_isFirstArg {n : Node} {t : Token} : isFirstArg (er n) (er t) = isFirstArg n t := by
  unfold isFirstArg
  nc
@[ner] theorem er_getPrec {t v : Token} {o : Option Node} : getPrec (er t) (er o) (er v) = getPrec t o v := by
  unfold getPrec
  cases o with
  | none => nc
  | some n => nc
@[ner] theorem er_getPrecN {t v : Token} : getPrec (er t) none (er v) = getPrec t none v := er_getPrec (o := none)
@[ner] theorem er_getPrecS {t v : Token} {n : Node} : getPrec (er t) (some (er n)) (er v) = getPrec t (some n) v :=
  er_getPrec (o := some n)
@[ner] theorem er_node {b : Blk} : er b.node = (er b).node := by
  unfold Blk.node
  nc
@[ner] theorem er_single {b : Blk} : (er b).single = er b.single := by
  unfold Blk.single
  obtain ⟨t, ns⟩ := b
  rcases ns with _ | ⟨n, _ | ⟨m, l⟩⟩ <;> nc
@[ner] theorem er_identNames {t : Token} : identNames (er t) = identNames t := rfl

mutual
theorem er_masgnNames : ∀ n : Node, masgnNames (er n) = masgnNames n := by
  intro n
  cases n with
  | splat t o =>
    cases o with
    | none => nc
    | some n => cases n <;> nc
  | multipleAssignment t ns d =>
    simp only [ner, masgnNames]
    exact er_masgnNamesList ns
  | _ => nc
theorem er_masgnNamesList : ∀ l : List Node, masgnNamesList (er l) = masgnNamesList l := by
  intro l
  cases l with
  | nil => rfl
  | cons n l => simp only [ner, masgnNamesList, er_masgnNames n, er_masgnNamesList l]
end
@[ner] theorem er_masgns {l : List Node} : masgnNamesList (er l) = masgnNamesList l := er_masgnNamesList l

@[ner] theorem er_tokMk {ty : Ttype} {lit doc : Option Str} {fix : Int} {flt : Str} {line col : Nat} {ws : Bool} :
    er (Token.mk ty lit doc fix flt line col ws) =
      Token.mk ty lit none fix (if ty = .Float then flt else []) 0 0 ws := rfl
@[ner] theorem tokOptions_er {t : Token} : tokOptions (er t) = tokOptions t := rfl

@[ner] theorem length_er {l : List Node} : (er l).length = l.length := by
  induction l with
  | nil => rfl
  | cons n l ih => rw [er_cons, List.length_cons, List.length_cons, ih]

@[ner] theorem er_ite {α : Type} [Er α] {c : Prop} [Decidable c] {a b : α} :
    er (if c then a else b) = if c then er a else er b := by
  split <;> rfl
@[ner] theorem startsHash_er {n : Node} {ty : Ttype} : startsHash (er n) ty = startsHash n ty := by
  unfold startsHash
  simp only [ner]
@[ner] theorem lastIsSplat_er {l : List Node} : lastIsSplat (er l) = lastIsSplat l := by
  unfold lastIsSplat
  rw [er_getLast]
  cases l.getLast? with
  | none => rfl
  | some n => cases n <;> rfl
@[ner] theorem lastIsKeyword_er {l : List Node} : lastIsKeyword (er l) = lastIsKeyword l := by
  unfold lastIsKeyword
  rw [er_getLast]
  cases l.getLast? with
  | none => rfl
  | some n => cases n <;> rfl
@[ner] theorem lastIsForward_er {l : List Node} : lastIsForward (er l) = lastIsForward l := by
  unfold lastIsForward
  rw [er_getLast]
  cases l.getLast? with
  | none => rfl
  | some n => cases n <;> rfl
@[ner] theorem callWithArgs_er {n : Node} : callWithArgs (er n) = callWithArgs n := by
  cases n with
  | call t r m args => cases args <;> rfl
  | _ => rfl
@[ner] theorem er_wrapSplat {n : Node} : wrapSplat (er n) = er (wrapSplat n) := by
  cases n <;> rfl
@[ner] theorem er_matchCondition {n : Node} : er (matchCondition n) = matchCondition (er n) := by
  cases n <;> rfl
@[ner] theorem er_mkAnd {t : Token} {a b : Node} : er (mkAnd t a b) = mkAnd (er t) (er a) (er b) := by
  cases a <;> rfl
@[ner] theorem er_mkOr {t : Token} {a b : Node} : er (mkOr t a b) = mkOr (er t) (er a) (er b) := by
  cases a <;> rfl
@[ner] theorem er_signed {ty : Ttype} {n : Node} : signed ty (er n) = er (signed ty n) := by
  unfold signed
  by_cases h : ty = .Minus
  · rw [if_pos h, if_pos h]
    cases n with
    | fixnum t num =>
      show (if (if t.type = .LINEKeyword then num.sign else num) < 0 then none else
        some (Node.fixnum (er t) (-(if t.type = .LINEKeyword then num.sign else num)))) =
        er (if num < 0 then none else some (Node.fixnum t (-num)))
      by_cases k : t.type = .LINEKeyword
      · rw [if_pos k]
        by_cases m : num < 0
        · rw [if_pos m, if_pos (Int.sign_neg_iff.2 m)]
          rfl
        · rw [if_neg m, if_neg (m ∘ Int.sign_neg_iff.1)]
          show some _ = some (Node.fixnum (er t) (if t.type = .LINEKeyword then (-num).sign else -num))
          rw [if_pos k, Int.sign_neg]
      · rw [if_neg k]
        by_cases m : num < 0
        · rw [if_pos m, if_pos m]
          rfl
        · rw [if_neg m, if_neg m]
          show some _ = some (Node.fixnum (er t) (if t.type = .LINEKeyword then (-num).sign else -num))
          rw [if_neg k]
    | bignum t num =>
      show (if _ then _ else _) = er (if _ then _ else _)
      split <;> rfl
    | float t neg txt =>
      show (if _ then _ else _) = er (if _ then _ else _)
      split <;> rfl
    | _ => rfl
  · rw [if_neg h, if_neg h]
    have : (er n).isNumeric = n.isNumeric := by cases n <;> rfl
    rw [this]
    split <;> rfl

@[ner] theorem er_singleMk {t : Token} {l : List Node} : Blk.single ⟨er t, er l⟩ = er (Blk.single ⟨t, l⟩) :=
  er_single (b := ⟨t, l⟩)
@[ner] theorem er_singleCons {t : Token} {n : Node} {l : List Node} :
    Blk.single ⟨er t, er n :: er l⟩ = er (Blk.single ⟨t, n :: l⟩) := by
  rw [← er_cons, er_singleMk]
theorem regexp_or (n : Node) : (∃ t p o, n = .regexp t p o) ∨ ∀ t p o, n ≠ .regexp t p o := by
  cases n
  case regexp t p o => exact .inl ⟨t, p, o, rfl⟩
  all_goals exact .inr fun _ _ _ h => Node.noConfusion h
theorem er_not_regexp {n : Node} (h : ∀ t p o, n ≠ .regexp t p o) : ∀ t p o, er n ≠ .regexp t p o := by
  cases n
  case regexp t p o => exact absurd rfl (h t p o)
  all_goals
    intro t p o h
    simp only [ner, reduceCtorEq] at h

end NP.Era
