import Verif.Spec.Grammar
import Verif.Proofs.Gram.Attr

/-! The equations of the functions of Spec/Grammar.lean. -/

namespace NP.Gram
open Spec


/-! ### `after` -/

@[gafter] theorem after_int (n : Int) (ty : Ttype) : after (.int n : Ex .ex) ty = (lets (if n < 0 then 18 else 21) ty) := rfl
@[gafter] theorem after_str (s : Str) (ty : Ttype) : after (.str s : Ex .ex) ty = (lets 21 ty && ty != .ConstantResolution) := rfl
@[gafter] theorem after_sym (x : Str) (ty : Ttype) : after (.sym x : Ex .ex) ty = (lets 21 ty) := rfl
@[gafter] theorem after_word (w : Word) (ty : Ttype) : after (.word w : Ex .ex) ty = (lets 21 ty) := rfl
@[gafter] theorem after_var (v : Var) (ty : Ttype) : after (.var v : Ex .ex) ty = (lets 21 ty) := rfl
@[gafter] theorem after_array (a : Ex .args) (ty : Ttype) : after (.array a : Ex .ex) ty = (lets 21 ty) := rfl
@[gafter] theorem after_hash (ps : Ex .pairs) (ty : Ttype) : after (.hash ps : Ex .ex) ty = (lets 21 ty) := rfl
@[gafter] theorem after_fcall (x : Str) (a : Ex .args) (ty : Ttype) : after (.fcall x a : Ex .ex) ty = (lets 21 ty) := rfl
@[gafter] theorem after_send (safe : Bool) (r : Ex .ex) (m : Str) (ty : Ttype) : after (.send safe r m : Ex .ex) ty = (lets 21 ty) := rfl
@[gafter] theorem after_sendA (safe : Bool) (r : Ex .ex) (m : Str) (a : Ex .args) (ty : Ttype) : after (.sendA safe r m a : Ex .ex) ty = (lets 21 ty) := rfl
@[gafter] theorem after_cmd (x : Str) (a : Ex .args) (b : Ex .blk) (ty : Ttype) : after (.cmd x a b : Ex .ex) ty = (lets 3 ty && ty != .HashRocket && ty != .DoKeyword && (!b.isNil || after a ty)) := rfl
@[gafter] theorem after_sendC (safe : Bool) (r : Ex .ex) (m : Str) (a : Ex .args) (b : Ex .blk) (ty : Ttype) : after (.sendC safe r m a b : Ex .ex) ty = (lets 3 ty && ty != .HashRocket && ty != .DoKeyword && (!b.isNil || after a ty)) := rfl
@[gafter] theorem after_index (r : Ex .ex) (a : Ex .args) (ty : Ttype) : after (.index r a : Ex .ex) ty = (lets 21 ty) := rfl
@[gafter] theorem after_colon2 (r : Ex .ex) (x : Str) (ty : Ttype) : after (.colon2 r x : Ex .ex) ty = (lets 21 ty) := rfl
@[gafter] theorem after_colon3 (x : Str) (ty : Ttype) : after (.colon3 x : Ex .ex) ty = (lets 21 ty) := rfl
@[gafter] theorem after_super0 (ty : Ttype) : after (.super0 : Ex .ex) ty = (lets 21 ty && ty != .LBracket) := rfl
@[gafter] theorem after_superA (a : Ex .args) (ty : Ttype) : after (.superA a : Ex .ex) ty = (lets 21 ty) := rfl
@[gafter] theorem after_yield0 (ty : Ttype) : after (.yield0 : Ex .ex) ty = (lets 21 ty && ty != .LBracket) := rfl
@[gafter] theorem after_yieldA (a : Ex .args) (ty : Ttype) : after (.yieldA a : Ex .ex) ty = (lets 21 ty) := rfl
@[gafter] theorem after_paren (ss : Ex .sts) (ty : Ttype) : after (.paren ss : Ex .ex) ty = (lets 21 ty) := rfl
@[gafter] theorem after_block (doo : Bool) (c : Ex .ex) (ps : Ex .prms) (b : Ex .sts) (ty : Ttype) : after (.block doo c ps b : Ex .ex) ty = (lets 21 ty) := rfl
@[gafter] theorem after_lam (doo : Bool) (ps : Ex .prms) (b : Ex .sts) (ty : Ttype) : after (.lam doo ps b : Ex .ex) ty = (lets 21 ty) := rfl
@[gafter] theorem after_un (o : Uop) (e : Ex .ex) (ty : Ttype) : after (.un o e : Ex .ex) ty = (lets o.level ty && after e ty) := rfl
@[gafter] theorem after_notE (e : Ex .ex) (ty : Ttype) : after (.notE e : Ex .ex) ty = (lets 3 ty && after e ty) := rfl
@[gafter] theorem after_bin (o : Bop) (l : Ex .ex) (r : Ex .ex) (ty : Ttype) : after (.bin o l r : Ex .ex) ty = (lets o.level ty && after r ty) := rfl
@[gafter] theorem after_tern (c : Ex .ex) (a : Ex .ex) (b : Ex .ex) (ty : Ttype) : after (.tern c a b : Ex .ex) ty = (lets 7 ty && after b ty) := rfl
@[gafter] theorem after_asgn (v : Var) (e : Ex .ex) (ty : Ttype) : after (.asgn v e : Ex .ex) ty = (lets 5 ty && after e ty) := rfl
@[gafter] theorem after_opasgn (v : Var) (o : Aop) (e : Ex .ex) (ty : Ttype) : after (.opasgn v o e : Ex .ex) ty = (lets 5 ty && after e ty) := rfl
@[gafter] theorem after_attr (safe : Bool) (r : Ex .ex) (m : Str) (e : Ex .ex) (ty : Ttype) : after (.attr safe r m e : Ex .ex) ty = (lets 5 ty && after e ty) := rfl
@[gafter] theorem after_opattr (safe : Bool) (r : Ex .ex) (m : Str) (o : Aop) (e : Ex .ex) (ty : Ttype) : after (.opattr safe r m o e : Ex .ex) ty = (lets 5 ty && after e ty) := rfl
@[gafter] theorem after_setIndex (r : Ex .ex) (a : Ex .args) (e : Ex .ex) (ty : Ttype) : after (.setIndex r a e : Ex .ex) ty = (lets 5 ty && after e ty) := rfl
@[gafter] theorem after_opindex (r : Ex .ex) (a : Ex .args) (o : Aop) (e : Ex .ex) (ty : Ttype) : after (.opindex r a o e : Ex .ex) ty = (lets 5 ty && after e ty) := rfl
@[gafter] theorem after_masgn (v : Var) (w : Var) (vs : List Var) (e : Ex .ex) (ty : Ttype) : after (.masgn v w vs e : Ex .ex) ty = (lets 5 ty && after e ty) := rfl
@[gafter] theorem after_masgnL (v : Var) (w : Var) (vs : List Var) (e : Ex .ex) (a : Ex .args) (ty : Ttype) : after (.masgnL v w vs e a : Ex .ex) ty = (lets 5 ty && after a ty) := rfl
@[gafter] theorem after_modi (m : Modi) (l : Ex .ex) (c : Ex .ex) (ty : Ttype) : after (.modi m l c : Ex .ex) ty = (lets 0 ty && after c ty) := rfl
@[gafter] theorem after_rescueM (l : Ex .ex) (r : Ex .ex) (ty : Ttype) : after (.rescueM l r : Ex .ex) ty = (lets 0 ty && after r ty) := rfl
@[gafter] theorem after_if (c : Ex .ex) (a : Ex .sts) (e : Ex .els) (ty : Ttype) : after (.if_ c a e : Ex .ex) ty = (lets 21 ty) := rfl
@[gafter] theorem after_unless (c : Ex .ex) (a : Ex .sts) (e : Ex .part) (ty : Ttype) : after (.unless_ c a e : Ex .ex) ty = (lets 21 ty) := rfl
@[gafter] theorem after_while (neg : Bool) (c : Ex .ex) (a : Ex .sts) (ty : Ttype) : after (.while_ neg c a : Ex .ex) ty = (lets 21 ty) := rfl
@[gafter] theorem after_for (v : Var) (e : Ex .ex) (a : Ex .sts) (ty : Ttype) : after (.for_ v e a : Ex .ex) ty = (lets 21 ty) := rfl
@[gafter] theorem after_case (s : Ex .ex) (ws : Ex .whens) (e : Ex .part) (ty : Ttype) : after (.case_ s ws e : Ex .ex) ty = (lets 21 ty) := rfl
@[gafter] theorem after_case0 (ws : Ex .whens) (e : Ex .part) (ty : Ttype) : after (.case0 ws e : Ex .ex) ty = (lets 21 ty) := rfl
@[gafter] theorem after_begin (b : Ex .sts) (rs : Ex .rescues) (el : Ex .part) (en : Ex .part) (ty : Ttype) : after (.begin_ b rs el en : Ex .ex) ty = (lets 21 ty) := rfl
@[gafter] theorem after_def (slf : Bool) (x : Str) (ps : Ex .prms) (b : Ex .sts) (ty : Ttype) : after (.def_ slf x ps b : Ex .ex) ty = (lets 21 ty) := rfl
@[gafter] theorem after_defE (slf : Bool) (x : Str) (ps : Ex .prms) (e : Ex .ex) (ty : Ttype) : after (.defE slf x ps e : Ex .ex) ty = (lets 0 ty && after e ty) := rfl
@[gafter] theorem after_class (x : Str) (sup : Option Str) (b : Ex .sts) (ty : Ttype) : after (.class_ x sup b : Ex .ex) ty = (lets 21 ty) := rfl
@[gafter] theorem after_module (x : Str) (b : Ex .sts) (ty : Ttype) : after (.module_ x b : Ex .ex) ty = (lets 21 ty) := rfl
@[gafter] theorem after_sclass (e : Ex .ex) (b : Ex .sts) (ty : Ttype) : after (.sclass e b : Ex .ex) ty = (lets 21 ty) := rfl
@[gafter] theorem after_postexe (b : Ex .sts) (ty : Ttype) : after (.postexe b : Ex .ex) ty = (lets 0 ty) := rfl
@[gafter] theorem after_ret0 (ty : Ttype) : after (.ret0 : Ex .ex) ty = decide (ty ∈ [.EndKeyword, .RCurlyBrace, .Semicolon, .Newline, .Eof, .IfKeyword, .UnlessKeyword, .WhileKeyword, .UntilKeyword]) := rfl
@[gafter] theorem after_ret (e : Ex .ex) (ty : Ttype) : after (.ret e : Ex .ex) ty = (lets 5 ty && ty != .HashRocket && after e ty) := rfl
@[gafter] theorem after_jump0 (j : Jump) (ty : Ttype) : after (.jump0 j : Ex .ex) ty = (lets 5 ty && ty != .DoKeyword) := rfl
@[gafter] theorem after_jump (j : Jump) (e : Ex .ex) (ty : Ttype) : after (.jump j e : Ex .ex) ty = (lets 5 ty && after e ty) := rfl
@[gafter] theorem after_snil (ty : Ttype) : after (.snil : Ex .sts) ty = (true) := rfl
@[gafter] theorem after_slast (e : Ex .ex) (ty : Ttype) : after (.slast e : Ex .sts) ty = (after e ty) := rfl
@[gafter] theorem after_scons (e : Ex .ex) (ss : Ex .sts) (ty : Ttype) : after (.scons e ss : Ex .sts) ty = (after e .Semicolon && after ss ty) := rfl
@[gafter] theorem after_anil (ty : Ttype) : after (.anil : Ex .args) ty = (true) := rfl
@[gafter] theorem after_acons (e : Ex .ex) (a : Ex .args) (ty : Ttype) : after (.acons e a : Ex .args) ty = (if a.isNil then after e ty else after e .Comma && after a ty) := rfl
@[gafter] theorem after_asplat (e : Ex .ex) (a : Ex .args) (ty : Ttype) : after (.asplat e a : Ex .args) ty = (if a.isNil then after e ty else after e .Comma && after a ty) := rfl
@[gafter] theorem after_apairs (ps : Ex .pairs) (a : Ex .args) (ty : Ttype) : after (.apairs ps a : Ex .args) ty = (if a.isNil then after ps ty else after ps .Comma && after a ty) := rfl
@[gafter] theorem after_ablk (e : Ex .ex) (ty : Ttype) : after (.ablk e : Ex .args) ty = (lets 0 ty && after e ty) := rfl
@[gafter] theorem after_pnil (ty : Ttype) : after (.pnil : Ex .pairs) ty = (true) := rfl
@[gafter] theorem after_pcons (k : Ex .ex) (v : Ex .ex) (ps : Ex .pairs) (ty : Ttype) : after (.pcons k v ps : Ex .pairs) ty = (if ps.isNil then after v ty else after v .Comma && after ps ty) := rfl
@[gafter] theorem after_pkey (x : Str) (v : Ex .ex) (ps : Ex .pairs) (ty : Ttype) : after (.pkey x v ps : Ex .pairs) ty = (if ps.isNil then after v ty else after v .Comma && after ps ty) := rfl
@[gafter] theorem after_psplat (e : Ex .ex) (ps : Ex .pairs) (ty : Ttype) : after (.psplat e ps : Ex .pairs) ty = (if ps.isNil then after e ty else after e .Comma && after ps ty) := rfl
@[gafter] theorem after_enil (ty : Ttype) : after (.enil : Ex .els) ty = (true) := rfl
@[gafter] theorem after_els (ss : Ex .sts) (ty : Ttype) : after (.els ss : Ex .els) ty = (after ss ty) := rfl
@[gafter] theorem after_elsif (c : Ex .ex) (a : Ex .sts) (e : Ex .els) (ty : Ttype) : after (.elsif c a e : Ex .els) ty = (if e.isNil then after a ty else after e ty) := rfl
@[gafter] theorem after_tnil (ty : Ttype) : after (.tnil : Ex .part) ty = (true) := rfl
@[gafter] theorem after_part (ss : Ex .sts) (ty : Ttype) : after (.part ss : Ex .part) ty = (after ss ty) := rfl
@[gafter] theorem after_wnil (ty : Ttype) : after (.wnil : Ex .whens) ty = (lets 21 ty) := rfl
@[gafter] theorem after_when (a : Ex .args) (b : Ex .sts) (ws : Ex .whens) (ty : Ttype) : after (.when_ a b ws : Ex .whens) ty = (lets 21 ty) := rfl
@[gafter] theorem after_in (p : Top) (b : Ex .sts) (ws : Ex .whens) (ty : Ttype) : after (.in_ p b ws : Ex .whens) ty = (lets 21 ty) := rfl
@[gafter] theorem after_rnil (ty : Ttype) : after (.rnil : Ex .rescues) ty = (lets 21 ty) := rfl
@[gafter] theorem after_resc (a : Ex .args) (v : Option Var) (b : Ex .sts) (rs : Ex .rescues) (ty : Ttype) : after (.resc a v b rs : Ex .rescues) ty = (lets 21 ty) := rfl
@[gafter] theorem after_bnil (ty : Ttype) : after (.bnil : Ex .blk) ty = (lets 21 ty) := rfl
@[gafter] theorem after_bdo (ps : Ex .prms) (b : Ex .sts) (ty : Ttype) : after (.bdo ps b : Ex .blk) ty = (lets 21 ty) := rfl
@[gafter] theorem after_qnil (ty : Ttype) : after (.qnil : Ex .prms) ty = (true) := rfl
@[gafter] theorem after_qname (x : Str) (ps : Ex .prms) (ty : Ttype) : after (.qname x ps : Ex .prms) ty = (after ps ty) := rfl
@[gafter] theorem after_qdef (x : Str) (e : Ex .ex) (ps : Ex .prms) (ty : Ttype) : after (.qdef x e ps : Ex .prms) ty = (if ps.isNil then after e ty else after e .Comma && after ps ty) := rfl
@[gafter] theorem after_qtup (qs : Ex .prms) (ps : Ex .prms) (ty : Ttype) : after (.qtup qs ps : Ex .prms) ty = (after ps ty) := rfl
@[gafter] theorem after_qsplat (o : Option Str) (ps : Ex .prms) (ty : Ttype) : after (.qsplat o ps : Ex .prms) ty = (after ps ty) := rfl
@[gafter] theorem after_qkey (x : Str) (ps : Ex .prms) (ty : Ttype) : after (.qkey x ps : Ex .prms) ty = (after ps ty) := rfl
@[gafter] theorem after_qkeyd (x : Str) (e : Ex .ex) (ps : Ex .prms) (ty : Ttype) : after (.qkeyd x e ps : Ex .prms) ty = (if ps.isNil then after e ty else after e .Comma && after ps ty) := rfl
@[gafter] theorem after_qkws (o : Option Str) (ps : Ex .prms) (ty : Ttype) : after (.qkws o ps : Ex .prms) ty = (after ps ty) := rfl
@[gafter] theorem after_qblk (x : Str) (ty : Ttype) : after (.qblk x : Ex .prms) ty = (true) := rfl

/-! ### `lhs` -/

@[glhs] theorem lhs_int (n : Int) : lhs (.int n : Ex .ex) = (21) := rfl
@[glhs] theorem lhs_str (s : Str) : lhs (.str s : Ex .ex) = (21) := rfl
@[glhs] theorem lhs_sym (x : Str) : lhs (.sym x : Ex .ex) = (21) := rfl
@[glhs] theorem lhs_word (w : Word) : lhs (.word w : Ex .ex) = (21) := rfl
@[glhs] theorem lhs_var (v : Var) : lhs (.var v : Ex .ex) = (21) := rfl
@[glhs] theorem lhs_array (a : Ex .args) : lhs (.array a : Ex .ex) = (21) := rfl
@[glhs] theorem lhs_hash (ps : Ex .pairs) : lhs (.hash ps : Ex .ex) = (21) := rfl
@[glhs] theorem lhs_fcall (x : Str) (a : Ex .args) : lhs (.fcall x a : Ex .ex) = (21) := rfl
@[glhs] theorem lhs_send (safe : Bool) (r : Ex .ex) (m : Str) : lhs (.send safe r m : Ex .ex) = (if (shape r).isInt then min 18 (lhs r) else lhs r) := rfl
@[glhs] theorem lhs_sendA (safe : Bool) (r : Ex .ex) (m : Str) (a : Ex .args) : lhs (.sendA safe r m a : Ex .ex) = (if (shape r).isInt then min 18 (lhs r) else lhs r) := rfl
@[glhs] theorem lhs_cmd (x : Str) (a : Ex .args) (b : Ex .blk) : lhs (.cmd x a b : Ex .ex) = (5) := rfl
@[glhs] theorem lhs_sendC (safe : Bool) (r : Ex .ex) (m : Str) (a : Ex .args) (b : Ex .blk) : lhs (.sendC safe r m a b : Ex .ex) = (min 5 (lhs r)) := rfl
@[glhs] theorem lhs_index (r : Ex .ex) (a : Ex .args) : lhs (.index r a : Ex .ex) = (lhs r) := rfl
@[glhs] theorem lhs_colon2 (r : Ex .ex) (x : Str) : lhs (.colon2 r x : Ex .ex) = (lhs r) := rfl
@[glhs] theorem lhs_colon3 (x : Str) : lhs (.colon3 x : Ex .ex) = (21) := rfl
@[glhs] theorem lhs_super0 : lhs (.super0 : Ex .ex) = (21) := rfl
@[glhs] theorem lhs_superA (a : Ex .args) : lhs (.superA a : Ex .ex) = (21) := rfl
@[glhs] theorem lhs_yield0 : lhs (.yield0 : Ex .ex) = (21) := rfl
@[glhs] theorem lhs_yieldA (a : Ex .args) : lhs (.yieldA a : Ex .ex) = (21) := rfl
@[glhs] theorem lhs_paren (ss : Ex .sts) : lhs (.paren ss : Ex .ex) = (21) := rfl
@[glhs] theorem lhs_block (doo : Bool) (c : Ex .ex) (ps : Ex .prms) (b : Ex .sts) : lhs (.block doo c ps b : Ex .ex) = (lhs c) := rfl
@[glhs] theorem lhs_lam (doo : Bool) (ps : Ex .prms) (b : Ex .sts) : lhs (.lam doo ps b : Ex .ex) = (21) := rfl
@[glhs] theorem lhs_un (o : Uop) (e : Ex .ex) : lhs (.un o e : Ex .ex) = (21) := rfl
@[glhs] theorem lhs_notE (e : Ex .ex) : lhs (.notE e : Ex .ex) = (3) := rfl
@[glhs] theorem lhs_bin (o : Bop) (l : Ex .ex) (r : Ex .ex) : lhs (.bin o l r : Ex .ex) = (min o.level (lhs l)) := rfl
@[glhs] theorem lhs_tern (c : Ex .ex) (a : Ex .ex) (b : Ex .ex) : lhs (.tern c a b : Ex .ex) = (min 7 (lhs c)) := rfl
@[glhs] theorem lhs_asgn (v : Var) (e : Ex .ex) : lhs (.asgn v e : Ex .ex) = (5) := rfl
@[glhs] theorem lhs_opasgn (v : Var) (o : Aop) (e : Ex .ex) : lhs (.opasgn v o e : Ex .ex) = (5) := rfl
@[glhs] theorem lhs_attr (safe : Bool) (r : Ex .ex) (m : Str) (e : Ex .ex) : lhs (.attr safe r m e : Ex .ex) = (min 5 (lhs r)) := rfl
@[glhs] theorem lhs_opattr (safe : Bool) (r : Ex .ex) (m : Str) (o : Aop) (e : Ex .ex) : lhs (.opattr safe r m o e : Ex .ex) = (min 5 (lhs r)) := rfl
@[glhs] theorem lhs_setIndex (r : Ex .ex) (a : Ex .args) (e : Ex .ex) : lhs (.setIndex r a e : Ex .ex) = (min 5 (lhs r)) := rfl
@[glhs] theorem lhs_opindex (r : Ex .ex) (a : Ex .args) (o : Aop) (e : Ex .ex) : lhs (.opindex r a o e : Ex .ex) = (min 5 (lhs r)) := rfl
@[glhs] theorem lhs_masgn (v : Var) (w : Var) (vs : List Var) (e : Ex .ex) : lhs (.masgn v w vs e : Ex .ex) = (0) := rfl
@[glhs] theorem lhs_masgnL (v : Var) (w : Var) (vs : List Var) (e : Ex .ex) (a : Ex .args) : lhs (.masgnL v w vs e a : Ex .ex) = (0) := rfl
@[glhs] theorem lhs_modi (m : Modi) (l : Ex .ex) (c : Ex .ex) : lhs (.modi m l c : Ex .ex) = (min 1 (lhs l)) := rfl
@[glhs] theorem lhs_rescueM (l : Ex .ex) (r : Ex .ex) : lhs (.rescueM l r : Ex .ex) = (min 5 (lhs l)) := rfl
@[glhs] theorem lhs_if (c : Ex .ex) (a : Ex .sts) (e : Ex .els) : lhs (.if_ c a e : Ex .ex) = (21) := rfl
@[glhs] theorem lhs_unless (c : Ex .ex) (a : Ex .sts) (e : Ex .part) : lhs (.unless_ c a e : Ex .ex) = (21) := rfl
@[glhs] theorem lhs_while (neg : Bool) (c : Ex .ex) (a : Ex .sts) : lhs (.while_ neg c a : Ex .ex) = (21) := rfl
@[glhs] theorem lhs_for (v : Var) (e : Ex .ex) (a : Ex .sts) : lhs (.for_ v e a : Ex .ex) = (21) := rfl
@[glhs] theorem lhs_case (s : Ex .ex) (ws : Ex .whens) (e : Ex .part) : lhs (.case_ s ws e : Ex .ex) = (21) := rfl
@[glhs] theorem lhs_case0 (ws : Ex .whens) (e : Ex .part) : lhs (.case0 ws e : Ex .ex) = (21) := rfl
@[glhs] theorem lhs_begin (b : Ex .sts) (rs : Ex .rescues) (el : Ex .part) (en : Ex .part) : lhs (.begin_ b rs el en : Ex .ex) = (21) := rfl
@[glhs] theorem lhs_def (slf : Bool) (x : Str) (ps : Ex .prms) (b : Ex .sts) : lhs (.def_ slf x ps b : Ex .ex) = (21) := rfl
@[glhs] theorem lhs_defE (slf : Bool) (x : Str) (ps : Ex .prms) (e : Ex .ex) : lhs (.defE slf x ps e : Ex .ex) = (5) := rfl
@[glhs] theorem lhs_class (x : Str) (sup : Option Str) (b : Ex .sts) : lhs (.class_ x sup b : Ex .ex) = (21) := rfl
@[glhs] theorem lhs_module (x : Str) (b : Ex .sts) : lhs (.module_ x b : Ex .ex) = (21) := rfl
@[glhs] theorem lhs_sclass (e : Ex .ex) (b : Ex .sts) : lhs (.sclass e b : Ex .ex) = (21) := rfl
@[glhs] theorem lhs_postexe (b : Ex .sts) : lhs (.postexe b : Ex .ex) = (0) := rfl
@[glhs] theorem lhs_ret0 : lhs (.ret0 : Ex .ex) = (3) := rfl
@[glhs] theorem lhs_ret (e : Ex .ex) : lhs (.ret e : Ex .ex) = (3) := rfl
@[glhs] theorem lhs_jump0 (j : Jump) : lhs (.jump0 j : Ex .ex) = (3) := rfl
@[glhs] theorem lhs_jump (j : Jump) (e : Ex .ex) : lhs (.jump j e : Ex .ex) = (3) := rfl
@[glhs] theorem lhs_snil : lhs (.snil : Ex .sts) = (21) := rfl
@[glhs] theorem lhs_slast (e : Ex .ex) : lhs (.slast e : Ex .sts) = (21) := rfl
@[glhs] theorem lhs_scons (e : Ex .ex) (ss : Ex .sts) : lhs (.scons e ss : Ex .sts) = (21) := rfl
@[glhs] theorem lhs_anil : lhs (.anil : Ex .args) = (21) := rfl
@[glhs] theorem lhs_acons (e : Ex .ex) (a : Ex .args) : lhs (.acons e a : Ex .args) = (21) := rfl
@[glhs] theorem lhs_asplat (e : Ex .ex) (a : Ex .args) : lhs (.asplat e a : Ex .args) = (21) := rfl
@[glhs] theorem lhs_apairs (ps : Ex .pairs) (a : Ex .args) : lhs (.apairs ps a : Ex .args) = (21) := rfl
@[glhs] theorem lhs_ablk (e : Ex .ex) : lhs (.ablk e : Ex .args) = (21) := rfl
@[glhs] theorem lhs_pnil : lhs (.pnil : Ex .pairs) = (21) := rfl
@[glhs] theorem lhs_pcons (k : Ex .ex) (v : Ex .ex) (ps : Ex .pairs) : lhs (.pcons k v ps : Ex .pairs) = (21) := rfl
@[glhs] theorem lhs_pkey (x : Str) (v : Ex .ex) (ps : Ex .pairs) : lhs (.pkey x v ps : Ex .pairs) = (21) := rfl
@[glhs] theorem lhs_psplat (e : Ex .ex) (ps : Ex .pairs) : lhs (.psplat e ps : Ex .pairs) = (21) := rfl
@[glhs] theorem lhs_enil : lhs (.enil : Ex .els) = (21) := rfl
@[glhs] theorem lhs_els (ss : Ex .sts) : lhs (.els ss : Ex .els) = (21) := rfl
@[glhs] theorem lhs_elsif (c : Ex .ex) (a : Ex .sts) (e : Ex .els) : lhs (.elsif c a e : Ex .els) = (21) := rfl
@[glhs] theorem lhs_tnil : lhs (.tnil : Ex .part) = (21) := rfl
@[glhs] theorem lhs_part (ss : Ex .sts) : lhs (.part ss : Ex .part) = (21) := rfl
@[glhs] theorem lhs_wnil : lhs (.wnil : Ex .whens) = (21) := rfl
@[glhs] theorem lhs_when (a : Ex .args) (b : Ex .sts) (ws : Ex .whens) : lhs (.when_ a b ws : Ex .whens) = (21) := rfl
@[glhs] theorem lhs_in (p : Top) (b : Ex .sts) (ws : Ex .whens) : lhs (.in_ p b ws : Ex .whens) = (21) := rfl
@[glhs] theorem lhs_rnil : lhs (.rnil : Ex .rescues) = (21) := rfl
@[glhs] theorem lhs_resc (a : Ex .args) (v : Option Var) (b : Ex .sts) (rs : Ex .rescues) : lhs (.resc a v b rs : Ex .rescues) = (21) := rfl
@[glhs] theorem lhs_bnil : lhs (.bnil : Ex .blk) = (21) := rfl
@[glhs] theorem lhs_bdo (ps : Ex .prms) (b : Ex .sts) : lhs (.bdo ps b : Ex .blk) = (21) := rfl
@[glhs] theorem lhs_qnil : lhs (.qnil : Ex .prms) = (21) := rfl
@[glhs] theorem lhs_qname (x : Str) (ps : Ex .prms) : lhs (.qname x ps : Ex .prms) = (21) := rfl
@[glhs] theorem lhs_qdef (x : Str) (e : Ex .ex) (ps : Ex .prms) : lhs (.qdef x e ps : Ex .prms) = (21) := rfl
@[glhs] theorem lhs_qtup (qs : Ex .prms) (ps : Ex .prms) : lhs (.qtup qs ps : Ex .prms) = (21) := rfl
@[glhs] theorem lhs_qsplat (o : Option Str) (ps : Ex .prms) : lhs (.qsplat o ps : Ex .prms) = (21) := rfl
@[glhs] theorem lhs_qkey (x : Str) (ps : Ex .prms) : lhs (.qkey x ps : Ex .prms) = (21) := rfl
@[glhs] theorem lhs_qkeyd (x : Str) (e : Ex .ex) (ps : Ex .prms) : lhs (.qkeyd x e ps : Ex .prms) = (21) := rfl
@[glhs] theorem lhs_qkws (o : Option Str) (ps : Ex .prms) : lhs (.qkws o ps : Ex .prms) = (21) := rfl
@[glhs] theorem lhs_qblk (x : Str) : lhs (.qblk x : Ex .prms) = (21) := rfl

/-! ### `hasDo` -/

@[gdo] theorem hasDo_int (n : Int) : hasDo (.int n : Ex .ex) = (false) := rfl
@[gdo] theorem hasDo_str (s : Str) : hasDo (.str s : Ex .ex) = (false) := rfl
@[gdo] theorem hasDo_sym (x : Str) : hasDo (.sym x : Ex .ex) = (false) := rfl
@[gdo] theorem hasDo_word (w : Word) : hasDo (.word w : Ex .ex) = (false) := rfl
@[gdo] theorem hasDo_var (v : Var) : hasDo (.var v : Ex .ex) = (false) := rfl
@[gdo] theorem hasDo_array (a : Ex .args) : hasDo (.array a : Ex .ex) = (false) := rfl
@[gdo] theorem hasDo_hash (ps : Ex .pairs) : hasDo (.hash ps : Ex .ex) = (hasDo ps) := rfl
@[gdo] theorem hasDo_fcall (x : Str) (a : Ex .args) : hasDo (.fcall x a : Ex .ex) = (hasDo a) := rfl
@[gdo] theorem hasDo_send (safe : Bool) (r : Ex .ex) (m : Str) : hasDo (.send safe r m : Ex .ex) = (hasDo r) := rfl
@[gdo] theorem hasDo_sendA (safe : Bool) (r : Ex .ex) (m : Str) (a : Ex .args) : hasDo (.sendA safe r m a : Ex .ex) = (hasDo r || hasDo a) := rfl
@[gdo] theorem hasDo_cmd (x : Str) (a : Ex .args) (b : Ex .blk) : hasDo (.cmd x a b : Ex .ex) = (!b.isNil) := rfl
@[gdo] theorem hasDo_sendC (safe : Bool) (r : Ex .ex) (m : Str) (a : Ex .args) (b : Ex .blk) : hasDo (.sendC safe r m a b : Ex .ex) = (hasDo r || !b.isNil) := rfl
@[gdo] theorem hasDo_index (r : Ex .ex) (a : Ex .args) : hasDo (.index r a : Ex .ex) = (hasDo r || hasDo a) := rfl
@[gdo] theorem hasDo_colon2 (r : Ex .ex) (x : Str) : hasDo (.colon2 r x : Ex .ex) = (hasDo r) := rfl
@[gdo] theorem hasDo_colon3 (x : Str) : hasDo (.colon3 x : Ex .ex) = (false) := rfl
@[gdo] theorem hasDo_super0 : hasDo (.super0 : Ex .ex) = (false) := rfl
@[gdo] theorem hasDo_superA (a : Ex .args) : hasDo (.superA a : Ex .ex) = (hasDo a) := rfl
@[gdo] theorem hasDo_yield0 : hasDo (.yield0 : Ex .ex) = (false) := rfl
@[gdo] theorem hasDo_yieldA (a : Ex .args) : hasDo (.yieldA a : Ex .ex) = (hasDo a) := rfl
@[gdo] theorem hasDo_paren (ss : Ex .sts) : hasDo (.paren ss : Ex .ex) = (false) := rfl
@[gdo] theorem hasDo_block (d : Bool) (c : Ex .ex) (ps : Ex .prms) (b : Ex .sts) : hasDo (.block d c ps b : Ex .ex) = (d || hasDo c || hasDo ps) := rfl
@[gdo] theorem hasDo_lam (doo : Bool) (ps : Ex .prms) (b : Ex .sts) : hasDo (.lam doo ps b : Ex .ex) = (hasDo ps) := rfl
@[gdo] theorem hasDo_un (o : Uop) (e : Ex .ex) : hasDo (.un o e : Ex .ex) = (hasDo e) := rfl
@[gdo] theorem hasDo_notE (e : Ex .ex) : hasDo (.notE e : Ex .ex) = (hasDo e) := rfl
@[gdo] theorem hasDo_bin (o : Bop) (l : Ex .ex) (r : Ex .ex) : hasDo (.bin o l r : Ex .ex) = (hasDo l || hasDo r) := rfl
@[gdo] theorem hasDo_tern (c : Ex .ex) (a : Ex .ex) (b : Ex .ex) : hasDo (.tern c a b : Ex .ex) = (hasDo c || hasDo a || hasDo b) := rfl
@[gdo] theorem hasDo_asgn (v : Var) (e : Ex .ex) : hasDo (.asgn v e : Ex .ex) = (hasDo e) := rfl
@[gdo] theorem hasDo_opasgn (v : Var) (o : Aop) (e : Ex .ex) : hasDo (.opasgn v o e : Ex .ex) = (hasDo e) := rfl
@[gdo] theorem hasDo_attr (safe : Bool) (r : Ex .ex) (m : Str) (e : Ex .ex) : hasDo (.attr safe r m e : Ex .ex) = (hasDo r || hasDo e) := rfl
@[gdo] theorem hasDo_opattr (safe : Bool) (r : Ex .ex) (m : Str) (o : Aop) (e : Ex .ex) : hasDo (.opattr safe r m o e : Ex .ex) = (hasDo r || hasDo e) := rfl
@[gdo] theorem hasDo_setIndex (r : Ex .ex) (a : Ex .args) (e : Ex .ex) : hasDo (.setIndex r a e : Ex .ex) = (hasDo r || hasDo a || hasDo e) := rfl
@[gdo] theorem hasDo_opindex (r : Ex .ex) (a : Ex .args) (o : Aop) (e : Ex .ex) : hasDo (.opindex r a o e : Ex .ex) = (hasDo r || hasDo a || hasDo e) := rfl
@[gdo] theorem hasDo_masgn (v : Var) (w : Var) (vs : List Var) (e : Ex .ex) : hasDo (.masgn v w vs e : Ex .ex) = (hasDo e) := rfl
@[gdo] theorem hasDo_masgnL (v : Var) (w : Var) (vs : List Var) (e : Ex .ex) (a : Ex .args) : hasDo (.masgnL v w vs e a : Ex .ex) = (hasDo e || hasDo a) := rfl
@[gdo] theorem hasDo_modi (m : Modi) (l : Ex .ex) (c : Ex .ex) : hasDo (.modi m l c : Ex .ex) = (hasDo l || hasDo c) := rfl
@[gdo] theorem hasDo_rescueM (l : Ex .ex) (r : Ex .ex) : hasDo (.rescueM l r : Ex .ex) = (hasDo l || hasDo r) := rfl
@[gdo] theorem hasDo_if (c : Ex .ex) (a : Ex .sts) (e : Ex .els) : hasDo (.if_ c a e : Ex .ex) = (hasDo c || hasDo a || hasDo e) := rfl
@[gdo] theorem hasDo_unless (c : Ex .ex) (a : Ex .sts) (e : Ex .part) : hasDo (.unless_ c a e : Ex .ex) = (hasDo c || hasDo a || hasDo e) := rfl
@[gdo] theorem hasDo_while (neg : Bool) (c : Ex .ex) (a : Ex .sts) : hasDo (.while_ neg c a : Ex .ex) = (false) := rfl
@[gdo] theorem hasDo_for (v : Var) (e : Ex .ex) (a : Ex .sts) : hasDo (.for_ v e a : Ex .ex) = (false) := rfl
@[gdo] theorem hasDo_case (s : Ex .ex) (ws : Ex .whens) (e : Ex .part) : hasDo (.case_ s ws e : Ex .ex) = (hasDo s || hasDo ws) := rfl
@[gdo] theorem hasDo_case0 (ws : Ex .whens) (e : Ex .part) : hasDo (.case0 ws e : Ex .ex) = (hasDo ws) := rfl
@[gdo] theorem hasDo_begin (b : Ex .sts) (rs : Ex .rescues) (el : Ex .part) (en : Ex .part) : hasDo (.begin_ b rs el en : Ex .ex) = (hasDo rs) := rfl
@[gdo] theorem hasDo_def (slf : Bool) (x : Str) (ps : Ex .prms) (b : Ex .sts) : hasDo (.def_ slf x ps b : Ex .ex) = (hasDo ps) := rfl
@[gdo] theorem hasDo_defE (slf : Bool) (x : Str) (ps : Ex .prms) (e : Ex .ex) : hasDo (.defE slf x ps e : Ex .ex) = (hasDo ps || hasDo e) := rfl
@[gdo] theorem hasDo_class (x : Str) (sup : Option Str) (b : Ex .sts) : hasDo (.class_ x sup b : Ex .ex) = (false) := rfl
@[gdo] theorem hasDo_module (x : Str) (b : Ex .sts) : hasDo (.module_ x b : Ex .ex) = (false) := rfl
@[gdo] theorem hasDo_sclass (e : Ex .ex) (b : Ex .sts) : hasDo (.sclass e b : Ex .ex) = (hasDo e) := rfl
@[gdo] theorem hasDo_postexe (b : Ex .sts) : hasDo (.postexe b : Ex .ex) = (false) := rfl
@[gdo] theorem hasDo_ret0 : hasDo (.ret0 : Ex .ex) = (false) := rfl
@[gdo] theorem hasDo_ret (e : Ex .ex) : hasDo (.ret e : Ex .ex) = (hasDo e) := rfl
@[gdo] theorem hasDo_jump0 (j : Jump) : hasDo (.jump0 j : Ex .ex) = (false) := rfl
@[gdo] theorem hasDo_jump (j : Jump) (e : Ex .ex) : hasDo (.jump j e : Ex .ex) = (hasDo e) := rfl
@[gdo] theorem hasDo_snil : hasDo (.snil : Ex .sts) = (false) := rfl
@[gdo] theorem hasDo_slast (e : Ex .ex) : hasDo (.slast e : Ex .sts) = (hasDo e) := rfl
@[gdo] theorem hasDo_scons (e : Ex .ex) (ss : Ex .sts) : hasDo (.scons e ss : Ex .sts) = (hasDo e || hasDo ss) := rfl
@[gdo] theorem hasDo_anil : hasDo (.anil : Ex .args) = (false) := rfl
@[gdo] theorem hasDo_acons (e : Ex .ex) (a : Ex .args) : hasDo (.acons e a : Ex .args) = (hasDo e || hasDo a) := rfl
@[gdo] theorem hasDo_asplat (e : Ex .ex) (a : Ex .args) : hasDo (.asplat e a : Ex .args) = (hasDo e || hasDo a) := rfl
@[gdo] theorem hasDo_apairs (ps : Ex .pairs) (a : Ex .args) : hasDo (.apairs ps a : Ex .args) = (hasDo ps || hasDo a) := rfl
@[gdo] theorem hasDo_ablk (e : Ex .ex) : hasDo (.ablk e : Ex .args) = (hasDo e) := rfl
@[gdo] theorem hasDo_pnil : hasDo (.pnil : Ex .pairs) = (false) := rfl
@[gdo] theorem hasDo_pcons (k : Ex .ex) (v : Ex .ex) (ps : Ex .pairs) : hasDo (.pcons k v ps : Ex .pairs) = (hasDo k || hasDo v || hasDo ps) := rfl
@[gdo] theorem hasDo_pkey (x : Str) (v : Ex .ex) (ps : Ex .pairs) : hasDo (.pkey x v ps : Ex .pairs) = (hasDo v || hasDo ps) := rfl
@[gdo] theorem hasDo_psplat (e : Ex .ex) (ps : Ex .pairs) : hasDo (.psplat e ps : Ex .pairs) = (hasDo e || hasDo ps) := rfl
@[gdo] theorem hasDo_enil : hasDo (.enil : Ex .els) = (false) := rfl
@[gdo] theorem hasDo_els (ss : Ex .sts) : hasDo (.els ss : Ex .els) = (hasDo ss) := rfl
@[gdo] theorem hasDo_elsif (c : Ex .ex) (a : Ex .sts) (e : Ex .els) : hasDo (.elsif c a e : Ex .els) = (hasDo c || hasDo a || hasDo e) := rfl
@[gdo] theorem hasDo_tnil : hasDo (.tnil : Ex .part) = (false) := rfl
@[gdo] theorem hasDo_part (ss : Ex .sts) : hasDo (.part ss : Ex .part) = (hasDo ss) := rfl
@[gdo] theorem hasDo_wnil : hasDo (.wnil : Ex .whens) = (false) := rfl
@[gdo] theorem hasDo_when (a : Ex .args) (b : Ex .sts) (ws : Ex .whens) : hasDo (.when_ a b ws : Ex .whens) = (hasDo a || hasDo b || hasDo ws) := rfl
@[gdo] theorem hasDo_in (p : Top) (b : Ex .sts) (ws : Ex .whens) : hasDo (.in_ p b ws : Ex .whens) = (hasDo b || hasDo ws) := rfl
@[gdo] theorem hasDo_rnil : hasDo (.rnil : Ex .rescues) = (false) := rfl
@[gdo] theorem hasDo_resc (a : Ex .args) (v : Option Var) (b : Ex .sts) (rs : Ex .rescues) : hasDo (.resc a v b rs : Ex .rescues) = (hasDo a || hasDo rs) := rfl
@[gdo] theorem hasDo_bnil : hasDo (.bnil : Ex .blk) = (false) := rfl
@[gdo] theorem hasDo_bdo (ps : Ex .prms) (b : Ex .sts) : hasDo (.bdo ps b : Ex .blk) = (false) := rfl
@[gdo] theorem hasDo_qnil : hasDo (.qnil : Ex .prms) = (false) := rfl
@[gdo] theorem hasDo_qname (x : Str) (ps : Ex .prms) : hasDo (.qname x ps : Ex .prms) = (hasDo ps) := rfl
@[gdo] theorem hasDo_qdef (x : Str) (e : Ex .ex) (ps : Ex .prms) : hasDo (.qdef x e ps : Ex .prms) = (hasDo e || hasDo ps) := rfl
@[gdo] theorem hasDo_qtup (qs : Ex .prms) (ps : Ex .prms) : hasDo (.qtup qs ps : Ex .prms) = (hasDo qs || hasDo ps) := rfl
@[gdo] theorem hasDo_qsplat (o : Option Str) (ps : Ex .prms) : hasDo (.qsplat o ps : Ex .prms) = (hasDo ps) := rfl
@[gdo] theorem hasDo_qkey (x : Str) (ps : Ex .prms) : hasDo (.qkey x ps : Ex .prms) = (hasDo ps) := rfl
@[gdo] theorem hasDo_qkeyd (x : Str) (e : Ex .ex) (ps : Ex .prms) : hasDo (.qkeyd x e ps : Ex .prms) = (hasDo e || hasDo ps) := rfl
@[gdo] theorem hasDo_qkws (o : Option Str) (ps : Ex .prms) : hasDo (.qkws o ps : Ex .prms) = (hasDo ps) := rfl
@[gdo] theorem hasDo_qblk (x : Str) : hasDo (.qblk x : Ex .prms) = (false) := rfl

/-! ### `WF` -/

@[gwf] theorem WF_int (L : List Str) (n : Int) : WF L (.int n : Ex .ex) = (true) := rfl
@[gwf] theorem WF_str (L : List Str) (s : Str) : WF L (.str s : Ex .ex) = (true) := rfl
@[gwf] theorem WF_sym (L : List Str) (x : Str) : WF L (.sym x : Ex .ex) = (true) := rfl
@[gwf] theorem WF_word (L : List Str) (w : Word) : WF L (.word w : Ex .ex) = (true) := rfl
@[gwf] theorem WF_var (L : List Str) (v : Var) : WF L (.var v : Ex .ex) = (true) := rfl
@[gwf] theorem WF_array (L : List Str) (a : Ex .args) : WF L (.array a : Ex .ex) = (WF L a && after a .RBracket && blockless a && unsplat a) := rfl
@[gwf] theorem WF_hash (L : List Str) (ps : Ex .pairs) : WF L (.hash ps : Ex .ex) = (WF L ps && after ps .RCurlyBrace) := rfl
@[gwf] theorem WF_fcall (L : List Str) (x : Str) (a : Ex .args) : WF L (.fcall x a : Ex .ex) = (WF L a && after a .RParen) := rfl
@[gwf] theorem WF_send (L : List Str) (safe : Bool) (r : Ex .ex) (m : Str) : WF L (.send safe r m : Ex .ex) = (WF L r && after r (dot safe).p.type) := rfl
@[gwf] theorem WF_sendA (L : List Str) (safe : Bool) (r : Ex .ex) (m : Str) (a : Ex .args) : WF L (.sendA safe r m a : Ex .ex) = (WF L r && after r (dot safe).p.type && WF (out L r) a && after a .RParen) := rfl
@[gwf] theorem WF_cmd (L : List Str) (x : Str) (a : Ex .args) (b : Ex .blk) : WF L (.cmd x a b : Ex .ex) = (x ∉ L && WF L a && cmdStart (start a) && !hasDo a && after a .DoKeyword && WF (out L a) b &&
      (b.isNil || blockless a && !noBlock x)) := rfl
@[gwf] theorem WF_sendC (L : List Str) (safe : Bool) (r : Ex .ex) (m : Str) (a : Ex .args) (b : Ex .blk) : WF L (.sendC safe r m a b : Ex .ex) = (WF L r && after r (dot safe).p.type && WF (out L r) a && cmdStart (start a) && !hasDo a &&
      after a .DoKeyword && WF (out (out L r) a) b && (b.isNil || blockless a && !noBlock m)) := rfl
@[gwf] theorem WF_index (L : List Str) (r : Ex .ex) (a : Ex .args) : WF L (.index r a : Ex .ex) = (WF L r && after r .LBracket && WF (out L r) a && after a .RBracket && blockless a && !a.isNil) := rfl
@[gwf] theorem WF_colon2 (L : List Str) (r : Ex .ex) (x : Str) : WF L (.colon2 r x : Ex .ex) = (WF L r && after r .ConstantResolution) := rfl
@[gwf] theorem WF_colon3 (L : List Str) (x : Str) : WF L (.colon3 x : Ex .ex) = (true) := rfl
@[gwf] theorem WF_super0 (L : List Str) : WF L (.super0 : Ex .ex) = (true) := rfl
@[gwf] theorem WF_superA (L : List Str) (a : Ex .args) : WF L (.superA a : Ex .ex) = (WF L a && after a .RParen) := rfl
@[gwf] theorem WF_yield0 (L : List Str) : WF L (.yield0 : Ex .ex) = (true) := rfl
@[gwf] theorem WF_yieldA (L : List Str) (a : Ex .args) : WF L (.yieldA a : Ex .ex) = (WF L a && after a .RParen && blockless a) := rfl
@[gwf] theorem WF_paren (L : List Str) (ss : Ex .sts) : WF L (.paren ss : Ex .ex) = (WF L ss && after ss .RParen) := rfl
@[gwf] theorem WF_block (L : List Str) (d : Bool) (c : Ex .ex) (ps : Ex .prms) (b : Ex .sts) : WF L (.block d c ps b : Ex .ex) = (WF L c && callee L c && WF (out L c) ps && ordered 0 ps && after ps .Pipe &&
      WF (out (out L c) ps) b && after b (close d).p.type) := rfl
@[gwf] theorem WF_lam (L : List Str) (d : Bool) (ps : Ex .prms) (b : Ex .sts) : WF L (.lam d ps b : Ex .ex) = (WF L ps && ordered 0 ps && after ps .RParen && WF (out L ps) b && after b (close d).p.type) := rfl
@[gwf] theorem WF_un (L : List Str) (o : Uop) (e : Ex .ex) : WF L (.un o e : Ex .ex) = (WF L e && o.need ≤ lhs e && !((o == .neg || o == .pos) && (shape e).isInt)) := rfl
@[gwf] theorem WF_notE (L : List Str) (e : Ex .ex) : WF L (.notE e : Ex .ex) = (WF L e && 11 ≤ lhs e) := rfl
@[gwf] theorem WF_bin (L : List Str) (o : Bop) (l : Ex .ex) (r : Ex .ex) : WF L (.bin o l r : Ex .ex) = (WF L l && WF (out L l) r && after l o.type && o.needR ≤ lhs r) := rfl
@[gwf] theorem WF_tern (L : List Str) (c : Ex .ex) (a : Ex .ex) (b : Ex .ex) : WF L (.tern c a b : Ex .ex) = (WF L c && WF (out L c) a && WF (out (out L c) a) b && after c .TernaryQuestion && 7 ≤ lhs a &&
      after a .TernaryColon && 7 ≤ lhs b) := rfl
@[gwf] theorem WF_asgn (L : List Str) (v : Var) (e : Ex .ex) : WF L (.asgn v e : Ex .ex) = (WF (v.bind L) e && 5 ≤ lhs e) := rfl
@[gwf] theorem WF_opasgn (L : List Str) (v : Var) (o : Aop) (e : Ex .ex) : WF L (.opasgn v o e : Ex .ex) = (WF (v.bind L) e && 5 ≤ lhs e) := rfl
@[gwf] theorem WF_attr (L : List Str) (safe : Bool) (r : Ex .ex) (m : Str) (e : Ex .ex) : WF L (.attr safe r m e : Ex .ex) = (WF L r && after r (dot safe).p.type && WF (out L r) e && 5 ≤ lhs e) := rfl
@[gwf] theorem WF_opattr (L : List Str) (safe : Bool) (r : Ex .ex) (m : Str) (o : Aop) (e : Ex .ex) : WF L (.opattr safe r m o e : Ex .ex) = (WF L r && after r (dot safe).p.type && WF (out L r) e && 7 ≤ lhs e && m != cs! "[]") := rfl
@[gwf] theorem WF_setIndex (L : List Str) (r : Ex .ex) (a : Ex .args) (e : Ex .ex) : WF L (.setIndex r a e : Ex .ex) = (WF L r && after r .LBracket && WF (out L r) a && after a .RBracket && blockless a &&
      !a.isNil && WF (out (out L r) a) e && 5 ≤ lhs e) := rfl
@[gwf] theorem WF_opindex (L : List Str) (r : Ex .ex) (a : Ex .args) (o : Aop) (e : Ex .ex) : WF L (.opindex r a o e : Ex .ex) = (WF L r && after r .LBracket && WF (out L r) a && after a .RBracket && blockless a &&
      !a.isNil && WF (out (out L r) a) e && 7 ≤ lhs e) := rfl
@[gwf] theorem WF_masgn (L : List Str) (v : Var) (w : Var) (vs : List Var) (e : Ex .ex) : WF L (.masgn v w vs e : Ex .ex) = (WF (binds L (v :: w :: vs)) e && 5 ≤ lhs e) := rfl
@[gwf] theorem WF_masgnL (L : List Str) (v : Var) (w : Var) (vs : List Var) (e : Ex .ex) (a : Ex .args) : WF L (.masgnL v w vs e a : Ex .ex) = (WF (binds L (v :: w :: vs)) e && 7 ≤ lhs e && after e .Comma &&
      WF (out (binds L (v :: w :: vs)) e) a && values a && !a.isNil) := rfl
@[gwf] theorem WF_modi (L : List Str) (m : Modi) (l : Ex .ex) (c : Ex .ex) : WF L (.modi m l c : Ex .ex) = (WF L l && WF (out L l) c && after l m.type && 2 ≤ lhs c &&
      !((m == .while_ || m == .until_) && (shape l == .block || shape l == .begin_))) := rfl
@[gwf] theorem WF_rescueM (L : List Str) (l : Ex .ex) (r : Ex .ex) : WF L (.rescueM l r : Ex .ex) = (WF L l && WF (out L l) r && after l .RescueKeyword && 5 ≤ lhs r) := rfl
@[gwf] theorem WF_if (L : List Str) (c : Ex .ex) (a : Ex .sts) (e : Ex .els) : WF L (.if_ c a e : Ex .ex) = (WF L c && WF (out L c) a && WF (out (out L c) a) e && after c .ThenKeyword && after a e.head &&
      after e .EndKeyword) := rfl
@[gwf] theorem WF_unless (L : List Str) (c : Ex .ex) (a : Ex .sts) (e : Ex .part) : WF L (.unless_ c a e : Ex .ex) = (WF L c && WF (out L c) a && WF (out (out L c) a) e && after c .ThenKeyword && after a e.head &&
      after e .EndKeyword) := rfl
@[gwf] theorem WF_while (L : List Str) (neg : Bool) (c : Ex .ex) (a : Ex .sts) : WF L (.while_ neg c a : Ex .ex) = (WF L c && !hasDo c && WF (out L c) a && after c .Semicolon && after a .EndKeyword) := rfl
@[gwf] theorem WF_for (L : List Str) (v : Var) (e : Ex .ex) (a : Ex .sts) : WF L (.for_ v e a : Ex .ex) = (WF (v.bind L) e && !hasDo e && 7 ≤ lhs e && after e .Semicolon && WF (out (v.bind L) e) a &&
      after a .EndKeyword) := rfl
@[gwf] theorem WF_case (L : List Str) (s : Ex .ex) (ws : Ex .whens) (e : Ex .part) : WF L (.case_ s ws e : Ex .ex) = (WF L s && 1 ≤ lhs s && after s .Semicolon && WF (out L s) ws && !ws.isNil && WF (out (out L s) ws) e &&
      (match e with
        | .part .snil => false
        | _ => true) && after e .EndKeyword) := rfl
@[gwf] theorem WF_case0 (L : List Str) (ws : Ex .whens) (e : Ex .part) : WF L (.case0 ws e : Ex .ex) = (WF L ws && clause ws == .WhenKeyword && WF (out L ws) e &&
      (match e with
        | .part .snil => false
        | _ => true) && after e .EndKeyword) := rfl
@[gwf] theorem WF_begin (L : List Str) (b : Ex .sts) (rs : Ex .rescues) (el : Ex .part) (en : Ex .part) : WF L (.begin_ b rs el en : Ex .ex) = (WF L b && closed b && WF (out L b) rs && WF (out (out L b) rs) el && closed el &&
      WF (out (out (out L b) rs) el) en && closed en && !(rs.isNil && en.isNil) && !(rs.isNil && !el.isNil)) := rfl
@[gwf] theorem WF_def (L : List Str) (slf : Bool) (x : Str) (ps : Ex .prms) (b : Ex .sts) : WF L (.def_ slf x ps b : Ex .ex) = (WF [] ps && ordered 0 ps && after ps .RParen && WF (out [] ps) b && after b .EndKeyword) := rfl
@[gwf] theorem WF_defE (L : List Str) (slf : Bool) (x : Str) (ps : Ex .prms) (e : Ex .ex) : WF L (.defE slf x ps e : Ex .ex) = (WF [] ps && ordered 0 ps && after ps .RParen && WF (out [] ps) e && 5 ≤ lhs e && x.getLast? != some '=') := rfl
@[gwf] theorem WF_class (L : List Str) (x : Str) (sup : Option Str) (b : Ex .sts) : WF L (.class_ x sup b : Ex .ex) = (WF [] b && after b .EndKeyword) := rfl
@[gwf] theorem WF_module (L : List Str) (x : Str) (b : Ex .sts) : WF L (.module_ x b : Ex .ex) = (WF [] b && after b .EndKeyword) := rfl
@[gwf] theorem WF_sclass (L : List Str) (e : Ex .ex) (b : Ex .sts) : WF L (.sclass e b : Ex .ex) = (WF L e && 7 ≤ lhs e && after e .Semicolon && WF (out L e) b && after b .EndKeyword &&
      (out L e).isEmpty && (out (out L e) b).isEmpty) := rfl
@[gwf] theorem WF_postexe (L : List Str) (b : Ex .sts) : WF L (.postexe b : Ex .ex) = (WF L b && after b .RCurlyBrace && (out L b).length == L.length) := rfl
@[gwf] theorem WF_ret0 (L : List Str) : WF L (.ret0 : Ex .ex) = (true) := rfl
@[gwf] theorem WF_ret (L : List Str) (e : Ex .ex) : WF L (.ret e : Ex .ex) = (WF L e && 7 ≤ lhs e && !modifier (start e)) := rfl
@[gwf] theorem WF_jump0 (L : List Str) (j : Jump) : WF L (.jump0 j : Ex .ex) = (true) := rfl
@[gwf] theorem WF_jump (L : List Str) (j : Jump) (e : Ex .ex) : WF L (.jump j e : Ex .ex) = (WF L e && 7 ≤ lhs e && jumpStart (start e)) := rfl
@[gwf] theorem WF_snil (L : List Str) : WF L (.snil : Ex .sts) = (true) := rfl
@[gwf] theorem WF_slast (L : List Str) (e : Ex .ex) : WF L (.slast e : Ex .sts) = (WF L e) := rfl
@[gwf] theorem WF_scons (L : List Str) (e : Ex .ex) (ss : Ex .sts) : WF L (.scons e ss : Ex .sts) = (WF L e && WF (out L e) ss && after e .Semicolon) := rfl
@[gwf] theorem WF_anil (L : List Str) : WF L (.anil : Ex .args) = (true) := rfl
@[gwf] theorem WF_acons (L : List Str) (e : Ex .ex) (a : Ex .args) : WF L (.acons e a : Ex .args) = (WF L e && WF (out L e) a && 7 ≤ lhs e && (a.isNil || after e .Comma)) := rfl
@[gwf] theorem WF_asplat (L : List Str) (e : Ex .ex) (a : Ex .args) : WF L (.asplat e a : Ex .args) = (WF L e && WF (out L e) a && 11 ≤ lhs e && (a.isNil || after e .Comma)) := rfl
@[gwf] theorem WF_apairs (L : List Str) (ps : Ex .pairs) (a : Ex .args) : WF L (.apairs ps a : Ex .args) = (WF L ps && !ps.isNil && WF (out L ps) a && (a.isNil || after ps .Comma) &&
      (match a with
        | .anil | .ablk _ => true
        | _ => false)) := rfl
@[gwf] theorem WF_ablk (L : List Str) (e : Ex .ex) : WF L (.ablk e : Ex .args) = (WF L e) := rfl
@[gwf] theorem WF_pnil (L : List Str) : WF L (.pnil : Ex .pairs) = (true) := rfl
@[gwf] theorem WF_pcons (L : List Str) (k : Ex .ex) (v : Ex .ex) (ps : Ex .pairs) : WF L (.pcons k v ps : Ex .pairs) = (WF L k && WF (out L k) v && WF (out (out L k) v) ps && 7 ≤ lhs k && after k .HashRocket &&
      7 ≤ lhs v && (ps.isNil || after v .Comma)) := rfl
@[gwf] theorem WF_pkey (L : List Str) (x : Str) (v : Ex .ex) (ps : Ex .pairs) : WF L (.pkey x v ps : Ex .pairs) = (WF L v && WF (out L v) ps && 7 ≤ lhs v && (ps.isNil || after v .Comma)) := rfl
@[gwf] theorem WF_psplat (L : List Str) (e : Ex .ex) (ps : Ex .pairs) : WF L (.psplat e ps : Ex .pairs) = (WF L e && WF (out L e) ps && 11 ≤ lhs e && (ps.isNil || after e .Comma)) := rfl
@[gwf] theorem WF_enil (L : List Str) : WF L (.enil : Ex .els) = (true) := rfl
@[gwf] theorem WF_els (L : List Str) (ss : Ex .sts) : WF L (.els ss : Ex .els) = (WF L ss) := rfl
@[gwf] theorem WF_elsif (L : List Str) (c : Ex .ex) (a : Ex .sts) (e : Ex .els) : WF L (.elsif c a e : Ex .els) = (WF L c && WF (out L c) a && WF (out (out L c) a) e && after c .ThenKeyword && after a e.head) := rfl
@[gwf] theorem WF_tnil (L : List Str) : WF L (.tnil : Ex .part) = (true) := rfl
@[gwf] theorem WF_part (L : List Str) (ss : Ex .sts) : WF L (.part ss : Ex .part) = (WF L ss) := rfl
@[gwf] theorem WF_wnil (L : List Str) : WF L (.wnil : Ex .whens) = (true) := rfl
@[gwf] theorem WF_when (L : List Str) (a : Ex .args) (b : Ex .sts) (ws : Ex .whens) : WF L (.when_ a b ws : Ex .whens) = (WF L a && simple a && !a.isNil && after a .ThenKeyword && WF (out L a) b && closed b &&
      WF (out (out L a) b) ws && clause ws != .InKeyword) := rfl
@[gwf] theorem WF_in (L : List Str) (p : Top) (b : Ex .sts) (ws : Ex .whens) : WF L (.in_ p b ws : Ex .whens) = (p.WF L && WF (p.out L) b && closed b && WF (out (p.out L) b) ws && clause ws != .WhenKeyword) := rfl
@[gwf] theorem WF_rnil (L : List Str) : WF L (.rnil : Ex .rescues) = (true) := rfl
@[gwf] theorem WF_resc1 (L : List Str) (a : Ex .args) (b : Ex .sts) (rs : Ex .rescues) : WF L (.resc a none b rs : Ex .rescues) = (WF L a && simple a && after a .Semicolon && WF (out L a) b && closed b &&
      WF (out (out L a) b) rs) := rfl
@[gwf] theorem WF_resc2 (L : List Str) (a : Ex .args) (v : Var) (b : Ex .sts) (rs : Ex .rescues) : WF L (.resc a (some v) b rs : Ex .rescues) = (WF L a && simple a && after a .HashRocket && WF (v.bind (out L a)) b && closed b &&
      WF (out (v.bind (out L a)) b) rs) := rfl
@[gwf] theorem WF_bnil (L : List Str) : WF L (.bnil : Ex .blk) = (true) := rfl
@[gwf] theorem WF_bdo (L : List Str) (ps : Ex .prms) (b : Ex .sts) : WF L (.bdo ps b : Ex .blk) = (WF L ps && ordered 0 ps && after ps .Pipe && WF (out L ps) b && after b .EndKeyword) := rfl
@[gwf] theorem WF_qnil (L : List Str) : WF L (.qnil : Ex .prms) = (true) := rfl
@[gwf] theorem WF_qname (L : List Str) (x : Str) (ps : Ex .prms) : WF L (.qname x ps : Ex .prms) = (WF (x :: L) ps) := rfl
@[gwf] theorem WF_qdef (L : List Str) (x : Str) (e : Ex .ex) (ps : Ex .prms) : WF L (.qdef x e ps : Ex .prms) = (WF (x :: L) e && WF (out (x :: L) e) ps && 16 ≤ lhs e && (ps.isNil || after e .Comma)) := rfl
@[gwf] theorem WF_qtup (L : List Str) (qs : Ex .prms) (ps : Ex .prms) : WF L (.qtup qs ps : Ex .prms) = (WF L qs && ordered 0 qs && tuple qs && !qs.isNil && WF (out L qs) ps) := rfl
@[gwf] theorem WF_qsplat (L : List Str) (o : Option Str) (ps : Ex .prms) : WF L (.qsplat o ps : Ex .prms) = (WF (o.toList ++ L) ps) := rfl
@[gwf] theorem WF_qkey (L : List Str) (x : Str) (ps : Ex .prms) : WF L (.qkey x ps : Ex .prms) = (WF (x :: L) ps) := rfl
@[gwf] theorem WF_qkeyd (L : List Str) (x : Str) (e : Ex .ex) (ps : Ex .prms) : WF L (.qkeyd x e ps : Ex .prms) = (WF L e && WF (x :: out L e) ps && 16 ≤ lhs e && (ps.isNil || after e .Comma) &&
      (toks none e).all (·.p != .name x)) := rfl
@[gwf] theorem WF_qkws (L : List Str) (o : Option Str) (ps : Ex .prms) : WF L (.qkws o ps : Ex .prms) = (WF (o.toList ++ L) ps) := rfl
@[gwf] theorem WF_qblk (L : List Str) (x : Str) : WF L (.qblk x : Ex .prms) = (true) := rfl

end NP.Gram
