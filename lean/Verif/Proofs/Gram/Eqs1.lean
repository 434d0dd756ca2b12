import Verif.Spec.Grammar
import Verif.Proofs.Gram.Attr

/-! The equations of the functions of Spec/Grammar.lean. -/

namespace NP.Gram
open Spec

/-! ### `toks` -/

@[gtoks] theorem toks_int (w : Option Bool) (n : Int) : toks w (.int n : Ex .ex) = (if n < 0 then [⟨w, .fixed (cs! "-") .Minus⟩, ⟨some false, .int n.natAbs⟩] else [⟨w, .int n.natAbs⟩]) := rfl
@[gtoks] theorem toks_str (w : Option Bool) (s : Str) : toks w (.str s : Ex .ex) = ([⟨w, .str s⟩]) := rfl
@[gtoks] theorem toks_sym (w : Option Bool) (x : Str) : toks w (.sym x : Ex .ex) = ([⟨w, .sym x⟩]) := rfl
@[gtoks] theorem toks_word (w : Option Bool) (x : Word) : toks w (.word x : Ex .ex) = ([⟨w, .fixed x.text x.type⟩]) := rfl
@[gtoks] theorem toks_var (w : Option Bool) (v : Var) : toks w (.var v : Ex .ex) = ([⟨w, v.piece⟩]) := rfl
@[gtoks] theorem toks_array (w : Option Bool) (a : Ex .args) : toks w (.array a : Ex .ex) = (if a.isNil then [⟨w, .fixed (cs! "[]") .LBracketRBracket⟩]
    else ⟨w, .fixed (cs! "[") .LBracket⟩ :: (toks none a ++ [fix (cs! "]") .RBracket])) := rfl
@[gtoks] theorem toks_hash (w : Option Bool) (ps : Ex .pairs) : toks w (.hash ps : Ex .ex) = (⟨w, .fixed (cs! "{") .LCurlyBrace⟩ :: (toks none ps ++ [fix (cs! "}") .RCurlyBrace])) := rfl
@[gtoks] theorem toks_fcall (w : Option Bool) (x : Str) (a : Ex .args) : toks w (.fcall x a : Ex .ex) = (⟨w, .name x⟩ :: lparen :: (toks none a ++ [rparen])) := rfl
@[gtoks] theorem toks_send (w : Option Bool) (safe : Bool) (r : Ex .ex) (m : Str) : toks w (.send safe r m : Ex .ex) = (toks w r ++ [dot safe, ⟨none, .name m⟩]) := rfl
@[gtoks] theorem toks_sendA (w : Option Bool) (safe : Bool) (r : Ex .ex) (m : Str) (a : Ex .args) : toks w (.sendA safe r m a : Ex .ex) = (toks w r ++ dot safe :: ⟨none, .name m⟩ :: lparen :: (toks none a ++ [rparen])) := rfl
@[gtoks] theorem toks_cmd (w : Option Bool) (x : Str) (a : Ex .args) (b : Ex .blk) : toks w (.cmd x a b : Ex .ex) = (⟨w, .name x⟩ :: (toks none a ++ toks none b)) := rfl
@[gtoks] theorem toks_sendC (w : Option Bool) (safe : Bool) (r : Ex .ex) (m : Str) (a : Ex .args) (b : Ex .blk) : toks w (.sendC safe r m a b : Ex .ex) = (toks w r ++ dot safe :: ⟨none, .name m⟩ :: (toks none a ++ toks none b)) := rfl
@[gtoks] theorem toks_index (w : Option Bool) (r : Ex .ex) (a : Ex .args) : toks w (.index r a : Ex .ex) = (toks w r ++ glued (cs! "[") .LBracket :: (toks none a ++ [fix (cs! "]") .RBracket])) := rfl
@[gtoks] theorem toks_colon2 (w : Option Bool) (r : Ex .ex) (x : Str) : toks w (.colon2 r x : Ex .ex) = (toks w r ++ [glued (cs! "::") .ConstantResolution, ⟨none, .const x⟩]) := rfl
@[gtoks] theorem toks_colon3 (w : Option Bool) (x : Str) : toks w (.colon3 x : Ex .ex) = ([⟨w, .fixed (cs! "::") .ConstantResolution⟩, ⟨none, .const x⟩]) := rfl
@[gtoks] theorem toks_super0 (w : Option Bool) : toks w (.super0 : Ex .ex) = ([⟨w, .fixed (cs! "super") .SuperKeyword⟩]) := rfl
@[gtoks] theorem toks_superA (w : Option Bool) (a : Ex .args) : toks w (.superA a : Ex .ex) = (⟨w, .fixed (cs! "super") .SuperKeyword⟩ :: lparen :: (toks none a ++ [rparen])) := rfl
@[gtoks] theorem toks_yield0 (w : Option Bool) : toks w (.yield0 : Ex .ex) = ([⟨w, .fixed (cs! "yield") .YieldKeyword⟩]) := rfl
@[gtoks] theorem toks_yieldA (w : Option Bool) (a : Ex .args) : toks w (.yieldA a : Ex .ex) = (⟨w, .fixed (cs! "yield") .YieldKeyword⟩ :: lparen :: (toks none a ++ [rparen])) := rfl
@[gtoks] theorem toks_paren (w : Option Bool) (ss : Ex .sts) : toks w (.paren ss : Ex .ex) = (⟨w, .fixed (cs! "(") .LParen⟩ :: (toks none ss ++ [rparen])) := rfl
@[gtoks] theorem toks_block (w : Option Bool) (d : Bool) (c : Ex .ex) (ps : Ex .prms) (b : Ex .sts) : toks w (.block d c ps b : Ex .ex) = (toks w c ++ open_ d ::
      (opt? ps (bar :: (toks none ps ++ [bar])) ++ (toks none b ++ [close d]))) := rfl
@[gtoks] theorem toks_lam (w : Option Bool) (d : Bool) (ps : Ex .prms) (b : Ex .sts) : toks w (.lam d ps b : Ex .ex) = (⟨w, .fixed (cs! "->") .Arrow⟩ ::
      (opt? ps (fix (cs! "(") .LParen :: (toks none ps ++ [rparen])) ++ open_ d :: (toks none b ++ [close d]))) := rfl
@[gtoks] theorem toks_un (w : Option Bool) (o : Uop) (e : Ex .ex) : toks w (.un o e : Ex .ex) = (⟨w, .fixed o.text o.type⟩ :: toks none e) := rfl
@[gtoks] theorem toks_notE (w : Option Bool) (e : Ex .ex) : toks w (.notE e : Ex .ex) = (⟨w, .fixed (cs! "not") .NotKeyword⟩ :: toks none e) := rfl
@[gtoks] theorem toks_bin (w : Option Bool) (o : Bop) (l : Ex .ex) (r : Ex .ex) : toks w (.bin o l r : Ex .ex) = (toks w l ++ ⟨o.ws, .fixed o.text o.type⟩ :: toks o.ws r) := rfl
@[gtoks] theorem toks_tern (w : Option Bool) (c : Ex .ex) (a : Ex .ex) (b : Ex .ex) : toks w (.tern c a b : Ex .ex) = (toks w c ++ fix (cs! "?") .TernaryQuestion :: (toks none a ++ fix (cs! ":") .TernaryColon :: toks none b)) := rfl
@[gtoks] theorem toks_asgn (w : Option Bool) (v : Var) (e : Ex .ex) : toks w (.asgn v e : Ex .ex) = (⟨w, v.piece⟩ :: fix (cs! "=") .Equal :: toks none e) := rfl
@[gtoks] theorem toks_opasgn (w : Option Bool) (v : Var) (o : Aop) (e : Ex .ex) : toks w (.opasgn v o e : Ex .ex) = (⟨w, v.piece⟩ :: fix (o.text ++ ['=']) o.type :: toks none e) := rfl
@[gtoks] theorem toks_attr (w : Option Bool) (safe : Bool) (r : Ex .ex) (m : Str) (e : Ex .ex) : toks w (.attr safe r m e : Ex .ex) = (toks w r ++ dot safe :: ⟨none, .name m⟩ :: fix (cs! "=") .Equal :: toks none e) := rfl
@[gtoks] theorem toks_opattr (w : Option Bool) (safe : Bool) (r : Ex .ex) (m : Str) (o : Aop) (e : Ex .ex) : toks w (.opattr safe r m o e : Ex .ex) = (toks w r ++ dot safe :: ⟨none, .name m⟩ :: fix (o.text ++ ['=']) o.type :: toks none e) := rfl
@[gtoks] theorem toks_setIndex (w : Option Bool) (r : Ex .ex) (a : Ex .args) (e : Ex .ex) : toks w (.setIndex r a e : Ex .ex) = (toks w r ++ glued (cs! "[") .LBracket :: (toks none a ++ fix (cs! "]") .RBracket :: fix (cs! "=") .Equal :: toks none e)) := rfl
@[gtoks] theorem toks_opindex (w : Option Bool) (r : Ex .ex) (a : Ex .args) (o : Aop) (e : Ex .ex) : toks w (.opindex r a o e : Ex .ex) = (toks w r ++ glued (cs! "[") .LBracket :: (toks none a ++ fix (cs! "]") .RBracket ::
      fix (o.text ++ ['=']) o.type :: toks none e)) := rfl
@[gtoks] theorem toks_masgn (w : Option Bool) (v : Var) (u : Var) (vs : List Var) (e : Ex .ex) : toks w (.masgn v u vs e : Ex .ex) = (⟨w, v.piece⟩ :: (targets (u :: vs) ++ fix (cs! "=") .Equal :: toks none e)) := rfl
@[gtoks] theorem toks_masgnL (w : Option Bool) (v : Var) (u : Var) (vs : List Var) (e : Ex .ex) (a : Ex .args) : toks w (.masgnL v u vs e a : Ex .ex) = (⟨w, v.piece⟩ :: (targets (u :: vs) ++ fix (cs! "=") .Equal :: (toks none e ++ comma :: toks none a))) := rfl
@[gtoks] theorem toks_modi (w : Option Bool) (m : Modi) (l : Ex .ex) (c : Ex .ex) : toks w (.modi m l c : Ex .ex) = (toks w l ++ fix m.text m.type :: toks none c) := rfl
@[gtoks] theorem toks_rescueM (w : Option Bool) (l : Ex .ex) (r : Ex .ex) : toks w (.rescueM l r : Ex .ex) = (toks w l ++ fix (cs! "rescue") .RescueKeyword :: toks none r) := rfl
@[gtoks] theorem toks_if (w : Option Bool) (c : Ex .ex) (a : Ex .sts) (e : Ex .els) : toks w (.if_ c a e : Ex .ex) = (⟨w, .fixed (cs! "if") .IfKeyword⟩ :: (toks none c ++ fix (cs! "then") .ThenKeyword ::
      (toks none a ++ (toks none e ++ [end_])))) := rfl
@[gtoks] theorem toks_unless (w : Option Bool) (c : Ex .ex) (a : Ex .sts) (e : Ex .part) : toks w (.unless_ c a e : Ex .ex) = (⟨w, .fixed (cs! "unless") .UnlessKeyword⟩ :: (toks none c ++ fix (cs! "then") .ThenKeyword ::
      (toks none a ++ (opt? e (fix (cs! "else") .ElseKeyword :: toks none e) ++ [end_])))) := rfl
@[gtoks] theorem toks_while (w : Option Bool) (neg : Bool) (c : Ex .ex) (a : Ex .sts) : toks w (.while_ neg c a : Ex .ex) = (⟨w, if neg then .fixed (cs! "until") .UntilKeyword else .fixed (cs! "while") .WhileKeyword⟩ ::
      (toks none c ++ semi :: (toks none a ++ [end_]))) := rfl
@[gtoks] theorem toks_for (w : Option Bool) (v : Var) (e : Ex .ex) (a : Ex .sts) : toks w (.for_ v e a : Ex .ex) = (⟨w, .fixed (cs! "for") .ForKeyword⟩ :: ⟨none, v.piece⟩ :: fix (cs! "in") .InKeyword ::
      (toks none e ++ semi :: (toks none a ++ [end_]))) := rfl
@[gtoks] theorem toks_case (w : Option Bool) (s : Ex .ex) (ws : Ex .whens) (e : Ex .part) : toks w (.case_ s ws e : Ex .ex) = (⟨w, .fixed (cs! "case") .CaseKeyword⟩ :: (toks none s ++ semi :: (toks none ws ++
      (opt? e (fix (cs! "else") .ElseKeyword :: toks none e) ++ [end_])))) := rfl
@[gtoks] theorem toks_case0 (w : Option Bool) (ws : Ex .whens) (e : Ex .part) : toks w (.case0 ws e : Ex .ex) = (⟨w, .fixed (cs! "case") .CaseKeyword⟩ :: (toks none ws ++
      (opt? e (fix (cs! "else") .ElseKeyword :: toks none e) ++ [end_]))) := rfl
@[gtoks] theorem toks_begin (w : Option Bool) (b : Ex .sts) (rs : Ex .rescues) (el : Ex .part) (en : Ex .part) : toks w (.begin_ b rs el en : Ex .ex) = (⟨w, .fixed (cs! "begin") .BeginKeyword⟩ :: semi :: (toks none b ++ (toks none rs ++
      (opt? el (fix (cs! "else") .ElseKeyword :: semi :: toks none el) ++
        (opt? en (fix (cs! "ensure") .EnsureKeyword :: semi :: toks none en) ++ [end_]))))) := rfl
@[gtoks] theorem toks_def (w : Option Bool) (slf : Bool) (x : Str) (ps : Ex .prms) (b : Ex .sts) : toks w (.def_ slf x ps b : Ex .ex) = (⟨w, .fixed (cs! "def") .DefKeyword⟩ ::
      ((if slf then [fix (cs! "self") .SelfKeyword, glued (cs! ".") .Dot] else []) ++ ⟨none, .name x⟩ ::
        (opt? ps (lparen :: (toks none ps ++ [rparen])) ++ semi :: (toks none b ++ [end_])))) := rfl
@[gtoks] theorem toks_defE (w : Option Bool) (slf : Bool) (x : Str) (ps : Ex .prms) (e : Ex .ex) : toks w (.defE slf x ps e : Ex .ex) = (⟨w, .fixed (cs! "def") .DefKeyword⟩ ::
      ((if slf then [fix (cs! "self") .SelfKeyword, glued (cs! ".") .Dot] else []) ++ ⟨none, .name x⟩ ::
        (opt? ps (lparen :: (toks none ps ++ [rparen])) ++ fix (cs! "=") .Equal :: toks none e))) := rfl
@[gtoks] theorem toks_class (w : Option Bool) (x : Str) (sup : Option Str) (b : Ex .sts) : toks w (.class_ x sup b : Ex .ex) = (⟨w, .fixed (cs! "class") .ClassKeyword⟩ :: ⟨none, .const x⟩ ::
      ((match sup with
        | some y => [fix (cs! "<") .LessThan, ⟨none, .const y⟩]
        | none => []) ++ semi :: (toks none b ++ [end_]))) := rfl
@[gtoks] theorem toks_module (w : Option Bool) (x : Str) (b : Ex .sts) : toks w (.module_ x b : Ex .ex) = (⟨w, .fixed (cs! "module") .ModuleKeyword⟩ :: ⟨none, .const x⟩ :: semi :: (toks none b ++ [end_])) := rfl
@[gtoks] theorem toks_sclass (w : Option Bool) (e : Ex .ex) (b : Ex .sts) : toks w (.sclass e b : Ex .ex) = (⟨w, .fixed (cs! "class") .ClassKeyword⟩ :: fix (cs! "<<") .LeftShift :: (toks none e ++ semi :: (toks none b ++ [end_]))) := rfl
@[gtoks] theorem toks_postexe (w : Option Bool) (b : Ex .sts) : toks w (.postexe b : Ex .ex) = (⟨w, .fixed (cs! "END") .ENDKeyword⟩ :: fix (cs! "{") .LCurlyBrace :: (toks none b ++ [fix (cs! "}") .RCurlyBrace])) := rfl
@[gtoks] theorem toks_ret0 (w : Option Bool) : toks w (.ret0 : Ex .ex) = ([⟨w, .fixed (cs! "return") .ReturnKeyword⟩]) := rfl
@[gtoks] theorem toks_ret (w : Option Bool) (e : Ex .ex) : toks w (.ret e : Ex .ex) = (⟨w, .fixed (cs! "return") .ReturnKeyword⟩ :: toks none e) := rfl
@[gtoks] theorem toks_jump0 (w : Option Bool) (j : Jump) : toks w (.jump0 j : Ex .ex) = ([⟨w, .fixed j.text j.type⟩]) := rfl
@[gtoks] theorem toks_jump (w : Option Bool) (j : Jump) (e : Ex .ex) : toks w (.jump j e : Ex .ex) = (⟨w, .fixed j.text j.type⟩ :: toks none e) := rfl
@[gtoks] theorem toks_snil (w : Option Bool) : toks w (.snil : Ex .sts) = ([]) := rfl
@[gtoks] theorem toks_slast (w : Option Bool) (e : Ex .ex) : toks w (.slast e : Ex .sts) = (toks none e) := rfl
@[gtoks] theorem toks_scons (w : Option Bool) (e : Ex .ex) (ss : Ex .sts) : toks w (.scons e ss : Ex .sts) = (toks none e ++ semi :: toks none ss) := rfl
@[gtoks] theorem toks_anil (w : Option Bool) : toks w (.anil : Ex .args) = ([]) := rfl
@[gtoks] theorem toks_acons (w : Option Bool) (e : Ex .ex) (a : Ex .args) : toks w (.acons e a : Ex .args) = (toks none e ++ sep a (toks none a)) := rfl
@[gtoks] theorem toks_asplat (w : Option Bool) (e : Ex .ex) (a : Ex .args) : toks w (.asplat e a : Ex .args) = (fix (cs! "*") .Star :: (toks none e ++ sep a (toks none a))) := rfl
@[gtoks] theorem toks_apairs (w : Option Bool) (ps : Ex .pairs) (a : Ex .args) : toks w (.apairs ps a : Ex .args) = (toks none ps ++ sep a (toks none a)) := rfl
@[gtoks] theorem toks_ablk (w : Option Bool) (e : Ex .ex) : toks w (.ablk e : Ex .args) = (fix (cs! "&") .Ampersand :: toks none e) := rfl
@[gtoks] theorem toks_pnil (w : Option Bool) : toks w (.pnil : Ex .pairs) = ([]) := rfl
@[gtoks] theorem toks_pcons (w : Option Bool) (k : Ex .ex) (v : Ex .ex) (ps : Ex .pairs) : toks w (.pcons k v ps : Ex .pairs) = (toks none k ++ fix (cs! "=>") .HashRocket :: (toks none v ++ sep ps (toks none ps))) := rfl
@[gtoks] theorem toks_pkey (w : Option Bool) (x : Str) (v : Ex .ex) (ps : Ex .pairs) : toks w (.pkey x v ps : Ex .pairs) = (⟨none, .key x⟩ :: (toks none v ++ sep ps (toks none ps))) := rfl
@[gtoks] theorem toks_psplat (w : Option Bool) (e : Ex .ex) (ps : Ex .pairs) : toks w (.psplat e ps : Ex .pairs) = (fix (cs! "**") .StarStar :: (toks none e ++ sep ps (toks none ps))) := rfl
@[gtoks] theorem toks_enil (w : Option Bool) : toks w (.enil : Ex .els) = ([]) := rfl
@[gtoks] theorem toks_els (w : Option Bool) (ss : Ex .sts) : toks w (.els ss : Ex .els) = (fix (cs! "else") .ElseKeyword :: toks none ss) := rfl
@[gtoks] theorem toks_elsif (w : Option Bool) (c : Ex .ex) (a : Ex .sts) (e : Ex .els) : toks w (.elsif c a e : Ex .els) = (fix (cs! "elsif") .ElsifKeyword :: (toks none c ++ fix (cs! "then") .ThenKeyword :: (toks none a ++ toks none e))) := rfl
@[gtoks] theorem toks_tnil (w : Option Bool) : toks w (.tnil : Ex .part) = ([]) := rfl
@[gtoks] theorem toks_part (w : Option Bool) (ss : Ex .sts) : toks w (.part ss : Ex .part) = (toks none ss) := rfl
@[gtoks] theorem toks_wnil (w : Option Bool) : toks w (.wnil : Ex .whens) = ([]) := rfl
@[gtoks] theorem toks_when (w : Option Bool) (a : Ex .args) (b : Ex .sts) (ws : Ex .whens) : toks w (.when_ a b ws : Ex .whens) = (fix (cs! "when") .WhenKeyword :: (toks none a ++ fix (cs! "then") .ThenKeyword :: (toks none b ++ toks none ws))) := rfl
@[gtoks] theorem toks_in (w : Option Bool) (p : Top) (b : Ex .sts) (ws : Ex .whens) : toks w (.in_ p b ws : Ex .whens) = (fix (cs! "in") .InKeyword :: (p.toks ++ fix (cs! "then") .ThenKeyword :: (toks none b ++ toks none ws))) := rfl
@[gtoks] theorem toks_rnil (w : Option Bool) : toks w (.rnil : Ex .rescues) = ([]) := rfl
@[gtoks] theorem toks_resc (w : Option Bool) (a : Ex .args) (v : Option Var) (b : Ex .sts) (rs : Ex .rescues) : toks w (.resc a v b rs : Ex .rescues) = (fix (cs! "rescue") .RescueKeyword :: (toks none a ++ ((match v with
      | some v => [fix (cs! "=>") .HashRocket, ⟨none, v.piece⟩]
      | none => []) ++ semi :: (toks none b ++ toks none rs)))) := rfl
@[gtoks] theorem toks_bnil (w : Option Bool) : toks w (.bnil : Ex .blk) = ([]) := rfl
@[gtoks] theorem toks_bdo (w : Option Bool) (ps : Ex .prms) (b : Ex .sts) : toks w (.bdo ps b : Ex .blk) = (fix (cs! "do") .DoKeyword :: (opt? ps (bar :: (toks none ps ++ [bar])) ++ (toks none b ++ [end_]))) := rfl
@[gtoks] theorem toks_qnil (w : Option Bool) : toks w (.qnil : Ex .prms) = ([]) := rfl
@[gtoks] theorem toks_qname (w : Option Bool) (x : Str) (ps : Ex .prms) : toks w (.qname x ps : Ex .prms) = (⟨none, .name x⟩ :: sep ps (toks none ps)) := rfl
@[gtoks] theorem toks_qdef (w : Option Bool) (x : Str) (e : Ex .ex) (ps : Ex .prms) : toks w (.qdef x e ps : Ex .prms) = (⟨none, .name x⟩ :: fix (cs! "=") .Equal :: (toks none e ++ sep ps (toks none ps))) := rfl
@[gtoks] theorem toks_qtup (w : Option Bool) (qs : Ex .prms) (ps : Ex .prms) : toks w (.qtup qs ps : Ex .prms) = (fix (cs! "(") .LParen :: (toks none qs ++ rparen :: sep ps (toks none ps))) := rfl
@[gtoks] theorem toks_qsplat (w : Option Bool) (o : Option Str) (ps : Ex .prms) : toks w (.qsplat o ps : Ex .prms) = (fix (cs! "*") .Star :: (name? o ++ sep ps (toks none ps))) := rfl
@[gtoks] theorem toks_qkey (w : Option Bool) (x : Str) (ps : Ex .prms) : toks w (.qkey x ps : Ex .prms) = (⟨none, .key x⟩ :: sep ps (toks none ps)) := rfl
@[gtoks] theorem toks_qkeyd (w : Option Bool) (x : Str) (e : Ex .ex) (ps : Ex .prms) : toks w (.qkeyd x e ps : Ex .prms) = (⟨none, .key x⟩ :: (toks none e ++ sep ps (toks none ps))) := rfl
@[gtoks] theorem toks_qkws (w : Option Bool) (o : Option Str) (ps : Ex .prms) : toks w (.qkws o ps : Ex .prms) = (fix (cs! "**") .StarStar :: (name? o ++ sep ps (toks none ps))) := rfl
@[gtoks] theorem toks_qblk (w : Option Bool) (x : Str) : toks w (.qblk x : Ex .prms) = ([fix (cs! "&") .Ampersand, ⟨none, .name x⟩]) := rfl

/-! ### `out` -/

@[gram] theorem out_int (L : List Str) (n : Int) : out L (.int n : Ex .ex) = (L) := rfl
@[gram] theorem out_str (L : List Str) (s : Str) : out L (.str s : Ex .ex) = (L) := rfl
@[gram] theorem out_sym (L : List Str) (x : Str) : out L (.sym x : Ex .ex) = (L) := rfl
@[gram] theorem out_word (L : List Str) (w : Word) : out L (.word w : Ex .ex) = (L) := rfl
@[gram] theorem out_var (L : List Str) (v : Var) : out L (.var v : Ex .ex) = (L) := rfl
@[gram] theorem out_array (L : List Str) (a : Ex .args) : out L (.array a : Ex .ex) = (out L a) := rfl
@[gram] theorem out_hash (L : List Str) (ps : Ex .pairs) : out L (.hash ps : Ex .ex) = (out L ps) := rfl
@[gram] theorem out_fcall (L : List Str) (x : Str) (a : Ex .args) : out L (.fcall x a : Ex .ex) = (out L a) := rfl
@[gram] theorem out_send (L : List Str) (safe : Bool) (r : Ex .ex) (m : Str) : out L (.send safe r m : Ex .ex) = (out L r) := rfl
@[gram] theorem out_sendA (L : List Str) (safe : Bool) (r : Ex .ex) (m : Str) (a : Ex .args) : out L (.sendA safe r m a : Ex .ex) = (out (out L r) a) := rfl
@[gram] theorem out_cmd (L : List Str) (x : Str) (a : Ex .args) (b : Ex .blk) : out L (.cmd x a b : Ex .ex) = (out L a) := rfl
@[gram] theorem out_sendC (L : List Str) (safe : Bool) (r : Ex .ex) (m : Str) (a : Ex .args) (b : Ex .blk) : out L (.sendC safe r m a b : Ex .ex) = (out (out L r) a) := rfl
@[gram] theorem out_index (L : List Str) (r : Ex .ex) (a : Ex .args) : out L (.index r a : Ex .ex) = (out (out L r) a) := rfl
@[gram] theorem out_colon2 (L : List Str) (r : Ex .ex) (x : Str) : out L (.colon2 r x : Ex .ex) = (out L r) := rfl
@[gram] theorem out_colon3 (L : List Str) (x : Str) : out L (.colon3 x : Ex .ex) = (L) := rfl
@[gram] theorem out_super0 (L : List Str) : out L (.super0 : Ex .ex) = (L) := rfl
@[gram] theorem out_superA (L : List Str) (a : Ex .args) : out L (.superA a : Ex .ex) = (out L a) := rfl
@[gram] theorem out_yield0 (L : List Str) : out L (.yield0 : Ex .ex) = (L) := rfl
@[gram] theorem out_yieldA (L : List Str) (a : Ex .args) : out L (.yieldA a : Ex .ex) = (out L a) := rfl
@[gram] theorem out_paren (L : List Str) (ss : Ex .sts) : out L (.paren ss : Ex .ex) = (out L ss) := rfl
@[gram] theorem out_block (L : List Str) (doo : Bool) (c : Ex .ex) (ps : Ex .prms) (b : Ex .sts) : out L (.block doo c ps b : Ex .ex) = (out L c) := rfl
@[gram] theorem out_lam (L : List Str) (doo : Bool) (ps : Ex .prms) (b : Ex .sts) : out L (.lam doo ps b : Ex .ex) = (out L ps) := rfl
@[gram] theorem out_un (L : List Str) (o : Uop) (e : Ex .ex) : out L (.un o e : Ex .ex) = (out L e) := rfl
@[gram] theorem out_notE (L : List Str) (e : Ex .ex) : out L (.notE e : Ex .ex) = (out L e) := rfl
@[gram] theorem out_bin (L : List Str) (o : Bop) (l : Ex .ex) (r : Ex .ex) : out L (.bin o l r : Ex .ex) = (out (out L l) r) := rfl
@[gram] theorem out_tern (L : List Str) (c : Ex .ex) (a : Ex .ex) (b : Ex .ex) : out L (.tern c a b : Ex .ex) = (out (out (out L c) a) b) := rfl
@[gram] theorem out_asgn (L : List Str) (v : Var) (e : Ex .ex) : out L (.asgn v e : Ex .ex) = (out (v.bind L) e) := rfl
@[gram] theorem out_opasgn (L : List Str) (v : Var) (o : Aop) (e : Ex .ex) : out L (.opasgn v o e : Ex .ex) = (out (v.bind L) e) := rfl
@[gram] theorem out_attr (L : List Str) (safe : Bool) (r : Ex .ex) (m : Str) (e : Ex .ex) : out L (.attr safe r m e : Ex .ex) = (out (out L r) e) := rfl
@[gram] theorem out_opattr (L : List Str) (safe : Bool) (r : Ex .ex) (m : Str) (o : Aop) (e : Ex .ex) : out L (.opattr safe r m o e : Ex .ex) = (out (out L r) e) := rfl
@[gram] theorem out_setIndex (L : List Str) (r : Ex .ex) (a : Ex .args) (e : Ex .ex) : out L (.setIndex r a e : Ex .ex) = (out (out (out L r) a) e) := rfl
@[gram] theorem out_opindex (L : List Str) (r : Ex .ex) (a : Ex .args) (o : Aop) (e : Ex .ex) : out L (.opindex r a o e : Ex .ex) = (out (out (out L r) a) e) := rfl
@[gram] theorem out_masgn (L : List Str) (v : Var) (w : Var) (vs : List Var) (e : Ex .ex) : out L (.masgn v w vs e : Ex .ex) = (out (binds L (v :: w :: vs)) e) := rfl
@[gram] theorem out_masgnL (L : List Str) (v : Var) (w : Var) (vs : List Var) (e : Ex .ex) (a : Ex .args) : out L (.masgnL v w vs e a : Ex .ex) = (out (out (binds L (v :: w :: vs)) e) a) := rfl
@[gram] theorem out_modi (L : List Str) (m : Modi) (l : Ex .ex) (c : Ex .ex) : out L (.modi m l c : Ex .ex) = (out (out L l) c) := rfl
@[gram] theorem out_rescueM (L : List Str) (l : Ex .ex) (r : Ex .ex) : out L (.rescueM l r : Ex .ex) = (out (out L l) r) := rfl
@[gram] theorem out_if (L : List Str) (c : Ex .ex) (a : Ex .sts) (e : Ex .els) : out L (.if_ c a e : Ex .ex) = (out (out (out L c) a) e) := rfl
@[gram] theorem out_unless (L : List Str) (c : Ex .ex) (a : Ex .sts) (e : Ex .part) : out L (.unless_ c a e : Ex .ex) = (out (out (out L c) a) e) := rfl
@[gram] theorem out_while (L : List Str) (neg : Bool) (c : Ex .ex) (a : Ex .sts) : out L (.while_ neg c a : Ex .ex) = (out (out L c) a) := rfl
@[gram] theorem out_for (L : List Str) (v : Var) (e : Ex .ex) (a : Ex .sts) : out L (.for_ v e a : Ex .ex) = (out (out (v.bind L) e) a) := rfl
@[gram] theorem out_case (L : List Str) (s : Ex .ex) (ws : Ex .whens) (e : Ex .part) : out L (.case_ s ws e : Ex .ex) = (out (out (out L s) ws) e) := rfl
@[gram] theorem out_case0 (L : List Str) (ws : Ex .whens) (e : Ex .part) : out L (.case0 ws e : Ex .ex) = (out (out L ws) e) := rfl
@[gram] theorem out_begin (L : List Str) (b : Ex .sts) (rs : Ex .rescues) (el : Ex .part) (en : Ex .part) : out L (.begin_ b rs el en : Ex .ex) = (out (out (out (out L b) rs) el) en) := rfl
@[gram] theorem out_def (L : List Str) (slf : Bool) (x : Str) (ps : Ex .prms) (b : Ex .sts) : out L (.def_ slf x ps b : Ex .ex) = (L) := rfl
@[gram] theorem out_defE (L : List Str) (slf : Bool) (x : Str) (ps : Ex .prms) (e : Ex .ex) : out L (.defE slf x ps e : Ex .ex) = (L) := rfl
@[gram] theorem out_class (L : List Str) (x : Str) (sup : Option Str) (b : Ex .sts) : out L (.class_ x sup b : Ex .ex) = (L) := rfl
@[gram] theorem out_module (L : List Str) (x : Str) (b : Ex .sts) : out L (.module_ x b : Ex .ex) = (L) := rfl
@[gram] theorem out_sclass (L : List Str) (e : Ex .ex) (b : Ex .sts) : out L (.sclass e b : Ex .ex) = (out L e) := rfl
@[gram] theorem out_postexe (L : List Str) (b : Ex .sts) : out L (.postexe b : Ex .ex) = (L) := rfl
@[gram] theorem out_ret0 (L : List Str) : out L (.ret0 : Ex .ex) = (L) := rfl
@[gram] theorem out_ret (L : List Str) (e : Ex .ex) : out L (.ret e : Ex .ex) = (out L e) := rfl
@[gram] theorem out_jump0 (L : List Str) (j : Jump) : out L (.jump0 j : Ex .ex) = (L) := rfl
@[gram] theorem out_jump (L : List Str) (j : Jump) (e : Ex .ex) : out L (.jump j e : Ex .ex) = (out L e) := rfl
@[gram] theorem out_snil (L : List Str) : out L (.snil : Ex .sts) = (L) := rfl
@[gram] theorem out_slast (L : List Str) (e : Ex .ex) : out L (.slast e : Ex .sts) = (out L e) := rfl
@[gram] theorem out_scons (L : List Str) (e : Ex .ex) (ss : Ex .sts) : out L (.scons e ss : Ex .sts) = (out (out L e) ss) := rfl
@[gram] theorem out_anil (L : List Str) : out L (.anil : Ex .args) = (L) := rfl
@[gram] theorem out_acons (L : List Str) (e : Ex .ex) (a : Ex .args) : out L (.acons e a : Ex .args) = (out (out L e) a) := rfl
@[gram] theorem out_asplat (L : List Str) (e : Ex .ex) (a : Ex .args) : out L (.asplat e a : Ex .args) = (out (out L e) a) := rfl
@[gram] theorem out_apairs (L : List Str) (ps : Ex .pairs) (a : Ex .args) : out L (.apairs ps a : Ex .args) = (out (out L ps) a) := rfl
@[gram] theorem out_ablk (L : List Str) (e : Ex .ex) : out L (.ablk e : Ex .args) = (out L e) := rfl
@[gram] theorem out_pnil (L : List Str) : out L (.pnil : Ex .pairs) = (L) := rfl
@[gram] theorem out_pcons (L : List Str) (k : Ex .ex) (v : Ex .ex) (ps : Ex .pairs) : out L (.pcons k v ps : Ex .pairs) = (out (out (out L k) v) ps) := rfl
@[gram] theorem out_pkey (L : List Str) (x : Str) (v : Ex .ex) (ps : Ex .pairs) : out L (.pkey x v ps : Ex .pairs) = (out (out L v) ps) := rfl
@[gram] theorem out_psplat (L : List Str) (e : Ex .ex) (ps : Ex .pairs) : out L (.psplat e ps : Ex .pairs) = (out (out L e) ps) := rfl
@[gram] theorem out_enil (L : List Str) : out L (.enil : Ex .els) = (L) := rfl
@[gram] theorem out_els (L : List Str) (ss : Ex .sts) : out L (.els ss : Ex .els) = (out L ss) := rfl
@[gram] theorem out_elsif (L : List Str) (c : Ex .ex) (a : Ex .sts) (e : Ex .els) : out L (.elsif c a e : Ex .els) = (out (out (out L c) a) e) := rfl
@[gram] theorem out_tnil (L : List Str) : out L (.tnil : Ex .part) = (L) := rfl
@[gram] theorem out_part (L : List Str) (ss : Ex .sts) : out L (.part ss : Ex .part) = (out L ss) := rfl
@[gram] theorem out_wnil (L : List Str) : out L (.wnil : Ex .whens) = (L) := rfl
@[gram] theorem out_when (L : List Str) (a : Ex .args) (b : Ex .sts) (ws : Ex .whens) : out L (.when_ a b ws : Ex .whens) = (out (out (out L a) b) ws) := rfl
@[gram] theorem out_in (L : List Str) (p : Top) (b : Ex .sts) (ws : Ex .whens) : out L (.in_ p b ws : Ex .whens) = (out (out (p.out L) b) ws) := rfl
@[gram] theorem out_rnil (L : List Str) : out L (.rnil : Ex .rescues) = (L) := rfl
@[gram] theorem out_resc1 (L : List Str) (a : Ex .args) (b : Ex .sts) (rs : Ex .rescues) : out L (.resc a none b rs : Ex .rescues) = (out (out (out L a) b) rs) := rfl
@[gram] theorem out_resc2 (L : List Str) (a : Ex .args) (v : Var) (b : Ex .sts) (rs : Ex .rescues) : out L (.resc a (some v) b rs : Ex .rescues) = (out (out (v.bind (out L a)) b) rs) := rfl
@[gram] theorem out_bnil (L : List Str) : out L (.bnil : Ex .blk) = (L) := rfl
@[gram] theorem out_bdo (L : List Str) (ps : Ex .prms) (b : Ex .sts) : out L (.bdo ps b : Ex .blk) = (L) := rfl
@[gram] theorem out_qnil (L : List Str) : out L (.qnil : Ex .prms) = (L) := rfl
@[gram] theorem out_qname (L : List Str) (x : Str) (ps : Ex .prms) : out L (.qname x ps : Ex .prms) = (out (x :: L) ps) := rfl
@[gram] theorem out_qdef (L : List Str) (x : Str) (e : Ex .ex) (ps : Ex .prms) : out L (.qdef x e ps : Ex .prms) = (out (out (x :: L) e) ps) := rfl
@[gram] theorem out_qtup (L : List Str) (qs : Ex .prms) (ps : Ex .prms) : out L (.qtup qs ps : Ex .prms) = (out (out L qs) ps) := rfl
@[gram] theorem out_qsplat (L : List Str) (o : Option Str) (ps : Ex .prms) : out L (.qsplat o ps : Ex .prms) = (out (o.toList ++ L) ps) := rfl
@[gram] theorem out_qkey (L : List Str) (x : Str) (ps : Ex .prms) : out L (.qkey x ps : Ex .prms) = (out (x :: L) ps) := rfl
@[gram] theorem out_qkeyd (L : List Str) (x : Str) (e : Ex .ex) (ps : Ex .prms) : out L (.qkeyd x e ps : Ex .prms) = (out (x :: out L e) ps) := rfl
@[gram] theorem out_qkws (L : List Str) (o : Option Str) (ps : Ex .prms) : out L (.qkws o ps : Ex .prms) = (out (o.toList ++ L) ps) := rfl
@[gram] theorem out_qblk (L : List Str) (x : Str) : out L (.qblk x : Ex .prms) = (x :: L) := rfl

/-! ### `sx` -/

@[gsx] theorem sx_int (L : List Str) (n : Int) : sx L (.int n : Ex .ex) = (nd (cs! "lit") [.int n]) := rfl
@[gsx] theorem sx_str (L : List Str) (s : Str) : sx L (.str s : Ex .ex) = (nd (cs! "str") [.str s]) := rfl
@[gsx] theorem sx_sym (L : List Str) (x : Str) : sx L (.sym x : Ex .ex) = (nd (cs! "lit") [.sym x]) := rfl
@[gsx] theorem sx_word (L : List Str) (x : Word) : sx L (.word x : Ex .ex) = (nd x.text []) := rfl
@[gsx] theorem sx_array (L : List Str) (a : Ex .args) : sx L (.array a : Ex .ex) = (nd (cs! "array") (sx L a)) := rfl
@[gsx] theorem sx_hash (L : List Str) (ps : Ex .pairs) : sx L (.hash ps : Ex .ex) = (nd (cs! "hash") (sx L ps)) := rfl
@[gsx] theorem sx_fcall (L : List Str) (x : Str) (a : Ex .args) : sx L (.fcall x a : Ex .ex) = (nd (cs! "call") (.nil :: .sym x :: sx L a)) := rfl
@[gsx] theorem sx_send (L : List Str) (safe : Bool) (r : Ex .ex) (m : Str) : sx L (.send safe r m : Ex .ex) = (nd (call safe) (sx L r ++ [.sym m])) := rfl
@[gsx] theorem sx_sendA (L : List Str) (safe : Bool) (r : Ex .ex) (m : Str) (a : Ex .args) : sx L (.sendA safe r m a : Ex .ex) = (nd (call safe) (sx L r ++ .sym m :: sx (out L r) a)) := rfl
@[gsx] theorem sx_index (L : List Str) (r : Ex .ex) (a : Ex .args) : sx L (.index r a : Ex .ex) = (nd (cs! "call") (sx L r ++ .sym (cs! "[]") :: sx (out L r) a)) := rfl
@[gsx] theorem sx_colon2 (L : List Str) (r : Ex .ex) (x : Str) : sx L (.colon2 r x : Ex .ex) = (nd (cs! "colon2") (sx L r ++ [.sym x])) := rfl
@[gsx] theorem sx_colon3 (L : List Str) (x : Str) : sx L (.colon3 x : Ex .ex) = (nd (cs! "colon3") [.sym x]) := rfl
@[gsx] theorem sx_super0 (L : List Str) : sx L (.super0 : Ex .ex) = (nd (cs! "zsuper") []) := rfl
@[gsx] theorem sx_superA (L : List Str) (a : Ex .args) : sx L (.superA a : Ex .ex) = (nd (cs! "super") (sx L a)) := rfl
@[gsx] theorem sx_yield0 (L : List Str) : sx L (.yield0 : Ex .ex) = (nd (cs! "yield") []) := rfl
@[gsx] theorem sx_yieldA (L : List Str) (a : Ex .args) : sx L (.yieldA a : Ex .ex) = (nd (cs! "yield") (sx L a)) := rfl
@[gsx] theorem sx_paren (L : List Str) (ss : Ex .sts) : sx L (.paren ss : Ex .ex) = (if ss.isNil then nd (cs! "nil") [] else [bod (sx L ss)]) := rfl
@[gsx] theorem sx_block (L : List Str) (doo : Bool) (c : Ex .ex) (ps : Ex .prms) (b : Ex .sts) : sx L (.block doo c ps b : Ex .ex) = (withBlock (sx L c) (sx (out L c) ps) (sx (out (out L c) ps) b)) := rfl
@[gsx] theorem sx_lam (L : List Str) (doo : Bool) (ps : Ex .prms) (b : Ex .sts) : sx L (.lam doo ps b : Ex .ex) = (withBlock (nd (cs! "lambda") []) (sx L ps) (sx (out L ps) b)) := rfl
@[gsx] theorem sx_un (L : List Str) (o : Uop) (e : Ex .ex) : sx L (.un o e : Ex .ex) = (nd (cs! "call") (sx L e ++ [.sym o.method])) := rfl
@[gsx] theorem sx_notE (L : List Str) (e : Ex .ex) : sx L (.notE e : Ex .ex) = (nd (cs! "call") (sx L e ++ [.sym (cs! "!")])) := rfl
@[gsx] theorem sx_bin (L : List Str) (o : Bop) (l : Ex .ex) (r : Ex .ex) : sx L (.bin o l r : Ex .ex) = (binary o (shape l) (shape r) (sx L l) (sx (out L l) r)) := rfl
@[gsx] theorem sx_tern (L : List Str) (c : Ex .ex) (a : Ex .ex) (b : Ex .ex) : sx L (.tern c a b : Ex .ex) = (nd (cs! "if") (sx L c ++ sx (out L c) a ++ sx (out (out L c) a) b)) := rfl
@[gsx] theorem sx_asgn (L : List Str) (v : Var) (e : Ex .ex) : sx L (.asgn v e : Ex .ex) = (nd v.set (.sym v.name :: sx (v.bind L) e)) := rfl
@[gsx] theorem sx_opasgn (L : List Str) (v : Var) (o : Aop) (e : Ex .ex) : sx L (.opasgn v o e : Ex .ex) = (updated v o (sx (v.bind L) e)) := rfl
@[gsx] theorem sx_attr (L : List Str) (safe : Bool) (r : Ex .ex) (m : Str) (e : Ex .ex) : sx L (.attr safe r m e : Ex .ex) = (nd (attrasgn safe) (sx L r ++ .sym (m ++ ['=']) :: sx (out L r) e)) := rfl
@[gsx] theorem sx_opattr (L : List Str) (safe : Bool) (r : Ex .ex) (m : Str) (o : Aop) (e : Ex .ex) : sx L (.opattr safe r m o e : Ex .ex) = (updatedAttr safe (sx L r) m o (sx (out L r) e)) := rfl
@[gsx] theorem sx_setIndex (L : List Str) (r : Ex .ex) (a : Ex .args) (e : Ex .ex) : sx L (.setIndex r a e : Ex .ex) = (nd (cs! "attrasgn") (sx L r ++ .sym (cs! "[]=") :: sx (out L r) a ++ sx (out (out L r) a) e)) := rfl
@[gsx] theorem sx_opindex (L : List Str) (r : Ex .ex) (a : Ex .args) (o : Aop) (e : Ex .ex) : sx L (.opindex r a o e : Ex .ex) = (nd (cs! "op_asgn1") (sx L r ++ .node (cs! "arglist") (sx (out L r) a) :: .sym o.text ::
      sx (out (out L r) a) e)) := rfl
@[gsx] theorem sx_masgn (L : List Str) (v : Var) (w : Var) (vs : List Var) (e : Ex .ex) : sx L (.masgn v w vs e : Ex .ex) = (nd (cs! "masgn") [sets (v :: w :: vs), .node (cs! "to_ary") (sx (binds L (v :: w :: vs)) e)]) := rfl
@[gsx] theorem sx_masgnL (L : List Str) (v : Var) (w : Var) (vs : List Var) (e : Ex .ex) (a : Ex .args) : sx L (.masgnL v w vs e a : Ex .ex) = (nd (cs! "masgn") [sets (v :: w :: vs), .node (cs! "array")
      (sx (binds L (v :: w :: vs)) e ++ sx (out (binds L (v :: w :: vs)) e) a)]) := rfl
@[gsx] theorem sx_modi (L : List Str) (m : Modi) (l : Ex .ex) (c : Ex .ex) : sx L (.modi m l c : Ex .ex) = (modified m (sx L l) (sx (out L l) c)) := rfl
@[gsx] theorem sx_rescueM (L : List Str) (l : Ex .ex) (r : Ex .ex) : sx L (.rescueM l r : Ex .ex) = (rescued (sx L l) (nd (cs! "resbody") (exceptions [] none :: sx (out L l) r)) none none) := rfl
@[gsx] theorem sx_if (L : List Str) (c : Ex .ex) (a : Ex .sts) (e : Ex .els) : sx L (.if_ c a e : Ex .ex) = (nd (cs! "if") (sx L c ++ opt (sx (out L c) a) :: sx (out (out L c) a) e)) := rfl
@[gsx] theorem sx_unless (L : List Str) (c : Ex .ex) (a : Ex .sts) (e : Ex .part) : sx L (.unless_ c a e : Ex .ex) = (nd (cs! "if") (sx L c ++ sx (out (out L c) a) e ++ [opt (sx (out L c) a)])) := rfl
@[gsx] theorem sx_while (L : List Str) (neg : Bool) (c : Ex .ex) (a : Ex .sts) : sx L (.while_ neg c a : Ex .ex) = (nd (if neg then cs! "until" else cs! "while") (sx L c ++ [opt (sx (out L c) a), .true_])) := rfl
@[gsx] theorem sx_for (L : List Str) (v : Var) (e : Ex .ex) (a : Ex .sts) : sx L (.for_ v e a : Ex .ex) = (nd (cs! "for") (sx (v.bind L) e ++ .node v.set [.sym v.name] :: some? (sx (out (v.bind L) e) a))) := rfl
@[gsx] theorem sx_case (L : List Str) (s : Ex .ex) (ws : Ex .whens) (e : Ex .part) : sx L (.case_ s ws e : Ex .ex) = (nd (cs! "case") (sx L s ++ sx (out L s) ws ++ sx (out (out L s) ws) e)) := rfl
@[gsx] theorem sx_case0 (L : List Str) (ws : Ex .whens) (e : Ex .part) : sx L (.case0 ws e : Ex .ex) = (nd (cs! "case") (.nil :: sx L ws ++ sx (out L ws) e)) := rfl
@[gsx] theorem sx_def (L : List Str) (slf : Bool) (x : Str) (ps : Ex .prms) (b : Ex .sts) : sx L (.def_ slf x ps b : Ex .ex) = (nd (if slf then cs! "defs" else cs! "defn") ((if slf then nd (cs! "self") [] else []) ++
      .sym x :: .node (cs! "args") (sx [] ps) :: orElse (.node (cs! "nil") []) (sx (out [] ps) b))) := rfl
@[gsx] theorem sx_defE (L : List Str) (slf : Bool) (x : Str) (ps : Ex .prms) (e : Ex .ex) : sx L (.defE slf x ps e : Ex .ex) = (nd (if slf then cs! "defs" else cs! "defn") ((if slf then nd (cs! "self") [] else []) ++
      .sym x :: .node (cs! "args") (sx [] ps) :: sx (out [] ps) e)) := rfl
@[gsx] theorem sx_class (L : List Str) (x : Str) (sup : Option Str) (b : Ex .sts) : sx L (.class_ x sup b : Ex .ex) = (nd (cs! "class") (.sym x :: (match sup with
      | some y => .node (cs! "const") [.sym y]
      | none => .nil) :: sx [] b)) := rfl
@[gsx] theorem sx_module (L : List Str) (x : Str) (b : Ex .sts) : sx L (.module_ x b : Ex .ex) = (nd (cs! "module") (.sym x :: sx [] b)) := rfl
@[gsx] theorem sx_sclass (L : List Str) (e : Ex .ex) (b : Ex .sts) : sx L (.sclass e b : Ex .ex) = (nd (cs! "sclass") (sx L e ++ sx (out L e) b)) := rfl
@[gsx] theorem sx_postexe (L : List Str) (b : Ex .sts) : sx L (.postexe b : Ex .ex) = (withBlock (nd (cs! "postexe") []) [] (sx L b)) := rfl
@[gsx] theorem sx_ret0 (L : List Str) : sx L (.ret0 : Ex .ex) = (nd (cs! "return") []) := rfl
@[gsx] theorem sx_ret (L : List Str) (e : Ex .ex) : sx L (.ret e : Ex .ex) = (nd (cs! "return") (sx L e)) := rfl
@[gsx] theorem sx_jump0 (L : List Str) (j : Jump) : sx L (.jump0 j : Ex .ex) = (nd j.text []) := rfl
@[gsx] theorem sx_jump (L : List Str) (j : Jump) (e : Ex .ex) : sx L (.jump j e : Ex .ex) = (nd j.text (sx L e)) := rfl
@[gsx] theorem sx_snil (L : List Str) : sx L (.snil : Ex .sts) = ([]) := rfl
@[gsx] theorem sx_slast (L : List Str) (e : Ex .ex) : sx L (.slast e : Ex .sts) = (sx L e) := rfl
@[gsx] theorem sx_scons (L : List Str) (e : Ex .ex) (ss : Ex .sts) : sx L (.scons e ss : Ex .sts) = (sx L e ++ sx (out L e) ss) := rfl
@[gsx] theorem sx_anil (L : List Str) : sx L (.anil : Ex .args) = ([]) := rfl
@[gsx] theorem sx_acons (L : List Str) (e : Ex .ex) (a : Ex .args) : sx L (.acons e a : Ex .args) = (sx L e ++ sx (out L e) a) := rfl
@[gsx] theorem sx_asplat (L : List Str) (e : Ex .ex) (a : Ex .args) : sx L (.asplat e a : Ex .args) = (nd (cs! "splat") (sx L e) ++ sx (out L e) a) := rfl
@[gsx] theorem sx_apairs (L : List Str) (ps : Ex .pairs) (a : Ex .args) : sx L (.apairs ps a : Ex .args) = (nd (cs! "bare_hash") (sx L ps) ++ sx (out L ps) a) := rfl
@[gsx] theorem sx_ablk (L : List Str) (e : Ex .ex) : sx L (.ablk e : Ex .args) = (nd (cs! "block_pass") (sx L e)) := rfl
@[gsx] theorem sx_pnil (L : List Str) : sx L (.pnil : Ex .pairs) = ([]) := rfl
@[gsx] theorem sx_pcons (L : List Str) (k : Ex .ex) (v : Ex .ex) (ps : Ex .pairs) : sx L (.pcons k v ps : Ex .pairs) = (sx L k ++ sx (out L k) v ++ sx (out (out L k) v) ps) := rfl
@[gsx] theorem sx_pkey (L : List Str) (x : Str) (v : Ex .ex) (ps : Ex .pairs) : sx L (.pkey x v ps : Ex .pairs) = (nd (cs! "lit") [.sym x] ++ sx L v ++ sx (out L v) ps) := rfl
@[gsx] theorem sx_psplat (L : List Str) (e : Ex .ex) (ps : Ex .pairs) : sx L (.psplat e ps : Ex .pairs) = (nd (cs! "kwsplat") (sx L e) ++ sx (out L e) ps) := rfl
@[gsx] theorem sx_enil (L : List Str) : sx L (.enil : Ex .els) = ([.nil]) := rfl
@[gsx] theorem sx_els (L : List Str) (ss : Ex .sts) : sx L (.els ss : Ex .els) = ([opt (sx L ss)]) := rfl
@[gsx] theorem sx_elsif (L : List Str) (c : Ex .ex) (a : Ex .sts) (e : Ex .els) : sx L (.elsif c a e : Ex .els) = (nd (cs! "if") (sx L c ++ opt (sx (out L c) a) :: sx (out (out L c) a) e)) := rfl
@[gsx] theorem sx_tnil (L : List Str) : sx L (.tnil : Ex .part) = ([.nil]) := rfl
@[gsx] theorem sx_part (L : List Str) (ss : Ex .sts) : sx L (.part ss : Ex .part) = ([opt (sx L ss)]) := rfl
@[gsx] theorem sx_wnil (L : List Str) : sx L (.wnil : Ex .whens) = ([]) := rfl
@[gsx] theorem sx_when (L : List Str) (a : Ex .args) (b : Ex .sts) (ws : Ex .whens) : sx L (.when_ a b ws : Ex .whens) = (nd (cs! "when") (.node (cs! "array") (sx L a) :: orElse .nil (sx (out L a) b)) ++ sx (out (out L a) b) ws) := rfl
@[gsx] theorem sx_in (L : List Str) (p : Top) (b : Ex .sts) (ws : Ex .whens) : sx L (.in_ p b ws : Ex .whens) = (nd (cs! "in") (p.sx :: orElse .nil (sx (p.out L) b)) ++ sx (out (p.out L) b) ws) := rfl
@[gsx] theorem sx_rnil (L : List Str) : sx L (.rnil : Ex .rescues) = ([]) := rfl
@[gsx] theorem sx_resc1 (L : List Str) (a : Ex .args) (b : Ex .sts) (rs : Ex .rescues) : sx L (.resc a none b rs : Ex .rescues) = (nd (cs! "resbody") (exceptions (sx L a) none :: orElse .nil (sx (out L a) b)) ++ sx (out (out L a) b) rs) := rfl
@[gsx] theorem sx_resc2 (L : List Str) (a : Ex .args) (v : Var) (b : Ex .sts) (rs : Ex .rescues) : sx L (.resc a (some v) b rs : Ex .rescues) = (nd (cs! "resbody") (exceptions (sx L a) (some v) :: orElse .nil (sx (v.bind (out L a)) b)) ++
      sx (out (v.bind (out L a)) b) rs) := rfl
@[gsx] theorem sx_bnil (L : List Str) : sx L (.bnil : Ex .blk) = ([]) := rfl
@[gsx] theorem sx_bdo (L : List Str) (ps : Ex .prms) (b : Ex .sts) : sx L (.bdo ps b : Ex .blk) = ([]) := rfl
@[gsx] theorem sx_qnil (L : List Str) : sx L (.qnil : Ex .prms) = ([]) := rfl
@[gsx] theorem sx_qname (L : List Str) (x : Str) (ps : Ex .prms) : sx L (.qname x ps : Ex .prms) = (.sym x :: sx (x :: L) ps) := rfl
@[gsx] theorem sx_qdef (L : List Str) (x : Str) (e : Ex .ex) (ps : Ex .prms) : sx L (.qdef x e ps : Ex .prms) = (nd (cs! "lasgn") (.sym x :: sx (x :: L) e) ++ sx (out (x :: L) e) ps) := rfl
@[gsx] theorem sx_qtup (L : List Str) (qs : Ex .prms) (ps : Ex .prms) : sx L (.qtup qs ps : Ex .prms) = (nd (cs! "masgn") (sx L qs) ++ sx (out L qs) ps) := rfl
@[gsx] theorem sx_qsplat (L : List Str) (o : Option Str) (ps : Ex .prms) : sx L (.qsplat o ps : Ex .prms) = (.sym ('*' :: o.getD []) :: sx (o.toList ++ L) ps) := rfl
@[gsx] theorem sx_qkey (L : List Str) (x : Str) (ps : Ex .prms) : sx L (.qkey x ps : Ex .prms) = (nd (cs! "kwarg") [.sym x] ++ sx (x :: L) ps) := rfl
@[gsx] theorem sx_qkeyd (L : List Str) (x : Str) (e : Ex .ex) (ps : Ex .prms) : sx L (.qkeyd x e ps : Ex .prms) = (nd (cs! "kwarg") (.sym x :: sx L e) ++ sx (x :: out L e) ps) := rfl
@[gsx] theorem sx_qkws (L : List Str) (o : Option Str) (ps : Ex .prms) : sx L (.qkws o ps : Ex .prms) = (.sym ('*' :: '*' :: o.getD []) :: sx (o.toList ++ L) ps) := rfl
@[gsx] theorem sx_qblk (L : List Str) (x : Str) : sx L (.qblk x : Ex .prms) = ([.sym ('&' :: x)]) := rfl
@[gsx] theorem sx_loc (L : List Str) (x : Str) :
    sx L (.var (.loc x)) = if x ∈ L then nd (cs! "lvar") [.sym x] else nd (cs! "call") [.nil, .sym x] := rfl
@[gsx] theorem sx_ivar (L : List Str) (x : Str) : sx L (.var (.ivar x)) = nd (cs! "ivar") [.sym ('@' :: x)] := rfl
@[gsx] theorem sx_cvar (L : List Str) (x : Str) : sx L (.var (.cvar x)) = nd (cs! "cvar") [.sym ('@' :: '@' :: x)] := rfl
@[gsx] theorem sx_gvar (L : List Str) (x : Str) : sx L (.var (.gvar x)) = nd (cs! "gvar") [.sym ('$' :: x)] := rfl
@[gsx] theorem sx_const (L : List Str) (x : Str) : sx L (.var (.const x)) = nd (cs! "const") [.sym x] := rfl
@[gsx] theorem sx_cmd (L : List Str) (x : Str) (a : Ex .args) :
    sx L (.cmd x a .bnil) = nd (cs! "call") (.nil :: .sym x :: sx L a) := rfl
@[gsx] theorem sx_cmd_do (L : List Str) (x : Str) (a : Ex .args) (ps : Ex .prms) (b : Ex .sts) :
    sx L (.cmd x a (.bdo ps b)) =
      withBlock (nd (cs! "call") (.nil :: .sym x :: sx L a)) (sx (out L a) ps) (sx (out (out L a) ps) b) := rfl
@[gsx] theorem sx_sendC (L : List Str) (safe : Bool) (r : Ex .ex) (m : Str) (a : Ex .args) :
    sx L (.sendC safe r m a .bnil) = nd (call safe) (sx L r ++ .sym m :: sx (out L r) a) := rfl
@[gsx] theorem sx_sendC_do (L : List Str) (safe : Bool) (r : Ex .ex) (m : Str) (a : Ex .args) (ps : Ex .prms) (b : Ex .sts) :
    sx L (.sendC safe r m a (.bdo ps b)) = withBlock (nd (call safe) (sx L r ++ .sym m :: sx (out L r) a))
      (sx (out (out L r) a) ps) (sx (out (out (out L r) a) ps) b) := rfl
@[gsx] theorem sx_begin (L : List Str) (b : Ex .sts) (rs : Ex .rescues) :
    sx L (.begin_ b rs .tnil .tnil) = rescued (sx L b) (sx (out L b) rs) none none := rfl
@[gsx] theorem sx_begin_else (L : List Str) (b : Ex .sts) (rs : Ex .rescues) (el : Ex .sts) :
    sx L (.begin_ b rs (.part el) .tnil) = rescued (sx L b) (sx (out L b) rs) (some (sx (out (out L b) rs) el)) none := rfl
@[gsx] theorem sx_begin_ensure (L : List Str) (b : Ex .sts) (rs : Ex .rescues) (en : Ex .sts) :
    sx L (.begin_ b rs .tnil (.part en)) = rescued (sx L b) (sx (out L b) rs) none (some (sx (out (out L b) rs) en)) := rfl
@[gsx] theorem sx_begin_both (L : List Str) (b : Ex .sts) (rs : Ex .rescues) (el en : Ex .sts) :
    sx L (.begin_ b rs (.part el) (.part en)) = rescued (sx L b) (sx (out L b) rs) (some (sx (out (out L b) rs) el))
      (some (sx (out (out (out L b) rs) el) en)) := rfl

end NP.Gram
