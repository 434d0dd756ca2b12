import Verif.Proofs.Gram.Def

/-! All parts together: programs of the grammar are read back. -/

namespace NP.Gram
open Spec

/-- What is proved of the different kinds. -/
def Ok : (k : Kind) → Ex k → Prop
  | .ex => ExOk
  | .sts => SOk
  | .args => AOk
  | .pairs => POk
  | .els => LOk
  | .part => TOk
  | .whens => WOk
  | .rescues => ROk
  | .blk => BOk
  | .prms => QOk

theorem all_ok {k : Kind} (e : Ex k) : Ok k e := by
  induction e with
  | int n => exact int_ok n
  | str s => exact str_ok s
  | sym x => exact sym_ok x
  | word w => exact word_ok w
  | var v => exact var_ok v
  | array a h => exact array_ok a h
  | hash ps h => exact hash_ok ps h
  | fcall x a h => exact fcall_ok x a h
  | send s r m h => exact send_ok s r m h
  | sendA s r m a h1 h2 => exact sendA_ok s r m a h1 h2
  | cmd x a b h1 h2 => exact cmd_ok x a b h1 h2
  | sendC s r m a b h1 h2 h3 => exact sendC_ok s r m a b h1 h2 h3
  | index r a h1 h2 => exact index_ok r a h1 h2
  | colon2 r x h => exact colon2_ok r x h
  | colon3 x => exact colon3_ok x
  | super0 => exact super0_ok
  | superA a h => exact superA_ok a h
  | yield0 => exact yield0_ok
  | yieldA a h => exact yieldA_ok a h
  | paren ss h => exact paren_ok ss h
  | block d c ps b h1 h2 h3 => exact block_ok d c ps b h1 h2 h3
  | lam d ps b h1 h2 => exact lam_ok d ps b h1 h2
  | un o e h => exact un_ok o e h
  | notE e h => exact notE_ok e h
  | bin o l r h1 h2 => exact bin_ok o l r h1 h2
  | tern c a b h1 h2 h3 => exact tern_ok c a b h1 h2 h3
  | asgn v e h => exact asgn_ok v e h
  | opasgn v o e h => exact opasgn_ok v o e h
  | attr s r m e h1 h2 => exact attr_ok s r m e h1 h2
  | opattr s r m o e h1 h2 => exact opattr_ok s r m o e h1 h2
  | setIndex r a e h1 h2 h3 => exact setIndex_ok r a e h1 h2 h3
  | opindex r a o e h1 h2 h3 => exact opindex_ok r a o e h1 h2 h3
  | masgn v w vs e h => exact masgn_ok v w vs e h
  | masgnL v w vs e a h1 h2 => exact masgnL_ok v w vs e a h1 h2
  | modi m l c h1 h2 => exact modi_ok m l c h1 h2
  | rescueM l r h1 h2 => exact rescueM_ok l r h1 h2
  | if_ c a e h1 h2 h3 => exact if_ok c a e h1 h2 h3
  | unless_ c a e h1 h2 h3 => exact unless_ok c a e h1 h2 h3
  | while_ n c a h1 h2 => exact while_ok n c a h1 h2
  | for_ v e a h1 h2 => exact for_ok v e a h1 h2
  | case_ s ws e h1 h2 h3 => exact case_ok s ws e h1 h2 h3
  | case0 ws e h1 h2 => exact case0_ok ws e h1 h2
  | begin_ b rs el en h1 h2 h3 h4 => exact begin_ok b rs el en h1 h2 h3 h4
  | def_ s x ps b h1 h2 => exact def_ok s x ps b h1 h2
  | defE s x ps e h1 h2 => exact defE_ok s x ps e h1 h2
  | class_ x sup b h => exact class_ok x sup b h
  | module_ x b h => exact module_ok x b h
  | sclass e b h1 h2 => exact sclass_ok e b h1 h2
  | postexe b h => exact postexe_ok b h
  | ret0 => exact ret0_ok
  | ret e h => exact ret_ok e h
  | jump0 j => exact jump0_ok j
  | jump j e h => exact jump_ok j e h
  | snil => exact SOk.nil
  | slast e h => exact SOk.last h
  | scons e ss h1 h2 => exact SOk.cons h1 h2
  | anil => exact AOk.nil
  | acons e a h1 h2 => exact AOk.cons h1 h2
  | asplat e a h1 h2 => exact AOk.splat h1 h2
  | apairs ps a h1 h2 => exact AOk.pairs h1 h2
  | ablk e h => exact AOk.blk h
  | pnil => exact POk.nil
  | pcons k v ps h1 h2 h3 => exact POk.cons h1 h2 h3
  | pkey x v ps h1 h2 => exact POk.key h1 h2
  | psplat e ps h1 h2 => exact POk.splat h1 h2
  | enil => exact LOk.nil
  | els ss h => exact LOk.els h
  | elsif c a e h1 h2 h3 => exact LOk.elsif h1 h2 h3
  | tnil => exact nofun
  | part ss h =>
    intro ss' he
    cases he
    exact h
  | wnil => exact WOk.nil
  | when_ a b ws h1 h2 h3 => exact WOk.when_ h1 h2 h3
  | in_ p b ws h1 h2 => exact WOk.in_ h1 h2
  | rnil => exact ROk.nil
  | resc a v b rs h1 h2 h3 => exact ROk.resc h1 h2 h3
  | bnil => exact nofun
  | bdo ps b h1 h2 =>
    intro ps' ss' he
    cases he
    exact ⟨h1, h2⟩
  | qnil => exact QOk.nil
  | qname x ps h => exact QOk.name h
  | qdef x e ps h1 h2 => exact QOk.value h1 h2
  | qtup qs ps h1 h2 => exact QOk.tup h1 h2
  | qsplat o ps h => exact QOk.splat h
  | qkey x ps h => exact QOk.key h
  | qkeyd x e ps h1 h2 => exact QOk.keyValue h1 h2
  | qkws o ps h => exact QOk.kws h
  | qblk x => exact QOk.blk

/-- The S-expression of a whole program. -/
theorem single_sx {ss : Ex .sts} {ns : List Node} {xs : List Sexp} (h : Lsx ns xs) (hs : Stm ss ns) (t : Token) :
    (Blk.single ⟨t, ns⟩).toSexp = some (bod xs) := by
  have hb : ∀ ns, Lsx ns xs → ns.length ≠ 1 → (Node.block t ns).toSexp = some (bod xs) := by
    intro ns h hn
    unfold Node.toSexp
    rw [(Nsx.block h).tr]
    obtain ⟨rs, h1, rfl⟩ := h
    have := apps_length (trList_length h1)
    match apps ns rs, this with
    | [], _ => rfl
    | [_], h => exact absurd h.symm hn
    | _ :: _ :: _, _ => rfl
  match ns, hs with
  | [], _ => exact hb _ h (by simp)
  | [n], hs =>
    obtain ⟨-, -, -, x, hx⟩ := hs
    obtain ⟨rs, h1, h2⟩ := h
    simp only [trList, hx.tr, Option.bind_eq_bind, Option.bind_some, Option.some.injEq] at h1
    subst h1
    subst h2
    show n.toSexp = some (bod [appOf n _])
    rw [hx.app]
    unfold Node.toSexp
    rw [hx.tr]
    rfl
  | _ :: _ :: _, _ => exact hb _ h (by simp)

/-- The tokens of a program are parsed to its S-expression. -/
theorem prog_evals {ss : Ex .sts} (hw : WF [] ss = true) (ha : after ss .Eof = true) {ts : List Token} (hm : Ms (toks none ss) ts)
    {es : List Token} (hes : Eols es) {f : Token} (hf : f.type = .Eof) (hs : ts.length < 4294967296) (c : Cx) :
    ∃ n s, n.toSexp = some (prog ss) ∧ Evals parseTree c { rest := es ++ (ts ++ [f]) } n s := by
  obtain ⟨ns, h1, hst, h2⟩ := (show SOk ss from all_ok ss).run (treeBody_loops hf) (.inr ⟨rfl, by rw [hf]; exact ha⟩) hw hm (d := 0)
    (by omega) (fun _ => rfl) c (es.reverse ++ []) [] [] []
  obtain ⟨u, us, hus, hu, hv⟩ := hm.stsF (f := f) (by rw [hf]; rfl) (by rw [hf]; rfl) []
  have h2 := (h2 []).evals
  rw [hus] at h2 ⊢
  refine ⟨Blk.single ⟨u, ns⟩, ⟨ts.reverse ++ (es.reverse ++ []), [f], [0], [], out [] ss⟩, single_sx h1 hst u, h2.by1 fun R hR => ?_⟩
  rw [parseTree_eq]
  psim [hes, hu, hv, hR, id]

end NP.Gram
