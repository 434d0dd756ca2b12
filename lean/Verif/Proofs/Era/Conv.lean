import Verif.Proofs.Era.Erase
import Verif.Spec.Tree

/-! Positions are not in the S-expressions, but for `__LINE__`. -/

namespace NP.Era

open Spec

/-- No `__LINE__`. -/
def NoLine (n : Node) : Prop := ∀ t v, NodeOf (.fixnum t v) n → t.type ≠ .LINEKeyword

def NoLines (ns : List Node) : Prop := ∀ n ∈ ns, NoLine n

theorem NoLine.kids {n : Node} (h : NoLine n) : NoLines (kids n) := fun _ hk _ _ hm => h _ _ (.inside hk hm)

theorem noLines_cons {n : Node} {ns : List Node} : NoLines (n :: ns) ↔ NoLine n ∧ NoLines ns := by simp [NoLines]
theorem noLines_append {l m : List Node} : NoLines (l ++ m) ↔ NoLines l ∧ NoLines m := by
  simp only [NoLines, List.mem_append]
  exact ⟨fun h => ⟨fun n k => h n (.inl k), fun n k => h n (.inr k)⟩, fun h n k => k.elim (h.1 n) (h.2 n)⟩

theorem isNil_bare (n : Node) : (bare n).isNil = n.isNil := by cases n <;> rfl
theorem isString_bare (n : Node) : (bare n).isString = n.isString := by cases n <;> rfl
theorem isEvStr_bare (n : Node) : (bare n).isEvStr = n.isEvStr := by cases n <;> rfl
theorem isIString_bare (n : Node) : (bare n).isIString = n.isIString := by cases n <;> rfl
theorem isTarget_bare (n : Node) : (bare n).isTarget = n.isTarget := by cases n <;> rfl
theorem strOf_bare (n : Node) : (bare n).strOf = n.strOf := by cases n <;> rfl

theorem appOf_bare (n : Node) (r : TR) : appOf (bare n) r = appOf n r := by
  unfold appOf
  rw [isNil_bare]

theorem isEmpty_bare (ns : List Node) : (bareL ns).isEmpty = ns.isEmpty := by cases ns <;> rfl
theorem length_bare (ns : List Node) : (bareL ns).length = ns.length := by
  induction ns with
  | nil => rfl
  | cons n ns ih => simp [bareL, ih]

theorem apps_bare : ∀ (ns : List Node) (rs : List TR), apps (bareL ns) rs = apps ns rs
  | [], _ => by rw [bareL]
  | n :: ns, [] => by rw [bareL]; rfl
  | n :: ns, r :: rs => by rw [bareL, apps, apps, appOf_bare, apps_bare ns]

theorem bodySexp_bare (ns : List Node) (rs : List TR) : bodySexp (bareL ns) rs = bodySexp ns rs := by
  match ns, rs with
  | [], _ => rfl
  | [n], [] => rfl
  | [n], [r] => exact appOf_bare n r
  | [n], r :: q :: rs =>
    show Sexp.node _ (apps (bareL [n]) (r :: q :: rs)) = Sexp.node _ (apps [n] (r :: q :: rs))
    rw [apps_bare]
  | n :: m :: ns, rs =>
    show Sexp.node _ (apps (bareL (n :: m :: ns)) rs) = Sexp.node _ (apps (n :: m :: ns) rs)
    rw [apps_bare]

theorem bodyOrNil_bare (ns : List Node) (rs : List TR) : bodyOrNil (bareL ns) rs = bodyOrNil ns rs := by
  unfold bodyOrNil
  rw [isEmpty_bare, apps_bare]

theorem methodArg_bare (n : Node) (r : TR) : methodArg (bare n) r = methodArg n r := by
  cases n <;> first | rfl | (rename_i o; cases o <;> rfl)

theorem methodArgs_bare : ∀ (ns : List Node) (rs : List TR), methodArgs (bareL ns) rs = methodArgs ns rs
  | [], _ => by rw [bareL]
  | n :: ns, [] => by rw [bareL]; rfl
  | n :: ns, r :: rs => by rw [bareL, methodArgs, methodArgs, methodArg_bare, methodArgs_bare ns]

theorem patArg_bare (n : Node) (r : TR) : patArg (bare n) r = patArg n r := by
  cases n <;> first
    | rfl
    | exact congrArg some (appOf_bare _ r)
    | (rename_i o; cases o with
        | none => rfl
        | some m => cases m <;> rfl)

theorem patArgs_bare : ∀ (ns : List Node) (rs : List TR), patArgs (bareL ns) rs = patArgs ns rs
  | [], _ => by rw [bareL]
  | n :: ns, [] => by rw [bareL]; rfl
  | n :: ns, r :: rs => by rw [bareL, patArgs, patArgs, patArg_bare, patArgs_bare ns]

theorem startString_bare (ns : List Node) (rs : List TR) : startString (bareL ns) rs = startString ns rs := by
  match ns, rs with
  | [], _ => rfl
  | n :: ns, [] => cases n <;> rfl
  | n :: ns, r :: rs =>
    have h := apps_bare (n :: ns) (r :: rs)
    rw [bareL] at h ⊢
    cases n <;> first
      | exact congrArg (Sexp.str [] :: ·) h
      | (rw [bare]; exact congrArg (Sexp.str _ :: ·) (apps_bare ns rs))

theorem dstrPart_bare (n : Node) (r : TR) : dstrPart (bare n) r = dstrPart n r := by
  unfold dstrPart
  rw [isEvStr_bare, appOf_bare]

theorem dstrParts_bare : ∀ (ns : List Node) (rs : List TR), dstrParts (bareL ns) rs = dstrParts ns rs
  | [], _ => by rw [bareL]
  | n :: ns, [] => by rw [bareL]; rfl
  | n :: ns, r :: rs => by rw [bareL, dstrParts, dstrParts, dstrPart_bare, dstrParts_bare ns]

theorem takeWhile_bare : ∀ (ns : List Node), (bareL ns).takeWhile Node.isString = bareL (ns.takeWhile Node.isString)
  | [] => rfl
  | n :: ns => by
    rw [bareL, List.takeWhile_cons, List.takeWhile_cons, isString_bare, takeWhile_bare ns]
    split <;> rfl

theorem dropWhile_bare : ∀ (ns : List Node), (bareL ns).dropWhile Node.isString = bareL (ns.dropWhile Node.isString)
  | [] => rfl
  | n :: ns => by
    rw [bareL, List.dropWhile_cons, List.dropWhile_cons, isString_bare, dropWhile_bare ns]
    split <;> rfl

theorem strOfs_bare : ∀ (ns : List Node), (bareL ns).map Node.strOf = ns.map Node.strOf
  | [] => rfl
  | n :: ns => by rw [bareL, List.map_cons, List.map_cons, strOf_bare, strOfs_bare ns]

theorem dstr_bare (ns : List Node) (rs : List TR) : dstr (bareL ns) rs = dstr ns rs := by
  cases ns with
  | nil => rfl
  | cons n ns =>
    by_cases h : n.isString = true
    · cases n <;> first | (cases h; done) | skip
      rename_i t s
      show Sexp.node (if ((bareL (.string t s :: ns)).dropWhile Node.isString).isEmpty then _ else _)
          (.str (((bareL (.string t s :: ns)).takeWhile Node.isString).map Node.strOf).flatten ::
            dstrParts ((bareL (.string t s :: ns)).dropWhile Node.isString)
              (rs.drop ((bareL (.string t s :: ns)).takeWhile Node.isString).length)) = _
      rw [takeWhile_bare, dropWhile_bare, isEmpty_bare, dstrParts_bare, strOfs_bare, length_bare]
      rfl
    · have e := dstrParts_bare (n :: ns) rs
      rw [bareL] at e ⊢
      cases n <;> first
        | (exact absurd rfl h)
        | exact congrArg (fun x => Sexp.node (cs! "dstr") (Sexp.str [] :: x)) e

theorem dstrSolo_bare (ns : List Node) (rs : List TR) : dstrSolo (bareL ns) rs = dstrSolo ns rs := by
  match ns, rs with
  | [], _ => rfl
  | [n], [] => cases n <;> rfl
  | [n], [r] => cases n <;> rfl
  | [n], r :: q :: rs => cases n <;> rfl
  | n :: m :: ns, rs => cases n <;> rfl

theorem assignTo_bare (n : Node) (r : TR) (x : Sexp) : assignTo (bare n) r x = assignTo n r x := by
  unfold assignTo
  rw [isTarget_bare]

theorem identSexp_bare (asg : Bool) (t : Token) (lvar : Bool) : identSexp asg (bareTok t) lvar = identSexp asg t lvar := rfl

theorem nameSexp_bare (n : Node) (r : TR) : nameSexp (bare n) r = nameSexp n r := by
  cases n <;> rfl

theorem numSexp_bare {n : Node} (h : NoLine n) : numSexp (bare n) = numSexp n := by
  cases n <;> first
    | rfl
    | (rw [bare, if_neg (h _ _ .root)]; rfl)

theorem masgnArgs_bare : ∀ (ns : List Node) (rs : List TR), masgnArgs (bareL ns) rs = masgnArgs ns rs
  | [], _ => by rw [bareL]
  | n :: ns, [] => by rw [bareL]; cases n <;> rfl
  | n :: ns, r :: rs => by
    have h := masgnArgs_bare ns rs
    rw [bareL]
    cases n <;> (show _ :: masgnArgs (bareL ns) rs = _; rw [h]; rfl)

/-- What may be absent. -/
def SameO (o : Option Node) : Prop :=
  ∀ asg, trOpt asg (bareO o) = trOpt asg o ∧ trName asg (bareO o) = trName asg o ∧
    ∀ t, tr asg (.evaluateToString t (bareO o)) = tr asg (.evaluateToString t o)

theorem sameO {n : Node} (h : ∀ asg, tr asg (bare n) = tr asg n) : SameO (some n) := by
  intro asg
  simp only [bareO, trOpt, trName, tr, h, appOf_bare, assignTo_bare, isIString_bare]
  exact ⟨trivial, trivial, fun _ => trivial⟩

theorem isSome_bare (o : Option Node) : (bareO o).isSome = o.isSome := by cases o <;> rfl
theorem isNone_bare (o : Option Node) : (bareO o).isNone = o.isNone := by cases o <;> rfl

theorem range_bare {f l : Node} (x y : TR) (excl : Bool) (hf : NoLine f) (hl : NoLine l) :
    (match (generalizing := false) bare f, bare l with
      | .fixnum _ a, .fixnum _ b => mk (cs! "lit") [.range a b excl]
      | f, l => mk (if excl then cs! "dot3" else cs! "dot2") [appOf f x, appOf l y]) =
    match (generalizing := false) f, l with
      | .fixnum _ a, .fixnum _ b => mk (cs! "lit") [.range a b excl]
      | f, l => mk (if excl then cs! "dot3" else cs! "dot2") [appOf f x, appOf l y] := by
  have e := appOf_bare l y
  cases f <;> first
    | (show mk _ [_, appOf (bare l) y] = mk _ [_, appOf l y]
       rw [e]
       rfl)
    | skip
  cases l <;> first
    | rfl
    | (rw [bare, bare, if_neg (hf _ _ .root), if_neg (hl _ _ .root)])

theorem dregx_bare (ns : List Node) (rs : List TR) :
    (match bareL ns, rs with
      | .string _ s :: ns, _ :: rs => Sexp.str s :: apps ns rs
      | ns, rs => apps ns rs) =
    match ns, rs with
      | .string _ s :: ns, _ :: rs => Sexp.str s :: apps ns rs
      | ns, rs => apps ns rs := by
  match ns, rs with
  | [], _ => rfl
  | n :: ns, [] => cases n <;> rfl
  | n :: ns, r :: rs =>
    have h := apps_bare (n :: ns) (r :: rs)
    rw [bareL] at h ⊢
    cases n <;> first
      | exact h
      | exact congrArg (Sexp.str _ :: ·) (apps_bare ns rs)

theorem tr_bare (n : Node) : NoLine n → ∀ asg, tr asg (bare n) = tr asg n := by
  refine Node.rec
    (motive_1 := fun n => NoLine n → ∀ asg, tr asg (bare n) = tr asg n)
    (motive_2 := fun o => NoLines o.toList → SameO o)
    (motive_3 := fun ns => NoLines ns → ∀ asg, trList asg (bareL ns) = trList asg ns)
    (motive_4 := fun o => NoLines (o.getD []) → ∀ asg, trBody asg (bareB o) = trBody asg o)
    ?_ ?_ ?_ ?_ ?_ ?_ ?_ ?_ ?_ ?_ ?_ ?_ ?_ ?_ ?_ ?_ ?_ ?_ ?_ ?_ ?_ ?_ ?_ ?_ ?_ ?_ ?_ ?_ ?_ ?_ ?_ ?_ ?_ ?_ ?_ ?_ ?_ ?_
    ?_ ?_ ?_ ?_ ?_ ?_ ?_ ?_ ?_ ?_ ?_ ?_ ?_ ?_ ?_ ?_ ?_ ?_ ?_ ?_ ?_ ?_ ?_ ?_ ?_ ?_ ?_ ?_ ?_ ?_ ?_ ?_ ?_ ?_ ?_ ?_ ?_ ?_
    ?_ ?_ ?_ ?_ ?_ ?_ ?_ ?_ ?_ ?_ ?_ ?_ ?_ ?_ ?_ ?_ ?_ ?_ ?_ n
  all_goals try (intros; rfl)
  all_goals first
    | exact fun _ h k => sameO (h (k _ (.head _)))
    | exact fun _ _ => ⟨rfl, rfl, fun _ => rfl⟩
    | skip
  all_goals intros
  all_goals rename_i cl asg
  all_goals first
    | have hk := NoLine.kids cl
    | have hk := cl
  all_goals try simp only [kids, noLines_cons, noLines_append, and_assoc] at hk
  all_goals try simp only [SameO] at *
  case refine_95 ih => exact ih cl asg
  all_goals try simp only [hk, forall_const] at *
  all_goals try simp only [bare, bareL, tr, trList, appOf_bare, isEmpty_bare, apps_bare, bodySexp_bare, bodyOrNil_bare, methodArgs_bare, patArgs_bare,
    startString_bare, dstr_bare, dstrSolo_bare, assignTo_bare, nameSexp_bare, masgnArgs_bare, isNil_bare, isSome_bare, isNone_bare, *]
  case refine_7 els ens _ _ _ _ =>
    cases ens <;> rcases els with _ | _ | ⟨e, el⟩ <;> simp only [bareB, bareL, isEmpty_bare, bodySexp_bare] <;>
      simp only [← bareL.eq_2, bodySexp_bare]
  case refine_15 els _ _ _ => cases els <;> simp only [bareB, bodySexp_bare]
  case refine_21 v _ =>
    have hv := cl.kids v (.head _)
    have e := numSexp_bare hv
    cases v <;> first
      | (rename_i u _; have e := numSexp_bare (hv.kids u (.head _)); simp only [bare, tr] at e ⊢; rw [e])
      | (simp only [bare, tr] at e ⊢; rw [e])
  case refine_27 o ih => cases o <;> rfl
  case refine_29 => rw [if_neg (cl _ _ .root)]
  case refine_39 ns opts _ =>
    exact congrArg (Option.bind _) (funext fun rs => congrArg
      (fun l => mk (cs! "dregx") (l ++ if opts = 0 then [] else [.int opts])) (dregx_bare ns rs))
  case refine_59 name _ _ _ => cases name <;> rfl
  case refine_64 =>
    exact congrArg (Option.bind _) (funext fun x => congrArg (Option.bind _) (funext fun y =>
      range_bare x y _ (cl.kids _ (.head _)) (cl.kids _ (.tail _ (.head _)))))
  case refine_65 => rw [numSexp_bare (cl.kids _ (.head _))]

theorem bareL_append (l m : List Node) : bareL (l ++ m) = bareL l ++ bareL m := by
  induction l with
  | nil => rfl
  | cons n l ih => rw [List.cons_append, bareL, bareL, ih, List.cons_append]

theorem bareO_toList (o : Option Node) : (bareO o).toList = bareL o.toList := by cases o <;> rfl
theorem bareB_getD (o : Option (List Node)) : (bareB o).getD [] = bareL (o.getD []) := by cases o <;> rfl

theorem kids_bare (n : Node) : kids (bare n) = bareL (kids n) := by
  cases n <;> first
    | rfl
    | simp only [bare, kids, bareL_append, bareO_toList, bareB_getD, bareL]

theorem mem_bareL {n : Node} {ns : List Node} (h : n ∈ ns) : bare n ∈ bareL ns := by
  induction ns with
  | nil => cases h
  | cons m ns ih =>
    rw [bareL]
    rcases List.mem_cons.1 h with rfl | h
    · exact .head _
    · exact .tail _ (ih h)

theorem of_mem_bareL {n : Node} {ns : List Node} (h : n ∈ bareL ns) : ∃ m ∈ ns, n = bare m := by
  induction ns with
  | nil => cases h
  | cons m ns ih =>
    rw [bareL] at h
    rcases List.mem_cons.1 h with rfl | h
    · exact ⟨m, .head _, rfl⟩
    · obtain ⟨m, hm, rfl⟩ := ih h
      exact ⟨m, .tail _ hm, rfl⟩

theorem nodeOf_bare {m n : Node} (h : NodeOf m n) : NodeOf (bare m) (bare n) := by
  induction h with
  | root => exact .root
  | inside hk _ ih => exact .inside (by rw [kids_bare]; exact mem_bareL hk) ih

theorem of_nodeOf_bare {m k : Node} (h : NodeOf m k) : ∀ {n : Node}, k = bare n → ∃ m', NodeOf m' n ∧ m = bare m' := by
  induction h with
  | root => exact fun {n} e => ⟨n, .root, e⟩
  | inside hk _ ih =>
    rintro n rfl
    rw [kids_bare] at hk
    obtain ⟨k, hk, e⟩ := of_mem_bareL hk
    obtain ⟨m', h, e'⟩ := ih e
    exact ⟨m', .inside hk h, e'⟩

theorem NoLine.of_bare {n m : Node} (h : NoLine n) (e : bare n = bare m) : NoLine m := by
  intro t v hm
  obtain ⟨m', h', e'⟩ := of_nodeOf_bare (nodeOf_bare hm) e.symm
  rw [bare] at e'
  cases m' <;> rw [bare] at e' <;> first
    | cases e'
    | skip
  injection e' with e1 e2
  intro ht
  exact h _ _ h' ((congrArg Token.type e1).symm.trans ht)

/-- The S-expression of a tree without `__LINE__`. -/
theorem toSexp_bare {n : Node} (h : NoLine n) : (bare n).toSexp = n.toSexp := by
  unfold Node.toSexp
  rw [tr_bare n h]

theorem toSexp_eq {n m : Node} (hn : NoLine n) (h : bare n = bare m) : n.toSexp = m.toSexp := by
  rw [← toSexp_bare hn, ← toSexp_bare (hn.of_bare h), h]

end NP.Era
