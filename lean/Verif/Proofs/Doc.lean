import Verif.Proofs.Step

/-! The lexer itself attaches no documentation. -/

namespace NP

theorem singleQuotedString_doc (l : Lx) (n : Nat) (a b : Char) : (l.singleQuotedString n a b).tok.doc = none := by
  unfold Lx.singleQuotedString
  repeat' split
  all_goals rfl

theorem percentConsumer_doc (l : Lx) (n : Nat) (k : Lx.PKind) (a b : Char) :
    (l.percentConsumer n k a b).tok.doc = none := by
  cases k <;> first | rfl | exact singleQuotedString_doc _ _ _ _

theorem percentString_doc (l : Lx) (n : Nat) (k : Lx.PKind) : (l.percentString n k).tok.doc = none := by
  unfold Lx.percentString
  split
  · rfl
  extract_lets c
  repeat' split
  all_goals first | rfl | exact percentConsumer_doc _ _ _ _ _

theorem heredoc_doc (l : Lx) : l.heredoc.tok.doc = none := by
  have h := heredoc_out l
  generalize l.heredoc = o at h
  cases h <;> rfl

theorem bareName_doc (l : Lx) (t : Ttype) : (l.bareName t).tok.doc = none := by
  unfold Lx.bareName
  extract_lets r c d
  repeat' split
  all_goals rfl

theorem lexWord_doc (l : Lx) : l.lexWord.tok.doc = none := by
  unfold Lx.lexWord
  extract_lets c r
  repeat' split
  all_goals first | rfl | exact bareName_doc _ _

attribute [local irreducible] Lx.heredoc in
theorem dispatch_doc (l : Lx) (o : Out) (h : l.dispatch = .ok o) : o.tok.doc = none := by
  have hd := dispatch_disp l
  rw [h] at hd
  generalize hr : Res.ok o = r at hd
  cases hd <;> try (cases hr)
  case equal => unfold Lx.lexEqual; repeat' split
                all_goals rfl
  case plus => unfold Lx.lexPlus; repeat' split
               all_goals rfl
  case minus => unfold Lx.lexMinus; repeat' split
                all_goals rfl
  case star => unfold Lx.lexStar; repeat' split
               all_goals rfl
  case slash => unfold Lx.lexSlash; repeat' split
                all_goals rfl
  case percent =>
    unfold Lx.lexPercent; extract_lets c; repeat' split
    all_goals first | rfl | exact percentString_doc _ _ _
  case bang => unfold Lx.lexBang; repeat' split
               all_goals rfl
  case less =>
    unfold Lx.lexLess; repeat' split
    all_goals first | exact heredoc_doc _ | rfl
  case greater => unfold Lx.lexGreater; repeat' split
                  all_goals rfl
  case ampersand => unfold Lx.lexAmpersand; repeat' split
                    all_goals rfl
  case pipe => unfold Lx.lexPipe; repeat' split
               all_goals rfl
  case caret => unfold Lx.lexCaret; repeat' split
                all_goals rfl
  case tilde => unfold Lx.lexTilde; repeat' split
                all_goals rfl
  case question =>
    unfold Lx.lexQuestion at hr; extract_lets c at hr
    repeat' split at hr
    all_goals cases hr
    all_goals rfl
  case colon =>
    unfold Lx.lexColon; extract_lets c; repeat' split
    all_goals rfl
  case «at» => unfold Lx.lexAt; repeat' split
               all_goals rfl
  case dollar =>
    unfold Lx.lexDollar at hr
    replace hr := hr.symm
    ite_at hr as c1
    · cases hr; rfl
    ite_at hr as c2
    · dsimp only at hr
      split at hr <;> cases hr
      rfl
    · cases hr
      unfold Lx.globalVariable; repeat' split
      all_goals rfl
  case dot => unfold Lx.lexDot; repeat' split
              all_goals rfl
  case lbracket => unfold Lx.lexLBracket; repeat' split
                   all_goals rfl
  case newline => unfold Lx.lexNewline; extract_lets l1; split
                  all_goals rfl
  case squote => exact singleQuotedString_doc _ _ _ _
  case backtick => unfold Lx.lexBacktick; split
                   all_goals rfl
  case hash => unfold Lx.lexHash; split
               all_goals rfl
  case digit => unfold Lx.lexNumber; extract_lets r l'; split
                all_goals rfl
  case i => unfold Lx.lexI; split
            · rfl
            · exact lexWord_doc _
  case r => unfold Lx.lexR; repeat' split
            all_goals first | rfl | exact lexWord_doc _
  case word => exact lexWord_doc _
  all_goals rfl

theorem build_doc (l : Lx) (o : Out) (h : l.build = .ok o) : o.tok.doc = none := by
  unfold Lx.build at h
  split at h
  · unfold Lx.buildBase at h
    ite_at h as c1
    · cases h; rfl
    ite_at h as c2
    · exact dispatch_doc _ _ h
    ite_at h as c3
    · ite_at h as c4
      · cases h; rfl
      · exact dispatch_doc _ _ h
    ite_at h as c4
    · exact dispatch_doc _ _ h
    · exact dispatch_doc _ _ h
  · unfold Lx.buildIstr at h
    split at h
    · unfold Lx.istrConsume at h
      split at h
      · dsimp only at h; ite_at h as c <;> cases h <;> rfl
      · dsimp only at h; ite_at h as c <;> cases h <;> rfl
      · dsimp only at h; ite_at h as c <;> cases h <;> rfl
      all_goals cases h
      rfl
    all_goals cases h
    all_goals rfl
  · unfold Lx.buildRegexp at h
    split at h
    · unfold Lx.regexpConsume at h
      split at h
      all_goals cases h
      all_goals rfl
    · cases h; rfl
    · dsimp only at h; ite_at h as c <;> cases h <;> rfl
    all_goals cases h
    all_goals rfl
  · rename_i k st i s d b _
    unfold Lx.buildWords at h
    have hf : ∀ (l : Lx) i s d b, (l.wordsDynFinish i s d b).tok.doc = none := by
      intro l i s d b; unfold Lx.wordsDynFinish; split <;> rfl
    have hf' : ∀ (l : Lx) i s d b, (l.wordsFinish i s d b).tok.doc = none := by
      intro l i s d b; unfold Lx.wordsFinish; extract_lets l1; split <;> rfl
    have hc : ∀ st, l.wordsConsume st i s d = .ok o → o.tok.doc = none := by
      intro st h
      unfold Lx.wordsConsume at h
      extract_lets dyn at h
      split at h
      · dsimp only at h
        ite_at h as c <;> cases h
        · exact hf _ _ _ _ _
        · rfl
      · cases h; rfl
      · dsimp only at h
        ite_at h as c <;> cases h
        · exact hf _ _ _ _ _
        · exact hf' _ _ _ _ _
      · cases h; rfl
      · cases h
    split at h
    · exact hc _ h
    · exact hc _ h
    · cases h; rfl
    · ite_at h as c <;> cases h <;> rfl
    all_goals cases h
    all_goals rfl

theorem Produced.doc {src : Str} {t : Token} (h : Produced src t) : t.doc = none := by
  obtain ⟨l, o, _, hs, rfl⟩ := h
  obtain ⟨b, hb, rfl⟩ := l.step_eq o hs
  exact build_doc _ b hb

end NP
