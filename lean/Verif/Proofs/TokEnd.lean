import Verif.Proofs.FileParser
/-! Where the tokenizer stands after a keyword. -/

namespace Pdf

/-- A keyword that was read at `q` ends at `r`. -/
def EndAt (t : Nat × Tok) (r : Nat) : Prop := ∀ c cs, t.2 = .kw (c :: cs) → isAlpha c = true → r = t.1 + (c :: cs).length

def KwPos (st : LexSt) (p : Nat) : Prop := st.fn = .keyword → p = st.tpos + st.cur.length

theorem parseMain_end (st : LexSt) (pos : Nat) (w : Bytes) (hf : st.fn = .main) {st' n tk} (h : parseMain st pos w = (st', n, tk)) :
    (tk = [] ∧ KwPos st' (pos + n)) ∨ ∃ t, tk = [t] ∧ st'.fn = .main ∧ EndAt t (pos + n) := by
  unfold parseMain at h
  dsimp only at h
  cases hw : w.dropWhile isSpace with
  | nil =>
    rw [hw] at h
    simp only [Prod.mk.injEq] at h
    obtain ⟨rfl, rfl, rfl⟩ := h
    exact Or.inl ⟨rfl, by intro e; rw [hf] at e; cases e⟩
  | cons c r =>
    rw [hw] at h
    simp only [Prod.mk.injEq] at h
    obtain ⟨h1, rfl, h3⟩ := h
    unfold mainDispatch at h1 h3
    dsimp only at h1 h3
    repeat' split at h1
    all_goals simp_all
    all_goals subst h1
    all_goals try subst h3
    all_goals simp [KwPos, EndAt]
    · omega
    · refine ⟨_, _, ⟨rfl, rfl⟩, ?_⟩
      intro c' cs e ha
      simp only [Tok.kw.injEq, List.cons.injEq] at e
      obtain ⟨rfl, rfl⟩ := e
      simp_all

theorem keywordTok_kw {cur : Bytes} {n : Bytes} (h : keywordTok cur = .kw n) : n = cur := by
  unfold keywordTok at h
  repeat' split at h
  all_goals simp_all

theorem parseCall_end (st : LexSt) (pos : Nat) (w : Bytes) (hk : KwPos st pos) {st' n tk} (h : parseCall st pos w = .ok (st', n, tk)) :
    (tk = [] ∧ KwPos st' (pos + n)) ∨ ∃ t, tk = [t] ∧ st'.fn = .main ∧ EndAt t (pos + n) := by
  obtain ⟨fn, cur, tpos, paren, hex, oct⟩ := st
  cases fn with
  | main =>
    refine parseMain_end ⟨.main, cur, tpos, paren, hex, oct⟩ pos w rfl ?_
    simpa [parseCall] using h
  | keyword =>
    simp only [parseCall, parseKeyword, Except.ok.injEq] at h
    have hk := hk rfl
    dsimp only at hk
    split at h
    · simp only [Prod.mk.injEq] at h
      obtain ⟨rfl, rfl, rfl⟩ := h
      refine Or.inl ⟨rfl, fun _ => ?_⟩
      simp [hk]; omega
    · simp only [Prod.mk.injEq] at h
      obtain ⟨rfl, rfl, rfl⟩ := h
      refine Or.inr ⟨_, rfl, rfl, ?_⟩
      intro c cs e _
      rw [keywordTok_kw e, hk]
      simp; omega
  | comment =>
    simp only [parseCall, parseComment, Except.ok.injEq] at h
    split at h <;> (simp only [Prod.mk.injEq] at h; obtain ⟨rfl, rfl, rfl⟩ := h) <;> exact Or.inl ⟨rfl, by simp [KwPos]⟩
  | literal =>
    simp only [parseCall, parseLiteral, Except.ok.injEq] at h
    repeat' split at h
    all_goals (simp only [Prod.mk.injEq] at h; obtain ⟨rfl, rfl, rfl⟩ := h)
    · exact Or.inl ⟨rfl, by simp [KwPos]⟩
    · exact Or.inl ⟨rfl, by simp [KwPos]⟩
    · exact Or.inr ⟨_, rfl, rfl, by simp [EndAt]⟩
  | number =>
    simp only [parseCall, parseNumber, Except.ok.injEq] at h
    split at h
    · simp only [Prod.mk.injEq] at h; obtain ⟨rfl, rfl, rfl⟩ := h
      exact Or.inl ⟨rfl, by simp [KwPos]⟩
    · split at h
      · simp only [Prod.mk.injEq] at h; obtain ⟨rfl, rfl, rfl⟩ := h
        exact Or.inl ⟨rfl, by simp [KwPos]⟩
      · simp only [Prod.mk.injEq] at h; obtain ⟨rfl, rfl, rfl⟩ := h
        split
        · exact Or.inr ⟨_, rfl, rfl, by simp [EndAt]⟩
        · exact Or.inl ⟨rfl, by simp [KwPos]⟩
  | float =>
    simp only [parseCall, parseFloat, Except.ok.injEq] at h
    split at h
    · simp only [Prod.mk.injEq] at h; obtain ⟨rfl, rfl, rfl⟩ := h
      exact Or.inl ⟨rfl, by simp [KwPos]⟩
    · simp only [Prod.mk.injEq] at h; obtain ⟨rfl, rfl, rfl⟩ := h
      split
      · exact Or.inr ⟨_, rfl, rfl, by simp [EndAt]⟩
      · exact Or.inl ⟨rfl, by simp [KwPos]⟩
  | string =>
    simp only [parseCall, parseString, Except.ok.injEq] at h
    repeat' split at h
    all_goals (simp only [Prod.mk.injEq] at h; obtain ⟨rfl, rfl, rfl⟩ := h)
    all_goals first | exact Or.inl ⟨rfl, by simp [KwPos]⟩ | exact Or.inr ⟨_, rfl, rfl, by simp [EndAt]⟩
  | hexstring =>
    simp only [parseCall, parseHexstring, Except.ok.injEq] at h
    repeat' split at h
    all_goals (simp only [Prod.mk.injEq] at h; obtain ⟨rfl, rfl, rfl⟩ := h)
    all_goals first | exact Or.inl ⟨rfl, by simp [KwPos]⟩ | exact Or.inr ⟨_, rfl, rfl, by simp [EndAt]⟩
  | literalHex =>
    cases w with
    | nil => simp only [parseCall, Except.ok.injEq, Prod.mk.injEq] at h; obtain ⟨rfl, rfl, rfl⟩ := h; exact Or.inl ⟨rfl, by simp [KwPos]⟩
    | cons c cs =>
      simp only [parseCall, parseLiteralHex, Except.ok.injEq] at h
      repeat' split at h
      all_goals (simp only [Prod.mk.injEq] at h; obtain ⟨rfl, rfl, rfl⟩ := h)
      all_goals exact Or.inl ⟨rfl, by simp [KwPos]⟩
  | string1 =>
    cases w with
    | nil => simp only [parseCall, Except.ok.injEq, Prod.mk.injEq] at h; obtain ⟨rfl, rfl, rfl⟩ := h; exact Or.inl ⟨rfl, by simp [KwPos]⟩
    | cons c cs =>
      simp only [parseCall, parseString1] at h
      repeat' split at h
      all_goals simp only [Except.ok.injEq, Prod.mk.injEq, reduceCtorEq] at h
      all_goals (obtain ⟨rfl, rfl, rfl⟩ := h)
      all_goals exact Or.inl ⟨rfl, by simp [KwPos]⟩
  | wopen =>
    cases w with
    | nil => simp only [parseCall, Except.ok.injEq, Prod.mk.injEq] at h; obtain ⟨rfl, rfl, rfl⟩ := h; exact Or.inl ⟨rfl, by simp [KwPos]⟩
    | cons c cs =>
      simp only [parseCall, parseWopen, Except.ok.injEq] at h
      repeat' split at h
      all_goals (simp only [Prod.mk.injEq] at h; obtain ⟨rfl, rfl, rfl⟩ := h)
      · exact Or.inr ⟨_, rfl, rfl, by simp [EndAt]; intro h; exact absurd h (by decide)⟩
      · exact Or.inl ⟨rfl, by simp [KwPos]⟩
  | wclose =>
    cases w with
    | nil => simp only [parseCall, Except.ok.injEq, Prod.mk.injEq] at h; obtain ⟨rfl, rfl, rfl⟩ := h; exact Or.inl ⟨rfl, by simp [KwPos]⟩
    | cons c cs =>
      simp only [parseCall, parseWclose, Except.ok.injEq] at h
      repeat' split at h
      all_goals (simp only [Prod.mk.injEq] at h; obtain ⟨rfl, rfl, rfl⟩ := h)
      · exact Or.inr ⟨_, rfl, rfl, by simp [EndAt]; intro h; exact absurd h (by decide)⟩
      · exact Or.inl ⟨rfl, by simp [KwPos]⟩

/-- The buffer agrees with the file. -/
structure PSt.Good (ps : PSt) : Prop where
  inv : ps.Inv
  unread : ps.unread = ps.data.drop ps.rpos

theorem good_seek (data : Bytes) (pos : Nat) : (PSt.seek data pos).Good :=
  ⟨inv_seek data pos, by simp [PSt.unread, PSt.seek, PSt.rpos]⟩

theorem good_fillbuf {b : Nat} (hb : 0 < b) {ps : PSt} (h : ps.Good) : (ps.fillbuf b).1.Good ∧ (ps.fillbuf b).1.rpos = ps.rpos := by
  obtain ⟨f1, f2, f3, f4, f5, f6, f7⟩ := fillbuf_spec hb ps h.inv
  exact ⟨⟨f1, by rw [f3, f2, fillbuf_data, h.unread]⟩, f2⟩

/-- Before a token is read: nothing is queued, or the one token that was just read. -/
def TokSt (ps : PSt) : Prop :=
  (ps.toks = [] ∧ KwPos ps.lex ps.rpos) ∨ ∃ t, ps.toks = [t] ∧ ps.lex.fn = .main ∧ EndAt t ps.rpos ∧ ps.charpos ≤ ps.buf.length

structure TokDone (ps : PSt) (t : Nat × Tok) (ps' : PSt) : Prop where
  good : ps'.Good
  data : ps'.data = ps.data
  cpos : ps'.charpos ≤ ps'.buf.length
  toks : ps'.toks = []
  main : ps'.lex.fn = .main
  endAt : EndAt t ps'.rpos

theorem nexttokenLoop_end {b : Nat} (hb : 0 < b) (fuel : Nat) (ps : PSt) (hg : ps.Good) (ht : TokSt ps) (t : Nat × Tok) (ps' : PSt)
    (h : ps.nexttokenLoop b fuel = (.ok t, ps')) : TokDone ps t ps' := by
  induction fuel generalizing ps with
  | zero => simp [PSt.nexttokenLoop] at h
  | succ fuel ih =>
    unfold PSt.nexttokenLoop at h
    rcases ht with ⟨ht, hk⟩ | ⟨u, ht, hm, he, hc⟩
    · rw [ht] at h
      dsimp only at h
      have hfl := fillbuf_spec hb ps hg.inv
      have hgf := good_fillbuf hb hg
      have hd := fillbuf_data b ps
      generalize ps.fillbuf b = r at *
      obtain ⟨ps1, q⟩ := r
      obtain ⟨f1, f2, f3, f4, f5, f6, f7⟩ := hfl
      dsimp only at *
      cases q with
      | true => simp at h
      | false =>
        dsimp only at h
        have hlt := f7 rfl
        have hrp : ps1.bufpos + ps1.charpos = ps1.rpos := by
          simp only [PSt.rpos, PSt.Inv] at *; omega
        have hwne : ps1.buf.drop ps1.charpos ≠ [] := by
          intro h; have := congrArg List.length h; rw [List.length_drop] at this; simp at this; omega
        cases hc : parseCall ps1.lex (ps1.bufpos + ps1.charpos) (ps1.buf.drop ps1.charpos) with
        | error e => rw [hc] at h; simp at h
        | ok out =>
          obtain ⟨lex', n, tk⟩ := out
          have hcall := parseCall_ok ps1.lex (ps1.bufpos + ps1.charpos) _ hwne
          rw [hc] at hcall h
          dsimp only at h
          have hn : n ≤ ps1.buf.length - ps1.charpos := by simpa using hcall.1
          have hend := parseCall_end _ _ _ (by rw [hrp, f2, f4]; exact hk) hc
          have hrp2 : PSt.rpos { ps1 with lex := lex', charpos := ps1.charpos + n, toks := ps1.toks ++ tk } = ps1.rpos + n := by
            simp only [PSt.rpos, PSt.Inv] at *; omega
          have hg2 : PSt.Good { ps1 with lex := lex', charpos := ps1.charpos + n, toks := ps1.toks ++ tk } := by
            refine ⟨f1, ?_⟩
            rw [hrp2]
            show ps1.buf.drop (ps1.charpos + n) ++ ps1.data.drop ps1.fpos = ps1.data.drop (ps1.rpos + n)
            rw [← List.drop_drop (i := n) (j := ps1.rpos), ← hgf.1.unread, PSt.unread, List.drop_append_of_le_length (by simpa using hn), List.drop_drop]
          have hts : TokSt { ps1 with lex := lex', charpos := ps1.charpos + n, toks := ps1.toks ++ tk } := by
            rw [hrp] at hend
            rcases hend with ⟨rfl, h2⟩ | ⟨t, rfl, h2, h3⟩
            · exact Or.inl ⟨by simp [f5, ht], by rw [hrp2]; exact h2⟩
            · exact Or.inr ⟨t, by simp [f5, ht], h2, by rw [hrp2]; exact h3, by dsimp only; omega⟩
          have := ih _ hg2 hts h
          exact ⟨this.good, by rw [this.data, ← hd], this.cpos, this.toks, this.main, this.endAt⟩
    · rw [ht] at h
      simp only [Prod.mk.injEq, Except.ok.injEq] at h
      obtain ⟨rfl, rfl⟩ := h
      exact ⟨⟨hg.inv, hg.unread⟩, rfl, hc, rfl, hm, he⟩

/-- After a keyword the tokenizer stands right behind it, whatever the buffer size. -/
theorem nexttoken_end {b : Nat} (hb : 0 < b) (ps : PSt) (hg : ps.Good) (ht : ps.toks = []) (hm : ps.lex.fn = .main) {t : Nat × Tok} {ps' : PSt}
    (h : ps.nexttoken b = (.ok t, ps')) : TokDone ps t ps' :=
  nexttokenLoop_end hb _ ps hg (Or.inl ⟨ht, by intro e; rw [hm] at e; cases e⟩) t ps' h

end Pdf
