import Verif.Proofs.LexMachine
/-! The buffered tokenizer produces the stream of the byte machine, whatever the buffer size. -/

namespace Pdf

/-- File position of the first unread byte. -/
def PSt.rpos (ps : PSt) : Nat := ps.fpos - (ps.buf.length - ps.charpos)

def PSt.Inv (ps : PSt) : Prop := ps.bufpos + ps.buf.length = ps.fpos

/-- The tokens that are still to come. -/
def PSt.stream (ps : PSt) : Stream := Stream.pre ps.toks (lexRun ps.lex ps.rpos ps.unread)

theorem inv_seek (data : Bytes) (pos : Nat) : (PSt.seek data pos).Inv := by simp [PSt.Inv, PSt.seek]

theorem stream_seek (data : Bytes) (pos : Nat) :
    (PSt.seek data pos).stream = lexRun {} pos (data.drop pos) := by
  simp [PSt.stream, PSt.seek, PSt.rpos, PSt.unread]

/-- Filling the buffer changes nothing observable. -/
theorem fillbuf_spec {bufsiz : Nat} (hb : 0 < bufsiz) (ps : PSt) (hi : ps.Inv) :
    (ps.fillbuf bufsiz).1.Inv ∧ (ps.fillbuf bufsiz).1.rpos = ps.rpos ∧
    (ps.fillbuf bufsiz).1.unread = ps.unread ∧ (ps.fillbuf bufsiz).1.lex = ps.lex ∧
    (ps.fillbuf bufsiz).1.toks = ps.toks ∧
    ((ps.fillbuf bufsiz).2 = true → ps.unread = []) ∧
    ((ps.fillbuf bufsiz).2 = false → (ps.fillbuf bufsiz).1.charpos < (ps.fillbuf bufsiz).1.buf.length) := by
  obtain ⟨data, fpos, bufpos, buf, charpos, lex, toks⟩ := ps
  simp only [PSt.Inv] at hi
  unfold PSt.fillbuf
  split
  · rename_i h; exact ⟨hi, rfl, rfl, rfl, rfl, by simp, fun _ => h⟩
  · rename_i h
    simp only [Nat.not_lt] at h
    dsimp only
    split
    · rename_i he
      have hd : data.drop fpos = [] := by
        cases hx : data.drop fpos with
        | nil => rfl
        | cons a l => rw [hx] at he; cases bufsiz with
          | zero => omega
          | succ n => simp at he
      refine ⟨by simp [PSt.Inv], ?_, ?_, rfl, rfl, ?_, by simp⟩
      · simp only [PSt.rpos, List.length_nil]; omega
      · simp [PSt.unread, List.drop_eq_nil_of_le h]
      · intro _; simp [PSt.unread, List.drop_eq_nil_of_le h, hd]
    · rename_i he
      refine ⟨rfl, ?_, ?_, rfl, rfl, by simp, ?_⟩
      · simp only [PSt.rpos]; omega
      · simp only [PSt.unread, List.drop_zero, List.drop_eq_nil_of_le h, List.nil_append]
        rw [← List.drop_drop]
        generalize data.drop fpos = l
        rw [List.length_take]
        rcases Nat.le_total bufsiz l.length with hl | hl
        · rw [Nat.min_eq_left hl, List.take_append_drop]
        · rw [Nat.min_eq_right hl, List.take_of_length_le hl]; simp
      · intro _; exact List.length_pos_iff.mpr he

theorem rank_le (fn : LexFn) : fn.rank ≤ 2 := by cases fn <;> simp [LexFn.rank]

/-- What one call of `nexttoken` has to do with the remaining stream. -/
def NextOk (s : Stream) (r : Except PyErr (Nat × Tok) × PSt) : Prop :=
  r.2.Inv ∧
  match s with
  | (t :: ts, e) => r.1 = .ok t ∧ r.2.stream = (ts, e)
  | ([], e) => r.1 = .error e ∧ r.2.stream = ([], e)

theorem nexttokenLoop_spec {bufsiz : Nat} (hb : 0 < bufsiz) (fuel : Nat) (ps : PSt) (hi : ps.Inv)
    (hfuel : 0 < fuel ∧ (ps.toks = [] → 3 * ps.unread.length + ps.lex.fn.rank + 2 ≤ fuel)) :
    NextOk ps.stream (ps.nexttokenLoop bufsiz fuel) := by
  induction fuel generalizing ps with
  | zero => omega
  | succ fuel ih =>
    unfold PSt.nexttokenLoop
    cases ht : ps.toks with
    | cons t ts =>
      have hs : ps.stream = (t :: (ts ++ (lexRun ps.lex ps.rpos ps.unread).1), (lexRun ps.lex ps.rpos ps.unread).2) := by
        simp [PSt.stream, Stream.pre, ht]
      rw [hs]
      exact ⟨hi, rfl, rfl⟩
    | nil =>
      dsimp only
      obtain ⟨f1, f2, f3, f4, f5, f6, f7⟩ := fillbuf_spec hb ps hi
      have hs : ps.stream = lexRun ps.lex ps.rpos ps.unread := by simp [PSt.stream, ht]
      cases hfb : ps.fillbuf bufsiz with
      | mk ps1 b =>
      rw [hfb] at f1 f2 f3 f4 f5 f6 f7
      dsimp only at f1 f2 f3 f4 f5 f6 f7
      cases b with
      | true =>
        have hu := f6 rfl
        rw [hs, hu]
        refine ⟨f1, rfl, ?_⟩
        simp [PSt.stream, f5, ht, f3, hu, lexRun]
      | false =>
        have hlt := f7 rfl
        have hfu := hfuel.2 ht
        have hrp : ps1.bufpos + ps1.charpos = ps1.rpos := by
          simp only [PSt.rpos, PSt.Inv] at *; omega
        have hwne : ps1.buf.drop ps1.charpos ≠ [] := by
          intro h; have := congrArg List.length h; rw [List.length_drop] at this; simp at this; omega
        have hwl : (ps1.buf.drop ps1.charpos).length = ps1.buf.length - ps1.charpos := List.length_drop
        have hul : ps1.unread.length = (ps1.buf.length - ps1.charpos) + (ps1.data.drop ps1.fpos).length := by
          simp [PSt.unread]
        have hcall := parseCall_ok ps1.lex (ps1.bufpos + ps1.charpos) _ hwne
        dsimp only
        cases hc : parseCall ps1.lex (ps1.bufpos + ps1.charpos) (ps1.buf.drop ps1.charpos) with
        | error e =>
          rw [hc] at hcall
          have := hcall (ps1.data.drop ps1.fpos)
          rw [hrp] at this
          have h2 : lexRun ps1.lex ps1.rpos ps1.unread = ([], e) := this
          rw [hs, ← f2, ← f3, ← f4, h2]
          refine ⟨f1, rfl, ?_⟩
          simp [PSt.stream, f5, ht, h2]
        | ok out =>
          obtain ⟨lex', n, tk⟩ := out
          rw [hc] at hcall
          obtain ⟨c1, c2, c3, c4⟩ := hcall
          have c5 := c4 (ps1.data.drop ps1.fpos)
          rw [hwl] at c1
          dsimp only
          have hst : PSt.stream { ps1 with lex := lex', charpos := ps1.charpos + n, toks := ps1.toks ++ tk } = ps.stream := by
            rw [hs, ← f2, ← f3, ← f4]
            simp only [PSt.stream, f5, ht, List.nil_append]
            rw [show ps1.unread = ps1.buf.drop ps1.charpos ++ ps1.data.drop ps1.fpos from rfl, ← hrp, c5]
            congr 1
            congr 1
            · simp only [PSt.rpos, PSt.Inv] at *; omega
            · simp [PSt.unread, List.drop_drop]
          rw [← hst]
          refine ih _ f1 ⟨by omega, fun h => ?_⟩
          have hr := rank_le lex'.fn
          have hr' := rank_le ps.lex.fn
          have h9 : PSt.unread { ps1 with lex := lex', charpos := ps1.charpos + n, toks := ps1.toks ++ tk }
              = ps1.buf.drop (ps1.charpos + n) ++ ps1.data.drop ps1.fpos := rfl
          rw [h9, List.length_append, List.length_drop]
          rw [f3] at hul
          rw [hul] at hfu
          rw [f4] at c3
          dsimp only
          rcases c3 with c3 | c3 <;> omega

theorem nexttoken_spec {bufsiz : Nat} (hb : 0 < bufsiz) (ps : PSt) (hi : ps.Inv) :
    NextOk ps.stream (ps.nexttoken bufsiz) :=
  nexttokenLoop_spec hb _ ps hi ⟨by omega, fun _ => by have := rank_le ps.lex.fn; omega⟩

/-- The outcomes of `n` calls that read a stream. -/
def Stream.outcomes (s : Stream) (n : Nat) : List (Except PyErr (Nat × Tok)) :=
  (s.1.map Except.ok ++ List.replicate n (Except.error s.2)).take n

theorem outcomes_spec {bufsiz : Nat} (hb : 0 < bufsiz) (n : Nat) (ps : PSt) (hi : ps.Inv) :
    ps.outcomes bufsiz n = ps.stream.outcomes n := by
  induction n generalizing ps with
  | zero => simp [PSt.outcomes, Stream.outcomes]
  | succ n ih =>
    have h := nexttoken_spec hb ps hi
    rw [PSt.outcomes]
    cases hr : ps.nexttoken bufsiz with
    | mk r ps' =>
    rw [hr] at h
    obtain ⟨h1, h2⟩ := h
    dsimp only at h1 h2 ⊢
    rw [ih ps' h1]
    rcases hs : ps.stream with ⟨_ | ⟨t, ts⟩, e⟩
    · rw [hs] at h2
      rw [h2.2, h2.1]
      simp [Stream.outcomes, List.replicate_succ]
    · rw [hs] at h2
      rw [h2.2, h2.1]
      simp only [Stream.outcomes, List.map_cons, List.cons_append, List.take_succ_cons, List.cons.injEq, true_and]
      rw [List.replicate_succ', ← List.append_assoc,
        List.take_append_of_le_length (l₁ := ts.map Except.ok ++ List.replicate n (Except.error e))]
      simp

theorem drain_spec {bufsiz : Nat} (hb : 0 < bufsiz) (n : Nat) (ps : PSt) (hi : ps.Inv)
    (hn : ps.stream.1.length < n) : ps.drain bufsiz n = (ps.stream.1, some ps.stream.2) := by
  induction n generalizing ps with
  | zero => omega
  | succ n ih =>
    have h := nexttoken_spec hb ps hi
    rw [PSt.drain]
    cases hr : ps.nexttoken bufsiz with
    | mk r ps' =>
    rw [hr] at h
    obtain ⟨h1, h2⟩ := h
    dsimp only at h1 h2
    rcases hs : ps.stream with ⟨_ | ⟨t, ts⟩, e⟩
    · rw [hs] at h2
      obtain ⟨h2, h3⟩ := h2
      subst h2; rfl
    · rw [hs] at h2 hn
      obtain ⟨h2, h3⟩ := h2
      subst h2
      dsimp only
      rw [ih ps' h1 (by rw [h3]; simp at hn; dsimp only; omega), h3]

/-- Emitted tokens plus a pending one never exceed the bytes read. -/
def LexSt.pend (st : LexSt) : Nat := if st.fn = .main then 0 else 1

theorem mainDispatch_count (st : LexSt) (p : Nat) (c : UInt8) (h : st.fn = .main) :
    (mainDispatch st p c).2.length + (mainDispatch st p c).1.pend ≤ 1 := by
  unfold mainDispatch; dsimp only
  repeat' split
  all_goals simp [LexSt.pend, h]

theorem stepMain_count (st : LexSt) (p : Nat) (c : UInt8) (h : st.fn = .main) :
    (stepMain st p c).2.length + (stepMain st p c).1.pend ≤ 1 := by
  unfold stepMain
  split
  · simp [LexSt.pend, h]
  · exact mainDispatch_count st p c h

theorem toMain_count (st : LexSt) (tk : List (Nat × Tok)) (htk : tk.length ≤ 1) (p : Nat) (c : UInt8) :
    (toMain st tk p c).2.length + (toMain st tk p c).1.pend ≤ 2 := by
  have := stepMain_count { st with fn := .main } p c rfl
  simp only [toMain, List.length_append]; omega

theorem intToks_len (st : LexSt) : (intToks st).length ≤ 1 := by unfold intToks; split <;> simp
theorem floatToks_len (st : LexSt) : (floatToks st).length ≤ 1 := by unfold floatToks; split <;> simp

theorem pend_le (st : LexSt) : st.pend ≤ 1 := by unfold LexSt.pend; split <;> simp

theorem stepLiteral_count (st : LexSt) (p : Nat) (c : UInt8) :
    (stepLiteral st p c).2.length + (stepLiteral st p c).1.pend ≤ 2 := by
  unfold stepLiteral
  split
  · split
    · simp [LexSt.pend]
    · exact toMain_count _ _ (by simp) _ _
  · have := pend_le { st with cur := st.cur ++ [c] }; simp; omega

theorem stepHexstring_count (st : LexSt) (p : Nat) (c : UInt8) :
    (stepHexstring st p c).2.length + (stepHexstring st p c).1.pend ≤ 2 := by
  unfold stepHexstring
  split
  · exact toMain_count _ _ (by simp) _ _
  · have := pend_le { st with cur := st.cur ++ [c] }; simp; omega

theorem stepString_count (st : LexSt) (c : UInt8) :
    (stepString st c).2.length + (stepString st c).1.pend ≤ 2 := by
  unfold stepString
  repeat' split
  all_goals
    simp only [List.length_nil, List.length_cons]
    have := fun s => pend_le s
    first
      | (rename_i _ _ _; exact Nat.le_trans (Nat.add_le_add_left (this _) _) (by simp))
      | exact Nat.le_trans (Nat.add_le_add_left (this _) _) (by simp)

theorem out_le {q : StepOut} {st' : LexSt} {tk : List (Nat × Tok)} (h : q = (st', tk))
    (hq : q.2.length + q.1.pend ≤ 2) : tk.length + st'.pend ≤ 1 + 1 := by subst h; exact hq

theorem lexStep_count (st : LexSt) (p : Nat) (c : UInt8) (st' : LexSt) (tk : List (Nat × Tok))
    (h : lexStep st p c = .ok (st', tk)) : tk.length + st'.pend ≤ st.pend + 1 := by
  obtain ⟨fn, cur, tpos, paren, hex, oct⟩ := st
  cases fn <;> simp only [lexStep, Except.ok.injEq] at h <;> simp only [LexSt.pend, reduceCtorEq, if_true, if_false]
  case main => have := stepMain_count ⟨.main, cur, tpos, paren, hex, oct⟩ p c rfl; rw [h] at this; simpa [LexSt.pend] using this
  all_goals show tk.length + st'.pend ≤ 1 + 1
  case comment =>
    unfold stepComment at h; split at h
    · have := toMain_count ⟨.comment, cur, tpos, paren, hex, oct⟩ [] (by simp) p c; rw [h] at this; exact this
    · cases h; simp; have := pend_le (⟨.comment, cur ++ [c], tpos, paren, hex, oct⟩ : LexSt); omega
  case literal => have := stepLiteral_count ⟨.literal, cur, tpos, paren, hex, oct⟩ p c; rw [h] at this; exact this
  case literalHex =>
    unfold stepLiteralHex at h
    split at h
    · cases h; simp; have := pend_le (⟨.literalHex, cur, tpos, paren, hex ++ [c], oct⟩ : LexSt); omega
    · split at h
      · have := stepLiteral_count ⟨.literal, cur ++ [UInt8.ofNat (hexVals hex)], tpos, paren, hex, oct⟩ p c; rw [h] at this; exact this
      · have := stepLiteral_count ⟨.literal, cur, tpos, paren, hex, oct⟩ p c; rw [h] at this; exact this
  case number =>
    unfold stepNumber at h
    split at h
    · cases h; simp; have := fun s => pend_le s; exact Nat.le_trans (this _) (by simp)
    · split at h
      · cases h; simp; have := fun s => pend_le s; exact Nat.le_trans (this _) (by simp)
      · exact out_le h (toMain_count ⟨.number, cur, tpos, paren, hex, oct⟩ _ (intToks_len _) p c)
  case float =>
    unfold stepFloat at h
    split at h
    · cases h; simp; have := fun s => pend_le s; exact Nat.le_trans (this _) (by simp)
    · exact out_le h (toMain_count ⟨.float, cur, tpos, paren, hex, oct⟩ _ (floatToks_len _) p c)
  case keyword =>
    unfold stepKeyword at h
    split at h
    · exact out_le h (toMain_count _ _ (by simp) _ _)
    · cases h; simp; have := fun s => pend_le s; exact Nat.le_trans (this _) (by simp)
  case string => have := stepString_count ⟨.string, cur, tpos, paren, hex, oct⟩ c; rw [h] at this; exact this
  case string1 =>
    unfold stepString1 at h
    split at h
    · cases h; simp; have := fun s => pend_le s; exact Nat.le_trans (this _) (by simp)
    · split at h
      · split at h
        · simp only [Except.ok.injEq] at h
          exact out_le h (stepString_count _ _)
        · cases h
      · split at h
        · cases h; simp; have := fun s => pend_le s; exact Nat.le_trans (this _) (by simp)
        · cases h; simp; have := fun s => pend_le s; exact Nat.le_trans (this _) (by simp)
  case wopen =>
    unfold stepWopen at h
    split at h
    · cases h; simp [LexSt.pend]
    · exact out_le h (stepHexstring_count _ _ _)
  case wclose =>
    unfold stepWclose at h
    split at h
    · cases h; simp [LexSt.pend]
    · exact out_le h (toMain_count _ _ (by simp) _ _)
  case hexstring =>
    exact out_le h (stepHexstring_count _ _ _)

theorem lexRun_count (w : Bytes) (st : LexSt) (p : Nat) : (lexRun st p w).1.length ≤ st.pend + w.length := by
  induction w generalizing st p with
  | nil => simp [lexRun]
  | cons c cs ih =>
    rw [lexRun]
    cases h : lexStep st p c with
    | error e => simp
    | ok q =>
      obtain ⟨st', tk⟩ := q
      have h1 := lexStep_count st p c st' tk h
      have h2 := ih st' (p + 1)
      simp only [Stream.pre, List.length_append, List.length_cons]; omega

theorem lexRun_error (w : Bytes) (st : LexSt) (p : Nat) :
    (lexRun st p w).2 = .psEOF ∨ (lexRun st p w).2 = .structError := by
  induction w generalizing st p with
  | nil => simp [lexRun]
  | cons c cs ih =>
    rw [lexRun]
    cases h : lexStep st p c with
    | error e =>
      right
      cases hf : st.fn <;> simp [lexStep, hf] at h
      unfold stepString1 at h
      repeat' split at h
      all_goals cases h
      rfl
    | ok q => exact ih _ _

theorem tokenize_eq {bufsiz : Nat} (hb : 0 < bufsiz) (data : Bytes) (pos : Nat) :
    tokenize bufsiz data pos = ((lexRun {} pos (data.drop pos)).1, some (lexRun {} pos (data.drop pos)).2) := by
  unfold tokenize
  rw [drain_spec hb _ _ (inv_seek data pos)]
  · rw [stream_seek]
  · rw [stream_seek]
    have := lexRun_count (data.drop pos) {} pos
    have h0 : ({} : LexSt).pend = 0 := rfl
    rw [h0, List.length_drop] at this
    omega

theorem outcomes_eq {bufsiz : Nat} (hb : 0 < bufsiz) (data : Bytes) (pos n : Nat) :
    (PSt.seek data pos).outcomes bufsiz n = (lexRun {} pos (data.drop pos)).outcomes n := by
  rw [outcomes_spec hb _ _ (inv_seek data pos), stream_seek]

end Pdf
