import Verif.Proofs.TokenSpec
/-! Positions of tokens. -/

namespace Pdf
open Spec (TokAt Digit)

/-- Offset of the token being read, or of the next byte. -/
def LexSt.low (st : LexSt) (p : Nat) : Nat := if st.fn = .main then p else st.tpos

/-- What is known about the token being read. -/
def StartAt (data : Bytes) (st : LexSt) (p : Nat) : Prop :=
  match st.fn with
  | .main | .comment => True
  | .literal | .literalHex => data[st.tpos]? = some 47
  | .number => ∃ c, data[st.tpos]? = some c ∧ (Digit c ∨ c = 43 ∨ c = 45)
  | .float => ∃ c, data[st.tpos]? = some c ∧ (Digit c ∨ c = 43 ∨ c = 45 ∨ c = 46)
  | .keyword => st.cur ≠ [] ∧ st.cur = (data.drop st.tpos).take (p - st.tpos)
  | .string | .string1 => data[st.tpos]? = some 40
  | .hexstring => data[st.tpos]? = some 60
  | .wopen => data[st.tpos]? = some 60 ∧ p = st.tpos + 1
  | .wclose => data[st.tpos]? = some 62 ∧ p = st.tpos + 1

def PInv (data : Bytes) (st : LexSt) (p : Nat) : Prop :=
  (st.fn ≠ .main → st.tpos < p) ∧ StartAt data st p

def PosOk (data : Bytes) (lo p : Nat) (out : StepOut) : Prop :=
  PInv data out.1 (p + 1) ∧ lo ≤ out.1.low (p + 1) ∧ out.2.Pairwise (fun x y => x.1 < y.1) ∧
  ∀ x ∈ out.2, lo ≤ x.1 ∧ x.1 < out.1.low (p + 1) ∧ TokAt data x.1 x.2

theorem take_succ_at {l : Bytes} {n : Nat} {c : UInt8} (h : l[n]? = some c) : l.take (n + 1) = l.take n ++ [c] := by
  rw [List.take_add_one, h]; rfl

theorem pos_stepMain {data : Bytes} {st : LexSt} {p : Nat} {c : UInt8} (hc : data[p]? = some c) (h : st.fn = .main) :
    PosOk data p p (stepMain st p c) := by
  have hd0 : (data.drop p).take 1 = [c] := by
    have := take_succ_at (l := data.drop p) (n := 0) (c := c) (by simpa using hc)
    simpa using this
  have hpre : [c] <+: data.drop p := by rw [← hd0]; exact List.take_prefix _ _
  unfold stepMain
  split
  · refine ⟨⟨by simp [h], by simp [StartAt, h]⟩, by simp [LexSt.low, h], by simp, by simp⟩
  · unfold mainDispatch
    dsimp only
    split
    · exact ⟨⟨by simp, by simp [StartAt]⟩, by simp [LexSt.low], by simp, by simp⟩
    split
    · rename_i h1; subst h1
      exact ⟨⟨by simp, by simpa [StartAt] using hc⟩, by simp [LexSt.low], by simp, by simp⟩
    split
    · rename_i h1
      refine ⟨⟨by simp, ?_⟩, by simp [LexSt.low], by simp, by simp⟩
      refine ⟨c, hc, ?_⟩
      rcases h1 with h1 | h1 | h1
      · exact Or.inr (Or.inr h1)
      · exact Or.inr (Or.inl h1)
      · exact Or.inl ((digit_iff c).mp h1)
    split
    · rename_i h1; subst h1
      exact ⟨⟨by simp, ⟨46, hc, by simp⟩⟩, by simp [LexSt.low], by simp, by simp⟩
    split
    · refine ⟨⟨by simp, ?_⟩, by simp [LexSt.low], by simp, by simp⟩
      exact ⟨by simp, by simp [hd0]⟩
    split
    · rename_i h1; subst h1
      exact ⟨⟨by simp, hc⟩, by simp [LexSt.low], by simp, by simp⟩
    split
    · rename_i h1; subst h1
      exact ⟨⟨by simp, ⟨hc, rfl⟩⟩, by simp [LexSt.low], by simp, by simp⟩
    split
    · rename_i h1; subst h1
      exact ⟨⟨by simp, ⟨hc, rfl⟩⟩, by simp [LexSt.low], by simp, by simp⟩
    · refine ⟨⟨by simp [h], by simp [StartAt, h]⟩, by simp [LexSt.low, h], by simp, ?_⟩
      intro x hx
      simp only [List.mem_cons, List.not_mem_nil, or_false] at hx; subst hx
      exact ⟨Nat.le_refl _, by simp [LexSt.low, h], by simp, hpre⟩

theorem low_le {data : Bytes} {st : LexSt} {p : Nat} (h : PInv data st p) : st.low p ≤ p := by
  unfold LexSt.low; split
  · exact Nat.le_refl _
  · rename_i hf; exact Nat.le_of_lt (h.1 hf)

/-- Handing over to the main state after at most one pending token. -/
theorem pos_toMain {data : Bytes} {st : LexSt} {p : Nat} {c : UInt8} (hc : data[p]? = some c)
    (tk : List (Nat × Tok)) (hlt : st.tpos < p) (htk : ∀ x ∈ tk, x.1 = st.tpos ∧ TokAt data x.1 x.2) (hl : tk.length ≤ 1) :
    PosOk data st.tpos p (toMain st tk p c) := by
  obtain ⟨h1, h2, h3, h4⟩ := pos_stepMain (st := { st with fn := .main }) hc rfl
  refine ⟨h1, by simp only [toMain]; omega, ?_, ?_⟩
  · simp only [toMain]
    rw [List.pairwise_append]
    refine ⟨?_, h3, ?_⟩
    · match tk, hl with
      | [], _ => simp
      | [_], _ => simp
    · intro a ha b hb
      have := (htk a ha).1
      have := (h4 b hb).1
      omega
  · intro x hx
    simp only [toMain, List.mem_append] at hx
    rcases hx with hx | hx
    · obtain ⟨e1, e2⟩ := htk x hx
      refine ⟨by omega, ?_, e2⟩
      simp only [toMain]; omega
    · obtain ⟨e1, e2, e3⟩ := h4 x hx
      exact ⟨by omega, e2, e3⟩

theorem tokAt_keyword {data : Bytes} {q : Nat} {cur : Bytes} (h0 : cur ≠ []) (h : cur <+: data.drop q) :
    TokAt data q (keywordTok cur) := by
  unfold keywordTok
  split
  · rename_i e; subst e; exact h
  · split
    · rename_i e; subst e; exact h
    · exact ⟨h0, h⟩

theorem pos_stepLiteral {data : Bytes} {st : LexSt} {p : Nat} {c : UInt8} (hc : data[p]? = some c) (hf : st.fn = .literal)
    (hlt : st.tpos < p) (hs : data[st.tpos]? = some 47) : PosOk data st.tpos p (stepLiteral st p c) := by
  unfold stepLiteral
  repeat' split
  · exact ⟨⟨by simp; omega, hs⟩, by simp [LexSt.low], by simp, by simp⟩
  · exact pos_toMain hc _ hlt (by simp [TokAt, hs]) (by simp)
  · refine ⟨⟨by simp; omega, ?_⟩, by simp [LexSt.low, hf], by simp, by simp⟩
    simp only [StartAt, hf]; exact hs

theorem pos_stepHexstring {data : Bytes} {st : LexSt} {p : Nat} {c : UInt8} (hc : data[p]? = some c) (hf : st.fn = .hexstring)
    (hlt : st.tpos < p) (hs : data[st.tpos]? = some 60) : PosOk data st.tpos p (stepHexstring st p c) := by
  unfold stepHexstring
  split
  · exact pos_toMain hc _ hlt (by simp [TokAt, hexTok, hs]) (by simp)
  · refine ⟨⟨by simp; omega, ?_⟩, by simp [LexSt.low, hf], by simp, by simp⟩
    simp only [StartAt, hf]; exact hs

theorem pos_stepString {data : Bytes} {st : LexSt} {p : Nat} {c : UInt8} (hf : st.fn = .string)
    (hlt : st.tpos < p) (hs : data[st.tpos]? = some 40) : PosOk data st.tpos p (stepString st c) := by
  unfold stepString
  repeat' split
  · exact ⟨⟨by simp; omega, hs⟩, by simp [LexSt.low], by simp, by simp⟩
  · refine ⟨⟨by simp; omega, ?_⟩, by simp [LexSt.low, hf], by simp, by simp⟩
    simp only [StartAt, hf]; exact hs
  · refine ⟨⟨by simp; omega, ?_⟩, by simp [LexSt.low, hf], by simp, by simp⟩
    simp only [StartAt, hf]; exact hs
  · refine ⟨⟨by simp, by simp [StartAt]⟩, by simp [LexSt.low]; omega, by simp, ?_⟩
    intro x hx
    simp only [List.mem_cons, List.not_mem_nil, or_false] at hx; subst hx
    exact ⟨Nat.le_refl _, by simp [LexSt.low]; omega, Or.inl hs⟩
  · refine ⟨⟨by simp; omega, ?_⟩, by simp [LexSt.low, hf], by simp, by simp⟩
    simp only [StartAt, hf]; exact hs

theorem pos_lexStep {data : Bytes} {st : LexSt} {p : Nat} {c : UInt8} (hc : data[p]? = some c) (hi : PInv data st p)
    (out : StepOut) (h : lexStep st p c = .ok out) : PosOk data (st.low p) p out := by
  obtain ⟨h1, h2⟩ := hi
  obtain ⟨fn, cur, tpos, paren, hex, oct⟩ := st
  cases fn <;> simp only [lexStep, Except.ok.injEq] at h <;> simp [StartAt] at h1 h2 <;> simp only [LexSt.low, reduceCtorEq, if_true, if_false]
  case main => subst h; exact pos_stepMain hc rfl
  case comment =>
    subst h; unfold stepComment; split
    · exact pos_toMain hc _ h1 (by simp) (by simp)
    · exact ⟨⟨by simp; omega, by simp [StartAt]⟩, by simp [LexSt.low], by simp, by simp⟩
  case literal => subst h; exact pos_stepLiteral hc rfl h1 h2
  case literalHex =>
    subst h; unfold stepLiteralHex; repeat' split
    · exact ⟨⟨by simp; omega, h2⟩, by simp [LexSt.low], by simp, by simp⟩
    · exact pos_stepLiteral (st := { LexSt.mk .literal (cur ++ [UInt8.ofNat (hexVals hex)]) tpos paren hex oct with fn := .literal }) hc rfl h1 h2
    · exact pos_stepLiteral (st := { LexSt.mk .literal cur tpos paren hex oct with fn := .literal }) hc rfl h1 h2
  case number =>
    subst h; unfold stepNumber; repeat' split
    · exact ⟨⟨by simp; omega, h2⟩, by simp [LexSt.low], by simp, by simp⟩
    · refine ⟨⟨by simp; omega, ?_⟩, by simp [LexSt.low], by simp, by simp⟩
      obtain ⟨d, hd, hd2⟩ := h2
      exact ⟨d, hd, by rcases hd2 with h | h | h <;> simp [h]⟩
    · refine pos_toMain hc _ h1 ?_ (intToks_len _)
      intro x hx; unfold intToks at hx; split at hx
      · simp only [List.mem_cons, List.not_mem_nil, or_false] at hx; subst hx; exact ⟨rfl, h2⟩
      · simp at hx
  case float =>
    subst h; unfold stepFloat; repeat' split
    · exact ⟨⟨by simp; omega, h2⟩, by simp [LexSt.low], by simp, by simp⟩
    · refine pos_toMain hc _ h1 ?_ (floatToks_len _)
      intro x hx; unfold floatToks at hx; split at hx
      · simp only [List.mem_cons, List.not_mem_nil, or_false] at hx; subst hx; exact ⟨rfl, h2⟩
      · simp at hx
  case keyword =>
    subst h; unfold stepKeyword; split
    · refine pos_toMain hc _ h1 ?_ (by simp)
      intro x hx
      simp only [List.mem_cons, List.not_mem_nil, or_false] at hx; subst hx
      refine ⟨rfl, tokAt_keyword h2.1 ?_⟩
      dsimp only; rw [h2.2]; exact List.take_prefix _ _
    · refine ⟨⟨by simp; omega, ?_⟩, by simp [LexSt.low], by simp, by simp⟩
      refine ⟨by simp, ?_⟩
      dsimp only
      rw [show p + 1 - tpos = (p - tpos) + 1 by omega, take_succ_at (c := c) (by
        rw [List.getElem?_drop, show tpos + (p - tpos) = p by omega]; exact hc), ← h2.2]
  case string => subst h; exact pos_stepString rfl h1 h2
  case string1 =>
    unfold stepString1 at h
    repeat' split at h
    · cases h; exact ⟨⟨by simp; omega, h2⟩, by simp [LexSt.low], by simp, by simp⟩
    · cases h; exact pos_stepString (st := { LexSt.mk .string (cur ++ [UInt8.ofNat (octVal oct)]) tpos paren hex oct with fn := .string }) rfl h1 h2
    · cases h
    · cases h; exact ⟨⟨by simp; omega, h2⟩, by simp [LexSt.low], by simp, by simp⟩
    · cases h; exact ⟨⟨by simp; omega, h2⟩, by simp [LexSt.low], by simp, by simp⟩
  case wopen =>
    subst h; unfold stepWopen; split
    · rename_i h3; subst h3
      refine ⟨⟨by simp, by simp [StartAt]⟩, by simp [LexSt.low]; omega, by simp, ?_⟩
      intro x hx
      simp only [List.mem_cons, List.not_mem_nil, or_false] at hx; subst hx
      refine ⟨Nat.le_refl _, by simp [LexSt.low]; omega, by simp, ?_⟩
      have e : (data.drop tpos).take 2 = [60, 60] := by
        rw [take_succ_at (n := 1) (c := 60) (by simpa [h2.2] using hc), take_succ_at (n := 0) (c := 60) (by simpa using h2.1)]
        rfl
      dsimp only
      rw [← e]; exact List.take_prefix _ _
    · exact pos_stepHexstring (st := { LexSt.mk .hexstring cur tpos paren hex oct with fn := .hexstring }) hc rfl h1 h2.1
  case wclose =>
    subst h; unfold stepWclose; split
    · rename_i h3; subst h3
      refine ⟨⟨by simp, by simp [StartAt]⟩, by simp [LexSt.low]; omega, by simp, ?_⟩
      intro x hx
      simp only [List.mem_cons, List.not_mem_nil, or_false] at hx; subst hx
      refine ⟨Nat.le_refl _, by simp [LexSt.low]; omega, by simp, ?_⟩
      have e : (data.drop tpos).take 2 = [62, 62] := by
        rw [take_succ_at (n := 1) (c := 62) (by simpa [h2.2] using hc), take_succ_at (n := 0) (c := 62) (by simpa using h2.1)]
        rfl
      dsimp only
      rw [← e]; exact List.take_prefix _ _
    · exact pos_toMain hc _ h1 (by simp) (by simp)
  case hexstring => subst h; exact pos_stepHexstring hc rfl h1 h2

theorem pos_lexRun {data : Bytes} (w : Bytes) (st : LexSt) (p : Nat) (hw : data.drop p = w) (hi : PInv data st p) :
    (lexRun st p w).1.Pairwise (fun x y => x.1 < y.1) ∧
    ∀ x ∈ (lexRun st p w).1, st.low p ≤ x.1 ∧ x.1 < p + w.length ∧ TokAt data x.1 x.2 := by
  induction w generalizing st p with
  | nil => simp [lexRun]
  | cons c cs ih =>
    have hc : data[p]? = some c := by
      have := congrArg (fun l => l[0]?) hw
      simpa using this
    have hcs : data.drop (p + 1) = cs := by
      rw [← List.drop_drop, hw]; rfl
    rw [lexRun]
    cases h : lexStep st p c with
    | error e => simp
    | ok out =>
      obtain ⟨st', tk⟩ := out
      obtain ⟨a1, a2, a3, a4⟩ := pos_lexStep hc hi _ h
      obtain ⟨b1, b2⟩ := ih st' (p + 1) hcs a1
      have hlow := low_le a1
      dsimp only at a1 a2 a3 a4 hlow ⊢
      simp only [Stream.pre]
      refine ⟨?_, ?_⟩
      · rw [List.pairwise_append]
        refine ⟨a3, b1, fun x hx y hy => ?_⟩
        have := (a4 x hx).2.1
        have := (b2 y hy).1
        omega
      · intro x hx
        rw [List.mem_append] at hx
        rcases hx with hx | hx
        · obtain ⟨c1, c2, c3⟩ := a4 x hx
          exact ⟨c1, by simp; omega, c3⟩
        · obtain ⟨c1, c2, c3⟩ := b2 x hx
          exact ⟨by omega, by simp; omega, c3⟩

end Pdf
