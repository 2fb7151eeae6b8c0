import Verif.Proofs.Tokenizer
/-! The tokens of a text do not depend on what was read before it, and shift with its position. -/

namespace Pdf

structure Sim (k : Nat) (s s' : LexSt) : Prop where
  fn : s'.fn = s.fn
  tpos : s.fn ≠ .main → s'.tpos = s.tpos + k
  cur : s.fn ≠ .main → s'.cur = s.cur
  paren : s.fn = .string ∨ s.fn = .string1 → s'.paren = s.paren
  hex : s.fn = .literalHex → s'.hex = s.hex
  oct : s.fn = .string1 → s'.oct = s.oct

def shiftToks (k : Nat) (ts : List (Nat × Tok)) : List (Nat × Tok) := ts.map (fun x => (x.1 + k, x.2))

def SimOut (k : Nat) : Except PyErr StepOut → Except PyErr StepOut → Prop
  | .error e, .error e' => e = e'
  | .ok (a, t), .ok (a', t') => Sim k a a' ∧ t' = shiftToks k t
  | _, _ => False

theorem sim_stepMain {k s s'} (p : Nat) (c : UInt8) (h : s.fn = .main) (h' : s'.fn = .main) :
    SimOut k (.ok (stepMain s p c)) (.ok (stepMain s' (p + k) c)) := by
  unfold stepMain
  split
  · exact ⟨⟨by rw [h, h'], by simp [h], by simp [h], by simp [h], by simp [h], by simp [h]⟩, rfl⟩
  · unfold mainDispatch
    dsimp only
    repeat' split
    all_goals simp [SimOut, shiftToks]
    all_goals constructor <;> simp [h, h']

theorem sim_toMain {k s s'} (p : Nat) (c : UInt8) (t t' : List (Nat × Tok)) (ht : t' = shiftToks k t) :
    SimOut k (.ok (toMain s t p c)) (.ok (toMain s' t' (p + k) c)) := by
  have := sim_stepMain (k := k) (s := { s with fn := .main }) (s' := { s' with fn := .main }) p c rfl rfl
  simp only [toMain, SimOut] at this ⊢
  exact ⟨this.1, by rw [this.2, ht]; simp [shiftToks]⟩

theorem sim_stepLiteral {k : Nat} (a b : LexSt) (p : Nat) (c : UInt8) (hs : Sim k a b) (h : a.fn = .literal) :
    SimOut k (.ok (stepLiteral a p c)) (.ok (stepLiteral b (p + k) c)) := by
  obtain ⟨fn, cur, tpos, paren, hex, oct⟩ := a
  obtain ⟨fn', cur', tpos', paren', hex', oct'⟩ := b
  dsimp only at h; subst h
  obtain ⟨h1, h2, h3, h4, h5, h6⟩ := hs
  simp at h1 h2 h3; subst h1 h2 h3
  unfold stepLiteral
  dsimp only
  repeat' split
  · exact ⟨⟨rfl, by simp, by simp, by simp, by simp, by simp⟩, rfl⟩
  · exact sim_toMain p c _ _ rfl
  · exact ⟨⟨rfl, by simp, by simp, by simp, by simp, by simp⟩, rfl⟩

theorem sim_stepHexstring {k : Nat} (a b : LexSt) (p : Nat) (c : UInt8) (hs : Sim k a b) (h : a.fn = .hexstring) :
    SimOut k (.ok (stepHexstring a p c)) (.ok (stepHexstring b (p + k) c)) := by
  obtain ⟨fn, cur, tpos, paren, hex, oct⟩ := a
  obtain ⟨fn', cur', tpos', paren', hex', oct'⟩ := b
  dsimp only at h; subst h
  obtain ⟨h1, h2, h3, h4, h5, h6⟩ := hs
  simp at h1 h2 h3; subst h1 h2 h3
  unfold stepHexstring
  dsimp only
  split
  · exact sim_toMain p c _ _ rfl
  · exact ⟨⟨rfl, by simp, by simp, by simp, by simp, by simp⟩, rfl⟩

theorem sim_stepString {k : Nat} (a b : LexSt) (c : UInt8) (hs : Sim k a b) (h : a.fn = .string) :
    SimOut k (.ok (stepString a c)) (.ok (stepString b c)) := by
  obtain ⟨fn, cur, tpos, paren, hex, oct⟩ := a
  obtain ⟨fn', cur', tpos', paren', hex', oct'⟩ := b
  dsimp only at h; subst h
  obtain ⟨h1, h2, h3, h4, h5, h6⟩ := hs
  simp at h1 h2 h3 h4; subst h1 h2 h3 h4
  unfold stepString
  dsimp only
  repeat' split
  all_goals exact ⟨⟨rfl, by simp, by simp, by simp, by simp, by simp⟩, rfl⟩

theorem sim_lexStep {k : Nat} (a b : LexSt) (p : Nat) (c : UInt8) (hs : Sim k a b) :
    SimOut k (lexStep a p c) (lexStep b (p + k) c) := by
  have hs0 := hs
  obtain ⟨fn, cur, tpos, paren, hex, oct⟩ := a
  obtain ⟨fn', cur', tpos', paren', hex', oct'⟩ := b
  obtain ⟨h1, h2, h3, h4, h5, h6⟩ := hs
  dsimp only at h1; subst h1
  cases fn' <;> simp at h2 h3 h4 h5 h6
  all_goals (try subst h2); (try subst h3); (try subst h4); (try subst h5); (try subst h6); simp only [lexStep]
  case main => exact sim_stepMain p c rfl rfl
  case comment =>
    unfold stepComment; split
    · exact sim_toMain p c _ _ rfl
    · exact ⟨⟨rfl, by simp, by simp, by simp, by simp, by simp⟩, rfl⟩
  case literal => exact sim_stepLiteral _ _ p c hs0 rfl
  case literalHex =>
    unfold stepLiteralHex; dsimp only; repeat' split
    · exact ⟨⟨rfl, by simp, by simp, by simp, by simp, by simp⟩, rfl⟩
    · exact sim_stepLiteral _ _ p c ⟨rfl, by simp, by simp, by simp, by simp, by simp⟩ rfl
    · exact sim_stepLiteral _ _ p c ⟨rfl, by simp, by simp, by simp, by simp, by simp⟩ rfl
  case number =>
    unfold stepNumber; dsimp only; repeat' split
    · exact ⟨⟨rfl, by simp, by simp, by simp, by simp, by simp⟩, rfl⟩
    · exact ⟨⟨rfl, by simp, by simp, by simp, by simp, by simp⟩, rfl⟩
    · refine sim_toMain p c _ _ ?_
      unfold intToks; dsimp only; split <;> rfl
  case float =>
    unfold stepFloat; dsimp only; repeat' split
    · exact ⟨⟨rfl, by simp, by simp, by simp, by simp, by simp⟩, rfl⟩
    · refine sim_toMain p c _ _ ?_
      unfold floatToks; dsimp only; split <;> rfl
  case keyword =>
    unfold stepKeyword; dsimp only; split
    · exact sim_toMain p c _ _ rfl
    · exact ⟨⟨rfl, by simp, by simp, by simp, by simp, by simp⟩, rfl⟩
  case string => exact sim_stepString _ _ c hs0 rfl
  case string1 =>
    unfold stepString1; dsimp only; repeat' split
    · exact ⟨⟨rfl, by simp, by simp, by simp, by simp, by simp⟩, rfl⟩
    · exact sim_stepString _ _ c ⟨rfl, by simp, by simp, by simp, by simp, by simp⟩ rfl
    · exact rfl
    · exact ⟨⟨rfl, by simp, by simp, by simp, by simp, by simp⟩, rfl⟩
    · exact ⟨⟨rfl, by simp, by simp, by simp, by simp, by simp⟩, rfl⟩
  case wopen =>
    unfold stepWopen; dsimp only; split
    · exact ⟨⟨rfl, by simp, by simp, by simp, by simp, by simp⟩, rfl⟩
    · exact sim_stepHexstring _ _ p c ⟨rfl, by simp, by simp, by simp, by simp, by simp⟩ rfl
  case wclose =>
    unfold stepWclose; dsimp only; split
    · exact ⟨⟨rfl, by simp, by simp, by simp, by simp, by simp⟩, rfl⟩
    · exact sim_toMain p c _ _ rfl
  case hexstring => exact sim_stepHexstring _ _ p c hs0 rfl

theorem sim_lexRun {k : Nat} (w : Bytes) (a b : LexSt) (p : Nat) (hs : Sim k a b) :
    lexRun b (p + k) w = (shiftToks k (lexRun a p w).1, (lexRun a p w).2) := by
  induction w generalizing a b p with
  | nil => simp [lexRun, shiftToks]
  | cons c cs ih =>
    have h := sim_lexStep a b p c hs
    rw [lexRun, lexRun]
    cases ha : lexStep a p c with
    | error e =>
      cases hb : lexStep b (p + k) c with
      | error e' => rw [ha, hb] at h; simp only [SimOut] at h; simp [h, shiftToks]
      | ok q => rw [ha, hb] at h; exact h.elim
    | ok q =>
      cases hb : lexStep b (p + k) c with
      | error e' => rw [ha, hb] at h; exact h.elim
      | ok q' =>
        obtain ⟨st, t⟩ := q
        obtain ⟨st', t'⟩ := q'
        rw [ha, hb] at h
        obtain ⟨h1, h2⟩ := h
        dsimp only
        rw [show p + k + 1 = (p + 1) + k by omega, ih st st' (p + 1) h1, h2]
        simp [Stream.pre, shiftToks]

/-- In the main state nothing of the past matters. -/
theorem lexRun_main (st : LexSt) (h : st.fn = .main) (p : Nat) (w : Bytes) : lexRun st p w = lexRun {} p w := by
  have := sim_lexRun (k := 0) w {} st p ⟨h, by simp, by simp, by simp, by simp, by simp⟩
  simpa [shiftToks] using this

/-- ... and positions are relative. -/
theorem lexRun_shift (p k : Nat) (w : Bytes) :
    lexRun {} (p + k) w = (shiftToks k (lexRun {} p w).1, (lexRun {} p w).2) :=
  sim_lexRun w {} {} p ⟨rfl, by simp, by simp, by simp, by simp, by simp⟩

end Pdf
