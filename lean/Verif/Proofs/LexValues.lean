import Verif.Proofs.Tokenizer
/-! The values of the tokens do not depend on positions. The proofs are those of `Proofs/LexSim`. -/

namespace Pdf

structure VSim (s s' : LexSt) : Prop where
  fn : s'.fn = s.fn
  cur : s.fn ≠ .main → s'.cur = s.cur
  paren : s.fn = .string ∨ s.fn = .string1 → s'.paren = s.paren
  hex : s.fn = .literalHex → s'.hex = s.hex
  oct : s.fn = .string1 → s'.oct = s.oct

def VSimOut : Except PyErr StepOut → Except PyErr StepOut → Prop
  | .error e, .error e' => e = e'
  | .ok (a, t), .ok (a', t') => VSim a a' ∧ t'.map Prod.snd = t.map Prod.snd
  | _, _ => False

theorem vsim_stepMain {s s'} (p p' : Nat) (c : UInt8) (h : s.fn = .main) (h' : s'.fn = .main) :
    VSimOut (.ok (stepMain s p c)) (.ok (stepMain s' p' c)) := by
  unfold stepMain
  split
  · exact ⟨⟨by rw [h, h'], by simp [h], by simp [h], by simp [h], by simp [h]⟩, rfl⟩
  · unfold mainDispatch
    dsimp only
    repeat' split
    all_goals simp [VSimOut]
    all_goals constructor <;> simp [h, h']

theorem vsim_toMain {s s'} (p p' : Nat) (c : UInt8) (t t' : List (Nat × Tok)) (ht : t'.map Prod.snd = t.map Prod.snd) :
    VSimOut (.ok (toMain s t p c)) (.ok (toMain s' t' p' c)) := by
  have := vsim_stepMain (s := { s with fn := .main }) (s' := { s' with fn := .main }) p p' c rfl rfl
  simp only [toMain, VSimOut] at this ⊢
  exact ⟨this.1, by simp [this.2, ht]⟩

theorem vsim_stepLiteral (a b : LexSt) (p p' : Nat) (c : UInt8) (hs : VSim a b) (h : a.fn = .literal) :
    VSimOut (.ok (stepLiteral a p c)) (.ok (stepLiteral b p' c)) := by
  obtain ⟨fn, cur, tpos, paren, hex, oct⟩ := a
  obtain ⟨fn', cur', tpos', paren', hex', oct'⟩ := b
  dsimp only at h; subst h
  obtain ⟨h1, h3, h4, h5, h6⟩ := hs
  simp at h1 h3; subst h1 h3
  unfold stepLiteral
  dsimp only
  repeat' split
  · exact ⟨⟨rfl, by simp, by simp, by simp, by simp⟩, rfl⟩
  · exact vsim_toMain p p' c _ _ rfl
  · exact ⟨⟨rfl, by simp, by simp, by simp, by simp⟩, rfl⟩

theorem vsim_stepHexstring (a b : LexSt) (p p' : Nat) (c : UInt8) (hs : VSim a b) (h : a.fn = .hexstring) :
    VSimOut (.ok (stepHexstring a p c)) (.ok (stepHexstring b p' c)) := by
  obtain ⟨fn, cur, tpos, paren, hex, oct⟩ := a
  obtain ⟨fn', cur', tpos', paren', hex', oct'⟩ := b
  dsimp only at h; subst h
  obtain ⟨h1, h3, h4, h5, h6⟩ := hs
  simp at h1 h3; subst h1 h3
  unfold stepHexstring
  dsimp only
  split
  · exact vsim_toMain p p' c _ _ rfl
  · exact ⟨⟨rfl, by simp, by simp, by simp, by simp⟩, rfl⟩

theorem vsim_stepString (a b : LexSt) (c : UInt8) (hs : VSim a b) (h : a.fn = .string) :
    VSimOut (.ok (stepString a c)) (.ok (stepString b c)) := by
  obtain ⟨fn, cur, tpos, paren, hex, oct⟩ := a
  obtain ⟨fn', cur', tpos', paren', hex', oct'⟩ := b
  dsimp only at h; subst h
  obtain ⟨h1, h3, h4, h5, h6⟩ := hs
  simp at h1 h3 h4; subst h1 h3 h4
  unfold stepString
  dsimp only
  repeat' split
  all_goals exact ⟨⟨rfl, by simp, by simp, by simp, by simp⟩, rfl⟩

theorem vsim_lexStep (a b : LexSt) (p p' : Nat) (c : UInt8) (hs : VSim a b) :
    VSimOut (lexStep a p c) (lexStep b p' c) := by
  have hs0 := hs
  obtain ⟨fn, cur, tpos, paren, hex, oct⟩ := a
  obtain ⟨fn', cur', tpos', paren', hex', oct'⟩ := b
  obtain ⟨h1, h3, h4, h5, h6⟩ := hs
  dsimp only at h1; subst h1
  cases fn' <;> simp at h3 h4 h5 h6
  all_goals (try subst h3); (try subst h4); (try subst h5); (try subst h6); simp only [lexStep]
  case main => exact vsim_stepMain p p' c rfl rfl
  case comment =>
    unfold stepComment; split
    · exact vsim_toMain p p' c _ _ rfl
    · exact ⟨⟨rfl, by simp, by simp, by simp, by simp⟩, rfl⟩
  case literal => exact vsim_stepLiteral _ _ p p' c hs0 rfl
  case literalHex =>
    unfold stepLiteralHex; dsimp only; repeat' split
    · exact ⟨⟨rfl, by simp, by simp, by simp, by simp⟩, rfl⟩
    · exact vsim_stepLiteral _ _ p p' c ⟨rfl, by simp, by simp, by simp, by simp⟩ rfl
    · exact vsim_stepLiteral _ _ p p' c ⟨rfl, by simp, by simp, by simp, by simp⟩ rfl
  case number =>
    unfold stepNumber; dsimp only; repeat' split
    · exact ⟨⟨rfl, by simp, by simp, by simp, by simp⟩, rfl⟩
    · exact ⟨⟨rfl, by simp, by simp, by simp, by simp⟩, rfl⟩
    · refine vsim_toMain p p' c _ _ ?_
      unfold intToks; dsimp only; split <;> rfl
  case float =>
    unfold stepFloat; dsimp only; repeat' split
    · exact ⟨⟨rfl, by simp, by simp, by simp, by simp⟩, rfl⟩
    · refine vsim_toMain p p' c _ _ ?_
      unfold floatToks; dsimp only; split <;> rfl
  case keyword =>
    unfold stepKeyword; dsimp only; split
    · exact vsim_toMain p p' c _ _ rfl
    · exact ⟨⟨rfl, by simp, by simp, by simp, by simp⟩, rfl⟩
  case string => exact vsim_stepString _ _ c hs0 rfl
  case string1 =>
    unfold stepString1; dsimp only; repeat' split
    · exact ⟨⟨rfl, by simp, by simp, by simp, by simp⟩, rfl⟩
    · exact vsim_stepString _ _ c ⟨rfl, by simp, by simp, by simp, by simp⟩ rfl
    · exact rfl
    · exact ⟨⟨rfl, by simp, by simp, by simp, by simp⟩, rfl⟩
    · exact ⟨⟨rfl, by simp, by simp, by simp, by simp⟩, rfl⟩
  case wopen =>
    unfold stepWopen; dsimp only; split
    · exact ⟨⟨rfl, by simp, by simp, by simp, by simp⟩, rfl⟩
    · exact vsim_stepHexstring _ _ p p' c ⟨rfl, by simp, by simp, by simp, by simp⟩ rfl
  case wclose =>
    unfold stepWclose; dsimp only; split
    · exact ⟨⟨rfl, by simp, by simp, by simp, by simp⟩, rfl⟩
    · exact vsim_toMain p p' c _ _ rfl
  case hexstring => exact vsim_stepHexstring _ _ p p' c hs0 rfl


end Pdf
