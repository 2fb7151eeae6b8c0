import Verif.Model.Ccitt
import Verif.Spec.Ccitt
import Mathlib.Tactic.SplitIfs
import Mathlib.Data.List.Basic
/-! Facts about the Group 4 decoder: the code tables, the search for changing elements, and one row. -/

namespace Pdf
open Spec

/-! ### Feeding bits -/

theorem feedBits_append (a b : List Bool) (s : G4) :
    G4.feedBits (a ++ b) s = match G4.feedBits a s with | .ok s => G4.feedBits b s | r => r := by
  induction a generalizing s with
  | nil => rfl
  | cons x a ih =>
    simp only [List.cons_append, G4.feedBits]
    cases s.parseBit x <;> simp [ih]

/-- The bits lead to the result, which comes with the last of them. -/
def Feeds (b : List Bool) (s : G4) (r : G4Res) : Prop :=
  ∃ b0 x s1, b = b0 ++ [x] ∧ G4.feedBits b0 s = .ok s1 ∧ s1.parseBit x = r

theorem Feeds.bits {b s r} (h : Feeds b s r) : G4.feedBits b s = r := by
  obtain ⟨b0, x, s1, rfl, h1, h2⟩ := h
  rw [feedBits_append, h1]
  simp only [G4.feedBits, h2]
  cases r <;> rfl

theorem Feeds.append {a b s s1 r} (ha : Feeds a s (.ok s1)) (hb : Feeds b s1 r) : Feeds (a ++ b) s r := by
  obtain ⟨b0, x, s2, rfl, h1, h2⟩ := hb
  refine ⟨a ++ b0, x, s2, by simp, ?_, h2⟩
  rw [feedBits_append, ha.bits]
  exact h1

/-! ### The tables -/

/-- The value found by following all of the bits, if it is found with the last one. -/
def Trie.lookup {α : Type} : Trie α → List Bool → Option α
  | _, [] => Option.none
  | t, [x] => match t.step x with | .leaf v => some v | _ => Option.none
  | t, x :: y :: xs => match t.step x with | .node l r => Trie.lookup (.node l r) (y :: xs) | _ => Option.none

theorem feeds_mode (s : G4) (b : List Bool) (t : Trie G4Mode) (v : G4Mode) (hs : s.st = .mode t) (h : t.lookup b = some v) :
    ∃ t', Feeds b s (G4.parseMode { s with st := .mode t' } (some v)) := by
  induction b generalizing s t with
  | nil => simp [Trie.lookup] at h
  | cons x b ih =>
    cases b with
    | nil =>
      simp only [Trie.lookup] at h
      refine ⟨t, [], x, s, rfl, rfl, ?_⟩
      simp only [G4.parseBit, hs]
      cases hst : t.step x with
      | none => simp [hst] at h
      | node l r => simp [hst] at h
      | leaf w =>
        simp only [hst, Option.some.injEq] at h
        subst h
        simp only [← hs]
    | cons y b =>
      simp only [Trie.lookup] at h
      cases hst : t.step x with
      | none => simp [hst] at h
      | leaf w => simp [hst] at h
      | node l r =>
        simp only [hst] at h
        obtain ⟨t', b0, z, s1, h1, h2, h3⟩ := ih { s with st := .mode (.node l r) } _ rfl h
        refine ⟨t', x :: b0, z, s1, by simp [h1], ?_, h3⟩
        simp only [G4.feedBits, G4.parseBit, hs, hst]
        exact h2

theorem feeds_horiz1 (s : G4) (b : List Bool) (t : Trie Nat) (v : Nat) (hs : s.st = .horiz1 t) (h : t.lookup b = some v) :
    ∃ t', Feeds b s (G4.parseHoriz1 { s with st := .horiz1 t' } (some v)) := by
  induction b generalizing s t with
  | nil => simp [Trie.lookup] at h
  | cons x b ih =>
    cases b with
    | nil =>
      simp only [Trie.lookup] at h
      refine ⟨t, [], x, s, rfl, rfl, ?_⟩
      simp only [G4.parseBit, hs]
      cases hst : t.step x with
      | none => simp [hst] at h
      | node l r => simp [hst] at h
      | leaf w =>
        simp only [hst, Option.some.injEq] at h
        subst h
        simp only [← hs]
    | cons y b =>
      simp only [Trie.lookup] at h
      cases hst : t.step x with
      | none => simp [hst] at h
      | leaf w => simp [hst] at h
      | node l r =>
        simp only [hst] at h
        obtain ⟨t', b0, z, s1, h1, h2, h3⟩ := ih { s with st := .horiz1 (.node l r) } _ rfl h
        refine ⟨t', x :: b0, z, s1, by simp [h1], ?_, h3⟩
        simp only [G4.feedBits, G4.parseBit, hs, hst]
        exact h2

theorem feeds_horiz2 (s : G4) (b : List Bool) (t : Trie Nat) (v : Nat) (hs : s.st = .horiz2 t) (h : t.lookup b = some v) :
    ∃ t', Feeds b s (G4.parseHoriz2 { s with st := .horiz2 t' } (some v)) := by
  induction b generalizing s t with
  | nil => simp [Trie.lookup] at h
  | cons x b ih =>
    cases b with
    | nil =>
      simp only [Trie.lookup] at h
      refine ⟨t, [], x, s, rfl, rfl, ?_⟩
      simp only [G4.parseBit, hs]
      cases hst : t.step x with
      | none => simp [hst] at h
      | node l r => simp [hst] at h
      | leaf w =>
        simp only [hst, Option.some.injEq] at h
        subst h
        simp only [← hs]
    | cons y b =>
      simp only [Trie.lookup] at h
      cases hst : t.step x with
      | none => simp [hst] at h
      | leaf w => simp [hst] at h
      | node l r =>
        simp only [hst] at h
        obtain ⟨t', b0, z, s1, h1, h2, h3⟩ := ih { s with st := .horiz2 (.node l r) } _ rfl h
        refine ⟨t', x :: b0, z, s1, by simp [h1], ?_, h3⟩
        simp only [G4.feedBits, G4.parseBit, hs, hst]
        exact h2

theorem white_lookup : ∀ e ∈ runCodes true, whiteTable.lookup (natBits e.2.1 e.1) = some e.2.2 := by decide +kernel

theorem black_lookup : ∀ e ∈ runCodes false, blackTable.lookup (natBits e.2.1 e.1) = some e.2.2 := by decide +kernel

theorem run_lookup (c : Bool) {len code run : Nat} (h : (len, code, run) ∈ runCodes c) :
    (runTable c).lookup (natBits code len) = some run := by
  cases c
  · exact black_lookup _ h
  · exact white_lookup _ h

theorem vertical_lookup : ∀ e ∈ verticalCodes, modeTable.lookup (natBits e.2.2 e.2.1) = some (.vert e.1) := by decide +kernel

theorem pass_lookup : modeTable.lookup (natBits 1 4) = some .pass := by decide +kernel
theorem horiz_lookup : modeTable.lookup (natBits 1 3) = some .horiz := by decide +kernel
theorem eofb_lookup : modeTable.lookup endOfBlock = some .eofb := by decide +kernel

/-! ### Changing elements -/

theorem colourAt_nat (row : List Bool) (i : Nat) : colourAt row i = row.getD i true := by
  rw [colourAt, if_neg (by omega)]
  simp

theorem colourAt_pred (row : List Bool) (i : Nat) : colourAt row ((i + 1 : Nat) - 1 : Int) = row.getD i true := by
  rw [show ((i + 1 : Nat) - 1 : Int) = (i : Nat) by omega, colourAt_nat]

theorem findB1_spec (ref : List Bool) (c : Bool) (fuel x : Nat) (hx : x ≤ ref.length) (hc : x = 0 → c = true ∧ 0 < ref.length)
    (hf : ref.length + 1 - x ≤ fuel) :
    ∃ j, findB1 ref c fuel x = .ok j ∧
      FirstRight (fun i => Changing ref i ∧ colourAt ref i ≠ c) ((x : Int) - 1) ref.length j ∧ j ≤ ref.length := by
  induction fuel generalizing x with
  | zero => omega
  | succ fuel ih =>
    have hnext : ∀ hx' : x + 1 ≤ ref.length, ¬ (Changing ref x ∧ colourAt ref x ≠ c) →
        ∃ j, findB1 ref c fuel (x + 1) = .ok j ∧
          FirstRight (fun i => Changing ref i ∧ colourAt ref i ≠ c) ((x : Int) - 1) ref.length j ∧ j ≤ ref.length := by
      intro hx' hno
      obtain ⟨j, h1, ⟨h2, h3⟩, h4⟩ := ih (x + 1) hx' (by omega) (by omega)
      refine ⟨j, h1, ⟨fun i hi hij => ?_, ?_⟩, h4⟩
      · by_cases hix : i = x
        · subst hix; exact hno
        · exact h2 i (by push_cast; omega) hij
      · rcases h3 with ⟨a, b⟩ | b
        · exact Or.inl ⟨by push_cast at a; omega, b⟩
        · exact Or.inr b
    simp only [findB1]
    by_cases h0 : x = 0
    · subst h0
      obtain ⟨rfl, hl⟩ := hc rfl
      simp only [if_true]
      have hg : ref[0]? = some (ref.getD 0 true) := by
        rw [List.getD_eq_getElem?_getD]
        rw [List.getElem?_eq_getElem hl]; rfl
      rw [hg]
      simp only
      by_cases hb : ref.getD 0 true = true
      · simp only [hb, ne_eq, not_true, if_false]
        exact hnext (by omega) (fun h => h.2 (by rw [colourAt_nat]; exact hb))
      · have hcol : colourAt ref (0 : Nat) = false := by rw [colourAt_nat]; simpa using hb
        simp only [ne_eq, hb]
        refine ⟨0, rfl, ⟨fun i hi hij => by omega, Or.inl ⟨by simp, hl, ⟨hl, ?_⟩, ?_⟩⟩, by omega⟩
        · rw [hcol]; simp [colourAt]
        · simp only [hcol]; simp
    · rw [if_neg h0]
      by_cases hxl : x = ref.length
      · rw [if_pos hxl]
        exact ⟨x, rfl, ⟨fun i hi hij => by omega, Or.inr hxl⟩, hx⟩
      · rw [if_neg hxl]
        obtain ⟨y, rfl⟩ : ∃ y, x = y + 1 := ⟨x - 1, by omega⟩
        have hg : ref[y]? = some (ref.getD y true) := by
          rw [List.getD_eq_getElem?_getD, List.getElem?_eq_getElem (by omega)]; rfl
        have hg' : ref[y + 1]? = some (ref.getD (y + 1) true) := by
          rw [List.getD_eq_getElem?_getD, List.getElem?_eq_getElem (by omega)]; rfl
        simp only [Nat.add_sub_cancel, hg, hg']
        have hp := colourAt_pred ref y
        have hq := colourAt_nat ref (y + 1)
        by_cases ha : ref.getD y true = c
        · rw [if_pos ha]
          by_cases hb : ref.getD (y + 1) true = c
          · rw [if_neg (by simpa using hb)]
            exact hnext (by omega) (fun h => h.2 (by rw [hq]; exact hb))
          · rw [if_pos hb]
            refine ⟨y + 1, rfl, ⟨fun i hi hij => by push_cast at hi; omega, Or.inl ⟨by omega, by omega, ⟨by omega, ?_⟩, ?_⟩⟩, hx⟩
            · rw [hp, hq, ha]; exact hb
            · simp only [hq]; exact hb
        · rw [if_neg ha]
          refine hnext (by omega) (fun h => ?_)
          have h1 := h.1.2
          rw [hp, hq] at h1
          have h2 := h.2
          rw [hq] at h2
          revert h1 h2 ha
          generalize ref.getD (y + 1) true = u
          generalize ref.getD y true = v
          cases u <;> cases v <;> cases c <;> simp

theorem findB2_spec (ref : List Bool) (c : Bool) (fuel x : Nat) (hx : x ≤ ref.length) (hl : 0 < ref.length)
    (hc : x = 0 → c = true)
    (hf : ref.length + 1 - x ≤ fuel) :
    ∃ j, findB2 ref c fuel x = .ok j ∧
      FirstRight (fun i => Changing ref i ∧ colourAt ref i = c) ((x : Int) - 1) ref.length j ∧ j ≤ ref.length := by
  induction fuel generalizing x with
  | zero => omega
  | succ fuel ih =>
    have hnext : ∀ hx' : x + 1 ≤ ref.length, ¬ (Changing ref x ∧ colourAt ref x = c) →
        ∃ j, findB2 ref c fuel (x + 1) = .ok j ∧
          FirstRight (fun i => Changing ref i ∧ colourAt ref i = c) ((x : Int) - 1) ref.length j ∧ j ≤ ref.length := by
      intro hx' hno
      obtain ⟨j, h1, ⟨h2, h3⟩, h4⟩ := ih (x + 1) hx' (by omega) (by omega)
      refine ⟨j, h1, ⟨fun i hi hij => ?_, ?_⟩, h4⟩
      · by_cases hix : i = x
        · subst hix; exact hno
        · exact h2 i (by push_cast; omega) hij
      · rcases h3 with ⟨a, b⟩ | b
        · exact Or.inl ⟨by push_cast at a; omega, b⟩
        · exact Or.inr b
    simp only [findB2]
    by_cases h0 : x = 0
    · subst h0
      have := hc rfl
      subst this
      simp only [if_true]
      refine hnext (by omega) (fun h => h.1.2 ?_)
      rw [h.2]; simp [colourAt]
    · rw [if_neg h0]
      by_cases hxl : x = ref.length
      · rw [if_pos hxl]
        exact ⟨x, rfl, ⟨fun i hi hij => by omega, Or.inr hxl⟩, hx⟩
      · rw [if_neg hxl]
        obtain ⟨y, rfl⟩ : ∃ y, x = y + 1 := ⟨x - 1, by omega⟩
        have hg : ref[y]? = some (ref.getD y true) := by
          rw [List.getD_eq_getElem?_getD, List.getElem?_eq_getElem (by omega)]; rfl
        have hg' : ref[y + 1]? = some (ref.getD (y + 1) true) := by
          rw [List.getD_eq_getElem?_getD, List.getElem?_eq_getElem (by omega)]; rfl
        simp only [Nat.add_sub_cancel, hg, hg']
        have hp := colourAt_pred ref y
        have hq := colourAt_nat ref (y + 1)
        by_cases ha : ref.getD y true = c
        · rw [if_neg (by simpa using ha)]
          refine hnext (by omega) (fun h => h.1.2 ?_)
          rw [h.2, hp, ha]
        · rw [if_pos ha]
          by_cases hb : ref.getD (y + 1) true = c
          · rw [if_pos hb]
            refine ⟨y + 1, rfl, ⟨fun i hi hij => by push_cast at hi; omega, Or.inl ⟨by omega, by omega, ⟨by omega, ?_⟩, ?_⟩⟩, hx⟩
            · rw [hp, hq, hb]; exact fun h => ha h.symm
            · simp only [hq]; exact hb
          · rw [if_neg hb]
            exact hnext (by omega) (fun h => hb (by rw [← hq]; exact h.2))

theorem FirstRight.unique {P : Nat → Prop} {lo : Int} {w j k : Nat} (hj : FirstRight P lo w j) (hk : FirstRight P lo w k) :
    j = k := by
  obtain ⟨a, b⟩ := hj
  obtain ⟨c, d⟩ := hk
  by_contra hne
  rcases Nat.lt_or_gt_of_ne hne with h | h
  · rcases b with ⟨b1, b2, b3⟩ | b
    · exact c j b1 h b3
    · rcases d with ⟨d1, d2, d3⟩ | d <;> omega
  · rcases d with ⟨d1, d2, d3⟩ | d
    · exact a k d1 h d3
    · rcases b with ⟨b1, b2, b3⟩ | b <;> omega

theorem FirstRight.le {P : Nat → Prop} {lo : Int} {w j : Nat} (h : FirstRight P lo w j) : j ≤ w := by
  rcases h.2 with ⟨-, h, -⟩ | h <;> omega

/-- Up to the next changing element the colour stays the same. -/
theorem isA_run {row : List Bool} {a0 : Int} {a1 : Nat} (h : IsA row a0 a1) (ha : -1 ≤ a0) (i : Nat) (hi : a0 ≤ i) (hi1 : i < a1) :
    row.getD i true = colourAt row a0 := by
  have hle := FirstRight.le h
  induction i with
  | zero =>
    by_cases h0 : a0 = 0
    · subst h0; exact (colourAt_nat row 0).symm
    · have : a0 = -1 := by omega
      subst this
      have := h.1 0 (by omega) hi1
      simp only [Changing, not_and, ne_eq, not_not] at this
      have := this (by omega)
      rw [← colourAt_nat, this]
      simp [colourAt]
  | succ i ih =>
    by_cases h0 : a0 = (i + 1 : Nat)
    · subst h0; exact (colourAt_nat row _).symm
    · have := h.1 (i + 1) (by omega) hi1
      simp only [Changing, not_and, ne_eq, not_not] at this
      have := this (by omega)
      rw [← colourAt_nat, this, colourAt_pred]
      exact ih (by omega) (by omega)

/-- The colour at the next changing element is the other one. -/
theorem isA_colour {row : List Bool} {a0 : Int} {a1 : Nat} (h : IsA row a0 a1) (ha : -1 ≤ a0) (h1 : a1 < row.length) :
    colourAt row a1 = !colourAt row a0 := by
  rcases h.2 with ⟨hlt, -, hch⟩ | hh
  · have hne := hch.2
    have hprev : colourAt row ((a1 : Int) - 1) = colourAt row a0 := by
      cases a1 with
      | zero =>
        have : a0 = -1 := by omega
        subst this; rfl
      | succ k =>
        rw [colourAt_pred]
        exact isA_run h ha k (by omega) (by omega)
    rw [hprev] at hne
    revert hne
    generalize colourAt row a1 = u
    generalize colourAt row a0 = v
    cases u <;> cases v <;> simp
  · omega

end Pdf
