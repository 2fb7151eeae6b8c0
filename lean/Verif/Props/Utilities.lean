import Mathlib.Tactic.Linarith
import Mathlib.Tactic.FieldSimp
import Mathlib.Tactic.Ring
import Mathlib.Tactic.NormNum
import Mathlib.Algebra.Order.Field.Basic
import Mathlib.Algebra.Order.Ring.Rat
import Mathlib.Data.List.Forall2
import Verif.Model.Utilities
import Verif.Spec.Utilities
import Verif.Spec.Pipeline
/-! C109 and C110: the distance of boxes, and objects with everything resolved. -/

namespace Pdf
open Spec

/-! ### C109 -/

theorem gap_eq (a0 a1 b0 b1 : ℚ) : max a1 b1 - min a0 b0 - (a1 - a0) - (b1 - b0) = max a0 b0 - min a1 b1 := by
  have h1 : max a1 b1 + min a1 b1 = a1 + b1 := max_add_min a1 b1
  have h2 : max a0 b0 + min a0 b0 = a0 + b0 := max_add_min a0 b0
  linarith

theorem vec_eq (a b : Bbox) : vecBetweenBoxes a b =
    if max a.x0 b.x0 - min a.x1 b.x1 < 0 ∧ max a.y0 b.y0 - min a.y1 b.y1 < 0 then ((middle a).1 - (middle b).1, (middle a).2 - (middle b).2)
    else (max 0 (max a.x0 b.x0 - min a.x1 b.x1), max 0 (max a.y0 b.y0 - min a.y1 b.y1)) := by
  rw [← gap_eq a.x0, ← gap_eq a.y0]
  rfl

theorem overlap_iff (a b : Bbox) : BoxesOverlap a b ↔ max a.x0 b.x0 - min a.x1 b.x1 < 0 ∧ max a.y0 b.y0 - min a.y1 b.y1 < 0 := by
  rw [sub_neg, sub_neg]
  constructor
  · rintro ⟨p, ⟨h1, h2, h3, h4⟩, k1, k2, k3, k4⟩
    exact ⟨(max_lt h1 k1).trans (lt_min h2 k2), (max_lt h3 k3).trans (lt_min h4 k4)⟩
  · rintro ⟨h1, h2⟩
    obtain ⟨x, x1, x2⟩ := exists_between h1
    obtain ⟨y, y1, y2⟩ := exists_between h2
    rw [max_lt_iff] at x1 y1
    rw [lt_min_iff] at x2 y2
    exact ⟨(x, y), ⟨x1.1, x2.1, y1.1, y2.1⟩, x1.2, x2.2, y1.2, y2.2⟩

/-- **C109, overlapping boxes.** The vector from the middle of the second box to the middle of the first one. -/
theorem vec_overlap (a b : Bbox) (h : BoxesOverlap a b) : vecBetweenBoxes a b = ((middle a).1 - (middle b).1, (middle a).2 - (middle b).2) := by
  rw [vec_eq, if_pos ((overlap_iff a b).1 h)]

theorem gap_le {a0 a1 b0 b1 p q : ℚ} (h1 : a0 ≤ p) (h2 : p ≤ a1) (h3 : b0 ≤ q) (h4 : q ≤ b1) : max 0 (max a0 b0 - min a1 b1) ≤ |p - q| := by
  refine max_le (abs_nonneg _) ?_
  rcases max_cases a0 b0 with ⟨e, _⟩ | ⟨e, _⟩ <;> rcases min_cases a1 b1 with ⟨e', _⟩ | ⟨e', _⟩ <;> rw [e, e']
  · linarith [abs_nonneg (p - q)]
  · linarith [le_abs_self (p - q)]
  · linarith [neg_abs_le (p - q)]
  · linarith [abs_nonneg (p - q)]

theorem gap_attained {a0 a1 b0 b1 : ℚ} (ha : a0 ≤ a1) (hb : b0 ≤ b1) : ∃ p q, a0 ≤ p ∧ p ≤ a1 ∧ b0 ≤ q ∧ q ≤ b1 ∧ |p - q| = max 0 (max a0 b0 - min a1 b1) := by
  by_cases h1 : a1 < b0
  · refine ⟨a1, b0, ha, le_refl _, le_refl _, hb, ?_⟩
    rw [max_eq_right (ha.trans h1.le), min_eq_left (h1.le.trans hb), max_eq_right (by linarith), abs_sub_comm, abs_of_pos (by linarith)]
  · by_cases h2 : b1 < a0
    · refine ⟨a0, b1, le_refl _, ha, hb, le_refl _, ?_⟩
      rw [max_eq_left (hb.trans h2.le), min_eq_right (h2.le.trans ha), max_eq_right (by linarith), abs_of_pos (by linarith)]
    · push Not at h1 h2
      refine ⟨max a0 b0, max a0 b0, le_max_left _ _, max_le ha h1, le_max_right _ _, max_le h2 hb, ?_⟩
      rw [sub_self, abs_zero, max_eq_left]
      have : max a0 b0 ≤ min a1 b1 := max_le (le_min ha h2) (le_min h1 hb)
      linarith

/-- **C109, boxes apart.** The components are the shortest distances, across and up, of a point of the first box and a point of the second one. -/
theorem vec_apart (a b : Bbox) (hax : a.x0 ≤ a.x1) (hay : a.y0 ≤ a.y1) (hbx : b.x0 ≤ b.x1) (hby : b.y0 ≤ b.y1) (h : ¬ BoxesOverlap a b) :
    (∀ p q, InBox a p → InBox b q → (vecBetweenBoxes a b).1 ≤ |p.1 - q.1| ∧ (vecBetweenBoxes a b).2 ≤ |p.2 - q.2|) ∧
    ∃ p q, InBox a p ∧ InBox b q ∧ |p.1 - q.1| = (vecBetweenBoxes a b).1 ∧ |p.2 - q.2| = (vecBetweenBoxes a b).2 := by
  rw [vec_eq, if_neg fun hh => h ((overlap_iff a b).2 hh)]
  refine ⟨fun p q hp hq => ⟨gap_le hp.1 hp.2.1 hq.1 hq.2.1, gap_le hp.2.2.1 hp.2.2.2 hq.2.2.1 hq.2.2.2⟩, ?_⟩
  obtain ⟨p, q, h1, h2, h3, h4, h5⟩ := gap_attained hax hbx
  obtain ⟨p', q', k1, k2, k3, k4, k5⟩ := gap_attained hay hby
  exact ⟨(p, p'), (q, q'), ⟨h1, h2, k1, k2⟩, ⟨h3, h4, k3, k4⟩, h5, k5⟩

/-- **C109, exchange.** If the boxes are exchanged, the vector is the same for boxes apart, and the opposite for overlapping boxes. -/
theorem vec_exchange (a b : Bbox) : (BoxesOverlap a b → vecBetweenBoxes b a = (-(vecBetweenBoxes a b).1, -(vecBetweenBoxes a b).2)) ∧
    (¬ BoxesOverlap a b → vecBetweenBoxes b a = vecBetweenBoxes a b) := by
  have hs : BoxesOverlap b a ↔ BoxesOverlap a b := ⟨fun ⟨p, h1, h2⟩ => ⟨p, h2, h1⟩, fun ⟨p, h1, h2⟩ => ⟨p, h2, h1⟩⟩
  constructor
  · intro h
    rw [vec_overlap a b h, vec_overlap b a (hs.2 h)]
    simp
  · intro h
    rw [vec_eq, vec_eq, if_neg fun hh => h (hs.1 ((overlap_iff b a).2 hh)), if_neg fun hh => h ((overlap_iff a b).2 hh), max_comm b.x0, min_comm b.x1, max_comm b.y0, min_comm b.y1]

/-- **C109, moving.** Moving both boxes by the same vector changes nothing. -/
theorem vec_move (a b : Bbox) (x y : ℚ) :
    vecBetweenBoxes ⟨a.x0 + x, a.y0 + y, a.x1 + x, a.y1 + y⟩ ⟨b.x0 + x, b.y0 + y, b.x1 + x, b.y1 + y⟩ = vecBetweenBoxes a b := by
  rw [vec_eq, vec_eq]
  simp only [max_add_add_right, min_add_add_right, add_sub_add_right_eq_sub, middle]
  congr 1
  ext <;> simp only <;> ring

/-- Boxes side by side. -/
example : ¬ BoxesOverlap ⟨0, 0, 1, 1⟩ ⟨3, 0, 4, 2⟩ ∧ vecBetweenBoxes ⟨0, 0, 1, 1⟩ ⟨3, 0, 4, 2⟩ = (2, 0) := by
  rw [overlap_iff]
  decide +kernel

/-- A box in a box. -/
example : BoxesOverlap ⟨1, 1, 2, 2⟩ ⟨0, 0, 4, 4⟩ ∧ vecBetweenBoxes ⟨1, 1, 2, 2⟩ ⟨0, 0, 4, 4⟩ = (-1 / 2, -1 / 2) := by
  rw [overlap_iff]
  decide +kernel

/-! ### C110 -/

variable {R : Resolver}

theorem resolveEach_iff {fuel : Nat} {l ys : List Obj} : resolveEach R fuel l = .ok ys ↔ List.Forall₂ (fun x y => resolveAll R fuel x = .ok y) l ys := by
  induction l generalizing ys with
  | nil =>
    rw [resolveEach]
    constructor
    · intro h; cases h; exact .nil
    · intro h; cases h; rfl
  | cons x l ih =>
    rw [resolveEach]
    constructor
    · intro h
      rcases h1 : resolveAll R fuel x with e | y
      · rw [h1] at h; cases h
      · rw [h1] at h
        dsimp only at h
        rcases h2 : resolveEach R fuel l with e | zs
        · rw [h2] at h; cases h
        · rw [h2] at h
          cases h
          exact .cons h1 (ih.1 h2)
    · rintro (_ | ⟨h1, h2⟩)
      rw [h1]
      dsimp only
      rw [ih.2 h2]

theorem resolveAll_sound : ∀ {fuel : Nat} {x y : Obj}, resolveAll R fuel x = .ok y → Resolved R x y := by
  intro fuel
  induction fuel with
  | zero => intro x y h; rw [resolveAll] at h; cases h
  | succ fuel ih =>
    intro x y h
    rw [resolveAll] at h
    split at h
    · cases h
    · rename_i l hx
      rcases h2 : resolveEach R fuel l with e | zs
      · rw [h2] at h; cases h
      · rw [h2] at h
        cases h
        exact .array hx ((resolveEach_iff.1 h2).imp fun _ _ => ih)
    · cases h
    · rename_i o h1 h2 hx
      cases h
      exact .plain hx (fun l hl => h1 l hl) (fun d hd => h2 d hd)

theorem resolveAll_plain {fuel : Nat} {x y : Obj} (h : R.resolve1 x = .ok y) (h1 : ∀ l, y ≠ .arr l) (h2 : ∀ d, y ≠ .dict d) : resolveAll R (fuel + 1) x = .ok y := by
  rw [resolveAll, h]
  cases y <;> first | rfl | exact absurd rfl (h1 _) | exact absurd rfl (h2 _)

mutual
theorem resolved_fuel {x y : Obj} (h : Resolved R x y) : ∃ N, ∀ fuel ≥ N, resolveAll R fuel x = .ok y := by
  match h with
  | .plain h h1 h2 =>
    refine ⟨1, fun fuel hf => ?_⟩
    obtain ⟨k, rfl⟩ : ∃ k, fuel = k + 1 := ⟨fuel - 1, by omega⟩
    exact resolveAll_plain h h1 h2
  | .array h hl =>
    obtain ⟨N, hN⟩ := resolved_each hl
    refine ⟨N + 1, fun fuel hf => ?_⟩
    obtain ⟨k, rfl⟩ : ∃ k, fuel = k + 1 := ⟨fuel - 1, by omega⟩
    rw [resolveAll, h]
    dsimp only
    rw [resolveEach_iff.2 (hN k (by omega))]
theorem resolved_each {l ys : List Obj} (h : List.Forall₂ (Resolved R) l ys) : ∃ N, ∀ fuel ≥ N, List.Forall₂ (fun x y => resolveAll R fuel x = .ok y) l ys := by
  match h with
  | .nil => exact ⟨0, fun _ _ => .nil⟩
  | .cons h1 h2 =>
    obtain ⟨N, hN⟩ := resolved_fuel h1
    obtain ⟨M, hM⟩ := resolved_each h2
    exact ⟨max N M, fun fuel hf => .cons (hN fuel (by omega)) (hM fuel (by omega))⟩
end

/-- **C110, answers.** `resolve_all` answers `y` exactly if `y` is the object with everything resolved; no dictionary may be reached then. -/
theorem resolve_all_partial (x y : Obj) : (∃ N, ∀ fuel ≥ N, resolveAll R fuel x = .ok y) ↔ Resolved R x y :=
  ⟨fun ⟨N, h⟩ => resolveAll_sound (h N (le_refl N)), resolved_fuel⟩

mutual
theorem resolved_noRefs (hR : ∀ x o, R.resolve1 x = .ok o → ∀ i g, o ≠ .ref i g) {x y : Obj} (h : Resolved R x y) : NoRefs y := by
  match h with
  | .plain h h1 _ => exact .plain (hR _ _ h) h1
  | .array _ hl => exact .array (resolved_noRefs_each hR hl)
theorem resolved_noRefs_each (hR : ∀ x o, R.resolve1 x = .ok o → ∀ i g, o ≠ .ref i g) {l ys : List Obj} (h : List.Forall₂ (Resolved R) l ys) : ∀ y ∈ ys, NoRefs y := by
  match h with
  | .nil => intro y hy; cases hy
  | .cons h1 h2 =>
    intro y hy
    rcases List.mem_cons.1 hy with e | hy
    · rw [e]; exact resolved_noRefs hR h1
    · exact resolved_noRefs_each hR h2 y hy
end

/-- **C110, no references are left.** If `resolve1` never answers a reference (see C28), then there are no references in what `resolve_all` answers. -/
theorem resolve_all_noRefs (hR : ∀ x o, R.resolve1 x = .ok o → ∀ i g, o ≠ .ref i g) {fuel : Nat} {x y : Obj} (h : resolveAll R fuel x = .ok y) : NoRefs y :=
  resolved_noRefs hR (resolveAll_sound h)

/-- **C110, once is enough.** If `resolve1` leaves alone what is no reference, resolving again changes nothing. -/
theorem resolve_all_again (hR : ∀ x o, R.resolve1 x = .ok o → ∀ i g, o ≠ .ref i g) (hd : ∀ x, (∀ i g, x ≠ .ref i g) → R.resolve1 x = .ok x) {fuel : Nat} {x y : Obj}
    (h : resolveAll R fuel x = .ok y) : ∃ N, ∀ fuel ≥ N, resolveAll R fuel y = .ok y := by
  rw [resolve_all_partial]
  replace h := resolveAll_sound h
  revert h
  suffices hs : ∀ fuel x y, resolveAll R fuel x = .ok y → Resolved R y y by
    intro h
    obtain ⟨N, hN⟩ := resolved_fuel h
    exact hs N x y (hN N (le_refl N))
  intro fuel
  induction fuel with
  | zero => intro x y h; rw [resolveAll] at h; cases h
  | succ fuel ih =>
    intro x y h
    rw [resolveAll] at h
    split at h
    · cases h
    · rename_i l hx
      rcases h2 : resolveEach R fuel l with e | zs
      · rw [h2] at h; cases h
      · rw [h2] at h
        cases h
        refine .array (hd _ (by simp)) ?_
        rw [List.forall₂_same]
        have h3 := resolveEach_iff.1 h2
        clear h2 hx
        induction h3 with
        | nil => intro z hz; cases hz
        | cons h4 _ ih' =>
          intro z hz
          rcases List.mem_cons.1 hz with rfl | hz
          · exact ih _ _ h4
          · exact ih' z hz
    · cases h
    · rename_i o h1 h2 hx
      cases h
      exact .plain (hd _ (hR _ _ hx)) (fun l hl => h1 l hl) (fun d hd => h2 d hd)

theorem forall2_some {α β : Type} {r : α → β → Prop} {l : List α} {ys : List β} (h : List.Forall₂ r l ys) {x : α} (hx : x ∈ l) : ∃ y, r x y := by
  induction h with
  | nil => cases hx
  | cons h1 _ ih =>
    rcases List.mem_cons.1 hx with rfl | hx
    · exact ⟨_, h1⟩
    · exact ih hx

/-- **C110, dictionaries.** If a dictionary can be reached, even an empty one, `resolve_all` answers nothing: it raises an exception. -/
theorem resolve_all_dict_counterexample {x : Obj} (h : ReachesDict R x) (fuel : Nat) : ∃ e, resolveAll R fuel x = .error e := by
  rcases hr : resolveAll R fuel x with e | y
  · exact ⟨e, rfl⟩
  · exfalso
    replace hr := resolveAll_sound hr
    induction h generalizing y with
    | here h =>
      cases hr with
      | plain h' h1 h2 => rw [h] at h'; cases h'; exact h2 _ rfl
      | array h' _ => rw [h] at h'; cases h'
    | @there x l z h hm _ ih =>
      cases hr with
      | plain h' h1 h2 => rw [h] at h'; cases h'; exact h1 _ rfl
      | @array _ l' ys h' hl =>
        rw [h] at h'
        cases h'
        obtain ⟨w, hw⟩ := forall2_some hl hm
        exact ih w hw

/-- **C110, dictionaries.** On a dictionary the exception is `AttributeError`. -/
theorem resolve_all_iteritems {x : Obj} {d : List (Key × Obj)} (h : R.resolve1 x = .ok (.dict d)) (fuel : Nat) : resolveAll R (fuel + 1) x = .error .attributeError := by
  rw [resolveAll, h]

/-- **C110, cycles.** An array that has a reference to itself as an element is never resolved: the recursion does not end. -/
theorem resolve_all_cycle_counterexample {x : Obj} (h : R.resolve1 x = .ok (.arr [x])) (fuel : Nat) : resolveAll R fuel x = .error .recursion := by
  induction fuel with
  | zero => rw [resolveAll]
  | succ fuel ih =>
    rw [resolveAll, h]
    dsimp only
    rw [resolveEach, ih]

/-- Object 1 is an array with a reference to object 2, an array; object 3 is an array with a reference to itself; object 4 is a dictionary. -/
def sampleTable : Resolver := fileResolver [(1, .arr [.int 7, .ref 2 0]), (2, .arr [.str [65], .ref 9 0]), (3, .arr [.ref 3 0]), (4, .dict [])]

example : Resolved sampleTable (.ref 1 0) (.arr [.int 7, .arr [.str [65], .null]]) :=
  (resolve_all_partial _ _).1 ⟨3, fun fuel hf => by
    obtain ⟨k, rfl⟩ : ∃ k, fuel = k + 3 := ⟨fuel - 3, by omega⟩
    simp [resolveAll, resolveEach, sampleTable, fileResolver, dictGet]⟩

example (fuel : Nat) : resolveAll sampleTable fuel (.ref 3 0) = .error .recursion := resolve_all_cycle_counterexample rfl fuel

example (fuel : Nat) : ∃ e, resolveAll sampleTable fuel (.arr [.ref 4 0]) = .error e :=
  resolve_all_dict_counterexample (.there rfl (List.mem_singleton.2 rfl) (.here rfl)) fuel

end Pdf
