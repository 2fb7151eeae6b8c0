import Mathlib.Data.Rat.Cast.Order
import Mathlib.Order.Interval.Set.Basic
/-! Plane geometry, independent of the code: points, clockwise quarter turns, boxes. -/

namespace Pdf.Spec

/-- A clockwise quarter turn about the origin. -/
def quarterTurn (v : ℚ × ℚ) : ℚ × ℚ := (v.2, -v.1)

/-- `n` clockwise quarter turns. -/
def turns : Nat → ℚ × ℚ → ℚ × ℚ
  | 0, v => v
  | n + 1, v => quarterTurn (turns n v)

/-- The closed box with those corners. -/
def Box (x0 y0 x1 y1 : ℚ) : Set (ℚ × ℚ) := {p | x0 ≤ p.1 ∧ p.1 ≤ x1 ∧ y0 ≤ p.2 ∧ p.2 ≤ y1}

/-- The length of the intersection of two closed intervals, 0 if they are disjoint. -/
def interLength (a0 a1 b0 b1 : ℚ) : ℚ := max 0 (min a1 b1 - max a0 b0)

/-- The distance between two closed intervals: the width of the gap, 0 if there is none. -/
def gap (a0 a1 b0 b1 : ℚ) : ℚ := max 0 (max a0 b0 - min a1 b1)

end Pdf.Spec
