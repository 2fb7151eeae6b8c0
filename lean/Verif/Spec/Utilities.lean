import Verif.Model.Geometry
import Verif.Model.Resolver
/-! Specification for C109 and C110: the distance of boxes, and objects with everything resolved. -/

namespace Pdf.Spec

/-- A point of a box, with its border. -/
def InBox (b : Bbox) (p : ℚ × ℚ) : Prop := b.x0 ≤ p.1 ∧ p.1 ≤ b.x1 ∧ b.y0 ≤ p.2 ∧ p.2 ≤ b.y1

/-- A point inside a box, not on its border. -/
def InsideBox (b : Bbox) (p : ℚ × ℚ) : Prop := b.x0 < p.1 ∧ p.1 < b.x1 ∧ b.y0 < p.2 ∧ p.2 < b.y1

/-- Two boxes overlap if some point is inside both. -/
def BoxesOverlap (a b : Bbox) : Prop := ∃ p, InsideBox a p ∧ InsideBox b p

/-- The point in the middle of a box. -/
def middle (b : Bbox) : ℚ × ℚ := ((b.x0 + b.x1) / 2, (b.y0 + b.y1) / 2)

/-- `Resolved R x y`: `y` is `x` with everything resolved: the object itself, and, if it is an array, its elements. -/
inductive Resolved (R : Resolver) : Obj → Obj → Prop
  | plain {x y} : R.resolve1 x = .ok y → (∀ l, y ≠ .arr l) → (∀ d, y ≠ .dict d) → Resolved R x y
  | array {x l ys} : R.resolve1 x = .ok (.arr l) → List.Forall₂ (Resolved R) l ys → Resolved R x (.arr ys)

/-- There are no references, not even in arrays in arrays. -/
inductive NoRefs : Obj → Prop
  | plain {x} : (∀ i g, x ≠ .ref i g) → (∀ l, x ≠ .arr l) → NoRefs x
  | array {l} : (∀ x ∈ l, NoRefs x) → NoRefs (.arr l)

/-- A dictionary can be reached: the object is one, or an element of the array that it is can reach one. -/
inductive ReachesDict (R : Resolver) : Obj → Prop
  | here {x d} : R.resolve1 x = .ok (.dict d) → ReachesDict R x
  | there {x l y} : R.resolve1 x = .ok (.arr l) → y ∈ l → ReachesDict R y → ReachesDict R x

end Pdf.Spec
