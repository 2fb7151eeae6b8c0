import Verif.Model.Plane
/-! Specification of the spatial index (C55): what a history of calls leaves in the plane, and when boxes overlap. -/

namespace Pdf.Spec

/-- The interior of the box is not empty. -/
def Proper (b : PBox) : Prop := b.x0 < b.x1 ∧ b.y0 < b.y1

/-- The interiors of two proper boxes meet. -/
def Overlap (a b : PBox) : Prop := a.x0 < b.x1 ∧ b.x0 < a.x1 ∧ a.y0 < b.y1 ∧ b.y0 < a.y1

/-- `a` lies inside `b`. -/
def Inside (a b : PBox) : Prop := b.x0 ≤ a.x0 ∧ a.x1 ≤ b.x1 ∧ b.y0 ≤ a.y0 ∧ a.y1 ≤ b.y1

/-- The object was added and not removed afterwards. -/
def Live {α : Type} (ops : List (PlaneOp α)) (x : α) : Prop :=
  ∃ pre post, ops = pre ++ .add x :: post ∧ .remove x ∉ post

/-- Every object added has a proper box and is not in the plane at that time. -/
def Usual {α : Type} (box : α → PBox) (ops : List (PlaneOp α)) : Prop :=
  ∀ pre x post, ops = pre ++ .add x :: post → Proper (box x) ∧ ¬ Live pre x

/-- All four coordinates are integers. -/
def Whole (b : PBox) : Prop := ∃ i j k l : Int, b = ⟨i, j, k, l⟩

end Pdf.Spec
