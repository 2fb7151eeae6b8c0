import Verif.Spec.Fonts
/-! Specification of the name and the extents of fonts (C117): what the font descriptor says (ISO 32000-1, 9.8.1). -/

namespace Pdf.Spec
open Pdf (Obj Key Resolver nm asc)

/-- The bounding box of a font in its descriptor: left, bottom, right, top. A missing box is empty. -/
inductive FontBox (R : Resolver) (d : List (Key × Obj)) : ℚ → ℚ → ℚ → ℚ → Prop
  | absent : Entry R d "FontBBox" none → FontBox R d 0 0 0 0
  | given {a b c e : Obj} {x0 y0 x1 y1 : ℚ} : Entry R d "FontBBox" (some (.arr [a, b, c, e])) → a.num? = some x0 → b.num? = some y0 → c.num? = some x1 →
      e.num? = some y1 → FontBox R d x0 y0 x1 y1

/-- The name of a font in its descriptor. -/
inductive FontName (R : Resolver) (d : List (Key × Obj)) : Obj → Prop
  | absent : Entry R d "FontName" none → FontName R d (.name (ascii "unknown"))
  | given {v} : Entry R d "FontName" (some v) → FontName R d v

/-- A distance, or another one if it is zero. -/
def distanceOr (a b other : ℚ) : ℚ := if a = b then other else b - a

/-- The sizes of a font, in text space. -/
structure Extents where
  descent : ℚ
  height : ℚ
  width : ℚ

/-- The sizes that a descriptor gives: the descent is `Descent`; the height is that of the box, or, if the box has none, from the descent to the
ascent; the width is that of the box, or, if the box has none, minus the width of missing characters. -/
inductive ExtentsOf (R : Resolver) (d : List (Key × Obj)) (missing : ℚ) : Extents → Prop
  | mk {ascent descent x0 y0 x1 y1 : ℚ} : NumberAt R d "Ascent" 0 ascent → NumberAt R d "Descent" 0 descent → FontBox R d x0 y0 x1 y1 →
      ExtentsOf R d missing ⟨descent / 1000, distanceOr y0 y1 (ascent - descent) / 1000, distanceOr x0 x1 (-missing) / 1000⟩

end Pdf.Spec
