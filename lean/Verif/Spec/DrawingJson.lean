import Verif.Spec.Drawing
import Verif.Spec.Dumps
import Verif.Spec.WrittenLines
/-! What a written page with pictures, lines and text is in the JSON document (C118). -/

namespace Pdf.Spec
open Pdf

/-- The colours of a page at a place: what the last `rg` and the last `RG` said. -/
structure Paint where
  fill : Option (Dec × Dec × Dec)
  stroke : Option (Dec × Dec × Dec)

/-- An object is painted in this colour, under this key: three texts of the integers nearest to 255 times the components; no colour, no key. -/
def InColor (fmt : ℚ → PyStr) (key : PyStr) (color : Option (Dec × Dec × Dec)) (j : Json) : Prop :=
  (color = none → j.field key = none) ∧
  ∀ r g b, color = some (r, g, b) → ∃ v texts, j.field key = some v ∧ ColorIs (pstr "DeviceRGB") texts v ∧ ∃ x y z : Int, Nearest (r.val * 255) x ∧
    Nearest (g.val * 255) y ∧ Nearest (b.val * 255) z ∧ List.Forall₂ (ValueText fmt) [.int x, .int y, .int z] texts

/-- An object has the smallest box with these points. -/
def Around (env : ConvEnv) (pts : List (ℚ × ℚ)) (j : Json) : Prop := ∃ b, SmallestBox b pts ∧ HasBox env b j

/-- The points of a path are those of 32-bit integers. -/
def InRange (pts : List (ℚ × ℚ)) : Prop := ∀ v ∈ pts, v ∈ Box (-INF) (-INF) INF INF

/-- The value of a path with one point. -/
def pathJson1 (fmt : ℚ → PyStr) (name : String) (p : Pt) : Json :=
  .obj [(pstr "type", .str (pstr name)), (pstr "points", .arr [.obj [(pstr "x", .num (fmt p.1.val)), (pstr "y", .num (fmt p.2.val))]])]

/-- The corners of the unit square under the matrix `a b c d e f`. -/
def corners (a b c d e f : Dec) : List (ℚ × ℚ) :=
  [((0 : ℚ), (0 : ℚ)), (1, 0), (0, 1), (1, 1)].map fun v => (a.val * v.1 + c.val * v.2 + e.val, b.val * v.1 + d.val * v.2 + f.val)

/-- The smallest box around the characters of a string at a place, which follow each other in the widths of the font. -/
def TextBox (f : Font) (size x y : Dec) (s : Bytes) (box : Bbox) : Prop :=
  ∃ ig chars, Placed f ig size.val y.val x.val (s.map fun c => (c.toNat : Int)) chars ∧ SmallestBox box (charCorners chars)

/-- The object of a shape: its type, and the colours of the page at this place. -/
structure ShapeJson (env : ConvEnv) (type : String) (σ : Paint) (j : Json) : Prop where
  type : j.field (pstr "type") = some (.str (pstr type))
  fill : InColor env.fmt (pstr "fill") σ.fill j
  stroke : InColor env.fmt (pstr "stroke") σ.stroke j

/-- The objects of a mark, and the colours after it. -/
inductive MarkJson (env : ConvEnv) (f : Font) (images : List (List (Key × Obj) × Bytes)) : Paint → Mark → Paint → List Json → Prop
  | fill {σ r g b} : MarkJson env f images σ (.fill r g b) { σ with fill := some (r, g, b) } []
  | stroke {σ r g b} : MarkJson env f images σ (.stroke r g b) { σ with stroke := some (r, g, b) } []
  | width {σ w} : MarkJson env f images σ (.width w) σ []
  | rect {σ x y w h j} : ShapeJson env "rect" σ j → Around env [(x.val, y.val), (x.val + w.val, y.val + h.val)] j → MarkJson env f images σ (.rect x y w h) σ [j]
  | line {σ p q j} : ShapeJson env "line" σ j → Around env [spot p, spot q] j → MarkJson env f images σ (.path p q []) σ [j]
  | path {σ p q r more j} : ShapeJson env "curve" σ j →
      (InRange ((p :: q :: r :: more).map spot) → Around env ((p :: q :: r :: more).map spot) j) →
      j.field (pstr "paths") = some (.arr (pathJson1 env.fmt "MOVE_TO" p :: (q :: r :: more).map (pathJson1 env.fmt "LINE_TO"))) →
      MarkJson env f images σ (.path p q (r :: more)) σ [j]
  | image {σ i d raw a b c d' e f' j} : images[i]? = some (d, raw) → j.field (pstr "type") = some (.str (pstr "img")) →
      j.field (pstr "src") = some (.str (env.imageName d raw)) → (InRange (corners a b c d' e f') → Around env (corners a b c d' e f') j) →
      MarkJson env f images σ (.image i a b c d' e f') σ [j]
  | text {σ size x y s j c box} : j.field (pstr "type") = some (.str (pstr "text-block")) → j.field (pstr "char_blocks") = some (.arr [c]) →
      c.field (pstr "text") = some (.str (s.map UInt8.toNat)) → InColor env.fmt (pstr "color") σ.fill c →
      (∀ p ∈ env.descriptor f, ¬ leftOut p.1 → c.field p.1 = some (.str p.2)) → TextBox f size x y s box → HasBox env box j → HasBox env box c →
      c.field (pstr "size") = some (.num (env.fmt (box.y1 - box.y0))) → MarkJson env f images σ (.text size x y s) σ [j]

/-- The objects of marks, in their order. -/
inductive MarksJson (env : ConvEnv) (f : Font) (images : List (List (Key × Obj) × Bytes)) : Paint → List Mark → List Json → Prop
  | nil {σ} : MarksJson env f images σ [] []
  | cons {σ m σ' js ms l} : MarkJson env f images σ m σ' js → MarksJson env f images σ' ms l → MarksJson env f images σ (m :: ms) (js ++ l)

/-- The object of page `num`: its number and size, and an object for every visible mark. A page begins without colours. -/
structure LeafJson (env : ConvEnv) (f : Font) (images : List (List (Key × Obj) × Bytes)) (num : Nat) (p : Leaf) (j : Json) : Prop where
  id : j.field (pstr "id") = some (.num (numText num))
  width : j.field (pstr "width") = some (.num (env.fmt p.width.val))
  height : j.field (pstr "height") = some (.num (env.fmt p.height.val))
  marks : ∃ l, j.field (pstr "children") = some (.arr l) ∧ MarksJson env f images ⟨none, none⟩ p.marks l

/-- JSON can carry the strings of a page: there is no backslash in them. -/
def CleanMark : Mark → Prop
  | .text _ _ _ s => '\\'.toNat ∉ s.map UInt8.toNat
  | _ => True

end Pdf.Spec
