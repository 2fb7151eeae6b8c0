import Verif.Spec.DrawingJson
/-! What a written page with pictures, lines and text is in the XML document (C119). -/

namespace Pdf.Spec
open Pdf

/-- The attributes of a colour of a page: its type and the integers nearest to 255 times the components, with commas between them; no colour, no attributes. -/
inductive ColorTexts (fmt : ℚ → PyStr) (key : PyStr) : Option (Dec × Dec × Dec) → List (PyStr × PyStr) → Prop
  | none : ColorTexts fmt key none []
  | some {r g b : Dec} {x y z : Int} {s t u : PyStr} : Nearest (r.val * 255) x → Nearest (g.val * 255) y → Nearest (b.val * 255) z →
      ValueText fmt (.int x) s → ValueText fmt (.int y) t → ValueText fmt (.int z) u →
      ColorTexts fmt key (some (r, g, b)) [(key ++ pstr "-type", pstr "DeviceRGB"), (key ++ pstr "-values", s ++ pstr "," ++ t ++ pstr "," ++ u)]

/-- The tag of a shape with this name and the smallest box with these points: coordinates, colour of lines, colour to fill with. -/
def ShapeTag (env : ConvEnv) (name : String) (σ : Paint) (pts : List (ℚ × ℚ)) (tag : Tag) : Prop :=
  ∃ b s q, SmallestBox b pts ∧ ColorTexts env.fmt (pstr "stroke") σ.stroke s ∧ ColorTexts env.fmt (pstr "fill") σ.fill q ∧ tag = (pstr name, boxAttrs env b ++ s ++ q)

/-- The tags of a path to one point. -/
def pathTags (env : ConvEnv) (method : String) (p : Pt) : List Tag :=
  [(pstr "path", [(pstr "type", pstr method)]), (pstr "point", [(pstr "x", env.fmt p.1.val), (pstr "y", env.fmt p.2.val)])]

/-- The tags of a mark, in the order of the document, and the colours after it. -/
inductive MarkTags (env : ConvEnv) (f : Font) (ig : Bool) (images : List (List (Key × Obj) × Bytes)) : Paint → Mark → Paint → List Tag → Prop
  | fill {σ r g b} : MarkTags env f ig images σ (.fill r g b) { σ with fill := some (r, g, b) } []
  | stroke {σ r g b} : MarkTags env f ig images σ (.stroke r g b) { σ with stroke := some (r, g, b) } []
  | width {σ w} : MarkTags env f ig images σ (.width w) σ []
  | rect {σ x y w h tag} : ShapeTag env "rect" σ [(x.val, y.val), (x.val + w.val, y.val + h.val)] tag → MarkTags env f ig images σ (.rect x y w h) σ [tag]
  | line {σ p q tag} : ShapeTag env "line" σ [spot p, spot q] tag → MarkTags env f ig images σ (.path p q []) σ [tag]
  | path {σ p q r more attrs} : (InRange ((p :: q :: r :: more).map spot) → ShapeTag env "curve" σ ((p :: q :: r :: more).map spot) (pstr "curve", attrs)) →
      MarkTags env f ig images σ (.path p q (r :: more)) σ
        ((pstr "curve", attrs) :: pathTags env "MOVE_TO" p ++ (q :: r :: more).flatMap (pathTags env "LINE_TO"))
  | image {σ i d raw a b c d' e f' box} : images[i]? = some (d, raw) → (InRange (corners a b c d' e f') → SmallestBox box (corners a b c d' e f')) →
      MarkTags env f ig images σ (.image i a b c d' e f') σ [(pstr "img", (pstr "src", env.imageName d raw) :: boxAttrs env box)]
  | text {σ size x y s box q ds chars} : ColorTexts env.fmt (pstr "color") σ.fill q →
      (∀ p ∈ env.descriptor f, ¬ leftOut p.1 → (env.attrName p.1, p.2) ∈ ds) →
      SmallestBox box (charCorners chars) → Placed f ig size.val y.val x.val (s.map fun c => (c.toNat : Int)) chars →
      MarkTags env f ig images σ (.text size x y s) σ
        ((pstr "text-block", boxAttrs env box) :: (pstr "char-block", (pstr "size", env.fmt (box.y1 - box.y0)) :: boxAttrs env box ++ q ++ ds) :: chars.map fun c => (pstr "char", boxAttrs env c.2.1))

/-- The tags of marks, in their order. -/
inductive MarksTags (env : ConvEnv) (f : Font) (ig : Bool) (images : List (List (Key × Obj) × Bytes)) : Paint → List Mark → List Tag → Prop
  | nil {σ} : MarksTags env f ig images σ [] []
  | cons {σ m σ' js ms l} : MarkTags env f ig images σ m σ' js → MarksTags env f ig images σ' ms l → MarksTags env f ig images σ (m :: ms) (js ++ l)

/-- The tags of page `num`: its number and size, and the tags of the marks. A page begins without colours. -/
def LeafTags (env : ConvEnv) (f : Font) (ig : Bool) (images : List (List (Key × Obj) × Bytes)) (num : Nat) (p : Leaf) (tags : List Tag) : Prop :=
  ∃ l, MarksTags env f ig images ⟨none, none⟩ p.marks l ∧
    tags = (pstr "page", [(pstr "id", numText num), (pstr "width", env.fmt p.width.val), (pstr "height", env.fmt p.height.val)]) :: l

end Pdf.Spec
