import Verif.Spec.DrawingJson
import Verif.Spec.WrittenLines
import Verif.Spec.ConvHtml
/-! What a written page with pictures, lines and text is in the HTML document (C121). -/

namespace Pdf.Spec
open Pdf

/-- The notation of a colour of a page: the integers nearest to 255 times the components. -/
inductive RgbText (env : HtmlEnv) : Dec × Dec × Dec → PyStr → Prop
  | mk {r g b : Dec} {x y z : Int} {s t u : PyStr} : Nearest (r.val * 255) x → Nearest (g.val * 255) y → Nearest (b.val * 255) z →
      ValueText env.fmt (.int x) s → ValueText env.fmt (.int y) t → ValueText env.fmt (.int z) u →
      RgbText env (r, g, b) (pstr "rgb(" ++ s ++ pstr "," ++ t ++ pstr "," ++ u ++ pstr ")")

/-- The attribute of a colour of a page; no colour, no attribute. -/
inductive RgbAttr (env : HtmlEnv) (name : String) : Option (Dec × Dec × Dec) → List (PyStr × PyStr) → Prop
  | none : RgbAttr env name none []
  | some {c t} : RgbText env c t → RgbAttr env name (some c) [(pstr name, t)]

/-- The attributes of the picture of a shape in this box on a page of this height. -/
def svgAttrs (env : ConvEnv) (pageHeight : ℚ) (b : Bbox) : List (PyStr × PyStr) :=
  [(pstr "class", pstr "curve"), (pstr "z-index", pstr "2"), (pstr "viewBox", pstr "0 0 " ++ (if b.y0 < b.y1 then env.fmt (svgWidth b) else pstr "1") ++ pstr " 1"),
    (pstr "width", atLeast1 env (b.x1 - b.x0)), (pstr "height", atLeast1 env (b.y1 - b.y0)),
    (pstr "style", css [(pstr "border", pstr "1px solid black"), (pstr "position", pstr "absolute"), (pstr "left", pixels env b.x0),
      (pstr "bottom", pixels env (pageHeight - b.y0)), (pstr "top", pixels env (pageHeight - b.y1)), (pstr "right", pixels env b.x1),
      (pstr "width", pixels env (b.x1 - b.x0)), (pstr "height", pixels env (b.y1 - b.y0))])]

/-- A step to a point, in the picture of the box. -/
def svgTo (env : ConvEnv) (b : Bbox) (c : Char) (p : ℚ × ℚ) : Char × List PyStr := (c, [env.fmt (svgPosition b p).1, env.fmt (svgPosition b p).2])

/-- The tags of a shape with the smallest box around these points: a picture at the place of the box with one path, which goes from point to point, and back if it is closed. -/
def ShapeHtml (env : HtmlEnv) (pageHeight : ℚ) (σ : Paint) (around : List (ℚ × ℚ)) (p : ℚ × ℚ) (more : List (ℚ × ℚ)) (closed : Bool) (tags : List Tag) : Prop :=
  ∃ b fill stroke d, SmallestBox b around ∧ RgbAttr env "fill" σ.fill fill ∧ RgbAttr env "stroke" σ.stroke stroke ∧
    SvgData d (svgTo env.toConvEnv b 'M' p :: more.map (svgTo env.toConvEnv b 'L') ++ if closed then [('Z', [])] else []) ∧
    tags = [(pstr "svg", svgAttrs env.toConvEnv pageHeight b), (pstr "path", (pstr "d", d) :: fill ++ stroke ++ [(pstr "style", css (fill ++ stroke))])]

/-- The tags of a mark, in the order of the document, and the colours after it. Strings without colour are black. -/
inductive MarkHtml (env : HtmlEnv) (f : Font) (ig : Bool) (images : List (List (Key × Obj) × Bytes)) (pageHeight : ℚ) : Paint → Mark → Paint → List Tag → Prop
  | fill {σ r g b} : MarkHtml env f ig images pageHeight σ (.fill r g b) { σ with fill := some (r, g, b) } []
  | stroke {σ r g b} : MarkHtml env f ig images pageHeight σ (.stroke r g b) { σ with stroke := some (r, g, b) } []
  | width {σ w} : MarkHtml env f ig images pageHeight σ (.width w) σ []
  | rect {σ x y w h tags} : ShapeHtml env pageHeight σ [(x.val, y.val), (x.val + w.val, y.val + h.val)] (x.val, y.val)
      [(x.val + w.val, y.val), (x.val + w.val, y.val + h.val), (x.val, y.val + h.val)] true tags → MarkHtml env f ig images pageHeight σ (.rect x y w h) σ tags
  | path {σ p q more tags} : ShapeHtml env pageHeight σ ((p :: q :: more).map spot) (spot p) ((q :: more).map spot) false tags →
      MarkHtml env f ig images pageHeight σ (.path p q more) σ tags
  | image {σ i d raw a b c d' e f' box} : images[i]? = some (d, raw) → (InRange (corners a b c d' e f') → SmallestBox box (corners a b c d' e f')) →
      MarkHtml env f ig images pageHeight σ (.image i a b c d' e f') σ [(pstr "img", [(pstr "src", env.imageName d raw), (pstr "background", pstr "red"),
        (pstr "width", pixels env.toConvEnv (box.x1 - box.x0)), (pstr "height", pixels env.toConvEnv (box.y1 - box.y0))])]
  | text {σ size x y s color weight box chars} : (σ.fill = none → color = pstr "black") → (∀ c, σ.fill = some c → RgbText env c color) →
      env.fontWeight f = some weight → SmallestBox box (charCorners chars) → Placed f ig size.val y.val x.val (s.map fun c => (c.toNat : Int)) chars →
      MarkHtml env f ig images pageHeight σ (.text size x y s) σ
        ((pstr "span", [(pstr "class", pstr "text-block")]) ::
          (pstr "span", [(pstr "class", pstr "char-block"), (pstr "style", css
            ([(pstr "position", pstr "absolute"), (pstr "left", env.fmt box.x0), (pstr "bottom", env.fmt box.y0), (pstr "font-size", pixels env.toConvEnv (box.y1 - box.y0)),
              (pstr "font-family", env.fontName f), (pstr "font-weight", weight), (pstr "color", color)] ++ sizes env.toConvEnv box ++
            [(pstr "transform", pstr "skew(" ++ env.italicAngle f ++ pstr "deg, 0deg)"), (pstr "text-align", pstr "center"), (pstr "display", pstr "flex"),
              (pstr "flex-flow", pstr "row nowrap"), (pstr "justify-content", pstr "space-between")]))]) ::
          chars.map fun c => (pstr "span", [(pstr "class", pstr "char"), (pstr "style", css (sizes env.toConvEnv c.2.1))]))

/-- The tags of marks, in their order. -/
inductive MarksHtml (env : HtmlEnv) (f : Font) (ig : Bool) (images : List (List (Key × Obj) × Bytes)) (pageHeight : ℚ) : Paint → List Mark → List Tag → Prop
  | nil {σ} : MarksHtml env f ig images pageHeight σ [] []
  | cons {σ m σ' js ms l} : MarkHtml env f ig images pageHeight σ m σ' js → MarksHtml env f ig images pageHeight σ' ms l →
      MarksHtml env f ig images pageHeight σ (m :: ms) (js ++ l)

/-- The tags of page `num`: its number and size, and the tags of the marks. A page begins without colours. -/
def LeafHtml (env : HtmlEnv) (f : Font) (ig : Bool) (images : List (List (Key × Obj) × Bytes)) (num : Nat) (p : Leaf) (tags : List Tag) : Prop :=
  ∃ l, MarksHtml env f ig images p.height.val ⟨none, none⟩ p.marks l ∧
    tags = (pstr "div", [(pstr "class", pstr "page"), (pstr "id", pstr "page-" ++ numText num),
      (pstr "style", css [(pstr "width", pixels env.toConvEnv p.width.val), (pstr "height", pixels env.toConvEnv p.height.val)])]) :: l

/-- HTML can carry the mark: strings have no markup, shapes are more than one point, and longer paths are in the range of 32-bit integers. -/
def HtmlMark : Mark → Prop
  | .text _ _ _ s => NoMarkup (s.map UInt8.toNat)
  | .rect _ _ w h => w.val ≠ 0 ∨ h.val ≠ 0
  | .path p q more => (∃ v ∈ q :: more, spot v ≠ spot p) ∧ (more ≠ [] → InRange ((p :: q :: more).map spot))
  | _ => True

/-- The texts of integers in colours are their digits, and the name of the colour space can be an attribute. -/
structure RgbTexts (env : HtmlEnv) : Prop where
  integer : ∀ n : Int, ValueText env.fmt (.int n) (env.valueStr (.int n))
  name : ∃ v, XmlValue (env.spaceName ⟨asc "DeviceRGB", .int 3⟩) v

end Pdf.Spec
