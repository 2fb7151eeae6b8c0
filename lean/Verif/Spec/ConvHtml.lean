import Verif.Model.ConvHtml
import Verif.Spec.Convert
/-! What the documents made by the HTML converter say: elements, visible characters and pictures. -/

namespace Pdf.Spec

/-! ### Text -/

/-- White space of HTML. -/
def blank (c : Nat) : Bool := decide (c ∈ [9, 10, 12, 13, 32])

/-- A text without its white space. -/
def inked (s : PyStr) : PyStr := s.filter fun c => !blank c

/-- The characters of a document that are not white space, in order. -/
def visible : List XmlEvent → PyStr
  | [] => []
  | .char c :: r => if blank c then visible r else c :: visible r
  | _ :: r => visible r

/-- The style sheet of the document. -/
def sheet : PyStr := pstr ".page { position: relative; overflow: hidden;border: 1px black solid;}"

/-! ### Pictures: the data of paths in SVG -/

/-- The text of a number. -/
def SvgNumber (t : PyStr) : Prop := t ≠ [] ∧ ∀ c ∈ t, c ∈ pstr "0123456789+-.e"

/-- Path data: `Z`, or `M`, `L`, `C` with numbers between spaces. -/
inductive SvgData : PyStr → List (Char × List PyStr) → Prop
  | nil : SvgData [] []
  | close {t l} : SvgData t l → SvgData (pstr "Z" ++ t) (('Z', []) :: l)
  | command {c : Char} {ns t l} : c ∈ ['M', 'L', 'C'] → ns ≠ [] → (∀ n ∈ ns, SvgNumber n) → SvgData t l →
      SvgData (c.toNat :: (List.intercalate (pstr " ") ns ++ pstr " " ++ t)) ((c, ns) :: l)

/-- The letter of a step of a path. -/
def svgLetter : CurveMethod → Option Char
  | .moveTo => some 'M'
  | .lineTo => some 'L'
  | .curveBothTo => some 'C'
  | .closePath => some 'Z'
  | _ => none

/-- Where a point is in the picture: the box of the curve is moved to the origin and turned upside down, and its height becomes 1. Boxes
without height get the width 1. Boxes narrower than 1/100 are narrowed further. -/
def svgPosition (b : Bbox) (p : ℚ × ℚ) : ℚ × ℚ :=
  if b.y0 < b.y1 then
    (if b.x1 - b.x0 < 1 / 100 then 100 * (b.x1 - b.x0) * ((p.1 - b.x0) / (b.y1 - b.y0)) else (p.1 - b.x0) / (b.y1 - b.y0),
      (b.y1 - p.2) / (b.y1 - b.y0))
  else ((p.1 - b.x0) / (b.x1 - b.x0), b.y1 - p.2)

/-- The width of the picture; its height is 1. -/
def svgWidth (b : Bbox) : ℚ := if b.y0 < b.y1 then (b.x1 - b.x0) / (b.y1 - b.y0) else 1

/-- The points of a step; all coordinates are numbers. -/
def Points (p : CurvePath) (pts : List (ℚ × ℚ)) : Prop := p.points = pts.map fun q => (some q.1, some q.2)

/-- The steps of the path of a curve in SVG; steps without a letter (the operators `v` and `y`) are left out. -/
inductive SvgSteps (env : ConvEnv) (b : Bbox) : List CurvePath → List (Char × List PyStr) → Prop
  | nil : SvgSteps env b [] []
  | close {p ps l} : svgLetter p.method = some 'Z' → SvgSteps env b ps l → SvgSteps env b (p :: ps) (('Z', []) :: l)
  | step {p pts c ps l} : svgLetter p.method = some c → c ≠ 'Z' → Points p pts → SvgSteps env b ps l →
      SvgSteps env b (p :: ps) ((c, pts.flatMap fun q => [env.fmt (svgPosition b q).1, env.fmt (svgPosition b q).2]) :: l)
  | left {p ps l} : svgLetter p.method = none → SvgSteps env b ps l → SvgSteps env b (p :: ps) l

/-! ### Colours -/

/-- The values of a colour, separated by commas. -/
def colorArgs (env : HtmlEnv) (values : List Obj) : PyStr := List.intercalate (pstr ",") (values.map env.valueStr)

/-- An integer or real number, and its value. -/
inductive PlainNumber : Obj → ℚ → Prop
  | int {n : Int} : PlainNumber (.int n) n
  | real {m : Int} {k : Nat} : PlainNumber (.real m k) (m / 10 ^ k)

/-- The notation of a colour: by the number of components of its space. A single number `q` is black with the opacity `1 - q`. -/
inductive HtmlColor (env : HtmlEnv) (default : PyStr) : Color → PyStr → Prop
  | absent {vs} : HtmlColor env default ⟨none, vs⟩ default
  | gray {cs v vs q} : cs.ncomponents.num? = some 1 → PlainNumber v q →
      HtmlColor env default ⟨some cs, v :: vs⟩ (pstr "rgba(0,0,0," ++ env.fmt (1 - q) ++ pstr ")")
  | grayOther {cs v vs} : cs.ncomponents.num? = some 1 → (∀ q, ¬ PlainNumber v q) →
      HtmlColor env default ⟨some cs, v :: vs⟩ (env.spaceName cs ++ pstr "(" ++ colorArgs env (v :: vs) ++ pstr ")")
  | rgb {cs vs} : cs.ncomponents.num? = some 3 → HtmlColor env default ⟨some cs, vs⟩ (pstr "rgb(" ++ colorArgs env vs ++ pstr ")")
  | cmyk {cs vs} : cs.ncomponents.num? = some 4 → HtmlColor env default ⟨some cs, vs⟩ (pstr "cmyk(" ++ colorArgs env vs ++ pstr ")")
  | other {cs vs} : cs.ncomponents.num? ≠ some 1 → cs.ncomponents.num? ≠ some 3 → cs.ncomponents.num? ≠ some 4 →
      HtmlColor env default ⟨some cs, vs⟩ (env.spaceName cs ++ pstr "(" ++ colorArgs env vs ++ pstr ")")

/-! ### Elements -/

/-- Declarations of CSS. -/
def css (l : List (PyStr × PyStr)) : PyStr := List.intercalate (pstr ";") (l.map fun p => p.1 ++ pstr ": " ++ p.2)

/-- A length in pixels. -/
def pixels (env : ConvEnv) (q : ℚ) : PyStr := env.fmt q ++ pstr "px"

/-- A length in pixels, at least 1. -/
def atLeast1 (env : ConvEnv) (q : ℚ) : PyStr := if 1 < q then pixels env q else pstr "1px"

/-- The declarations for the size of characters and char-blocks. -/
def sizes (env : ConvEnv) (b : Bbox) : List (PyStr × PyStr) :=
  (["width", "min-width", "max-width"].map fun n => (pstr n, pixels env (b.x1 - b.x0))) ++
    ["height", "min-height", "max-height"].map fun n => (pstr n, pixels env (b.y1 - b.y0))

/-- The tags of a char-block: its own, with its place, font and colour, and one for every character, with its size. -/
inductive BlockHtml (env : HtmlEnv) : CharBlock → List Tag → Prop
  | mk {b : CharBlock} {weight color} : env.fontWeight b.font = some weight → HtmlColor env (pstr "black") b.color color →
      BlockHtml env b ((pstr "span", [(pstr "class", pstr "char-block"), (pstr "style", css
          ([(pstr "position", pstr "absolute"), (pstr "left", env.fmt b.bbox.x0), (pstr "bottom", env.fmt b.bbox.y0),
            (pstr "font-size", pixels env.toConvEnv b.size), (pstr "font-family", env.fontName b.font), (pstr "font-weight", weight),
            (pstr "color", color)] ++ sizes env.toConvEnv b.bbox ++
          [(pstr "transform", pstr "skew(" ++ env.italicAngle b.font ++ pstr "deg, 0deg)"), (pstr "text-align", pstr "center"),
            (pstr "display", pstr "flex"), (pstr "flex-flow", pstr "row nowrap"), (pstr "justify-content", pstr "space-between")]))]) ::
        b.chars.map fun c => (pstr "span", [(pstr "class", pstr "char"), (pstr "style", css (sizes env.toConvEnv c.2.1))]))

/-- A colour as an attribute; no attribute if there is no colour space. -/
inductive ColorAttr (env : HtmlEnv) (name : PyStr) : Color → List (PyStr × PyStr) → Prop
  | absent {vs} : ColorAttr env name ⟨none, vs⟩ []
  | present {cs vs t} : HtmlColor env [] ⟨some cs, vs⟩ t → ColorAttr env name ⟨some cs, vs⟩ [(name, t)]

/-- The tags of a curve on a page of the given height: a picture at the place of the box of the curve, with one path. -/
inductive CurveHtml (env : HtmlEnv) (pageHeight : ℚ) : Curve → List Tag → Prop
  | mk {c : Curve} {fill stroke d steps} : ColorAttr env (pstr "fill") c.fill fill → ColorAttr env (pstr "stroke") c.stroke stroke →
      SvgData d steps → SvgSteps env.toConvEnv c.bbox c.paths steps →
      CurveHtml env pageHeight c
        [(pstr "svg", [(pstr "class", pstr "curve"), (pstr "z-index", pstr "2"),
            (pstr "viewBox", pstr "0 0 " ++ (if c.bbox.y0 < c.bbox.y1 then env.fmt (svgWidth c.bbox) else pstr "1") ++ pstr " 1"),
            (pstr "width", atLeast1 env.toConvEnv (c.bbox.x1 - c.bbox.x0)), (pstr "height", atLeast1 env.toConvEnv (c.bbox.y1 - c.bbox.y0)),
            (pstr "style", css [(pstr "border", pstr "1px solid black"), (pstr "position", pstr "absolute"),
              (pstr "left", pixels env.toConvEnv c.bbox.x0), (pstr "bottom", pixels env.toConvEnv (pageHeight - c.bbox.y0)),
              (pstr "top", pixels env.toConvEnv (pageHeight - c.bbox.y1)), (pstr "right", pixels env.toConvEnv c.bbox.x1),
              (pstr "width", pixels env.toConvEnv (c.bbox.x1 - c.bbox.x0)), (pstr "height", pixels env.toConvEnv (c.bbox.y1 - c.bbox.y0))])]),
          (pstr "path", (pstr "d", d) :: fill ++ stroke ++ [(pstr "style", css (fill ++ stroke))])]

/-- The tags of an item, in the order of the document. -/
inductive ItemHtml (env : HtmlEnv) (pageHeight : ℚ) : Item → List Tag → Prop
  | text {b : TextBlock} {ts : List (List Tag)} : List.Forall₂ (BlockHtml env) b.blocks ts →
      ItemHtml env pageHeight (.text b) ((pstr "span", [(pstr "class", pstr "text-block")]) :: ts.flatten)
  | xobj {s b r m} {children : List Item} {ts : List (List Tag)} : List.Forall₂ (ItemHtml env pageHeight) children ts →
      ItemHtml env pageHeight (.xobj s b r m children) ((pstr "div", [(pstr "class", pstr "xobject"), (pstr "style", css
        [(pstr "left", pixels env.toConvEnv b.x0), (pstr "right", pixels env.toConvEnv b.x1), (pstr "bottom", pixels env.toConvEnv b.y0),
          (pstr "top", pixels env.toConvEnv b.y1), (pstr "width", pixels env.toConvEnv (b.x1 - b.x0)),
          (pstr "height", pixels env.toConvEnv (b.y1 - b.y0))])]) :: ts.flatten)
  | curve {c ts} : CurveHtml env pageHeight c ts → ItemHtml env pageHeight (.curve c) ts
  | image {d data b} : ItemHtml env pageHeight (.image d data b) [(pstr "img", [(pstr "src", env.imageName d data),
      (pstr "background", pstr "red"), (pstr "width", pixels env.toConvEnv (b.x1 - b.x0)), (pstr "height", pixels env.toConvEnv (b.y1 - b.y0))])]
  | none : ItemHtml env pageHeight .none []

/-- The tags of a page. -/
def PageHtml (env : HtmlEnv) (p : LtPage) (ts : List Tag) : Prop :=
  ∃ l, List.Forall₂ (ItemHtml env p.height) p.items l ∧
    ts = (pstr "div", [(pstr "class", pstr "page"), (pstr "id", pstr "page-" ++ numText p.num),
      (pstr "style", css [(pstr "width", pixels env.toConvEnv p.width), (pstr "height", pixels env.toConvEnv p.height)])]) :: l.flatten

/-- The tags before those of the pages. -/
def headTags (codec : PyStr) : List Tag :=
  [(pstr "html", []), (pstr "head", []),
    (pstr "meta", [(pstr "http-equiv", pstr "Content-Type"), (pstr "content", pstr "text/html")] ++
      if codec = [] then [] else [(pstr "charset", codec)]),
    (pstr "style", []), (pstr "body", [])]

/-! ### What the converter refuses -/

/-- A colour of a space with one component, without values. -/
def EmptyColor (c : Color) : Prop := ∃ cs, c = ⟨some cs, []⟩ ∧ cs.ncomponents.num? = some 1

/-- A curve that the converter cannot write: a single point; a coordinate in a step that is drawn is not a number; a bad colour. -/
inductive CurveRefused : Curve → Prop
  | dot {c : Curve} : c.bbox.x0 = c.bbox.x1 → c.bbox.y1 ≤ c.bbox.y0 → CurveRefused c
  | point {c : Curve} {p q} : p ∈ c.paths → svgLetter p.method ∈ [some 'M', some 'L', some 'C'] → q ∈ p.points → (q.1 = none ∨ q.2 = none) →
      CurveRefused c
  | fill {c : Curve} : EmptyColor c.fill → CurveRefused c
  | stroke {c : Curve} : EmptyColor c.stroke → CurveRefused c

/-- An item that the converter cannot write: it has such a curve, or a char-block with a bad colour or a font without a weight. -/
inductive Refused (env : HtmlEnv) : Item → Prop
  | curve {c} : CurveRefused c → Refused env (.curve c)
  | weight {b : TextBlock} {cb} : cb ∈ b.blocks → env.fontWeight cb.font = none → Refused env (.text b)
  | color {b : TextBlock} {cb} : cb ∈ b.blocks → EmptyColor cb.color → Refused env (.text b)
  | xobj {s b r m i} {children : List Item} : i ∈ children → Refused env i → Refused env (.xobj s b r m children)

/-! ### The conditions -/

/-- The environment has texts of numbers that pictures can carry. -/
structure HtmlOk (env : HtmlEnv) : Prop where
  number : ∀ q, SvgNumber (env.fmt q)

/-- A font that HTML can carry: the texts of its name, weight and angle can be attributes. -/
structure HtmlFont (env : HtmlEnv) (f : Font) : Prop where
  name : ∃ v, XmlValue (env.fontName f) v
  weight : ∀ w, env.fontWeight f = some w → ∃ v, XmlValue w v
  angle : ∃ v, XmlValue (env.italicAngle f) v

/-- A colour that HTML can carry: the texts of its colour space and of its values can be attributes. -/
def HtmlPaint (env : HtmlEnv) (c : Color) : Prop :=
  ∀ cs, c.space = some cs → (∃ v, XmlValue (env.spaceName cs) v) ∧ ∀ o ∈ c.values, ∃ v, XmlValue (env.valueStr o) v

/-- A text without markup. -/
def NoMarkup (s : PyStr) : Prop := ∀ c ∈ s, xmlChar c = true ∧ c ≠ '<'.toNat ∧ c ≠ '>'.toNat ∧ c ≠ '&'.toNat

/-- Items that the HTML converter can carry: no markup in their texts, every step of a path has a point, and the texts of their fonts, colours
and images can be attributes. -/
inductive HtmlItem (env : HtmlEnv) : Item → Prop
  | text {b : TextBlock} : (∀ cb ∈ b.blocks, (∀ c ∈ cb.chars, NoMarkup c.1) ∧ HtmlFont env cb.font ∧ HtmlPaint env cb.color) → HtmlItem env (.text b)
  | xobj {s b r m} {children : List Item} : (∀ i ∈ children, HtmlItem env i) → HtmlItem env (.xobj s b r m children)
  | curve {c : Curve} : (∀ p ∈ c.paths, p.method ≠ .closePath → p.points ≠ []) → HtmlPaint env c.fill → HtmlPaint env c.stroke → HtmlItem env (.curve c)
  | image {d data b} : (∃ v, XmlValue (env.imageName d data) v) → HtmlItem env (.image d data b)
  | none : HtmlItem env .none

end Pdf.Spec
