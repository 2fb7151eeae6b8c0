import Verif.Model.Convert
/-! Model of the HTML converter (converters/html.py): what it writes for the items that the pages yield. `none` is an exception: the conversion
stops. Numbers are exact; the encoding with `codec` is not modelled. -/

namespace Pdf

/-- What the HTML converter takes from elsewhere: as for the others, and the texts of the name, the weight (`none`: an exception) and the
angle of a font (PDFFont/PDFFont.py:30-36, 92-99), of the name of a colour space and of a value of a colour (`str`, converters/html.py:127-130). -/
structure HtmlEnv extends ConvEnv where
  fontName : Font → PyStr
  fontWeight : Font → Option PyStr
  italicAngle : Font → PyStr
  spaceName : ColorSpace → PyStr
  valueStr : Obj → PyStr

/-- `f'{value}px'` (converters/html.py:56-61, 72-73, 77-82, 94, 98-103, 115-116, 148-153, 184, 193). -/
def px (env : HtmlEnv) (q : ℚ) : PyStr := env.fmt q ++ pstr "px"

/-- `','.join(map(str, values))` (converters/html.py:127, 129, 130). -/
def commaList (env : HtmlEnv) : List Obj → PyStr
  | [] => []
  | [v] => env.valueStr v
  | v :: l => env.valueStr v ++ pstr "," ++ commaList env l

/-- `type(value) in [float, int]`: the number (converters/html.py:124-125). -/
def plainNumber : Obj → Option ℚ
  | .int n => some n
  | .real m k => some (m / 10 ^ k)
  | _ => none

/-- The text for a colour space without its own notation (converters/html.py:130). -/
def namedColor (env : HtmlEnv) (cs : ColorSpace) (values : List Obj) : PyStr :=
  env.spaceName cs ++ pstr "(" ++ commaList env values ++ pstr ")"

/-- `get_color` (converters/html.py:121-132). With one component, `values[0]` raises `IndexError` if there are no values. -/
def hColor (env : HtmlEnv) (c : Color) (default : PyStr) : Option PyStr :=
  match c.space with
  | none => some default
  | some cs =>
    if cs.ncomponents.num? = some 1 then
      match c.values with
      | [] => none
      | v :: _ =>
        match plainNumber v with
        | some q => some (pstr "rgba(0,0,0," ++ env.fmt (1 - q) ++ pstr ")")
        | none => some (namedColor env cs c.values)
    else if cs.ncomponents.num? = some 3 then some (pstr "rgb(" ++ commaList env c.values ++ pstr ")")
    else if cs.ncomponents.num? = some 4 then some (pstr "cmyk(" ++ commaList env c.values ++ pstr ")")
    else some (namedColor env cs c.values)

/-! ### Curves -/

/-- `dx`, `dy` and the width of the view box (converters/html.py:169-180); `none` is `ZeroDivisionError`. -/
def svgScale (b : Bbox) : Option (ℚ × ℚ × ℚ) :=
  if 0 < b.height then some (b.width / b.height / max (b.x1 - b.x0) (1 / 100), 1 / b.height, b.width / b.height)
  else if b.x1 - b.x0 = 0 then none
  else some (1 / (b.x1 - b.x0), 1, 1)

/-- The text `f"{pX(p.x)} {pY(p.y)}"` of a point (converters/html.py:200-203, 207-213); a coordinate that is not a number raises `TypeError`. -/
def svgPoint (env : HtmlEnv) (b : Bbox) (dx dy : ℚ) : Option ℚ × Option ℚ → Option PyStr
  | (some x, some y) => some (env.fmt ((x - b.x0) * dx) ++ pstr " " ++ env.fmt ((b.height - (y - b.y0)) * dy))
  | _ => none

/-- `" ".join(...)` (converters/html.py:207, 209, 213). -/
def spaceList : List PyStr → PyStr
  | [] => []
  | [t] => t
  | t :: l => t ++ pstr " " ++ spaceList l

/-- One step of the path (converters/html.py:206-213): nothing for the operators `v` and `y`. -/
def svgStep (env : HtmlEnv) (b : Bbox) (dx dy : ℚ) (p : CurvePath) : Option PyStr :=
  match p.method with
  | .moveTo => (p.points.mapM (svgPoint env b dx dy)).map fun l => pstr "M" ++ spaceList l ++ pstr " "
  | .lineTo => (p.points.mapM (svgPoint env b dx dy)).map fun l => pstr "L" ++ spaceList l ++ pstr " "
  | .closePath => some (pstr "Z")
  | .curveBothTo => (p.points.mapM (svgPoint env b dx dy)).map fun l => pstr "C" ++ spaceList l ++ pstr " "
  | .curveNextTo | .curveFirstTo => some []

/-- `path` (converters/html.py:163, 205-215). -/
def svgPath (env : HtmlEnv) (b : Bbox) (dx dy : ℚ) (paths : List CurvePath) : Option PyStr :=
  (paths.mapM (svgStep env b dx dy)).map List.flatten

/-- `svg_attr` (converters/html.py:164-198). The second number of the view box is the number 1 of line 173. -/
def svgAttrs (env : HtmlEnv) (b : Bbox) (view : ℚ) : List (PyStr × PyStr) :=
  [(pstr "class", pstr "curve"), (pstr "z-index", pstr "2"),
    (pstr "viewBox", if 0 < b.height then pstr "0 0 " ++ env.fmt view ++ pstr " 1" else pstr "0 0 1 1"),
    (pstr "height", if 1 < b.height then px env b.height else pstr "1px"),
    (pstr "width", if 1 < b.width then px env b.width else pstr "1px")]

/-- An attribute for a colour that is not empty (converters/html.py:140-143). -/
def colorCss (name value : PyStr) : List (PyStr × PyStr) := if value = [] then [] else [(name, value)]

/-- The attribute `style` (converters/writers/html.py:42-46). -/
def styled (attrs css : List (PyStr × PyStr)) : List (PyStr × PyStr) := attrs ++ [(pstr "style", hStyle css)]

/-- `render_curve` (converters/html.py:134-160). -/
def hCurve (env : HtmlEnv) (pageHeight : ℚ) (c : Curve) : Option XNode := do
  let (dx, dy, view) ← svgScale c.bbox
  let d ← svgPath env c.bbox dx dy c.paths
  let stroke ← hColor env c.stroke []
  let fill ← hColor env c.fill []
  let css := colorCss (pstr "fill") fill ++ colorCss (pstr "stroke") stroke
  return .elm (pstr "svg") (styled (svgAttrs env c.bbox view)
      [(pstr "border", pstr "1px solid black"), (pstr "position", pstr "absolute"), (pstr "left", px env c.bbox.x0),
        (pstr "bottom", px env (pageHeight - c.bbox.y0)), (pstr "top", px env (pageHeight - c.bbox.y1)), (pstr "right", px env c.bbox.x1),
        (pstr "width", px env c.bbox.width), (pstr "height", px env c.bbox.height)]) false false
    (.cons (.single (pstr "path") (styled ((pstr "d", d) :: css) css)) .nil)

/-! ### The other items -/

/-- The six sizes of characters and char-blocks (converters/html.py:77-82, 98-103). -/
def sizeCss (env : HtmlEnv) (b : Bbox) : List (PyStr × PyStr) :=
  [(pstr "width", px env b.width), (pstr "min-width", px env b.width), (pstr "max-width", px env b.width),
    (pstr "height", px env b.height), (pstr "min-height", px env b.height), (pstr "max-height", px env b.height)]

/-- A character (converters/html.py:75-84). -/
def hChar (env : HtmlEnv) (c : Text × Bbox × ℚ) : XNode :=
  .elm (pstr "span") (styled [(pstr "class", pstr "char")] (sizeCss env c.2.1)) false false (.cons (.text c.1 false) .nil)

/-- A char-block (converters/html.py:89-112). -/
def hCharBlock (env : HtmlEnv) (b : CharBlock) : Option XNode := do
  let weight ← env.fontWeight b.font
  let color ← hColor env b.color (pstr "black")
  return .elm (pstr "span") (styled [(pstr "class", pstr "char-block")]
      ([(pstr "position", pstr "absolute"), (pstr "left", env.fmt b.bbox.x0), (pstr "bottom", env.fmt b.bbox.y0),
        (pstr "font-size", px env b.size), (pstr "font-family", env.fontName b.font), (pstr "font-weight", weight), (pstr "color", color)] ++
      sizeCss env b.bbox ++
      [(pstr "transform", pstr "skew(" ++ env.italicAngle b.font ++ pstr "deg, 0deg)"), (pstr "text-align", pstr "center"),
        (pstr "display", pstr "flex"), (pstr "flex-flow", pstr "row nowrap"), (pstr "justify-content", pstr "space-between")])) false false
    (XBody.ofList (b.chars.map (hChar env)))

/-- The box of an xobject (converters/html.py:54-62). -/
def xobjectCss (env : HtmlEnv) (b : Bbox) : List (PyStr × PyStr) :=
  [(pstr "left", px env b.x0), (pstr "right", px env b.x1), (pstr "bottom", px env b.y0), (pstr "top", px env b.y1),
    (pstr "width", px env b.width), (pstr "height", px env b.height)]

mutual
/-- `render` (converters/html.py:50-112): nothing is written for `None`. -/
def hItem (env : HtmlEnv) (pageHeight : ℚ) : Item → Option XBody
  | .curve c => (hCurve env pageHeight c).map fun n => .cons n .nil
  | .xobj _ bbox _ _ children => (hItems env pageHeight children).map fun body =>
      .cons (.elm (pstr "div") (styled [(pstr "class", pstr "xobject")] (xobjectCss env bbox)) false false body) .nil
  | .image d data bbox => some (.cons (.single (pstr "img") [(pstr "src", env.imageName d data), (pstr "background", pstr "red"),
      (pstr "width", px env bbox.width), (pstr "height", px env bbox.height)]) .nil)
  | .text b => (b.blocks.mapM (hCharBlock env)).map fun l =>
      .cons (.elm (pstr "span") [(pstr "class", pstr "text-block")] false false (XBody.ofList l)) .nil
  | .none => some .nil
/-- The children of a page or of an xobject (converters/html.py:63-64, 118-119). -/
def hItems (env : HtmlEnv) (pageHeight : ℚ) : List Item → Option XBody
  | [] => some .nil
  | i :: rest =>
    match hItem env pageHeight i with
    | none => none
    | some a =>
      match hItems env pageHeight rest with
      | none => none
      | some b => some (a.append b)
end

/-- `render_page` (converters/html.py:114-119). -/
def hPage (env : HtmlEnv) (p : LtPage) : Option XNode :=
  (hItems env p.height p.items).map fun body =>
    .elm (pstr "div") (styled [(pstr "class", pstr "page"), (pstr "id", pstr "page-" ++ numText p.num)]
      [(pstr "width", px env p.width), (pstr "height", px env p.height)]) false false body

/-- The rule of the style sheet (converters/html.py:44). -/
def hRule : PyStr := pstr ".page { position: relative; overflow: hidden;border: 1px black solid;}"

/-- The head of the document (converters/html.py:35-44). -/
def hHead (codec : PyStr) : XNode :=
  .elm (pstr "head") [] false false (.cons (.single (pstr "meta")
      ([(pstr "http-equiv", pstr "Content-Type"), (pstr "content", pstr "text/html")] ++ if codec = [] then [] else [(pstr "charset", codec)]))
    (.cons (.elm (pstr "style") [] false false (.cons (.text hRule false) .nil)) .nil))

/-- The file written by `convert_to_html` (converters/html.py:33-47); `none` is an exception. -/
def htmlFile (env : HtmlEnv) (codec : PyStr) (pages : List LtPage) : Option PyStr :=
  (pages.mapM (hPage env)).map fun l =>
    hFile (.cons (.elm (pstr "html") [] false true (.cons (hHead codec) (.cons (.elm (pstr "body") [] false false (XBody.ofList l)) .nil))) .nil)

end Pdf
