import Verif.Model.Interp
import Verif.Model.JsonWriter
import Verif.Model.XmlWriter
/-! Model of the converters to text, JSON and XML (converters/text.py, converters/json.py, converters/xml.py): what they write for the items
that the pages yield. The encoding with `codec` is not modelled. -/

namespace Pdf

/-- What the converters take from elsewhere: the texts of numbers and page numbers (`str`), the items of a font descriptor with the texts of
their values (`str`), the names of images after `enc(name, None)`, and, for colours, the text made by `json.dumps`
(converters/json.py:101-108, 121-130), the text of the values (converters/xml.py:20-29) and the name of the colour space after
`enc(name).decode()` (converters/xml.py:34). `attrName` is `convert_capcase_to_snakecase` (converters/xml.py:14-18). -/
structure ConvEnv where
  fmt : ℚ → PyStr
  descriptor : Font → List (PyStr × PyStr)
  imageName : List (Key × Obj) → Bytes → PyStr
  dumpColor : ColorSpace → List Obj → PyStr
  dumpPath : CurvePath → PyStr
  colorName : ColorSpace → PyStr
  colorValues : List Obj → PyStr
  attrName : PyStr → PyStr

/-- A page as the converters see it: its number, its size and the items it yields (interpreter/PageInterpreter.py:9-43). -/
structure LtPage where
  num : Nat
  width : ℚ
  height : ℚ
  items : List Item

/-- The texts of the characters of a block, joined (converters/json.py:109-114). -/
def CharBlock.text (b : CharBlock) : PyStr := b.chars.flatMap fun c => c.1

/-- `str(page_num)` (converters/text.py:40, converters/json.py:51, converters/xml.py:94). -/
def numText (n : Nat) : PyStr := (decimal n).map UInt8.toNat

/-! ### Text -/

mutual
/-- `process_container` for one item (converters/text.py:33-36): `None`, curves and images write nothing. -/
def textItem : Item → PyStr
  | .text b => b.blocks.flatMap fun cb => cb.chars.flatMap fun c => c.1
  | .xobj _ _ _ _ children => textItems children
  | _ => []
/-- `process_container` (converters/text.py:31-38). -/
def textItems : List Item → PyStr
  | [] => []
  | i :: rest => textItem i ++ textItems rest
end

/-- The text of one page (converters/text.py:40-42). -/
def textPage (p : LtPage) : PyStr :=
  pstr "========== [ page " ++ numText p.num ++ pstr " ] ==========\n" ++ textItems p.items ++ pstr "\n"

/-- The file written by `convert_to_text` (converters/text.py:30-42). -/
def textFile (pages : List LtPage) : PyStr := pages.flatMap textPage

/-! ### JSON -/

/-- The calls on an object writer, given as a list (converters/json.py:50-146). -/
def JObj.ofList : List (PyStr × JVal) → JObj
  | [] => .nil
  | (k, v) :: l => .cons k v (JObj.ofList l)

/-- The calls on an array writer, given as a list (converters/json.py:50-146). -/
def JArr.ofList : List JVal → JArr
  | [] => .nil
  | v :: l => .cons v (JArr.ofList l)

/-- `x0`, `x1`, `y0`, `y1` (converters/json.py:64-67, 77-80, 86-89, 97-100, 117-120). -/
def jBox (env : ConvEnv) (b : Bbox) : List (PyStr × JVal) :=
  [(pstr "x0", .num (env.fmt b.x0)), (pstr "x1", .num (env.fmt b.x1)), (pstr "y0", .num (env.fmt b.y0)), (pstr "y1", .num (env.fmt b.y1))]

/-- The box of a text block (converters/json.py:86-89): without characters its coordinates are `None`. -/
def jBoxOpt (env : ConvEnv) : Option Bbox → List (PyStr × JVal)
  | some b => jBox env b
  | none => [(pstr "x0", .num (pstr "None")), (pstr "x1", .num (pstr "None")), (pstr "y0", .num (pstr "None")), (pstr "y1", .num (pstr "None"))]

/-- A colour under a key (converters/json.py:101-105, 121-130). -/
def jColor (env : ConvEnv) (key : PyStr) (c : Color) : List (PyStr × JVal) :=
  match c.space with
  | some cs => [(key, .placed (env.dumpColor cs c.values))]
  | none => []

/-- `"FontFile" not in key` and `key != "Type"` (converters/json.py:107, converters/xml.py:120). -/
def keepKey (key : PyStr) : Bool := !(decide (key = pstr "Type")) && !((key.tails.any fun t => (pstr "FontFile").isPrefixOf t))

/-- `place_char_block` (converters/json.py:95-114). -/
def jCharBlock (env : ConvEnv) (b : CharBlock) : List (PyStr × JVal) :=
  [(pstr "size", .num (env.fmt b.size))] ++ jBox env b.bbox ++ jColor env (pstr "color") b.color ++
    ((env.descriptor b.font).filter fun p => keepKey p.1).map (fun p => (p.1, JVal.str p.2)) ++ [(pstr "text", .str b.text)]

/-- `place_curve` (converters/json.py:116-146). -/
def jCurve (env : ConvEnv) (c : Curve) : List (PyStr × JVal) :=
  jBox env c.bbox ++ jColor env (pstr "fill") c.fill ++ jColor env (pstr "stroke") c.stroke ++
    match c.kind with
    | .rect => [(pstr "type", .str (pstr "rect"))]
    | .line | .horizontal | .vertical => [(pstr "type", .str (pstr "line"))]
    | .curve => [(pstr "type", .str (pstr "curve")), (pstr "paths", .arr (JArr.ofList (c.paths.map fun p => .placed (env.dumpPath p))))]

mutual
/-- `render` (converters/json.py:59-82, 84-93): nothing is written for `None`. -/
def jItem (env : ConvEnv) : Item → List (PyStr × JVal)
  | .curve c => jCurve env c
  | .xobj _ bbox _ _ children => [(pstr "type", .str (pstr "xobject"))] ++ jBox env bbox ++ [(pstr "children", .arr (jItems env children))]
  | .image d data bbox => [(pstr "type", .str (pstr "img")), (pstr "src", .str (env.imageName d data))] ++ jBox env bbox
  | .text b => [(pstr "type", .str (pstr "text-block"))] ++ jBoxOpt env b.bbox ++
      [(pstr "char_blocks", .arr (JArr.ofList (b.blocks.map fun cb => .obj (JObj.ofList (jCharBlock env cb)))))]
  | .none => []
/-- The children of a page or of an xobject (converters/json.py:55-57, 68-71). -/
def jItems (env : ConvEnv) : List Item → JArr
  | [] => .nil
  | i :: rest => .cons (.obj (JObj.ofList (jItem env i))) (jItems env rest)
end

/-- `render_page` (converters/json.py:50-57). -/
def jPage (env : ConvEnv) (p : LtPage) : JVal :=
  .obj (JObj.ofList [(pstr "id", .num (numText p.num)), (pstr "width", .num (env.fmt p.width)), (pstr "height", .num (env.fmt p.height)),
    (pstr "children", .arr (jItems env p.items))])

/-- The file written by `convert_to_json` (converters/json.py:44-48). -/
def jsonFile (env : ConvEnv) (pages : List LtPage) : PyStr :=
  jFile (JObj.ofList [(pstr "pages", .arr (JArr.ofList (pages.map (jPage env))))])

/-! ### XML -/

/-- Calls made one after the other (converters/xml.py:67-155). -/
def XBody.append : XBody → XBody → XBody
  | .nil, b => b
  | .cons n r, b => .cons n (r.append b)

/-- The attributes of a box (converters/xml.py:73-76, 86-89, 103-106, 128-131, 139-142). -/
def xBox (env : ConvEnv) (b : Bbox) : List (PyStr × PyStr) :=
  [(pstr "x0", env.fmt b.x0), (pstr "x1", env.fmt b.x1), (pstr "y0", env.fmt b.y0), (pstr "y1", env.fmt b.y1)]

/-- The box of a text block (converters/xml.py:127-132): without characters its coordinates are `None`. -/
def xBoxOpt (env : ConvEnv) : Option Bbox → List (PyStr × PyStr)
  | some b => xBox env b
  | none => [(pstr "x0", pstr "None"), (pstr "x1", pstr "None"), (pstr "y0", pstr "None"), (pstr "y1", pstr "None")]

/-- `get_color` (converters/xml.py:31-37). -/
def xColor (env : ConvEnv) (key : PyStr) (c : Color) : List (PyStr × PyStr) :=
  match c.space with
  | some cs => [(key ++ pstr "-type", env.colorName cs), (key ++ pstr "-values", env.colorValues c.values)]
  | none => []

/-- `attr[name] = value` (converters/xml.py:121). -/
def attrSet (l : List (PyStr × PyStr)) (name value : PyStr) : List (PyStr × PyStr) :=
  if l.any (fun p => p.1 == name) then l.map fun p => if p.1 == name then (p.1, value) else p else l ++ [(name, value)]

/-- The attributes of a char-block (converters/xml.py:111-121). -/
def xCharBlockAttrs (env : ConvEnv) (b : CharBlock) : List (PyStr × PyStr) :=
  ((env.descriptor b.font).filter fun p => keepKey p.1).foldl (fun l p => attrSet l (env.attrName p.1) p.2)
    ([(pstr "size", env.fmt b.size)] ++ xBox env b.bbox ++ xColor env (pstr "color") b.color)

/-- `place_char` (converters/xml.py:101-108). -/
def xChar (env : ConvEnv) (c : Text × Bbox × ℚ) : XNode :=
  .elm (pstr "char") (xBox env c.2.1) true false (.cons (.text (saxEscape c.1) true) .nil)

/-- The nodes of a list (converters/xml.py:67-155). -/
def XBody.ofList : List XNode → XBody
  | [] => .nil
  | n :: l => .cons n (XBody.ofList l)

/-- `place_char_block` (converters/xml.py:110-124). -/
def xCharBlock (env : ConvEnv) (b : CharBlock) : XNode :=
  .elm (pstr "char-block") (xCharBlockAttrs env b) false false (XBody.ofList (b.chars.map (xChar env)))

/-- `path.method.name` (converters/xml.py:153, state/Curves.py:18-24). -/
def curveMethodName : CurveMethod → PyStr
  | .moveTo => pstr "MOVE_TO"
  | .lineTo => pstr "LINE_TO"
  | .curveBothTo => pstr "CURVE_BOTH_TO"
  | .curveNextTo => pstr "CURVE_NEXT_TO"
  | .curveFirstTo => pstr "CURVE_FIRST_TO"
  | .closePath => pstr "CLOSE_PATH"

/-- `place_curve` (converters/xml.py:137-155). A coordinate that is not a number is written as `None`; its text is not modelled. -/
def xCurve (env : ConvEnv) (c : Curve) : XNode :=
  let attrs := xBox env c.bbox ++ xColor env (pstr "stroke") c.stroke ++ xColor env (pstr "fill") c.fill
  match c.kind with
  | .rect => .single (pstr "rect") attrs
  | .line | .horizontal | .vertical => .single (pstr "line") attrs
  | .curve => .elm (pstr "curve") attrs false false (XBody.ofList (c.paths.map fun p =>
      .elm (pstr "path") [(pstr "type", curveMethodName p.method)] false false (XBody.ofList (p.points.map fun q =>
        .single (pstr "point") [(pstr "x", q.1.elim (pstr "None") env.fmt), (pstr "y", q.2.elim (pstr "None") env.fmt)]))))

mutual
/-- `render` (converters/xml.py:68-92): nothing is written for `None`. -/
def xItem (env : ConvEnv) : Item → XBody
  | .curve c => .cons (xCurve env c) .nil
  | .xobj _ bbox _ _ children => .cons (.elm (pstr "xobject") (xBox env bbox) false false (xItems env children)) .nil
  | .image d data bbox => .cons (.single (pstr "img") ([(pstr "src", env.imageName d data)] ++ xBox env bbox)) .nil
  | .text b => .cons (.elm (pstr "text-block") (xBoxOpt env b.bbox) false false (XBody.ofList (b.blocks.map (xCharBlock env)))) .nil
  | .none => .nil
/-- The children of a page or of an xobject (converters/xml.py:78-79, 98-99). -/
def xItems (env : ConvEnv) : List Item → XBody
  | [] => .nil
  | i :: rest => (xItem env i).append (xItems env rest)
end

/-- `render_page` (converters/xml.py:93-99). -/
def xPage (env : ConvEnv) (p : LtPage) : XNode :=
  .elm (pstr "page") [(pstr "id", numText p.num), (pstr "width", env.fmt p.width), (pstr "height", env.fmt p.height)] false false
    (xItems env p.items)

/-- The calls made by `convert_to_xml` (converters/xml.py:62-65). -/
def xmlCalls (env : ConvEnv) (pages : List LtPage) : XBody :=
  .cons (.elm (pstr "pages") [] false false (XBody.ofList (pages.map (xPage env)))) .nil

/-- The file written by `convert_to_xml` (converters/xml.py:39-65). -/
def xmlFile (env : ConvEnv) (codec : PyStr) (pages : List LtPage) : PyStr := xFile codec (xmlCalls env pages)

end Pdf
