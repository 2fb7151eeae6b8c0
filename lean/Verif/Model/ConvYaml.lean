import Verif.Model.Convert
import Verif.Model.YamlWriter
/-! Model of the YAML converter (converters/yaml.py): what it writes for the items that the pages yield. -/

namespace Pdf

/-- What the YAML converter takes from elsewhere: as for the others, and the text `enc(str(v)).decode()` (or of `v.name`) of a colour value
(converters/yaml.py:12-19). -/
structure YamlEnv extends ConvEnv where
  valueText : Obj → PyStr

/-- A call with a key on an object writer (converters/yaml.py:50-146). -/
inductive YCall where
  | scalar (text : PyStr)
  | object (body : YObj)
  | array (body : YArr)

/-- Calls on an object writer, given as a list (converters/yaml.py:50-146). -/
def YObj.ofList : List (PyStr × YCall) → YObj
  | [] => .nil
  | (k, .scalar t) :: l => .write k t (YObj.ofList l)
  | (k, .object b) :: l => .object k b (YObj.ofList l)
  | (k, .array b) :: l => .array k b (YObj.ofList l)

/-- Calls of `object` on an array writer (converters/yaml.py:46-48, 55-57, 69-71, 91-93, 124-131). -/
def YArr.ofList : List YObj → YArr
  | [] => .nil
  | b :: l => .object b (YArr.ofList l)

/-- `repr` of a list, from the texts of its elements (converters/writers/yaml.py:51, for converters/yaml.py:104, 127-130, 140, 145). -/
def pyList : List PyStr → PyStr
  | [] => pstr "[]"
  | t :: l => pstr "[" ++ t ++ (l.flatMap fun t => pstr ", " ++ t) ++ pstr "]"

/-- `repr` of a text (converters/writers/yaml.py:51, for converters/yaml.py:104, 140, 145). Simplified: only for texts without a quote, a
backslash or a character that is not printable. -/
def pyRepr (s : PyStr) : PyStr := pstr "'" ++ s ++ pstr "'"

/-- `x0`, `x1`, `y0`, `y1` (converters/yaml.py:64-67, 77-80, 86-89, 97-100, 133-136). -/
def yBox (env : YamlEnv) (b : Bbox) : List (PyStr × YCall) :=
  [(pstr "x0", .scalar (env.fmt b.x0)), (pstr "x1", .scalar (env.fmt b.x1)), (pstr "y0", .scalar (env.fmt b.y0)), (pstr "y1", .scalar (env.fmt b.y1))]

/-- The box of a text block (converters/yaml.py:86-89): without characters its coordinates are `None`. -/
def yBoxOpt (env : YamlEnv) : Option Bbox → List (PyStr × YCall)
  | some b => yBox env b
  | none => [(pstr "x0", .scalar (pstr "None")), (pstr "x1", .scalar (pstr "None")), (pstr "y0", .scalar (pstr "None")),
      (pstr "y1", .scalar (pstr "None"))]

/-- A colour under a key (converters/yaml.py:101-105, 137-146). -/
def yColor (env : YamlEnv) (key : PyStr) (c : Color) : List (PyStr × YCall) :=
  match c.space with
  | some cs => [(key, .object (YObj.ofList [(pstr "type", .scalar (env.colorName cs)),
      (pstr "value", .scalar (pyList (c.values.map fun v => pyRepr (env.valueText v))))]))]
  | none => []

/-- `place_char_block` (converters/yaml.py:95-114). -/
def yCharBlock (env : YamlEnv) (b : CharBlock) : List (PyStr × YCall) :=
  [(pstr "size", .scalar (env.fmt b.size))] ++ yBox env b.bbox ++ yColor env (pstr "color") b.color ++
    ((env.descriptor b.font).filter fun p => keepKey p.1).map (fun p => (p.1, YCall.scalar p.2)) ++ [(pstr "text", .scalar b.text)]

/-- The text of a coordinate of a point (converters/yaml.py:128). -/
def yCoord (env : YamlEnv) : Option ℚ → PyStr
  | some q => env.fmt q
  | none => pstr "None"

/-- The text of the points of a path (converters/yaml.py:127-130). -/
def yPoints (env : YamlEnv) (l : List (Option ℚ × Option ℚ)) : PyStr :=
  pyList (l.map fun q => pstr "{'x': " ++ yCoord env q.1 ++ pstr ", 'y': " ++ yCoord env q.2 ++ pstr "}")

/-- `place_curve` (converters/yaml.py:116-146). -/
def yCurve (env : YamlEnv) (c : Curve) : List (PyStr × YCall) :=
  (match c.kind with
    | .rect => [(pstr "type", .scalar (pstr "rect"))]
    | .line | .horizontal | .vertical => [(pstr "type", .scalar (pstr "line"))]
    | .curve => [(pstr "type", .scalar (pstr "curve")), (pstr "paths", .array (YArr.ofList (c.paths.map fun p =>
        YObj.ofList [(pstr "type", .scalar (curveMethodName p.method)), (pstr "points", .scalar (yPoints env p.points))])))]) ++
  yBox env c.bbox ++ yColor env (pstr "fill") c.fill ++ yColor env (pstr "stroke") c.stroke

mutual
/-- `render` (converters/yaml.py:59-93): nothing is written for `None`. -/
def yItem (env : YamlEnv) : Item → List (PyStr × YCall)
  | .curve c => yCurve env c
  | .xobj _ bbox _ _ children => [(pstr "type", .scalar (pstr "xobject"))] ++ yBox env bbox ++ [(pstr "children", .array (yItems env children))]
  | .image d data bbox => [(pstr "type", .scalar (pstr "img")), (pstr "src", .scalar (env.imageName d data))] ++ yBox env bbox
  | .text b => [(pstr "type", .scalar (pstr "text-block"))] ++ yBoxOpt env b.bbox ++
      [(pstr "char_blocks", .array (YArr.ofList (b.blocks.map fun cb => YObj.ofList (yCharBlock env cb))))]
  | .none => []
/-- The children of a page or of an xobject (converters/yaml.py:54-57, 68-71). -/
def yItems (env : YamlEnv) : List Item → YArr
  | [] => .nil
  | i :: rest => .object (YObj.ofList (yItem env i)) (yItems env rest)
end

/-- `render_page` (converters/yaml.py:50-57). -/
def yPage (env : YamlEnv) (p : LtPage) : YObj :=
  YObj.ofList [(pstr "id", .scalar (numText p.num)), (pstr "width", .scalar (env.fmt p.width)), (pstr "height", .scalar (env.fmt p.height)),
    (pstr "children", .array (yItems env p.items))]

/-- The file written by `convert_to_yaml` (converters/yaml.py:44-48). -/
def yamlFile (env : YamlEnv) (pages : List LtPage) : PyStr :=
  yFile (YObj.ofList [(pstr "pages", .array (YArr.ofList (pages.map (yPage env))))])

end Pdf
