import Verif.Model.Convert
import Verif.Model.ConvYaml
import Verif.Model.ConvHtml
import Verif.Model.SaveImage
import Verif.Model.AttrNames
/-! Model of the texts of colours and paths in the documents: `json.dumps` (as used in converters/writers/json.py:68-69, 127-128),
`normalize_color_values` (converters/json.py:12-19, converters/xml.py:20-29, converters/yaml.py:12-19) and `get_color`
(converters/xml.py:31-37). With these the environment of the converters (`ConvEnv`) is a function of the texts of numbers, of font
descriptors and of images. -/

namespace Pdf

/-- The values given to `json.dumps` (converters/json.py:102-105, 122-130, 140-146). Numbers by the text that `repr` gives. -/
inductive PyJson where
  | none
  | num (text : PyStr)
  | str (s : PyStr)
  | list (l : List PyJson)
  | dict (l : List (PyStr × PyJson))

/-- A hexadecimal digit in small letters (`'\\u{0:04x}'`, used by converters/writers/json.py:2). -/
def hexSmall (n : Nat) : Nat := if n < 10 then 48 + n else 87 + n

/-- `'\\u{0:04x}'.format(n)` (`json.dumps`, used by converters/writers/json.py:2). -/
def hexEscape (n : Nat) : PyStr := [0x5c, 0x75, hexSmall (n / 4096 % 16), hexSmall (n / 256 % 16), hexSmall (n / 16 % 16), hexSmall (n % 16)]

/-- The escape of a character by `json.dumps` with `ensure_ascii` (used by converters/writers/json.py:2): the characters from space to `~` but
the quote and the backslash stay; characters beyond U+FFFF become two escapes. -/
def jsonChar (c : Nat) : PyStr :=
  if c = 0x22 then [0x5c, 0x22]
  else if c = 0x5c then [0x5c, 0x5c]
  else if c = 10 then [0x5c, 0x6e]
  else if c = 13 then [0x5c, 0x72]
  else if c = 9 then [0x5c, 0x74]
  else if c = 12 then [0x5c, 0x66]
  else if c = 8 then [0x5c, 0x62]
  else if 0x20 ≤ c ∧ c ≤ 0x7e then [c]
  else if c < 0x10000 then hexEscape c
  else hexEscape (0xd800 + (c - 0x10000) / 1024 % 1024) ++ hexEscape (0xdc00 + (c - 0x10000) % 1024)

/-- A text in quotes (`json.dumps`, used by converters/writers/json.py:2). -/
def jsonText (s : PyStr) : PyStr := 0x22 :: (s.flatMap jsonChar ++ [0x22])

mutual
/-- `json.dumps` with its default separators (used by converters/writers/json.py:69, 128). -/
def dumps : PyJson → PyStr
  | .none => pstr "null"
  | .num t => t
  | .str s => jsonText s
  | .list [] => pstr "[]"
  | .list (v :: l) => pstr "[" ++ dumps v ++ dumpsItems l ++ pstr "]"
  | .dict [] => pstr "{}"
  | .dict ((k, v) :: l) => pstr "{" ++ jsonText k ++ pstr ": " ++ dumps v ++ dumpsMembers l ++ pstr "}"
/-- The further elements of a list (`json.dumps`, used by converters/writers/json.py:2). -/
def dumpsItems : List PyJson → PyStr
  | [] => []
  | v :: l => pstr ", " ++ dumps v ++ dumpsItems l
/-- The further items of a dictionary (`json.dumps`, used by converters/writers/json.py:2). -/
def dumpsMembers : List (PyStr × PyJson) → PyStr
  | [] => []
  | (k, v) :: l => pstr ", " ++ jsonText k ++ pstr ": " ++ dumps v ++ dumpsMembers l
end

/-- What is left to be given: the texts of floats, the items of a font descriptor with the texts of their values, the names of images, and
the texts of the values of colours that are neither numbers nor names in ASCII (`str`, converters/json.py:18, converters/xml.py:28,
converters/yaml.py:18). -/
structure PyTexts where
  fmt : ℚ → PyStr
  descriptor : Font → List (PyStr × PyStr)
  imageName : List (Key × Obj) → Bytes → PyStr
  other : Obj → PyStr

/-- `enc(text).decode()` (converters/json.py:16-18, 103). -/
def encText (s : PyStr) : PyStr := (enc s).map UInt8.toNat

/-- `str(v.name)` for a literal, else `str(v)` (converters/json.py:15-18, converters/xml.py:25-28, converters/yaml.py:15-18). -/
def valueName (t : PyTexts) : Obj → PyStr
  | .name n => if n.all fun c => decide (c.toNat < 128) then n.map UInt8.toNat else t.other (.name n)
  | .int n => intDigits n
  | .real m k => t.fmt (m / 10 ^ k)
  | o => t.other o

/-- `normalize_color_values` (converters/json.py:12-19, converters/yaml.py:12-19). -/
def normalizeValues (t : PyTexts) (vs : List Obj) : List PyStr := vs.map fun v => encText (valueName t v)

/-- `normalize_color_values` of the XML converter (converters/xml.py:20-29): with commas between the values. -/
def normalizeText (t : PyTexts) : List Obj → PyStr
  | [] => []
  | [v] => encText (valueName t v)
  | v :: l => encText (valueName t v) ++ pstr "," ++ normalizeText t l

/-- `enc(color_space.name).decode()` (converters/json.py:103, 123, 128, converters/xml.py:34). -/
def spaceText (cs : ColorSpace) : PyStr := encText (cs.name.map UInt8.toNat)

/-- The dictionary of a colour (converters/json.py:102-105, 122-130). -/
def colorJson (t : PyTexts) (cs : ColorSpace) (vs : List Obj) : PyJson :=
  .dict [(pstr "type", .str (spaceText cs)), (pstr "value", .list ((normalizeValues t vs).map .str))]

/-- A coordinate of a point (converters/json.py:143). A coordinate that is not a number is written as `null`: simplified. -/
def coordJson (t : PyTexts) : Option ℚ → PyJson
  | some q => .num (t.fmt q)
  | none => .none

/-- The dictionary of a path (converters/json.py:140-146). -/
def pathJson (t : PyTexts) (p : CurvePath) : PyJson :=
  .dict [(pstr "type", .str (curveMethodName p.method)),
    (pstr "points", .list (p.points.map fun q => .dict [(pstr "x", coordJson t q.1), (pstr "y", coordJson t q.2)]))]

/-- The environment of the converters to JSON and XML (converters/json.py:12-19, 101-146, converters/xml.py:14-37, 81-86). -/
def PyTexts.conv (t : PyTexts) : ConvEnv where
  fmt := t.fmt
  descriptor := t.descriptor
  imageName := fun d data => encNone (t.imageName d data)
  dumpColor := fun cs vs => dumps (colorJson t cs vs)
  dumpPath := fun p => dumps (pathJson t p)
  colorName := spaceText
  colorValues := normalizeText t
  attrName := snakeCase

/-- The environment of the converter to YAML (converters/yaml.py:12-19). -/
def PyTexts.yaml (t : PyTexts) : YamlEnv := { t.conv with valueText := fun v => encText (valueName t v) }

end Pdf
