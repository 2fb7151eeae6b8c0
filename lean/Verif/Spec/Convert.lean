import Verif.Model.Convert
import Verif.Spec.Json
import Verif.Spec.Xml
/-! What the documents made by the converters say: the JSON document of the items, and the text found in JSON and XML documents. -/

namespace Pdf.Spec

/-! ### The text of items -/

/-- `Shows i t`: the item shows the text `t`: the characters of its char-blocks, in order, also those inside of xobjects. -/
inductive Shows : Item → PyStr → Prop
  | text {b : TextBlock} : Shows (.text b) (b.blocks.map fun cb => (cb.chars.map Prod.fst).flatten).flatten
  | xobj {s b r m} {children : List Item} {ts : List PyStr} : List.Forall₂ Shows children ts → Shows (.xobj s b r m children) ts.flatten
  | curve {c} : Shows (.curve c) []
  | image {d data b} : Shows (.image d data b) []
  | none : Shows .none []

/-- `PageShows p t`: the items of the page show the texts that make `t`. -/
def PageShows (p : LtPage) (t : PyStr) : Prop := ∃ ts, List.Forall₂ Shows p.items ts ∧ t = ts.flatten

/-! ### The JSON document -/

mutual
/-- The strings found under a key, in the order of the document. -/
def stringsAt (key : PyStr) : Json → List PyStr
  | .arr l => stringsAtList key l
  | .obj l => stringsAtMembers key l
  | _ => []
/-- In the elements of an array. -/
def stringsAtList (key : PyStr) : List Json → List PyStr
  | [] => []
  | j :: l => stringsAt key j ++ stringsAtList key l
/-- In the members of an object. -/
def stringsAtMembers (key : PyStr) : List (PyStr × Json) → List PyStr
  | [] => []
  | (k, .str s) :: l => (if k = key then [s] else []) ++ stringsAtMembers key l
  | (_, .arr a) :: l => stringsAt key (.arr a) ++ stringsAtMembers key l
  | (_, .obj m) :: l => stringsAt key (.obj m) ++ stringsAtMembers key l
  | _ :: l => stringsAtMembers key l
end

/-- The members of an object; none for other values. -/
def Json.members : Json → List (PyStr × Json)
  | .obj l => l
  | _ => []

/-- The elements of an array; none for other values. -/
def Json.elems : Json → List Json
  | .arr l => l
  | _ => []

/-- The value of the member with a key. -/
def Json.field (key : PyStr) (j : Json) : Option Json := (j.members.find? fun p => p.1 == key).map Prod.snd

/-- The coordinates of a box, under their names. -/
def HasBox (env : ConvEnv) (b : Bbox) (j : Json) : Prop :=
  j.field (pstr "x0") = some (.num (env.fmt b.x0)) ∧ j.field (pstr "x1") = some (.num (env.fmt b.x1)) ∧
  j.field (pstr "y0") = some (.num (env.fmt b.y0)) ∧ j.field (pstr "y1") = some (.num (env.fmt b.y1))

/-- A colour under a key; no member with this key if there is no colour space. -/
def HasColor (env : ConvEnv) (key : PyStr) (c : Color) (j : Json) : Prop :=
  (c.space = none → j.field key = none) ∧
  ∀ cs, c.space = some cs → ∃ v, Value (env.dumpColor cs c.values) v ∧ j.field key = some v

/-- The keys of a font descriptor that are left out: `Type`, and those with `FontFile` in them. -/
def leftOut (key : PyStr) : Prop := key = pstr "Type" ∨ pstr "FontFile" <:+: key

/-- The object of a char-block. -/
structure BlockJson (env : ConvEnv) (b : CharBlock) (j : Json) : Prop where
  size : j.field (pstr "size") = some (.num (env.fmt b.size))
  box : HasBox env b.bbox j
  color : HasColor env (pstr "color") b.color j
  descriptor : ∀ p ∈ env.descriptor b.font, ¬ leftOut p.1 → j.field p.1 = some (.str p.2)
  text : j.field (pstr "text") = some (.str (b.chars.map Prod.fst).flatten)

/-- The name of the class of a curve. -/
def kindName : CurveKind → PyStr
  | .rect => pstr "rect"
  | .curve => pstr "curve"
  | _ => pstr "line"

/-- The object of a curve. -/
structure CurveJson (env : ConvEnv) (c : Curve) (j : Json) : Prop where
  type : j.field (pstr "type") = some (.str (kindName c.kind))
  box : HasBox env c.bbox j
  fill : HasColor env (pstr "fill") c.fill j
  stroke : HasColor env (pstr "stroke") c.stroke j
  paths : c.kind = .curve → ∃ l, j.field (pstr "paths") = some (.arr l) ∧ List.Forall₂ (fun p v => Value (env.dumpPath p) v) c.paths l

/-- The object of an item. -/
inductive ItemJson (env : ConvEnv) : Item → Json → Prop
  | text {b : TextBlock} {box j l} : b.bbox = some box → j.field (pstr "type") = some (.str (pstr "text-block")) → HasBox env box j →
      j.field (pstr "char_blocks") = some (.arr l) → List.Forall₂ (BlockJson env) b.blocks l → ItemJson env (.text b) j
  | xobj {s b r m} {children : List Item} {j l} : j.field (pstr "type") = some (.str (pstr "xobject")) → HasBox env b j →
      j.field (pstr "children") = some (.arr l) → List.Forall₂ (ItemJson env) children l → ItemJson env (.xobj s b r m children) j
  | curve {c j} : CurveJson env c j → ItemJson env (.curve c) j
  | image {d data b j} : j.field (pstr "type") = some (.str (pstr "img")) → j.field (pstr "src") = some (.str (env.imageName d data)) →
      HasBox env b j → ItemJson env (.image d data b) j
  | none : ItemJson env .none (.obj [])

/-- The object of a page. -/
structure PageJson (env : ConvEnv) (p : LtPage) (j : Json) : Prop where
  id : j.field (pstr "id") = some (.num (numText p.num))
  width : j.field (pstr "width") = some (.num (env.fmt p.width))
  height : j.field (pstr "height") = some (.num (env.fmt p.height))
  children : ∃ l, j.field (pstr "children") = some (.arr l) ∧ List.Forall₂ (ItemJson env) p.items l
  text : PageShows p (stringsAt (pstr "text") j).flatten

/-! ### The XML document -/

/-- The text inside of elements with a tag, and whether the events end inside of one. -/
def textIn (tag : PyStr) : Bool → List XmlEvent → Bool × PyStr
  | inside, [] => (inside, [])
  | inside, .start t _ :: r => textIn tag (if t = tag then true else inside) r
  | inside, .stop t :: r => textIn tag (if t = tag then false else inside) r
  | inside, .char c :: r => let (i, s) := textIn tag inside r; (i, if inside then c :: s else s)

/-- A tag with the texts of its attributes. -/
abbrev Tag := PyStr × List (PyStr × PyStr)

/-- The attributes of a box. -/
def boxAttrs (env : ConvEnv) (b : Bbox) : List (PyStr × PyStr) :=
  List.zip [pstr "x0", pstr "y0", pstr "x1", pstr "y1"] ([b.x0, b.y0, b.x1, b.y1].map env.fmt)

/-- The attributes of a colour, if there is a colour space. -/
def colorAttrs (env : ConvEnv) (key : PyStr) (c : Color) : List (PyStr × PyStr) :=
  c.space.toList.flatMap fun cs => [(key ++ pstr "-type", env.colorName cs), (key ++ pstr "-values", env.colorValues c.values)]

open Classical in
/-- The tags of a char-block: its own and one for every character. -/
noncomputable def blockTags (env : ConvEnv) (b : CharBlock) : List Tag :=
  (pstr "char-block", (pstr "size", env.fmt b.size) :: boxAttrs env b.bbox ++ colorAttrs env (pstr "color") b.color ++
    ((env.descriptor b.font).filter fun p => ¬ leftOut p.1).map fun p => (env.attrName p.1, p.2)) ::
  b.chars.map fun c => (pstr "char", boxAttrs env c.2.1)

/-- A coordinate of a point of a path. -/
def coordinate (env : ConvEnv) : Option ℚ → PyStr
  | some x => env.fmt x
  | none => pstr "None"

/-- The name of a method of a path. -/
def methodText : CurveMethod → String
  | .moveTo => "MOVE_TO"
  | .lineTo => "LINE_TO"
  | .curveBothTo => "CURVE_BOTH_TO"
  | .curveNextTo => "CURVE_NEXT_TO"
  | .curveFirstTo => "CURVE_FIRST_TO"
  | .closePath => "CLOSE_PATH"

/-- The tags of a curve: its own, and those of its paths and points if it is neither a rectangle nor a line. -/
def curveTags (env : ConvEnv) (c : Curve) : List Tag :=
  (kindName c.kind, boxAttrs env c.bbox ++ colorAttrs env (pstr "stroke") c.stroke ++ colorAttrs env (pstr "fill") c.fill) ::
  if c.kind = .curve then
    c.paths.flatMap fun p => (pstr "path", [(pstr "type", pstr (methodText p.method))]) ::
      p.points.map fun q => (pstr "point", [(pstr "x", coordinate env q.1), (pstr "y", coordinate env q.2)])
  else []

/-- The tags of an item, in the order of the document. -/
inductive ItemTags (env : ConvEnv) : Item → List Tag → Prop
  | text {b : TextBlock} : ItemTags env (.text b)
      ((pstr "text-block", b.bbox.elim ([pstr "x0", pstr "y0", pstr "x1", pstr "y1"].map fun n => (n, pstr "None")) (boxAttrs env)) ::
        b.blocks.flatMap (blockTags env))
  | xobj {s b r m} {children : List Item} {ts : List (List Tag)} : List.Forall₂ (ItemTags env) children ts →
      ItemTags env (.xobj s b r m children) ((pstr "xobject", boxAttrs env b) :: ts.flatten)
  | curve {c} : ItemTags env (.curve c) (curveTags env c)
  | image {d data b} : ItemTags env (.image d data b) [(pstr "img", (pstr "src", env.imageName d data) :: boxAttrs env b)]
  | none : ItemTags env .none []

/-- The tags of a page. -/
def PageTags (env : ConvEnv) (p : LtPage) (ts : List Tag) : Prop :=
  ∃ l, List.Forall₂ (ItemTags env) p.items l ∧
    ts = (pstr "page", [(pstr "id", numText p.num), (pstr "width", env.fmt p.width), (pstr "height", env.fmt p.height)]) :: l.flatten

/-- The start tags of a document, in order. -/
def starts : List XmlEvent → List Tag
  | [] => []
  | .start t as :: r => (t, as) :: starts r
  | _ :: r => starts r

/-- A start tag read back: the same name, and the attributes, in any order, with the values that their texts stand for. -/
def ReadsTag (written read : Tag) : Prop := written.1 = read.1 ∧ ∃ l, l.Perm written.2 ∧ WritesAttrs l read.2

/-! ### The conditions -/

/-- The keys that the converter itself writes in the object of a char-block. -/
def reserved : List PyStr := [pstr "size", pstr "x0", pstr "x1", pstr "y0", pstr "y1", pstr "color", pstr "text"]

/-- The environment makes JSON: numbers have the texts of JSON numbers, and `json.dumps` gives texts of values without a key `text`. -/
structure JsonEnv (env : ConvEnv) : Prop where
  number : ∀ q, Number (env.fmt q)
  color : ∀ cs vs, ∃ j, Value (env.dumpColor cs vs) j ∧ stringsAt (pstr "text") j = []
  path : ∀ p, ∃ j, Value (env.dumpPath p) j ∧ stringsAt (pstr "text") j = []

/-- A char-block that JSON can carry: its texts and the descriptor of its font have no backslash and no control character, and the keys of
the descriptor are not those of the converter. -/
structure JsonBlock (env : ConvEnv) (b : CharBlock) : Prop where
  text : ∀ c ∈ b.chars, Clean c.1
  keys : ((env.descriptor b.font).map Prod.fst).Nodup
  fresh : ∀ p ∈ env.descriptor b.font, p.1 ∉ reserved ∧ Clean p.1 ∧ '"'.toNat ∉ p.1 ∧ Clean p.2

/-- Items that JSON can carry. The box of a text block needs a character. -/
inductive JsonItem (env : ConvEnv) : Item → Prop
  | text {b : TextBlock} : b.bbox.isSome → (∀ cb ∈ b.blocks, JsonBlock env cb) → JsonItem env (.text b)
  | xobj {s b r m} {children : List Item} : (∀ i ∈ children, JsonItem env i) → JsonItem env (.xobj s b r m children)
  | curve {c} : JsonItem env (.curve c)
  | image {d data b} : Clean (env.imageName d data) → JsonItem env (.image d data b)
  | none : JsonItem env .none

/-- The environment makes XML: numbers have no markup. -/
structure XmlEnv (env : ConvEnv) : Prop where
  number : ∀ q, ∃ v, XmlValue (env.fmt q) v

/-- A colour that XML can carry: the texts of its colour space and of its values can be attributes. -/
def XmlColor (env : ConvEnv) (c : Color) : Prop :=
  ∀ cs, c.space = some cs → (∃ v, XmlValue (env.colorName cs) v) ∧ ∃ v, XmlValue (env.colorValues c.values) v

/-- A char-block that XML can carry. -/
structure XmlBlock (env : ConvEnv) (b : CharBlock) : Prop where
  text : ∀ c ∈ b.chars, ∀ x ∈ c.1, xmlChar x = true
  color : XmlColor env b.color
  descriptor : ∀ p ∈ env.descriptor b.font, XmlName (env.attrName p.1) ∧ ∃ v, XmlValue p.2 v
  names : ((env.descriptor b.font).map fun p => env.attrName p.1).Nodup
  fresh : ∀ p ∈ env.descriptor b.font, env.attrName p.1 ∉ [pstr "size", pstr "x0", pstr "x1", pstr "y0", pstr "y1", pstr "color-type",
    pstr "color-values"]

/-- Items that XML can carry. -/
inductive XmlItem (env : ConvEnv) : Item → Prop
  | text {b : TextBlock} : (∀ cb ∈ b.blocks, XmlBlock env cb) → XmlItem env (.text b)
  | xobj {s b r m} {children : List Item} : (∀ i ∈ children, XmlItem env i) → XmlItem env (.xobj s b r m children)
  | curve {c} : XmlColor env c.stroke → XmlColor env c.fill → XmlItem env (.curve c)
  | image {d data b} : (∃ v, XmlValue (env.imageName d data) v) → XmlItem env (.image d data b)
  | none : XmlItem env .none

end Pdf.Spec
