import Verif.Model.ConvYaml
import Verif.Spec.Convert
import Verif.Spec.Yaml
/-! What the YAML document of the items is. -/

namespace Pdf.Spec

/-- A text that may be empty, which is null. -/
def textYaml (s : PyStr) : Yaml := if s = [] then .null else .scalar s

/-- The members of a box. -/
def boxYaml (env : YamlEnv) (b : Bbox) : List (PyStr × Yaml) :=
  [(pstr "x0", .scalar (env.fmt b.x0)), (pstr "x1", .scalar (env.fmt b.x1)), (pstr "y0", .scalar (env.fmt b.y0)), (pstr "y1", .scalar (env.fmt b.y1))]

/-- The members of the box of a text block. -/
def boxYamlOpt (env : YamlEnv) : Option Bbox → List (PyStr × Yaml)
  | some b => boxYaml env b
  | none => [pstr "x0", pstr "x1", pstr "y0", pstr "y1"].map fun k => (k, .scalar (pstr "None"))

/-- A colour, if there is a colour space: its name and its values. -/
def colorYaml (env : YamlEnv) (key : PyStr) (c : Color) : List (PyStr × Yaml) :=
  c.space.toList.map fun cs =>
    (key, .map [(pstr "type", .scalar (env.colorName cs)), (pstr "value", .seq (c.values.map fun v => .scalar (env.valueText v)))])

open Classical in
/-- The mapping of a char-block: size, box, colour, font descriptor and text. -/
inductive BlockYaml (env : YamlEnv) (b : CharBlock) : Yaml → Prop
  | mk {ds} : List.Forall₂ (fun p m => m.1 = p.1 ∧ YamlScalar p.2 m.2) ((env.descriptor b.font).filter fun p => ¬ leftOut p.1) ds →
      BlockYaml env b (.map ((pstr "size", .scalar (env.fmt b.size)) :: boxYaml env b.bbox ++ colorYaml env (pstr "color") b.color ++ ds ++
        [(pstr "text", textYaml (b.chars.map Prod.fst).flatten)]))

/-- A path: its method and its points. -/
def pathYaml (env : YamlEnv) (p : CurvePath) : Yaml :=
  .map [(pstr "type", .scalar (pstr (methodText p.method))),
    (pstr "points", .seq (p.points.map fun q => .map [(pstr "x", .scalar (coordinate env.toConvEnv q.1)), (pstr "y", .scalar (coordinate env.toConvEnv q.2))]))]

/-- The mapping of an item. -/
inductive ItemYaml (env : YamlEnv) : Item → Yaml → Prop
  | text {b : TextBlock} {l} : List.Forall₂ (BlockYaml env) b.blocks l →
      ItemYaml env (.text b) (.map ((pstr "type", .scalar (pstr "text-block")) :: boxYamlOpt env b.bbox ++ [(pstr "char_blocks", asSeq l)]))
  | xobj {s b r m} {children : List Item} {l} : List.Forall₂ (ItemYaml env) children l →
      ItemYaml env (.xobj s b r m children) (.map ((pstr "type", .scalar (pstr "xobject")) :: boxYaml env b ++ [(pstr "children", asSeq l)]))
  | curve {c} : ItemYaml env (.curve c) (.map ((pstr "type", .scalar (kindName c.kind)) ::
      (if c.kind = .curve then [(pstr "paths", asSeq (c.paths.map (pathYaml env)))] else []) ++ boxYaml env c.bbox ++
      colorYaml env (pstr "fill") c.fill ++ colorYaml env (pstr "stroke") c.stroke))
  | image {d data b v} : YamlScalar (env.imageName d data) v →
      ItemYaml env (.image d data b) (.map ((pstr "type", .scalar (pstr "img")) :: (pstr "src", v) :: boxYaml env b))
  | none : ItemYaml env .none .null

/-- The mapping of a page. -/
inductive PageYaml (env : YamlEnv) (p : LtPage) : Yaml → Prop
  | mk {l} : List.Forall₂ (ItemYaml env) p.items l →
      PageYaml env p (.map [(pstr "id", .scalar (numText p.num)), (pstr "width", .scalar (env.fmt p.width)), (pstr "height", .scalar (env.fmt p.height)),
        (pstr "children", asSeq l)])

/-! ### The conditions -/

/-- The environment makes YAML: numbers, names and values of colours have the texts of scalars. -/
structure YamlTexts (env : YamlEnv) : Prop where
  number : ∀ q, Plain (env.fmt q) ∧ FlowPlain (env.fmt q)

/-- A colour that YAML can carry: the text of its colour space is a plain scalar, and the texts of its values can be quoted. -/
def YamlColor (env : YamlEnv) (c : Color) : Prop :=
  ∀ cs, c.space = some cs → Plain (env.colorName cs) ∧ ∀ v ∈ c.values, SingleQuoted (env.valueText v)

/-- A char-block that YAML can carry: its text is empty or a plain scalar, and the keys of the descriptor are words that the converter does
not use itself. -/
structure YamlCharBlock (env : YamlEnv) (b : CharBlock) : Prop where
  text : (b.chars.map Prod.fst).flatten = [] ∨ Plain (b.chars.map Prod.fst).flatten
  color : YamlColor env b.color
  keys : ((env.descriptor b.font).map Prod.fst).Nodup
  fresh : ∀ p ∈ env.descriptor b.font, p.1 ∉ reserved
  values : ∀ p ∈ env.descriptor b.font, ¬ leftOut p.1 → YamlKey p.1 ∧ ∃ v, YamlScalar p.2 v

/-- Items that YAML can carry. -/
inductive YamlItem (env : YamlEnv) : Item → Prop
  | text {b : TextBlock} : (∀ cb ∈ b.blocks, YamlCharBlock env cb) → YamlItem env (.text b)
  | xobj {s b r m} {children : List Item} : (∀ i ∈ children, YamlItem env i) → YamlItem env (.xobj s b r m children)
  | curve {c} : YamlColor env c.fill → YamlColor env c.stroke → YamlItem env (.curve c)
  | image {d data b v} : YamlScalar (env.imageName d data) v → YamlItem env (.image d data b)
  | none : YamlItem env .none

end Pdf.Spec
