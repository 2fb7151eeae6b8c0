import Verif.Spec.Outputs
/-! What the pages of a written document are in the different formats: one text block with a char-block for every line. -/

namespace Pdf.Spec
open Pdf

/-- The text of a char-block. -/
def charText (b : CharBlock) : PyStr := (b.chars.map Prod.fst).flatten

/-- The char-block is a line with this text in this font, 12 points high, of no given colour. -/
structure LineBlock (f : Font) (t : PyStr) (b : CharBlock) : Prop where
  text : charText b = t
  font : b.font = f
  fontsize : b.fontsize = .int 12
  color : b.color = ⟨none, []⟩

/-- The delivered page (width, height, items) has letter size and one text block, with a char-block for every line; without lines it has no box. -/
def LinesOut (f : Font) (lines : List PyStr) (out : ℚ × ℚ × List Item) : Prop :=
  ∃ b, out = (612, 792, [.text b]) ∧ (b.bbox = none ↔ b.blocks = []) ∧ List.Forall₂ (LineBlock f) lines b.blocks

/-! ### JSON -/

/-- The descriptor of the font can be written as members of a char-block: their keys differ from one another and from those of the converter, and
neither backslashes nor control characters are in them, and no quotes in the keys. -/
structure JsonFont (env : ConvEnv) (f : Font) : Prop where
  keys : ((env.descriptor f).map Prod.fst).Nodup
  fresh : ∀ p ∈ env.descriptor f, p.1 ∉ reserved ∧ Clean p.1 ∧ '"'.toNat ∉ p.1 ∧ Clean p.2

/-- The object of page `num` with these lines: its number and size, and one text block with an object for every line, with the text of the line
and the descriptor of the font. -/
structure LinesJson (env : ConvEnv) (f : Font) (num : Nat) (lines : List PyStr) (j : Json) : Prop where
  id : j.field (pstr "id") = some (.num (numText num))
  width : j.field (pstr "width") = some (.num (env.fmt 612))
  height : j.field (pstr "height") = some (.num (env.fmt 792))
  lines : ∃ b l, j.field (pstr "children") = some (.arr [b]) ∧ b.field (pstr "type") = some (.str (pstr "text-block")) ∧
    b.field (pstr "char_blocks") = some (.arr l) ∧
    List.Forall₂ (fun t c => c.field (pstr "text") = some (.str t) ∧ ∀ p ∈ env.descriptor f, ¬ leftOut p.1 → c.field p.1 = some (.str p.2)) lines l

/-! ### YAML -/

/-- The descriptor of the font can be written as members of a char-block. -/
structure YamlFont (env : YamlEnv) (f : Font) : Prop where
  keys : ((env.descriptor f).map Prod.fst).Nodup
  fresh : ∀ p ∈ env.descriptor f, p.1 ∉ reserved
  values : ∀ p ∈ env.descriptor f, ¬ leftOut p.1 → YamlKey p.1 ∧ ∃ v, YamlScalar p.2 v

/-- The mapping of page `num` with these lines. The last member of a char-block is its text. -/
inductive LinesYaml (env : YamlEnv) (num : Nat) (lines : List PyStr) : Yaml → Prop
  | mk {box l} : List.Forall₂ (fun t y => ∃ m, y = .map (m ++ [(pstr "text", textYaml t)])) lines l →
      LinesYaml env num lines (.map [(pstr "id", .scalar (numText num)), (pstr "width", .scalar (env.fmt 612)), (pstr "height", .scalar (env.fmt 792)),
        (pstr "children", .seq [.map ((pstr "type", .scalar (pstr "text-block")) :: box ++ [(pstr "char_blocks", asSeq l)])])])

/-! ### XML and HTML -/

/-- The descriptor of the font can be written as attributes of a char-block. -/
structure XmlFont (env : ConvEnv) (f : Font) : Prop where
  descriptor : ∀ p ∈ env.descriptor f, XmlName (env.attrName p.1) ∧ ∃ v, XmlValue p.2 v
  names : ((env.descriptor f).map fun p => env.attrName p.1).Nodup
  fresh : ∀ p ∈ env.descriptor f, env.attrName p.1 ∉ [pstr "size", pstr "x0", pstr "x1", pstr "y0", pstr "y1", pstr "color-type",
    pstr "color-values"]

/-- How many elements with this tag the events begin. -/
def tagCount (tag : PyStr) (ev : List XmlEvent) : Nat := ((starts ev).filter fun t => t.1 == tag).length

/-! ### All of them -/

/-- What the five converters write for pages with these lines in this font, all without an exception. -/
structure LinesWritten (S : Setup) (opts : Options) (fuel : Nat) (data : Bytes) (f : Font) (pages : List (List PyStr)) : Prop where
  text : convertText S opts fuel data = (textOf 0 (pages.map List.flatten), none)
  json : ∀ env, JsonEnv env → JsonFont env f → (∀ lines ∈ pages, lines ≠ [] ∧ ∀ t ∈ lines, Clean t) →
    ∃ file js, convertJson env S opts fuel data = (file, none) ∧ JsonText file (.obj [(pstr "pages", .arr js)]) ∧
      List.Forall₂ (fun x j => LinesJson env f x.2 x.1 j) pages.zipIdx js
  yaml : ∀ env, YamlTexts env → YamlFont env f → (∀ lines ∈ pages, ∀ t ∈ lines, t = [] ∨ Plain t) →
    ∃ file vs, convertYaml env S opts fuel data = (file, none) ∧ YamlText file (.map [(pstr "pages", asSeq vs)]) ∧
      List.Forall₂ (fun x v => LinesYaml env x.2 x.1 v) pages.zipIdx vs
  xml : ∀ env codec, XmlEnv env → XmlFont env f → (∀ lines ∈ pages, ∀ t ∈ lines, ∀ c ∈ t, xmlChar c = true) →
    ∃ body ev, convertXml env codec S opts fuel data = (xHeader codec ++ body, none) ∧ XmlContent body ev ∧
      (textIn (pstr "char") false ev).2 = (pages.map List.flatten).flatten ∧
      tagCount (pstr "page") ev = pages.length ∧ tagCount (pstr "char-block") ev = (pages.map List.length).sum
  html : ∀ env codec, HtmlOk env → (∃ v, XmlValue codec v) → HtmlFont env f → env.fontWeight f ≠ none → (∀ lines ∈ pages, ∀ t ∈ lines, NoMarkup t) →
    ∃ file ev, convertHtml env codec S opts fuel data = (file, .done) ∧ XmlContent file ev ∧
      visible ev = inked sheet ++ inked (pages.map List.flatten).flatten

end Pdf.Spec
