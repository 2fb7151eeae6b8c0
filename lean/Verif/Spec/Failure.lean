import Verif.Spec.Outputs
import Verif.Spec.HtmlCut
/-! What a conversion that ends with an exception leaves in its file. -/

namespace Pdf.Spec
open Pdf

/-- The text written for a page that was begun and not finished: the line with its number, and the text of its items up to the exception. -/
inductive BegunText (num : Nat) : Option LtPage → PyStr → Prop
  | none : BegunText num none []
  | some {p t} : PageShows p t → BegunText num (some p) (pstr "========== [ page " ++ numText num ++ pstr " ] ==========\n" ++ t)

/-- The end tags that are missing in the XML file. -/
def missingTags : Option LtPage → PyStr
  | none => pstr "</pages>\n"
  | some _ => pstr " </page>\n</pages>\n"

/-- What the converters leave for these complete pages and the page that was begun, if there is one. -/
structure Leaves (S : Setup) (opts : Options) (fuel : Nat) (data : Bytes) (pages : List LtPage) (begun : Option LtPage) (error : PyErr) : Prop where
  text : ∃ texts rest, List.Forall₂ PageShows pages texts ∧ BegunText pages.length begun rest ∧
    convertText S opts fuel data = (textOf 0 texts ++ rest, some error)
  json : ∀ env, JsonEnv env → (∀ p ∈ pages ++ begun.toList, ∀ i ∈ p.items, JsonItem env i) → ∃ file js, convertJson env S opts fuel data = (file, some error) ∧
    JsonText file (.obj [(pstr "pages", .arr js)]) ∧ List.Forall₂ (PageJson env) (pages ++ begun.toList) js
  yaml : ∀ env, YamlTexts env → (∀ p ∈ pages ++ begun.toList, ∀ i ∈ p.items, YamlItem env i) → ∃ file vs, convertYaml env S opts fuel data = (file, some error) ∧
    YamlText file (.map [(pstr "pages", asSeq vs)]) ∧ List.Forall₂ (PageYaml env) (pages ++ begun.toList) vs
  xml : ∀ env codec, XmlEnv env → (∀ p ∈ pages ++ begun.toList, ∀ i ∈ p.items, XmlItem env i) → ∃ body, convertXml env codec S opts fuel data = (xHeader codec ++ body, some error) ∧
    (∀ ev, ¬ XmlContent body ev) ∧ ∃ ev tags, XmlContent (body ++ missingTags begun) ev ∧
      List.Forall₂ (PageTags env) (pages ++ begun.toList) tags ∧ List.Forall₂ ReadsTag ((pstr "pages", []) :: tags.flatten) (starts ev)

/-- What the converter to HTML leaves for these pages, complete or begun, in an environment and for items that it can carry: the document for the
pages that are shown, without its last end tags if there was an exception. -/
structure HtmlLeaves (env : HtmlEnv) (codec : PyStr) (all : List LtPage) (error : Option PyErr) (file : PyStr) (outcome : HtmlEnd) : Prop where
  shown : ∃ shown texts rest ev tags, HtmlShown env all error shown outcome ∧ XmlContent (file ++ rest) ev ∧ List.Forall₂ PageShows shown texts ∧
    visible ev = inked sheet ++ inked texts.flatten ∧ List.Forall₂ (PageHtml env) shown tags ∧
    List.Forall₂ ReadsTag (headTags codec ++ tags.flatten) (starts ev) ∧
    (outcome = .done → rest = []) ∧ (outcome ≠ .done → ∃ names, EndTags rest (names ++ [pstr "body", pstr "html"]))
  cut : outcome ≠ .done → ∀ ev, ¬ XmlContent file ev

end Pdf.Spec
