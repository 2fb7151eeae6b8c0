import Verif.Spec.EncryptedFile
import Verif.Spec.Convert
import Verif.Spec.ConvYaml
import Verif.Spec.ConvHtml
import Verif.Model.Outputs
/-! What is delivered for a document: its pages with their numbers, sizes and texts. -/

namespace Pdf.Spec
open Pdf

/-- A page as the reader of the document sees it: its text and its size. -/
structure Sheet where
  text : PyStr
  width : ℚ
  height : ℚ

/-- The page with the dictionaries `ds` (its own and those of its ancestors) shows the text and has the size of its `MediaBox`. -/
structure SheetOf (S : Setup) (ignoreBad : Bool) (R : Resolver) (ds : List Dict) (x : Sheet) : Prop where
  text : PageText S R ignoreBad ds x.text
  size : ∃ o a b c d x0 y0 x1 y1, pageAttr ds (.name (asc "MediaBox")) = some o ∧ R.resolve1 o = .ok (.arr [a, b, c, d]) ∧
    a.num? = some x0 ∧ b.num? = some y0 ∧ c.num? = some x1 ∧ d.num? = some y1 ∧ x.width = x1 - x0 ∧ x.height = y1 - y0

/-- The pages that are asked for: those with a wanted number, up to the one with which the number of pages seen reaches the limit (see C32). -/
def asked {α : Type} (pagenos : List Int) (maxpages : Nat) (l : List α) : List α :=
  (l.zipIdx.filter fun x => decide (Wanted pagenos x.2 ∧ ∀ j < x.2, Wanted pagenos j → maxpages = 0 ∨ j + 1 < maxpages)).map Prod.fst

/-- The delivered page with number `num` is the page `x`. -/
structure PageIs (num : Nat) (x : Sheet) (p : LtPage) : Prop where
  num : p.num = num
  width : p.width = x.width
  height : p.height = x.height
  text : PageShows p x.text

/-- The delivered pages are the pages `l`, numbered from `num` on. -/
inductive PagesAre : (num : Nat) → List Sheet → List LtPage → Prop
  | nil {num} : PagesAre num [] []
  | cons {num x p l ps} : PageIs num x p → PagesAre (num + 1) l ps → PagesAre num (x :: l) (p :: ps)

/-- What the converters write for these pages, all without an exception; JSON, YAML, XML and HTML for items that they can carry (see C77, C78, C85, C86). -/
structure Converted (S : Setup) (opts : Options) (fuel : Nat) (data : Bytes) (sheets : List Sheet) (pages : List LtPage) : Prop where
  text : convertText S opts fuel data = (textOf 0 (sheets.map Sheet.text), none)
  json : ∀ env, JsonEnv env → (∀ p ∈ pages, ∀ i ∈ p.items, JsonItem env i) → ∃ file js, convertJson env S opts fuel data = (file, none) ∧
    JsonText file (.obj [(pstr "pages", .arr js)]) ∧ List.Forall₂ (PageJson env) pages js ∧
    List.Forall₂ (fun x j => (stringsAt (pstr "text") j).flatten = x.text) sheets js
  yaml : ∀ env, YamlTexts env → (∀ p ∈ pages, ∀ i ∈ p.items, YamlItem env i) → ∃ file vs, convertYaml env S opts fuel data = (file, none) ∧
    YamlText file (.map [(pstr "pages", asSeq vs)]) ∧ List.Forall₂ (PageYaml env) pages vs
  xml : ∀ env codec, XmlEnv env → (∀ p ∈ pages, ∀ i ∈ p.items, XmlItem env i) → ∃ body ev, convertXml env codec S opts fuel data = (xHeader codec ++ body, none) ∧
    XmlContent body ev ∧ (textIn (pstr "char") false ev).2 = (sheets.map Sheet.text).flatten
  html : ∀ env codec, HtmlOk env → (∃ v, XmlValue codec v) → (∀ p ∈ pages, ∀ i ∈ p.items, HtmlItem env i ∧ ¬ Refused env i) → ∃ file ev,
    convertHtml env codec S opts fuel data = (file, .done) ∧ XmlContent file ev ∧ visible ev = inked sheet ++ inked (sheets.map Sheet.text).flatten

end Pdf.Spec
