import Verif.Model.Pipeline
import Verif.Model.HtmlCut
import Verif.Model.ConvYaml
/-! From the bytes of a file to the output of every converter: the pages that the interpreter delivers, and what each converter has written when the
conversion ends, with or without an exception. -/

namespace Pdf

/-- What the interpreter delivers: the pages that are complete, the page that was begun when an exception came, with the items up to then, and the
exception (interpreter/__init__.py:43-74, PageInterpreter.py:9-43). -/
structure Delivery where
  pages : List LtPage := []
  started : Option LtPage := none
  error : Option PyErr := none

/-- How the loop over the pages ends: with the exception of `PDFPage.get_pages`, or with `EmptyDocumentError` if there was no page
(interpreter/__init__.py:43-64). -/
def lastError (num : Nat) : Option PyErr → Option PyErr
  | some e => some e
  | none => if num = 0 then some .emptyDocument else none

/-- The loop over the pages from page number `num` on (interpreter/__init__.py:43-64, PageInterpreter.py:9-43). A page whose geometry or whose
resources fail is not begun. The items of a form are collected
before the form is yielded, so an exception in a form ends the page before the form (interpreter/commands/__init__.py:53-69). -/
def deliverPages (E : Env1) (fuel : Nat) (ignoreBad : Bool) : (num : Nat) → List Page → Option PyErr → Delivery
  | num, [], e => { error := lastError num e }
  | num, p :: ps, e =>
    match pageGeometry p.mediabox p.rotate with
    | .error x => { error := some x }
    | .ok (ctm, w, h) =>
      match prepState E ctm p.resources ignoreBad with
      | .error x => { error := some x }
      | .ok s =>
        match (run E fuel p.contents s).1 with
        | (items, some x) => { started := some ⟨num, w, h, items⟩, error := some x }
        | (items, none) =>
          let rest := deliverPages E fuel ignoreBad (num + 1) ps e
          { rest with pages := ⟨num, w, h, items⟩ :: rest.pages }

/-- `PDFInterpreter` on the bytes of a file (interpreter/__init__.py:19-64, parser/PDFPage.py:120-138): what a loop over it delivers. -/
def deliver (S : Setup) (opts : Options) (fuel : Nat) (data : Bytes) : Delivery :=
  match openDocument S opts.password opts.caching fuel data with
  | .error e => { error := some e }
  | .ok O =>
    if refused opts.checkExtractable O.cipher then { error := some .notAllowed }
    else
      deliverPages (S.env1 (O.resolver opts.caching fuel) fuel) fuel opts.ignoreBad 0
        (selectPages opts.pagenos opts.maxpages (createPages (O.resolver opts.caching fuel) O.catalog O.objids fuel)).1
        (selectPages opts.pagenos opts.maxpages (createPages (O.resolver opts.caching fuel) O.catalog O.objids fuel)).2

/-- `convert_to_json` (converters/json.py:35-48): the writers close their brackets when an exception passes (converters/writers/json.py:7-11, 25-27,
85-87), so the file has the pages and items up to then. -/
def convertJson (env : ConvEnv) (S : Setup) (opts : Options) (fuel : Nat) (data : Bytes) : PyStr × Option PyErr :=
  let D := deliver S opts fuel data
  (jsonFile env (D.pages ++ D.started.toList), D.error)

/-- `convert_to_yaml` (converters/yaml.py:35-48): there is nothing to close (converters/writers/yaml.py:24-25). -/
def convertYaml (env : YamlEnv) (S : Setup) (opts : Options) (fuel : Nat) (data : Bytes) : PyStr × Option PyErr :=
  let D := deliver S opts fuel data
  (yamlFile env (D.pages ++ D.started.toList), D.error)

/-- A page that was begun: its start tag and the items up to then (converters/xml.py:93-99, converters/writers/xml.py:47-50). -/
def xStarted (env : ConvEnv) : Option LtPage → PyStr
  | none => []
  | some p => xIndent 1 ++ ([0x3c] ++ pstr "page" ++ [0x20] ++
      xAttrs [(pstr "id", numText p.num), (pstr "width", env.fmt p.width), (pstr "height", env.fmt p.height)] ++ [0x3e]) ++ [0x0a] ++ xWrite 2 (xItems env p.items)

/-- What is in the XML file when an exception passes: `elm` writes no end tags then (converters/writers/xml.py:47-52), only the file is closed. -/
def xmlCut (env : ConvEnv) (codec : PyStr) (pages : List LtPage) (started : Option LtPage) : PyStr :=
  xHeader codec ++ (([0x3c] ++ pstr "pages" ++ [0x20] ++ xAttrs [] ++ [0x3e]) ++ [0x0a] ++ xWrite 1 (XBody.ofList (pages.map (xPage env))) ++ xStarted env started)

/-- `convert_to_xml` (converters/xml.py:53-65). -/
def convertXml (env : ConvEnv) (codec : PyStr) (S : Setup) (opts : Options) (fuel : Nat) (data : Bytes) : PyStr × Option PyErr :=
  let D := deliver S opts fuel data
  match D.error with
  | none => (xmlFile env codec D.pages, none)
  | some e => (xmlCut env codec D.pages D.started, some e)

/-- `convert_to_html` (converters/html.py:24-47): what is in the file, and how the conversion ends. -/
def convertHtml (env : HtmlEnv) (codec : PyStr) (S : Setup) (opts : Options) (fuel : Nat) (data : Bytes) : PyStr × HtmlEnd :=
  let D := deliver S opts fuel data
  htmlRun env codec D.pages D.started D.error

end Pdf
