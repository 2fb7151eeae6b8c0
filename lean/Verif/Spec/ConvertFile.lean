import Verif.Model.ConvertFile
import Verif.Spec.EncryptedFile
import Verif.Spec.Paths
/-! Specification for C104: what `convert_file` does to the files. -/

namespace Pdf.Spec

/-- `ConverterWrites … c t r`: the converter `c` writes `t` for a document with these bytes, and ends with `r`. What the converters write is the subject of C92 to C100. -/
def ConverterWrites (W : OutEnv) (S : Setup) (opts : Options) (fuel : Nat) (data : Bytes) : Converter → PyStr → HtmlEnd → Prop
  | .html, t, r => convertHtml W.toHtmlEnv (pstr "utf-8") S opts fuel data = (t, r)
  | .xml, t, r => ∃ e, convertXml W.toConvEnv (pstr "utf-8") S opts fuel data = (t, e) ∧ r = .of e
  | .json, t, r => ∃ e, convertJson W.toConvEnv S opts fuel data = (t, e) ∧ r = .of e
  | .yaml, t, r => ∃ e, convertYaml W.yaml S opts fuel data = (t, e) ∧ r = .of e
  | .text, t, r => ∃ e, convertText S opts fuel data = (t, e) ∧ r = .of e

/-- What each converter writes if there are no pages at all. -/
def NoPages : Converter → PyStr → Prop
  | .html, t => ∃ head, t = pstr "<html >\n" ++ head ++ pstr " <body >\n"
  | .xml, t => t = pstr "<?xml version=\"1.0.0\" encoding=\"utf-8\" ?><pages >\n"
  | .json, t => t = pstr "{\n  \"pages\": [\n  ]\n}"
  | .yaml, t => t = pstr "pages:\n"
  | .text, t => t = []

/-- A code point that UTF-8 has no form for: a surrogate (or no code point at all). -/
def Unencodable (c : Nat) : Prop := (0xD800 ≤ c ∧ c < 0xE000) ∨ 0x110000 ≤ c

/-- The call is refused: the type is unknown, or the output name that is given does not end with it. -/
inductive NameRefused (t : PyStr) : Option PyStr → Prop
  | type {o} : t ∉ outTypes → NameRefused t o
  | name {o} : ¬ t <:+ o → ¬ t ++ pstr "\n" <:+ o → NameRefused t (some o)

end Pdf.Spec
