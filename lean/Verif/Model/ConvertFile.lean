import Verif.Model.Outputs
import Verif.Model.Paths
import Verif.Model.Handler
/-! `convert_file` as a whole (converters/__init__.py:15-115): from the files before the call to the files after it. -/

namespace Pdf

/-- The files: the contents at each path, if there is a file. Simplification: two paths are the same file only if they are the same string (there are no links
and no relative paths), and nothing else changes files during the call (used by `open` at converters/text.py:30, converters/writers/json.py:9,
converters/writers/yaml.py:8, converters/writers/xml.py:11, converters/writers/html.py:14 and interpreter/__init__.py:46). -/
abbrev Files := PyStr → Option Bytes

/-- The files after a file is written, from `open(path, 'wb')` to its end (converters/text.py:30, converters/writers/json.py:9). -/
def Files.write (F : Files) (path : PyStr) (data : Bytes) : Files := fun q => if q = path then some data else F q

/-- The parameters of all converters (converters/html.py, converters/xml.py, converters/json.py, converters/yaml.py). -/
structure OutEnv extends HtmlEnv where
  valueText : Obj → PyStr

/-- The parameters of the YAML converter (converters/yaml.py:50-146). -/
def OutEnv.yaml (W : OutEnv) : YamlEnv := { W.toConvEnv with valueText := W.valueText }

/-- What `convert_to_text` has written of a page that was begun (converters/text.py:39-42). -/
def textBegun : Option LtPage → PyStr
  | none => []
  | some p => pstr "========== [ page " ++ numText p.num ++ pstr " ] ==========\n" ++ textItems p.items

/-- What each converter writes of what the interpreter delivers, before it is encoded, and how it ends (converters/html.py:33-47, converters/xml.py:62-65,
converters/json.py:44-48, converters/yaml.py:44-48, converters/text.py:30-42). -/
def written (W : OutEnv) (codec : PyStr) (D : Delivery) : Converter → PyStr × HtmlEnd
  | .html => htmlRun W.toHtmlEnv codec D.pages D.started D.error
  | .xml => match D.error with
    | none => (xmlFile W.toConvEnv codec D.pages, .done)
    | some e => (xmlCut W.toConvEnv codec D.pages D.started, .raised e)
  | .json => (jsonFile W.toConvEnv (D.pages ++ D.started.toList), .of D.error)
  | .yaml => (yamlFile W.yaml (D.pages ++ D.started.toList), .of D.error)
  | .text => (textFile D.pages ++ textBegun D.started, .of D.error)

/-- What the interpreter delivers from the file at a path (interpreter/__init__.py:43-64): it is opened only when the converter asks for the first page, and if
there is no file `open` raises `FileNotFoundError`. -/
def deliverFrom (S : Setup) (opts : Options) (fuel : Nat) : Option Bytes → Delivery
  | none => { error := some .osError }
  | some data => deliver S opts fuel data

/-- The bytes in the output file (`encode` at converters/text.py:36, 40, 42, converters/writers/json.py:29-35, converters/writers/yaml.py:27-33,
converters/writers/xml.py:22-28, converters/writers/html.py:21-27). If some character has no UTF-8 form, `encode` raises `UnicodeEncodeError` (a `ValueError`);
what is in the file then is not modelled: it is the parameter `garbled`. -/
def encoded (garbled : Bytes) (t : PyStr × HtmlEnd) : Bytes × HtmlEnd :=
  match utf8Encode t.1 with
  | .ok b => (b, t.2)
  | .error e => (garbled, .raised e)

/-- `convert_file` (converters/__init__.py:15-115) with the codec `utf-8`: the files after the call, and how it ends. The output file is opened first
(`canOpen` tells whether `open(path, 'wb')` works), which makes it empty. What is written is kept in the buffer of the file until the input is read for the
first time, so if the output is the input then the interpreter reads an empty file. `image_folder_path` and `dont_export_images` are passed on and not used
(converters/__init__.py:43-44, 58, 66, 73, 81, 88, 96, 103, 111; no converter calls `save_image`). -/
def convertFileRun (isWord : Nat → Bool) (canOpen : PyStr → Bool) (W : OutEnv) (S : Setup) (garbled : Bytes) (opts : Options) (fuel : Nat) (F : Files)
    (input : PyStr) (output : Option PyStr) (outType : PyStr) : Files × HtmlEnd :=
  match convertFile isWord input output outType with
  | .error e => (F, .raised e)
  | .ok (c, out) =>
    if canOpen out then
      let r := encoded garbled (written W (pstr "utf-8") (deliverFrom S opts fuel ((F.write out []) input)) c)
      (F.write out r.1, r.2)
    else (F, .raised .osError)

end Pdf
