import Verif.Model.ConvertFile
import Verif.Model.Xref
/-! The command `pdfconvert` (tools/pdfconvert.py), from the parsed arguments on. -/

namespace Pdf

/-- The parsed arguments (tools/pdfconvert.py:11-23, 31-32). `--debug` and `--output-dir` are parsed and not used. Not modelled: the parser of the command line itself
(`argparse`), and `--codec`, which stays at its default `utf-8`. -/
structure CliArgs where
  files : List PyStr
  pagenos : Option PyStr := none
  maxpages : Int := 0
  password : Option PyStr := none
  outputType : PyStr := pstr "text"
  outputFile : PyStr := pstr "-"
  disableCaching : Bool := false

/-- How the command ends: with a status, or with an exception (tools/pdfconvert.py:29-62, 65-66). -/
inductive CliEnd where
  | status (n : Nat)
  | failed (r : HtmlEnd)
deriving DecidableEq

/-- `s.split(",")` (tools/pdfconvert.py:42). -/
def splitComma : PyStr → List PyStr
  | [] => [[]]
  | c :: cs =>
    if c = 0x2c then [] :: splitComma cs
    else match splitComma cs with
      | f :: fs => (c :: f) :: fs
      | [] => [[c]]

/-- `int(x)` of a `str` (tools/pdfconvert.py:42). On texts with characters outside ASCII, or with one of the four separators 28 to 31, Python knows more blanks and more
digits: there it is the parameter `other`. -/
def pyIntText (other : PyStr → Except PyErr Int) (x : PyStr) : Except PyErr Int :=
  if x.all (fun c => decide (c < 128) && !(decide (28 ≤ c) && decide (c ≤ 31))) then pyInt (x.map UInt8.ofNat) else other x

/-- `[int(x)-1 for x in fields]` (tools/pdfconvert.py:42). -/
def pageIndexes (other : PyStr → Except PyErr Int) : List PyStr → Except PyErr (List Int)
  | [] => .ok []
  | x :: xs =>
    match pyIntText other x with
    | .error e => .error e
    | .ok n => match pageIndexes other xs with
      | .error e => .error e
      | .ok ns => .ok ((n - 1) :: ns)

/-- The value of `pagenos` that is passed on, empty for none (tools/pdfconvert.py:41-42): an empty argument is no argument. A set is a list here; it is only
asked for members (parser/PDFPage.py:133). -/
def cliPages (other : PyStr → Except PyErr Int) : Option PyStr → Except PyErr (List Int)
  | none => .ok []
  | some [] => .ok []
  | some s => pageIndexes other (splitComma s)

/-- The types by the ending of the output file, in order (tools/pdfconvert.py:45-48). -/
def cliOverrides : List (PyStr × PyStr) := [(pstr ".htm", pstr "html"), (pstr ".html", pstr "html"), (pstr ".xml", pstr "xml"), (pstr ".tag", pstr "tag")]

/-- `out_type`, `html` if it is not passed (tools/pdfconvert.py:44-50, converters/__init__.py:28): the last ending that fits. `--output-type` itself is never passed. -/
def cliType (a : CliArgs) : PyStr :=
  if a.outputType = pstr "text" ∧ a.outputFile ≠ pstr "-" then
    cliOverrides.foldl (fun t p => if p.1 <:+ a.outputFile then p.2 else t) (pstr "html")
  else pstr "html"

/-- `main` (tools/pdfconvert.py:29-62). With an output file, `convert_file` is given an open file instead of a path, and `re.search` at converters/__init__.py:37 raises
`TypeError` whatever the type is; the file was opened with `wb`, so it is empty then. -/
def cliRun (isWord : Nat → Bool) (canOpen : PyStr → Bool) (W : OutEnv) (S : Setup) (garbled : Bytes) (other : PyStr → Except PyErr Int) (fuel : Nat) (F : Files)
    (a : CliArgs) : Files × CliEnd :=
  match cliPages other a.pagenos with
  | .error e => (F, .failed (.raised e))
  | .ok pages =>
    match a.files with
    | [file] =>
      if a.outputFile ≠ pstr "-" then
        if canOpen a.outputFile then (F.write a.outputFile [], .failed (.raised .typeError)) else (F, .failed (.raised .osError))
      else
        match convertFileRun isWord canOpen W S garbled { caching := !a.disableCaching, maxpages := a.maxpages, pagenos := pages, password := a.password } fuel F file none (cliType a) with
        | (G, .done) => (G, .status 0)
        | (G, r) => (G, .failed r)
    | _ => (F, .status 1)

end Pdf
