import Verif.Model.Text
/-! Model of `convert_file` (converters/__init__.py): the choice of the output path and of the converter.

Paths are lists of code points; `os.path` is `posixpath`. `isWord` is the class `\w` of Python's `re`. -/

namespace Pdf

/-- The code points of a string literal (converters/__init__.py:29-115). -/
def pstr (s : String) : PyStr := s.toList.map Char.toNat

/-- `p[:p.rfind('/') + 1]` (`os.path.dirname`, used at converters/__init__.py:32). -/
def pathHead (p : PyStr) : PyStr := (p.reverse.dropWhile fun c => c != 0x2f).reverse

/-- `os.path.basename(p)` (used at converters/__init__.py:33). -/
def pathBase (p : PyStr) : PyStr := (p.reverse.takeWhile fun c => c != 0x2f).reverse

/-- `os.path.dirname(p)` (used at converters/__init__.py:32): the slashes at the end of the head are removed unless it has only
slashes. -/
def pathDir (p : PyStr) : PyStr :=
  if (pathHead p).all (fun c => c == 0x2f) then pathHead p
  else ((pathHead p).reverse.dropWhile fun c => c == 0x2f).reverse

/-- `os.path.join(a, b)` (used at converters/__init__.py:31). -/
def pathJoin (a b : PyStr) : PyStr :=
  match b with
  | 0x2f :: _ => b
  | _ => if a = [] ∨ a.getLast? = some 0x2f then a ++ b else a ++ [0x2f] ++ b

/-- `re.sub(r"\.\w+$", "." + out_type, p)` (converters/__init__.py:34): `$` also matches before a newline at the end. The escapes of the
replacement text are not modelled: the known types have none. -/
def subExtension (isWord : Nat → Bool) (outType p : PyStr) : PyStr :=
  let nl := p.getLast? = some 0x0a
  let body := if nl then p.dropLast else p
  let word := (body.reverse.takeWhile isWord).reverse
  let rest := (body.reverse.dropWhile isWord).reverse
  if word ≠ [] ∧ rest.getLast? = some 0x2e then rest ++ outType ++ (if nl then [0x0a] else []) else p

/-- `re.search(re.escape(out_type) + r'$', output_file)` finds a match (converters/__init__.py:37). -/
def endsWithType (outType output : PyStr) : Bool :=
  decide (outType <:+ output) || decide (outType ++ [0x0a] <:+ output)

/-- The converters (converters/__init__.py:39-114). -/
inductive Converter where
  | html
  | xml
  | json
  | yaml
  | text
deriving DecidableEq

/-- The converter of a type (converters/__init__.py:39-115). -/
def converterOf (outType : PyStr) : Option Converter :=
  if outType = pstr "html" then some .html
  else if outType = pstr "xml" then some .xml
  else if outType = pstr "json" then some .json
  else if outType = pstr "yaml" ∨ outType = pstr "yml" then some .yaml
  else if outType = pstr "text" then some .text
  else none

/-- `convert_file` (converters/__init__.py:15-115): the converter that is called and the output path it is given. -/
def convertFile (isWord : Nat → Bool) (input : PyStr) (output : Option PyStr) (outType : PyStr) : Except PyErr (Converter × PyStr) :=
  let out := output.getD (pathJoin (pathDir input) (pathBase (subExtension isWord outType input)))
  if endsWithType outType out = false then .error .converter
  else
    match converterOf outType with
    | none => .error .converter
    | some c => .ok (c, out)

end Pdf
