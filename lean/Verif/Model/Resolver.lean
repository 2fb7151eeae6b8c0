import Verif.Model.Document
import Verif.Model.ObjEq
/-! Model of the typed accessors of objects (parser/PDFStream/util.py) and of generators. -/

namespace Pdf

/-- The bytes of an ASCII string (PSStackParser/types.py:62-80 compares names by their text). -/
def asc (s : String) : Bytes := s.toList.map fun c => UInt8.ofNat c.toNat

/-- The dictionary key with that name (keys are `literal_name`, PSStackParser/__init__.py:14-26, 138). -/
def nm (s : String) : Key := .name (asc s)

/-- A document as seen by the code that walks its objects: `resolve1(x)` (PDFStream/util.py:9-17) and `document.getobj(n)`. Objects do
not change while a document is read (`cache_transparency`), so both are functions. -/
structure Resolver where
  resolve1 : Obj → Except PyErr Obj
  getobj : Int → Except PyErr Obj

namespace Resolver
variable (R : Resolver)

/-- `int_value` (PDFStream/util.py:48-54), lenient. -/
def intValue (o : Obj) : Except PyErr Int :=
  match R.resolve1 o with
  | .ok (.int n) => .ok n
  | .ok (.bool b) => .ok (if b then 1 else 0)
  | .ok _ => .ok 0
  | .error e => .error e

/-- `list_value` (PDFStream/util.py:84-90), lenient. -/
def listValue (o : Obj) : Except PyErr (List Obj) :=
  match R.resolve1 o with
  | .ok (.arr l) => .ok l
  | .ok _ => .ok []
  | .error e => .error e

/-- `dict_value` (PDFStream/util.py:93-100), lenient. -/
def dictValue (o : Obj) : Except PyErr (List (Key × Obj)) :=
  match R.resolve1 o with
  | .ok (.dict d) => .ok d
  | .ok _ => .ok []
  | .error e => .error e

/-- `str_value` (PDFStream/util.py:75-81), lenient; `none` is the empty `str`, which is not `bytes`. -/
def strValue (o : Obj) : Except PyErr (Option Bytes) :=
  match R.resolve1 o with
  | .ok (.str s) => .ok (some s)
  | .ok _ => .ok none
  | .error e => .error e

end Resolver

/-- A finished Python generator: what it has yielded and the exception that ended it, if any (e.g. PDFPage.py:79-101). -/
abbrev Gen (α : Type) := List α × Option PyErr

/-- `for x in xs: yield from f(x)` (e.g. PDFPage.py:96-98). -/
def Gen.each {α β : Type} (f : α → Gen β) : List α → Gen β
  | [] => ([], none)
  | x :: xs =>
    match f x with
    | (ys, some e) => (ys, some e)
    | (ys, none) => (ys ++ (each f xs).1, (each f xs).2)

/-- One generator after the other (e.g. PDFDocument/__init__.py:236-241). -/
def Gen.andThen {α : Type} (g h : Gen α) : Gen α :=
  match g with
  | (ys, some e) => (ys, some e)
  | (ys, none) => (ys ++ h.1, h.2)

/-- `for x in g: yield f(x)` (e.g. PDFPage.py:104-107). -/
def Gen.mapE {α β : Type} (f : α → Except PyErr β) : List α → Option PyErr → Gen β
  | [], e => ([], e)
  | x :: xs, e =>
    match f x with
    | .error e' => ([], some e')
    | .ok y => (y :: (mapE f xs e).1, (mapE f xs e).2)

end Pdf
