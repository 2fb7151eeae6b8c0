import Verif.Model.SaveImage
import Verif.Model.Outputs
import Mathlib.Data.Rat.Floor
/-! The program that saves the images of a document (tests/test_image_writer.py:24-37). -/

namespace Pdf

/-- What the program depends on (tests/test_image_writer.py:24-37), besides the pages: the folder and the first part of the names; `objects` and `inflate` for
the filters (C08), files and Pillow as in `save_image` (C105). `holds n j` tells which stream object item `j` of page `n` has: when objects are cached
(PDFDocument/__init__.py:117-124), an image that is drawn twice is one object. `floats n j` tells whether the width and the height of its box are `float`s: the
model keeps only their values. -/
structure SaveEnv where
  outdir : PyStr
  base : PyStr
  objects : Resolver
  inflate : Bytes → Option Bytes
  canOpen : PyStr → Bool
  invert : Option (Bytes → Except PyErr Bytes)
  holds : Nat → Nat → Nat
  floats : Nat → Nat → Bool × Bool

/-- A number of a box (utils/types.py:23-29) in Python: a `float`, or an `int` (which a number that is no integer cannot be). -/
def pyNumber (float : Bool) (q : ℚ) : PyNum := if float then .float q else .int ⌊q⌋

/-- `f'{file_name}_p{page.page_num}i{item_idx}'` (tests/test_image_writer.py:36). -/
def SaveEnv.fileName (L : SaveEnv) (n j : Nat) : PyStr := L.base ++ pstr "_p" ++ numText n ++ pstr "i" ++ numText j

/-- Item `j` of page `n` as an `LTImage` (state/layout/__init__.py:112-121, interpreter/commands/state/layout/LTImage.py:21-32). -/
def SaveEnv.image (L : SaveEnv) (n j : Nat) (d : List (Key × Obj)) (box : Bbox) : LtImage where
  name := numText (L.holds n j)
  attrs := d
  decode := decodeStream L.objects L.inflate none d
  width := pyNumber (L.floats n j).1 (box.x1 - box.x0)
  height := pyNumber (L.floats n j).2 (box.y1 - box.y0)

/-- The stream objects that were used (PDFStream/__init__.py:22-30), by what identifies them. -/
abbrev StreamObjs := Nat → Option StreamSt

/-- A stream object after a call (PDFStream/__init__.py:133-134). -/
def StreamObjs.put (T : StreamObjs) (k : Nat) (s : StreamSt) : StreamObjs := fun q => if q = k then some s else T q

/-- The loop over the items of a page (tests/test_image_writer.py:31-37), from item `j` on: `isinstance(item, LTImage)`, `save_image`. -/
def SaveEnv.items (L : SaveEnv) (n : Nat) : (j : Nat) → List Item → Files → StreamObjs → Files × StreamObjs × Option PyErr
  | _, [], F, T => (F, T, none)
  | j, .image d raw box :: rest, F, T =>
    match (L.image n j d box).save L.objects L.canOpen L.invert F ((T (L.holds n j)).getD (.fresh raw)) L.outdir (some (L.fileName n j)) with
    | (F', s, .ok _) => L.items n (j + 1) rest F' (T.put (L.holds n j) s)
    | (F', s, .error e) => (F', T.put (L.holds n j) s, some e)
  | j, _ :: rest, F, T => L.items n (j + 1) rest F T

/-- The loop over the pages (tests/test_image_writer.py:26-30). -/
def SaveEnv.pages (L : SaveEnv) : List LtPage → Files → StreamObjs → Files × StreamObjs × Option PyErr
  | [], F, T => (F, T, none)
  | p :: ps, F, T =>
    match L.items p.num 0 p.items F T with
    | (F', T', none) => L.pages ps F' T'
    | r => r

/-- The items before an exception of the interpreter are saved too (interpreter/__init__.py:58-62: both loops are over generators). -/
def SaveEnv.last (L : SaveEnv) (e : Option PyErr) (r : Files × StreamObjs × Option PyErr) : Option LtPage → Files × Option PyErr
  | none => (r.1, e)
  | some p => match L.items p.num 0 p.items r.1 r.2.1 with
    | (F', _, some e') => (F', some e')
    | (F', _, none) => (F', e)

/-- The whole program (tests/test_image_writer.py:24-37) for one document: the files afterwards, and how it ends. -/
def saveAll (L : SaveEnv) (S : Setup) (opts : Options) (fuel : Nat) (data : Bytes) (F : Files) : Files × Option PyErr :=
  match L.pages (deliver S opts fuel data).pages F (fun _ => none) with
  | (F', _, some e) => (F', some e)
  | r => L.last (deliver S opts fuel data).error r (deliver S opts fuel data).started

end Pdf
