import Verif.Model.ConvertFile
import Verif.Model.Bmp
/-! Images in files: `LTImage` and its method `save_image` (interpreter/commands/state/layout/LTImage.py). -/

namespace Pdf

/-- A number: `int` or `float` (the width and height of a box, utils/types.py:23-29). Simplification: floats are exact. -/
inductive PyNum where
  | int (n : Int)
  | float (q : ℚ)
deriving DecidableEq

/-- `'%d' % n` for an integer (interpreter/commands/state/layout/LTImage.py:50, 52). -/
def intDigits (n : Int) : PyStr := if n < 0 then 0x2d :: numText n.natAbs else numText n.natAbs

/-- The integer a float is cut to by `%d` (interpreter/commands/state/layout/LTImage.py:50, 52): towards zero. -/
def cutFloat (q : ℚ) : Int := Int.tdiv q.num q.den

/-- `'%d' % x` (interpreter/commands/state/layout/LTImage.py:50, 52) for the width and the height. -/
def PyNum.digits : PyNum → PyStr
  | .int n => intDigits n
  | .float q => intDigits (cutFloat q)

/-- `'%d' % bits` (interpreter/commands/state/layout/LTImage.py:52): only numbers have digits. -/
def bitsDigits (o : Obj) : Except PyErr PyStr :=
  match o with
  | .int n => .ok (intDigits n)
  | .real m k => .ok (intDigits (cutFloat (m / 10 ^ k)))
  | .bool b => .ok (intDigits (if b then 1 else 0))
  | _ => .error .typeError

/-- The attributes of an `LTImage` (interpreter/commands/state/layout/LTImage.py:21-32) that `save_image` uses. `name` is `str(id(obj))`
(state/layout/__init__.py:115), `decode` is what `decode` of the stream computes from its raw data (PDFStream/__init__.py:80-135). -/
structure LtImage where
  name : PyStr
  attrs : List (Key × Obj)
  decode : Bytes → Except PyErr Bytes
  width : PyNum
  height : PyNum

/-- `self.bits` (interpreter/commands/state/layout/LTImage.py:28): 1 by default; references are not resolved. -/
def LtImage.bits (i : LtImage) : Obj := (getAny i.attrs ["BPC", "BitsPerComponent"]).getD (.int 1)

/-- `self.colorspace` (interpreter/commands/state/layout/LTImage.py:29-31): always a list. -/
def LtImage.colorspace (i : LtImage) : List Obj :=
  match (getAny i.attrs ["CS", "ColorSpace"]).getD .null with
  | .arr l => l
  | o => [o]

/-- `bits == n` (interpreter/commands/state/layout/LTImage.py:48, 49, 71, 73, 75). -/
def bitsAre (o : Obj) (n : Int) : Bool := o.num? = some (n : ℚ)

/-- `self.colorspace is LITERAL` and `self.colorspace in (LITERAL, …)` (interpreter/commands/state/layout/LTImage.py:49, 73, 75): the colour space is a list,
and a list is not a literal. -/
def listIsLiteral (_cs : List Obj) (_name : String) : Bool := false

/-- The branches that choose the extension (interpreter/commands/state/layout/LTImage.py:46-52). -/
inductive ImageKind where
  | jpg
  | bmp
  | img
deriving DecidableEq

/-- `len(filters) == 1 and filters[0][0] in LITERALS_DCT_DECODE` (interpreter/commands/state/layout/LTImage.py:46). -/
def onlyDct : List (Obj × Obj) → Bool
  | [(f, _)] => isFilter f ["DCTDecode", "DCT"]
  | _ => false

/-- The choice of the extension (interpreter/commands/state/layout/LTImage.py:46-52). -/
def LtImage.kind (i : LtImage) (filters : List (Obj × Obj)) : ImageKind :=
  if onlyDct filters then .jpg
  else if bitsAre i.bits 1 ∨ (bitsAre i.bits 8 ∧ (listIsLiteral i.colorspace "DeviceRGB" ∨ listIsLiteral i.colorspace "DeviceGray")) then .bmp
  else .img

/-- `ext` (interpreter/commands/state/layout/LTImage.py:47, 50, 52). -/
def LtImage.ext (i : LtImage) : ImageKind → Except PyErr PyStr
  | .jpg => .ok (pstr ".jpg")
  | .bmp => .ok (pstr ".w" ++ i.width.digits ++ pstr "h" ++ i.height.digits ++ pstr ".bmp")
  | .img => do .ok (pstr ".b" ++ (← bitsDigits i.bits) ++ pstr "w" ++ i.width.digits ++ pstr "h" ++ i.height.digits ++ pstr ".img")

/-- `file_name` (interpreter/commands/state/layout/LTImage.py:54-57). -/
def LtImage.fileName (i : LtImage) (fileName : Option PyStr) (ext : PyStr) : PyStr := fileName.getD i.name ++ ext

/-- The calls of `write_line` (BMPWriter/__init__.py:57-60), with the file that is left if one of them fails. -/
def BmpWriter.linesTo (w : BmpWriter) : List (Int × Bytes) → BmpWriter × Option PyErr
  | [] => (w, none)
  | (y, d) :: rest => match w.writeLine y d with
    | .error e => (w, some e)
    | .ok w' => w'.linesTo rest

/-- What the data gives after the header is written (BMPWriter/__init__.py:17-21): the file, and how it ends. -/
def bmpBody (w : BmpWriter) (height step : Int) : Except PyErr Bytes → Bytes × Option PyErr
  | .error e => (w.fp.content, some e)
  | .ok data =>
    let r := w.linesTo ((List.range height.toNat).map fun (y : Nat) => ((y : Int), pySlice data ((y : Int) * step) ((y : Int) * step + step)))
    (r.1.fp.content, r.2)

/-- `write_all` (BMPWriter/__init__.py:14-21) into a fresh file: the file, how it ends, and the stream afterwards. `struct.pack` takes no floats, and the header
is packed before the data is read. -/
def bmpSave (decode : Bytes → Except PyErr Bytes) (s : StreamSt) (width height : PyNum) : Bytes × Option PyErr × StreamSt :=
  match width, height with
  | .int w, .int h => match bmpNew 1 w h with
    | .error e => ([], some e, s)
    | .ok bmp => let r := bmpBody bmp h ((w + 7) / 8) (s.getData decode).1
      (r.1, r.2, (s.getData decode).2)
  | _, _ => ([], some .structError, s)

/-- `LITERAL_DEVICE_CMYK in self.colorspace` (interpreter/commands/state/layout/LTImage.py:63). -/
def LtImage.cmyk (i : LtImage) : Bool := i.colorspace.any fun o => isFilter o ["DeviceCMYK"]

/-- The JPEG branch (interpreter/commands/state/layout/LTImage.py:61-70). `import PIL` (line 4) does not load `PIL.Image`: `invert` is what Pillow makes of the
data, if the program has loaded it; otherwise `AttributeError`. `fp.write(None)` raises `TypeError`. -/
def jpgSave (invert : Option (Bytes → Except PyErr Bytes)) (cmyk : Bool) (s : StreamSt) : Bytes × Option PyErr :=
  if cmyk then
    match invert with
    | none => ([], some .attributeError)
    | some f => match f (s.rawdata.getD []) with
      | .ok d => (d, none)
      | .error e => ([], some e)
  else match s.rawdata with
    | some d => (d, none)
    | none => ([], some .typeError)

/-- `fp.write(stream.get_data())` (interpreter/commands/state/layout/LTImage.py:78). -/
def rawSave (decode : Bytes → Except PyErr Bytes) (s : StreamSt) : Bytes × Option PyErr × StreamSt :=
  match s.getData decode with
  | (.ok d, s') => (d, none, s')
  | (.error e, s') => ([], some e, s')

/-- What is in the file in the end (interpreter/commands/state/layout/LTImage.py:60-78). The branches at lines 73-76 are never taken
(the colour space is no literal). -/
def LtImage.fill (i : LtImage) (invert : Option (Bytes → Except PyErr Bytes)) (s : StreamSt) : ImageKind → Bytes × Option PyErr × StreamSt
  | .jpg => let r := jpgSave invert i.cmyk s
    (r.1, r.2, s)
  | _ => if bitsAre i.bits 1 then bmpSave i.decode s i.width i.height else rawSave i.decode s

/-- `save_image` (interpreter/commands/state/layout/LTImage.py:39-79): the files afterwards, the stream afterwards, and the path that is returned. `R` resolves
references among the filters, `canOpen` tells whether `open(path, 'wb')` works. -/
def LtImage.save (i : LtImage) (R : Resolver) (canOpen : PyStr → Bool) (invert : Option (Bytes → Except PyErr Bytes)) (F : Files) (s : StreamSt)
    (outdir : PyStr) (fileName : Option PyStr) : Files × StreamSt × Except PyErr PyStr :=
  match getFilters R i.attrs with
  | .error e => (F, s, .error e)
  | .ok filters => match i.ext (i.kind filters) with
    | .error e => (F, s, .error e)
    | .ok ext =>
      let path := pathJoin outdir (i.fileName fileName ext)
      if canOpen path then
        match i.fill invert s (i.kind filters) with
        | (d, none, s') => (F.write path d, s', .ok path)
        | (d, some e, s') => (F.write path d, s', .error e)
      else (F, s, .error .osError)

end Pdf
