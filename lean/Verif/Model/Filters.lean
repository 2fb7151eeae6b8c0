import Verif.Model.Resolver
import Verif.Model.Names
import Verif.Model.Lzw
import Verif.Model.Ascii85
import Verif.Model.RunLength
import Verif.Model.Png
import Verif.Model.Ccitt
/-! Model of `PDFStream` (pdfmajor/parser/PDFStream/__init__.py): filters, predictors and the cached data. `zlib` is a parameter. -/

namespace Pdf

/-- `get_any` (PDFStream/__init__.py:54-58). -/
def getAny (attrs : List (Key × Obj)) : List String → Option Obj
  | [] => none
  | n :: ns => match dictGet attrs (nm n) with
    | some o => some o
    | none => getAny attrs ns

/-- `x[0]` (Python built-in; used at PDFStream/__init__.py:76). The keys of dictionaries are strings. -/
def item0 : Obj → Except PyErr Obj
  | .arr (x :: _) => .ok x
  | .arr [] => .error .indexError
  | .str (b :: _) => .ok (.int b.toNat)
  | .str [] => .error .indexError
  | .dict _ => .error .keyError
  | .stream _ _ => .error .keyError
  | _ => .error .typeError

/-- `fltr.resolve()[0]` for references (PDFStream/__init__.py:73-77, PDFObjRef.py:26-30). -/
def resolveFilter (R : Resolver) : Obj → Except PyErr Obj
  | .ref id _ => match R.getobj id with
    | .ok o => item0 o
    | .error .pdfObjectNotFound => .error .typeError
    | .error e => .error e
  | o => .ok o

/-- The loop over the filters (PDFStream/__init__.py:73-77). -/
def resolveFilters (R : Resolver) : List Obj → Except PyErr (List Obj)
  | [] => .ok []
  | o :: os => match resolveFilter R o with
    | .error e => .error e
    | .ok f => match resolveFilters R os with
      | .error e => .error e
      | .ok fs => .ok (f :: fs)

/-- A list stays, anything else is repeated (PDFStream/__init__.py:65-69). -/
def listFrom (n : Nat) : Obj → List Obj
  | .arr l => l
  | o => List.replicate n o

/-- `get_filters` (PDFStream/__init__.py:60-78), lenient. -/
def getFilters (R : Resolver) (attrs : List (Key × Obj)) : Except PyErr (List (Obj × Obj)) :=
  match getAny attrs ["F", "Filter"] with
  | none => .ok []
  | some filters =>
    if filters.truthy then
      let filters := listFrom 1 filters
      let params := listFrom filters.length ((getAny attrs ["DP", "DecodeParms", "FDecodeParms"]).getD (.dict []))
      match resolveFilters R filters with
      | .error e => .error e
      | .ok fs => .ok (fs.zip params)
    else .ok []

/-- `f in LITERALS_…` (PDFStream/__init__.py:92-114, constants.py:4-13). -/
def isFilter (f : Obj) (names : List String) : Bool :=
  match f with
  | .name n => names.any fun s => asc s == n
  | _ => false

/-- `params.get` in `ccittfaxdecode` (ccitt.py:549-552; PDFStream/__init__.py:120). -/
def paramsDict : Obj → Except PyErr (List (Key × Obj))
  | .dict d => .ok d
  | .stream d _ => .ok d
  | _ => .error .attributeError

/-- One filter (PDFStream/__init__.py:92-118). `PDFNotImplementedError` is not imported there. -/
def applyFilter (inflate : Bytes → Option Bytes) (f params : Obj) (data : Bytes) : Except PyErr Bytes :=
  if isFilter f ["FlateDecode", "Fl"] then .ok ((inflate data).getD [])
  else if isFilter f ["LZWDecode", "LZW"] then lzwdecode data
  else if isFilter f ["ASCII85Decode", "A85"] then ascii85decode data
  else if isFilter f ["ASCIIHexDecode", "AHx"] then .ok (asciihexdecode data)
  else if isFilter f ["RunLengthDecode", "RL"] then rldecode data
  else if isFilter f ["CCITTFaxDecode", "CCF"] then
    match paramsDict params with
    | .error e => .error e
    | .ok p => ccittfaxdecode data p
  else if isFilter f ["DCTDecode", "DCT"] then .ok data
  else .error .nameError

/-- `params and 'Predictor' in params` (PDFStream/__init__.py:120): the dictionary, if it has the entry. -/
def predictorParams : Obj → Except PyErr (Option (List (Key × Obj)))
  | .dict d => .ok (if (dictGet d (nm "Predictor")).isSome then some d else none)
  | .stream d _ => .ok (if (dictGet d (nm "Predictor")).isSome then some d else none)
  | .arr _ => .ok none
  | o => if o.truthy then .error .typeError else .ok none

/-- `apply_png_predictor` for any numbers (utils/generic.py:28-67). -/
def applyPngPredictorInt (colors columns bits : Int) (data : Bytes) : Except PyErr Bytes :=
  if bits ≠ 8 then .error .valueError
  else
    let nbytes := colors * columns * bits / 8
    if nbytes + 1 = 0 then .error .valueError
    else if nbytes < 0 then .ok []
    else pngRows nbytes.toNat data (List.replicate columns.toNat 0) []

/-- `int_value(params.get(name, default))` (PDFStream/__init__.py:127-129). -/
def intParam (R : Resolver) (d : List (Key × Obj)) (name : String) (default : Int) : Except PyErr Int :=
  R.intValue ((dictGet d (nm name)).getD (.int default))

/-- The PNG predictor with its parameters (PDFStream/__init__.py:125-130). -/
def pngStage (R : Resolver) (d : List (Key × Obj)) (data : Bytes) : Except PyErr Bytes := do
  let colors ← intParam R d "Colors" 1
  let columns ← intParam R d "Columns" 1
  let bits ← intParam R d "BitsPerComponent" 8
  applyPngPredictorInt colors columns bits data

/-- The predictor of one filter (PDFStream/__init__.py:119-132). -/
def applyPredictor (R : Resolver) (params : Obj) (data : Bytes) : Except PyErr Bytes :=
  match predictorParams params with
  | .error e => .error e
  | .ok none => .ok data
  | .ok (some d) =>
    match R.intValue ((dictGet d (nm "Predictor")).getD .null) with
    | .error e => .error e
    | .ok pred => if pred = 1 then .ok data else if 10 ≤ pred then pngStage R d data else .error .nameError

/-- The loop over the filters (PDFStream/__init__.py:91-132). -/
def applyStages (R : Resolver) (inflate : Bytes → Option Bytes) : List (Obj × Obj) → Bytes → Except PyErr Bytes
  | [], data => .ok data
  | (f, params) :: rest, data =>
    match applyFilter inflate f params data with
    | .error e => .error e
    | .ok data => match applyPredictor R params data with
      | .error e => .error e
      | .ok data => applyStages R inflate rest data

/-- Decryption, if there is a `decipher` (PDFStream/__init__.py:82-85). -/
def decipherData (decipher : Option (Bytes → Except PyErr Bytes)) (raw : Bytes) : Except PyErr Bytes :=
  match decipher with
  | some f => f raw
  | none => .ok raw

/-- The data that `decode` stores (PDFStream/__init__.py:80-135). `decipher` is applied to the data, the number and the attributes of the
stream. -/
def decodeStream (R : Resolver) (inflate : Bytes → Option Bytes) (decipher : Option (Bytes → Except PyErr Bytes))
    (attrs : List (Key × Obj)) (raw : Bytes) : Except PyErr Bytes :=
  match decipherData decipher raw with
  | .error e => .error e
  | .ok data => match getFilters R attrs with
    | .error e => .error e
    | .ok fs => applyStages R inflate fs data

/-- The variables of a stream object that change (PDFStream/__init__.py:22-30). -/
structure StreamSt where
  rawdata : Option Bytes
  data : Option Bytes

/-- `PDFStream(attrs, rawdata, decipher)` (PDFStream/__init__.py:22-30). -/
def StreamSt.fresh (raw : Bytes) : StreamSt := ⟨some raw, none⟩

/-- `get_data` (PDFStream/__init__.py:137-140, 80-81, 133-134). `decode` is the function of the raw data described above. -/
def StreamSt.getData (decode : Bytes → Except PyErr Bytes) (s : StreamSt) : Except PyErr Bytes × StreamSt :=
  match s.data with
  | some d => (.ok d, s)
  | none => match s.rawdata with
    | none => (.error .assertion, s)
    | some raw => match decode raw with
      | .error e => (.error e, s)
      | .ok d => (.ok d, ⟨none, some d⟩)

end Pdf
