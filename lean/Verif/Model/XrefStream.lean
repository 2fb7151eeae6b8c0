import Verif.Model.ObjEq
import Verif.Model.Xref
/-! Model of cross-reference streams (parser/PDFDocument/PDFXRef.py) and of the chain of cross-reference sections
(parser/PDFDocument/__init__.py). -/

namespace Pdf

variable {σ : Type}

/-- A slice index of Python: negative ones count from the end; then it is clamped (used at PDFDocument/PDFXRef.py:203-234). -/
def sliceIdx (len : Nat) (i : Int) : Nat :=
  if i < 0 then (i + len).toNat else min i.toNat len

/-- `s[i:j]` (used at PDFDocument/PDFXRef.py:203-234). -/
def pySlice {α : Type} (s : List α) (i j : Int) : List α :=
  (s.drop (sliceIdx s.length i)).take (sliceIdx s.length j - sliceIdx s.length i)

/-- `PDFXRefStream` (PDFXRef.py:167-174). -/
structure XStream where
  ranges : List (Int × Int)
  fl1 : Int
  fl2 : Int
  fl3 : Int
  data : Bytes
  trailer : List (Key × Obj)

/-- `entlen` (PDFXRef.py:193). -/
def XStream.entlen (x : XStream) : Int := x.fl1 + x.fl2 + x.fl3

/-- The entry number `index`: `data[offset:offset+entlen]` (PDFXRef.py:206-207, 223-224). -/
def XStream.ent (x : XStream) (index : Int) : Bytes :=
  pySlice x.data (x.entlen * index) (x.entlen * index + x.entlen)

/-- The type of an entry: `nunpack(ent[:fl1], 1)` (PDFXRef.py:208, 225). -/
def XStream.kind (x : XStream) (ent : Bytes) : Except PyErr Nat := nunpack (pySlice ent 0 x.fl1) 1

/-- `range(nobjs)` of `get_objids` (PDFXRef.py:205-210). -/
def XStream.objidsRange (x : XStream) (start : Int) : (todo : Nat) → (i : Nat) → Except PyErr (List Int)
  | 0, _ => .ok []
  | n + 1, i =>
    match x.kind (x.ent i) with
    | .error e => .error e
    | .ok f1 => match x.objidsRange start n (i + 1) with
      | .error e => .error e
      | .ok r => .ok (if f1 = 1 ∨ f1 = 2 then (start + i) :: r else r)

/-- `get_objids` (PDFXRef.py:203-211), all values; the index starts at 0 again in every range. -/
def XStream.getObjids (x : XStream) : List (Int × Int) → Except PyErr (List Int)
  | [] => .ok []
  | (start, nobjs) :: rs =>
    match x.objidsRange start nobjs.toNat 0 with
    | .error e => .error e
    | .ok a => match x.getObjids rs with
      | .error e => .error e
      | .ok b => .ok (a ++ b)

/-- The search for the range of `objid` (PDFXRef.py:214-222). -/
def findRange (objid : Int) : (index : Int) → List (Int × Int) → Option Int
  | _, [] => none
  | index, (start, nobjs) :: rs =>
    if start ≤ objid ∧ objid < start + nobjs then some (index + (objid - start))
    else findRange objid (index + nobjs) rs

/-- `get_pos` (PDFXRef.py:213-234). -/
def XStream.getPos (x : XStream) (objid : Int) : Except PyErr XPos :=
  match findRange objid 0 x.ranges with
  | none => .error .keyError
  | some index =>
    match x.kind (x.ent index) with
    | .error e => .error e
    | .ok f1 =>
      match nunpack (pySlice (x.ent index) x.fl1 (x.fl1 + x.fl2)) with
      | .error e => .error e
      | .ok f2 =>
        match nunpack (pySlice (x.ent index) (x.fl1 + x.fl2) (x.ent index).length) with
        | .error e => .error e
        | .ok f3 =>
          if f1 = 1 then .ok (none, f2, f3)
          else if f1 = 2 then .ok (some (f2 : Int), f3, 0)
          else .error .keyError

/-- The key `Type` (PDFDocument/PDFXRef.py:184). -/
def nameType : Key := .name [84, 121, 112, 101]
/-- `LITERAL_XREF` (PDFDocument/constants.py:5). -/
def nameXRef : Bytes := [88, 82, 101, 102]
/-- The key `Size` (PDFDocument/PDFXRef.py:186). -/
def nameSize : Key := .name [83, 105, 122, 101]
/-- The key `Index` (PDFDocument/PDFXRef.py:187). -/
def nameIndex : Key := .name [73, 110, 100, 101, 120]
/-- The key `W` (PDFDocument/PDFXRef.py:191). -/
def nameW : Key := .name [87]
/-- The key `XRefStm` (PDFDocument/__init__.py:325). -/
def nameXRefStm : Key := .name [88, 82, 101, 102, 83, 116, 109]
/-- The key `Prev` (PDFDocument/__init__.py:328). -/
def namePrev : Key := .name [80, 114, 101, 118]

/-- `choplist(2, index_array)` (utils/generic.py:116-124) of integers. Other elements raise `TypeError`; Python does so when it
first compares them. -/
def chop2 : List Obj → Except PyErr (List (Int × Int))
  | [] => .ok []
  | [_] => .error .pdfSyntaxError
  | .int a :: .int b :: r =>
    match chop2 r with
    | .ok l => .ok ((a, b) :: l)
    | .error e => .error e
  | _ :: _ :: _ => .error .typeError

/-- The `Index` of a cross-reference stream (PDFXRef.py:186-190): the default is `(0, Size)`. -/
def xsRanges (d : List (Key × Obj)) : Except PyErr (List (Int × Int)) :=
  match dictGet d nameSize with
  | none => .error .keyError
  | some size =>
    match dictGet d nameIndex with
    | none => chop2 [.int 0, size]
    | some (.arr l) => if l.length % 2 ≠ 0 then .error .pdfSyntaxError else chop2 l
    | some _ => .error .typeError

/-- The widths (PDFXRef.py:191). -/
def xsWidths (d : List (Key × Obj)) : Except PyErr (Int × Int × Int) :=
  match dictGet d nameW with
  | none => .error .keyError
  | some (.arr [.int a, .int b, .int c]) => .ok (a, b, c)
  | some (.arr [_, _, _]) => .error .typeError
  | some (.arr _) => .error .valueError
  | some _ => .error .typeError

/-- What `PDFXRefStream.load` does with the object it has read (PDFXRef.py:184-194). `decode` is `PDFStream.get_data`. -/
def xsOf (decode : List (Key × Obj) → Bytes → Except PyErr Bytes) (o : Obj) : Except PyErr XStream :=
  match o with
  | .stream d raw =>
    match dictGet d nameType with
    | none => .error .keyError
    | some t =>
      if t ≠ .name nameXRef then .error .nameError
      else match xsRanges d with
        | .error e => .error e
        | .ok ranges => match xsWidths d with
          | .error e => .error e
          | .ok (w1, w2, w3) => match decode d raw with
            | .error e => .error e
            | .ok data => .ok ⟨ranges, w1, w2, w3, data, d⟩
  | _ => .error .nameError

/-- `PDFXRefStream.load` (PDFXRef.py:179-198): three tokens are read and ignored, then an object. -/
def loadXstream (env : Env σ) (decode : List (Key × Obj) → Bytes → Except PyErr Bytes) (b fuel : Nat) (data : Bytes) (pos : Nat) (s : σ) :
    Except PyErr XStream × σ :=
  match (PSt.seek data pos).nexttoken b with
  | (.error e, _) => (.error e, s)
  | (.ok (_, _), ps) =>
    match ps.nexttoken b with
    | (.error e, _) => (.error e, s)
    | (.ok (_, _), ps) =>
      match ps.nexttoken b with
      | (.error e, _) => (.error e, s)
      | (.ok (_, _), ps) =>
        match nextobjectF env b fuel ps {} s with
        | (.error e, s) => (.error e, s)
        | (.ok (_, o), s) => (xsOf decode o, s)

/-- A cross-reference section (PDFDocument/PDFXRef.py:21-234). -/
inductive Xref where
  | table (t : XTable)
  | stream (x : XStream)

/-- `get_trailer` (PDFDocument/PDFXRef.py:98-99, 200-201). -/
def Xref.trailer : Xref → List (Key × Obj)
  | .table t => t.trailer
  | .stream x => x.trailer

/-- `get_pos` (PDFDocument/PDFXRef.py:104-108, 213-234). -/
def Xref.getPos : Xref → Int → Except PyErr XPos
  | .table t => t.getPos
  | .stream x => x.getPos

/-- `isinstance(token, int)`: `True` and `False` are integers in Python (used at PDFDocument/__init__.py:311). -/
def Tok.isInt : Tok → Bool
  | .int _ => true
  | .bool _ => true
  | _ => false

/-- One section (PDFDocument/__init__.py:304-322). A negative position cannot be sought. -/
def readSection (env : Env σ) (decode : List (Key × Obj) → Bytes → Except PyErr Bytes) (b fuel : Nat) (data : Bytes) (start : Int) (s : σ) :
    Except PyErr Xref × σ :=
  if start < 0 then (.error .valueError, s)
  else match (PSt.seek data start.toNat).nexttoken b with
    | (.error .psEOF, _) => (.error .pdfNoValidXRef, s)
    | (.error e, _) => (.error e, s)
    | (.ok (pos, token), ps) =>
      if token.isInt then
        match loadXstream env decode b fuel data pos s with
        | (.ok x, s) => (.ok (.stream x), s)
        | (.error e, s) => (.error e, s)
      else if token = .kw kwXref then
        match ps.nextline b with
        | (.error e, _) => (.error e, s)
        | (.ok _, ps) =>
          match loadXref env b fuel ps s with
          | (.ok t, s) => (.ok (.table t), s)
          | (.error e, s) => (.error e, s)
      else
        match loadXref env b fuel ps s with
        | (.ok t, s) => (.ok (.table t), s)
        | (.error e, s) => (.error e, s)

/-- `if key in trailer: pos = int_value(trailer[key]); read_xref_from(parser, pos, xrefs)` (PDFDocument/__init__.py:325-331), after
what happened before (an exception ends it). -/
def followKey (env : List Xref → Env σ) (read : Int → List Xref → σ → Option PyErr × List Xref × σ) (trailer : List (Key × Obj)) (key : Key)
    (r : Option PyErr × List Xref × σ) : Option PyErr × List Xref × σ :=
  match r with
  | (some e, xrefs, s) => (some e, xrefs, s)
  | (none, xrefs, s) =>
    match dictGet trailer key with
    | none => (none, xrefs, s)
    | some o =>
      match (env xrefs).intValue o s with
      | (.error e, s) => (some e, xrefs, s)
      | (.ok pos, s) => read pos xrefs s

/-- `read_xref_from` (PDFDocument/__init__.py:302-332). The environment may depend on the sections read so far (references
in trailers are resolved with them). The list `xrefs` is as it is left, also by an exception. The `fuel` bounds the number
of sections; Python recurses without bound on a cycle. -/
def readXrefFrom (env : List Xref → Env σ) (decode : List (Key × Obj) → Bytes → Except PyErr Bytes) (b : Nat) (data : Bytes) :
    (fuel : Nat) → (start : Int) → List Xref → σ → Option PyErr × List Xref × σ
  | 0, _, xrefs, s => (some .recursion, xrefs, s)
  | fuel + 1, start, xrefs, s =>
    match readSection (env xrefs) decode b fuel data start s with
    | (.error e, s) => (some e, xrefs, s)
    | (.ok x, s) =>
      followKey env (readXrefFrom env decode b data fuel) x.trailer namePrev
        (followKey env (readXrefFrom env decode b data fuel) x.trailer nameXRefStm (none, xrefs ++ [x], s))

/-- The sections a document starts with (PDFDocument/__init__.py:74-78): `PDFNoValidXRef` is swallowed. -/
def openXrefs (env : List Xref → Env σ) (decode : List (Key × Obj) → Bytes → Except PyErr Bytes) (b fuel : Nat) (data : Bytes) (s : σ) :
    Except PyErr (List Xref) × σ :=
  match findXref b data with
  | .error e => if e = .pdfNoValidXRef then (.ok [], s) else (.error e, s)
  | .ok pos =>
    match readXrefFrom env decode b data fuel pos [] s with
    | (none, xrefs, s) => (.ok xrefs, s)
    | (some e, xrefs, s) => if e = .pdfNoValidXRef then (.ok xrefs, s) else (.error e, s)

/-- The key `Info` (PDFDocument/__init__.py:94). -/
def nameInfo : Key := .name [73, 110, 102, 111]
/-- The key `Root` (PDFDocument/__init__.py:96). -/
def nameRoot : Key := .name [82, 111, 111, 116]

/-- The loop over the trailers (PDFDocument/__init__.py:84-101) of a document that is not encrypted: the list `info` and the
catalog. `dictv` is `dict_value`. -/
def rootLoop (dictv : Obj → Except PyErr (List (Key × Obj))) : List (List (Key × Obj)) → (info : List (List (Key × Obj))) →
    Except PyErr (List (List (Key × Obj)) × List (Key × Obj))
  | [], _ => .error .pdfSyntaxError
  | t :: ts, info =>
    let info' : Except PyErr (List (List (Key × Obj))) := match dictGet t nameInfo with
      | none => .ok info
      | some o => match dictv o with
        | .ok d => .ok (info ++ [d])
        | .error e => .error e
    match info' with
    | .error e => .error e
    | .ok info =>
      match dictGet t nameRoot with
      | some o => match dictv o with
        | .ok d => .ok (info, d)
        | .error e => .error e
      | none => rootLoop dictv ts info

end Pdf
