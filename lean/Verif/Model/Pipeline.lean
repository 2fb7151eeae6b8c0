import Verif.Model.Fallback
import Verif.Model.Filters
import Verif.Model.Pages
import Verif.Model.Fonts
import Verif.Model.ContentParser
import Verif.Model.Convert
import Verif.Model.Handler
/-! Model of the whole way from the bytes of a file to its text: `PDFDocument.__init__`, `PDFPage.get_pages`, `PDFInterpreter` and
`convert_to_text`, put together from the models of their parts. -/

namespace Pdf

/-- What the program brings along: the size of the buffer (PSBaseParser.py:21), `zlib.decompress` (PDFStream/__init__.py:92-99), the tables of
glyph names, encodings, font metrics and CMaps (see `FontEnv`; utils/fontmetrics.py:31-47, cmapdb/__init__.py:222-239), and the Crypto library. -/
structure Setup where
  bufsiz : Nat
  inflate : Bytes → Option Bytes
  glyphs : PyStr → Option PyStr
  tables : EncHeap
  metrics : PyStr → Option (List (Key × Obj) × List (PyStr × Obj))
  cmapFile : PyStr → Option (List (Nat × CTrie) × Bool)
  umapFile : PyStr → Option (CodeMap × CodeMap)
  crypto : Crypto

/-- The options of `convert_to_text` (converters/text.py:7-20): `pagenos` is empty for `None` too. -/
structure Options where
  caching : Bool := true
  maxpages : Int := 0
  pagenos : List Int := []
  ignoreBad : Bool := false
  password : Option PyStr := none
  checkExtractable : Bool := true

/-- References are not followed (see `Setup.fileDecode`; PDFStream/__init__.py:60-78). -/
def directOnly : Resolver where
  resolve1
    | .ref _ _ => .error .recursion
    | o => .ok o
  getobj _ := .error .recursion

/-- `get_data` of object streams and cross-reference streams (PDFStream/__init__.py:80-140). Simplification: their filters and parameters are
direct objects. -/
def Setup.fileDecode (S : Setup) (d : List (Key × Obj)) (raw : Bytes) : Except PyErr Bytes := decodeStream directOnly S.inflate none d raw

/-- The document with the cross-reference sections read so far (PDFDocument/__init__.py:58-105), not encrypted. -/
def Setup.doc (S : Setup) (data : Bytes) (fallback : Bool) (xrefs : List (Int → Except PyErr XPos)) : Doc where
  data := data
  bufsiz := S.bufsiz
  fallback := fallback
  xrefs := xrefs
  decode _ d raw := S.fileDecode d raw
  decipher := none

/-- What the parser sees of the document (PDFParser.py:41-50). -/
def Setup.env (S : Setup) (caching : Bool) (fuel : Nat) (data : Bytes) (fallback : Bool) (xrefs : List (Int → Except PyErr XPos)) : Env Cache :=
  ⟨fallback, resolve1 (getobj (S.doc data fallback xrefs) caching fuel) fuel⟩

/-- The document once the trailers have been read up to some point: with a security handler streams have exact lengths, strings are deciphered, and
so are the data of object streams before they are decoded (PDFDocument/__init__.py:111-125, 206-209, PDFStream/__init__.py:80-86). The empty
stream that stands for something else (`none`) is not deciphered. -/
def Setup.docWith (S : Setup) (data : Bytes) (cipher : Option Cipher) (xrefs : List (Int → Except PyErr XPos)) : Doc :=
  match cipher with
  | none => S.doc data true xrefs
  | some c => {
      data := data
      bufsiz := S.bufsiz
      fallback := false
      xrefs := xrefs
      decode := fun tag d raw => match tag with
        | none => S.fileDecode d raw
        | some (i, g) => match c.decrypt i g raw (some d) with
          | .ok r => S.fileDecode d r
          | .error e => .error e
      decipher := some fun i g s => c.decrypt i g s none }

/-- An opened document: the fields that `PDFDocument.__init__` fills in (PDFDocument/__init__.py:58-105). -/
structure OpenedDoc where
  doc : Doc
  cipher : Option Cipher
  cache : Cache
  objids : List Int
  info : List (List (Key × Obj))
  catalog : List (Key × Obj)

/-- The data of a stream are deciphered before they are decoded (PDFStream/__init__.py:82-85), with the numbers of the object. Simplification: this
happens when the stream is fetched, not when it is decoded; so does an exception of the handler. -/
def reveal (cipher : Option Cipher) (tag : Option (Int × Int)) : Obj → Except PyErr Obj
  | .stream d raw =>
    match cipher, tag with
    | some c, some (i, g) => match c.decrypt i g raw (some d) with
      | .ok r => .ok (.stream d r)
      | .error e => .error e
    | _, _ => .ok (.stream d raw)
  | o => .ok o

/-- The document for code that walks its objects. Simplification: the caches are those right after opening; that later changes of the caches are
not seen is proved (`cache_transparency`) (PDFStream/util.py:9-17, PDFDocument/__init__.py:189-221). -/
def docResolver (D : Doc) (cipher : Option Cipher) (caching : Bool) (fuel : Nat) (s : Cache) : Resolver where
  resolve1 o := match (resolveTag (getobj D caching fuel) fuel o none s).1 with
    | .ok (o, tag) => reveal cipher tag o
    | .error e => .error e
  getobj i := match (getobj D caching fuel i s).1 with
    | .ok (o, g) => reveal cipher (some (i, g)) o
    | .error e => .error e

/-- The opened document for code that walks its objects (PDFStream/util.py:9-17, PDFDocument/__init__.py:189-221). -/
def OpenedDoc.resolver (O : OpenedDoc) (caching : Bool) (fuel : Nat) : Resolver := docResolver O.doc O.cipher caching fuel O.cache

/-- `get_objids` of a section (PDFXRef.py:101-102, 203-211). Simplification: where it raises an exception, the numbers end. -/
def Xref.objids : Xref → List Int
  | .table t => t.offsets.map Prod.fst
  | .stream x => match x.getObjids x.ranges with
    | .ok l => l
    | .error _ => []

/-- The entry `Encrypt` of a trailer (PDFDocument/__init__.py:89-93). -/
def initCipher (C : Crypto) (password : Option PyStr) (R : Resolver) (t : List (Key × Obj)) (cipher : Option Cipher) : Except PyErr (Option Cipher) :=
  match dictGet t (nm "Encrypt") with
  | none => .ok cipher
  | some e =>
    match dictGet t (nm "ID") with
    | none => .error .keyError
    | some ids =>
      match R.listValue ids with
      | .error e => .error e
      | .ok docid =>
        match R.dictValue e with
        | .error e => .error e
        | .ok param => (makeCipher C R docid param password).map some

/-- The entry `Info` of a trailer (PDFDocument/__init__.py:94-95). -/
def addInfo (dictv : Obj → Except PyErr (List (Key × Obj))) (t : List (Key × Obj)) (info : List (List (Key × Obj))) : Except PyErr (List (List (Key × Obj))) :=
  match dictGet t nameInfo with
  | none => .ok info
  | some o => match dictv o with
    | .ok d => .ok (info ++ [d])
    | .error e => .error e

/-- The loop over the trailers (PDFDocument/__init__.py:84-101); `res` are the objects of the document, as they are seen with a security handler or
none. Simplification: what is read here does not get into the caches (with caching, a reference to the encryption dictionary itself would find it as
it is in the file). -/
def trailerLoop (C : Crypto) (password : Option PyStr) (res : Option Cipher → Resolver) : List (List (Key × Obj)) → Option Cipher →
    (info : List (List (Key × Obj))) → Except PyErr (Option Cipher × List (List (Key × Obj)) × List (Key × Obj))
  | [], _, _ => .error .pdfSyntaxError
  | t :: ts, cipher, info =>
    match initCipher C password (res cipher) t cipher with
    | .error e => .error e
    | .ok cipher =>
      match addInfo (res cipher).dictValue t info with
      | .error e => .error e
      | .ok info =>
        match dictGet t nameRoot with
        | some o => match (res cipher).dictValue o with
          | .ok d => .ok (cipher, info, d)
          | .error e => .error e
        | none => trailerLoop C password res ts cipher info

/-- The trailers of the document (PDFDocument/__init__.py:84-105). -/
def openRoot (S : Setup) (password : Option PyStr) (caching : Bool) (fuel : Nat) (data : Bytes) (xs : List Xref) (s : Cache) : Except PyErr OpenedDoc :=
  match trailerLoop S.crypto password (fun cipher => docResolver (S.docWith data cipher (xs.map Xref.getPos)) cipher caching fuel s)
      (xs.map Xref.trailer) none [] with
  | .error e => .error e
  | .ok (cipher, info, catalog) => .ok ⟨S.docWith data cipher (xs.map Xref.getPos), cipher, s, xs.flatMap Xref.objids, info, catalog⟩

/-- `PDFDocument.__init__` (PDFDocument/__init__.py:58-105) as `get_pages` calls it (PDFPage.py:124-127), with `fallback`: the sections that
`startxref` leads to, then the section found by a scan of the whole file. -/
def openDocument (S : Setup) (password : Option PyStr) (caching : Bool) (fuel : Nat) (data : Bytes) : Except PyErr OpenedDoc :=
  match openXrefs (fun l => S.env caching fuel data false (l.map Xref.getPos)) S.fileDecode S.bufsiz fuel data {} with
  | (.error e, _) => .error e
  | (.ok xs, s) =>
    match fallbackLoad (S.env caching fuel data true (xs.map Xref.getPos)) S.fileDecode S.bufsiz fuel data s with
    | (.error e, _) => .error e
    | (.ok t, s) => openRoot S password caching fuel data (xs ++ [.table t]) s

/-- The data of the content streams up to the first that cannot be decoded, and the exception (PDFContentParser.py:24-32). -/
def streamsData (R : Resolver) (getData : List (Key × Obj) → Bytes → Except PyErr Bytes) : List Obj → List Bytes × Option PyErr
  | [] => ([], none)
  | o :: os =>
    match R.streamValue o with
    | .error e => ([], some e)
    | .ok (d, raw) => match getData d raw with
      | .error e => ([], some e)
      | .ok data => (data :: (streamsData R getData os).1, (streamsData R getData os).2)

/-- The objects of the content (PSStackParser/__init__.py:99-105, PDFContentParser.py:18-50): the parser ends at `PSEOF`, but without any stream
its constructor already raises `PSEOF`. A stream that cannot be decoded is noticed when the parser gets to it. -/
def contentOf (R : Resolver) (getData : List (Key × Obj) → Bytes → Except PyErr Bytes) (bufsiz fuel : Nat) (streams : List Obj) : Gen Obj :=
  match streamsData R getData streams with
  | ([], none) => ([], some .psEOF)
  | ([], some e) => ([], some e)
  | (datas, e) =>
    match contentObjects bufsiz fuel datas fuel with
    | (os, some .psEOF) => (os, e)
    | (os, some e) => (os, some e)
    | (os, none) => (os, some .recursion)

/-- What fonts are built from (see `FontEnv`; PDFFont/__init__.py:13-55). -/
def Setup.fontEnv (S : Setup) (R : Resolver) : FontEnv where
  R := R
  glyphs := S.glyphs
  tables := S.tables
  metrics := S.metrics
  getData := decodeStream R S.inflate none
  cmapFile := S.cmapFile
  umapFile := S.umapFile
  bufsiz := S.bufsiz

/-- What the interpreter sees of the document (interpreter/commands/__init__.py:21-24). Simplification: no cache of fonts; a font is built again each
time (`font_cache_transparent` is about the cache). -/
def Setup.env1 (S : Setup) (R : Resolver) (fuel : Nat) : Env1 where
  R := R
  getFont _ spec := buildFont (S.fontEnv R) fuel spec
  content := contentOf R (decodeStream R S.inflate none) S.bufsiz fuel

/-- The loop over the pages (converters/text.py:39-42, interpreter/__init__.py:43-64, PageInterpreter.py:9-43) from page number `num` on: what is
written and the exception, if any. -/
def textPages (E : Env1) (fuel : Nat) (ignoreBad : Bool) : (num : Nat) → List Page → Option PyErr → PyStr × Option PyErr
  | num, [], e => ([], match e with
    | some e => some e
    | none => if num = 0 then some .emptyDocument else none)
  | num, p :: ps, e =>
    match pageGeometry p.mediabox p.rotate with
    | .error x => ([], some x)
    | .ok (ctm, w, h) =>
      match prepState E ctm p.resources ignoreBad with
      | .error x => ([], some x)
      | .ok s =>
        match (run E fuel p.contents s).1 with
        | (items, some x) => (pstr "========== [ page " ++ numText num ++ pstr " ] ==========\n" ++ textItems items, some x)
        | (items, none) => (textPage ⟨num, w, h, items⟩ ++ (textPages E fuel ignoreBad (num + 1) ps e).1, (textPages E fuel ignoreBad (num + 1) ps e).2)

/-- `check_extractable and not doc.is_extractable` (PDFPage.py:129-130). -/
def refused (check : Bool) (cipher : Option Cipher) : Bool :=
  match cipher with
  | none => false
  | some c => check && !c.isExtractable

/-- `convert_to_text` (converters/text.py:7-42) on the bytes of a file: the text written, before it is encoded, and the exception, if any. The
`fuel` bounds all loops and recursions. -/
def convertText (S : Setup) (opts : Options) (fuel : Nat) (data : Bytes) : PyStr × Option PyErr :=
  match openDocument S opts.password opts.caching fuel data with
  | .error e => ([], some e)
  | .ok O =>
    if refused opts.checkExtractable O.cipher then ([], some .notAllowed)
    else
      textPages (S.env1 (O.resolver opts.caching fuel) fuel) fuel opts.ignoreBad 0
        (selectPages opts.pagenos opts.maxpages (createPages (O.resolver opts.caching fuel) O.catalog O.objids fuel)).1
        (selectPages opts.pagenos opts.maxpages (createPages (O.resolver opts.caching fuel) O.catalog O.objids fuel)).2

end Pdf
