import Verif.Model.Type1
import Verif.Model.Widths
import Verif.Model.XrefStream
/-! Model of the font classes (state/PDFTextState/PDFFont/PDFFont.py, fonts.py, __init__.py, called `PDFFont/` below). Numbers are exact. -/

namespace Pdf

/-- What fonts are built from. `metrics` is `FONT_METRICS` (utils/fontmetrics.py:31-47): a descriptor and widths by character. `getData` is
`PDFStream.get_data` (PDFStream/__init__.py:137-140). `cmapFile` and `umapFile` are the files that `CMapDB._load_data` finds
(cmapdb/__init__.py:222-239): the table of a CMap and whether it is vertical, and the two tables of a unicode map; `none` is
`CMapNotFound`. `tables` are the tables of `EncodingDB`. -/
structure FontEnv where
  R : Resolver
  glyphs : PyStr → Option PyStr
  tables : EncHeap
  metrics : PyStr → Option (List (Key × Obj) × List (PyStr × Obj))
  getData : List (Key × Obj) → Bytes → Except PyErr Bytes
  cmapFile : PyStr → Option (List (Nat × CTrie) × Bool)
  umapFile : PyStr → Option (CodeMap × CodeMap)
  bufsiz : Nat

/-- `num_value` (PDFStream/util.py:66-72), lenient. -/
def Resolver.numValue (R : Resolver) (o : Obj) : Except PyErr Obj :=
  match R.resolve1 o with
  | .error e => .error e
  | .ok o => .ok (if o.num?.isSome then o else .int 0)

/-- `d.get(key, default)` (e.g. PDFFont/PDFFont.py:30). -/
def getOr (d : List (Key × Obj)) (key : String) (default : Obj) : Obj := (dictGet d (nm key)).getD default

/-- The attributes of a `PDFFont` (PDFFont/PDFFont.py:27-41). -/
structure FontCore where
  name : Obj
  ascent : Obj
  descent : Obj
  defaultWidth : Obj
  bbox : List Obj
  hscale : ℚ := 1 / 1000
  vscale : ℚ := 1 / 1000

/-- `PDFFont.__init__` (PDFFont/PDFFont.py:27-41); `default` is `default_width`. The name `'unknown'` is modelled as a literal. -/
def fontCore (R : Resolver) (d : List (Key × Obj)) (default : Option Obj) : Except PyErr FontCore := do
  let name ← R.resolve1 (getOr d "FontName" (.name (asc "unknown")))
  let _ ← R.intValue (getOr d "Flags" (.int 0))
  let ascent ← R.numValue (getOr d "Ascent" (.int 0))
  let descent ← R.numValue (getOr d "Descent" (.int 0))
  let _ ← R.numValue (getOr d "ItalicAngle" (.int 0))
  let dw ← match default with
    | some o => if o.truthy then .ok o else R.numValue (getOr d "MissingWidth" (.int 0))
    | none => R.numValue (getOr d "MissingWidth" (.int 0))
  let _ ← R.numValue (getOr d "Leading" (.int 0))
  let bbox ← R.listValue (getOr d "FontBBox" (.arr [.int 0, .int 0, .int 0, .int 0]))
  .ok { name, ascent, descent, defaultWidth := dw, bbox }

/-- `bbox[i]-bbox[j]` (PDFFont/PDFFont.py:62, 68). -/
def bboxDiff (b : List Obj) (i j : Nat) : Except PyErr ℚ :=
  match b[i]?, b[j]? with
  | some x, some y => do
    let x ← x.num
    let y ← y.num
    .ok (x - y)
  | _, _ => .error .indexError

/-- `get_width` (PDFFont/PDFFont.py:61-65). -/
def FontCore.width (f : FontCore) : Except PyErr ℚ := do
  let w ← bboxDiff f.bbox 2 0
  if w = 0 then do
    let dw ← f.defaultWidth.num
    .ok (-dw * f.hscale)
  else .ok (w * f.hscale)

/-- `get_height` (PDFFont/PDFFont.py:67-71). -/
def FontCore.height (f : FontCore) : Except PyErr ℚ := do
  let h ← bboxDiff f.bbox 3 1
  if h = 0 then do
    let a ← f.ascent.num
    let d ← f.descent.num
    .ok ((a - d) * f.vscale)
  else .ok (h * f.vscale)

/-- `get_descent` (PDFFont/PDFFont.py:58-59). -/
def FontCore.getDescent (f : FontCore) : Except PyErr ℚ := do
  let d ← f.descent.num
  .ok (d * f.vscale)

/-- `char_width` (PDFFont/PDFFont.py:73-80). The dictionary `widths` has numbers or characters as keys. -/
def FontCore.charWidth (f : FontCore) (byCode : List (ℚ × Obj)) (byText : List (PyStr × Obj)) (toUnichr : Int → Except PyErr PyStr) (cid : Int) :
    Except PyErr ℚ :=
  let scaled (o : Obj) : Except PyErr ℚ := match o.num with
    | .ok q => .ok (q * f.hscale)
    | .error e => .error e
  match dictGet byCode (cid : ℚ) with
  | some w => scaled w
  | none =>
    match toUnichr cid with
    | .ok t =>
      match dictGet byText t with
      | some w => scaled w
      | none => scaled f.defaultWidth
    | .error e => if e = .keyError ∨ e = .unicodeNotDefined then scaled f.defaultWidth else .error e

/-- The name for `EncodingDB.get_encoding` (PDFFont/PDFFont.py:117, 121; EncodingDB.py:30): anything else than a name is the default, if it can be
a key. -/
def encodingName : Obj → Except PyErr Bytes
  | .name n => .ok n
  | .arr _ => .error .typeError
  | .dict _ => .error .typeError
  | _ => .ok []

/-- `EncodingDB.get_encoding(name, diff)` (EncodingDB.py:28-43), as a table: no call changes a table later (`encoding_differences_partial`). -/
def encodingTable (E : FontEnv) (name : Bytes) (diff : List Obj) : Except PyErr CodeMap :=
  match getEncoding E.glyphs E.tables name diff with
  | (.ok a, h) => .ok (h.getD a [])
  | (.error e, _) => .error e

/-- The encoding of a simple font (PDFFont/PDFFont.py:112-121). -/
def simpleEncoding (E : FontEnv) (spec : List (Key × Obj)) : Except PyErr CodeMap :=
  match dictGet spec (nm "Encoding") with
  | none => encodingTable E (asc "StandardEncoding") []
  | some o =>
    match E.R.resolve1 o with
    | .error e => .error e
    | .ok (.dict d) => do
      let name ← encodingName (getOr d "BaseEncoding" (.name (asc "StandardEncoding")))
      let diff ← E.R.listValue (getOr d "Differences" (.arr []))
      encodingTable E name diff
    | .ok o => do
      let name ← encodingName o
      encodingTable E name []

/-- The map in `ToUnicode` (PDFFont/PDFFont.py:122-126, fonts.py:118-122). -/
def toUnicodeMap (E : FontEnv) (spec : List (Key × Obj)) : Except PyErr (Option CodeMap) :=
  match dictGet spec (nm "ToUnicode") with
  | none => .ok none
  | some o => do
    let (d, raw) ← E.R.streamValue o
    let data ← E.getData d raw
    let s ← cmapRun E.glyphs E.bufsiz data
    .ok (some s.umap)

/-- `PDFSimpleFont.to_unichr` (PDFFont/PDFFont.py:130-139). -/
def simpleUnichr (umap : Option CodeMap) (table : CodeMap) (cid : Int) : Except PyErr PyStr :=
  match umap.bind fun m => dictGet m cid with
  | some t => .ok t
  | none =>
    match dictGet table cid with
    | some t => .ok t
    | none => .error .unicodeNotDefined

/-- The methods of a simple font (PDFFont/PDFFont.py:46-86, 130-139). -/
def simpleFont (f : FontCore) (byCode : List (ℚ × Obj)) (byText : List (PyStr × Obj)) (umap : Option CodeMap) (table : CodeMap) : Font where
  name := f.name
  decode b := .ok (b.map fun c => (c.toNat : Int))
  toUnichr := simpleUnichr umap table
  multibyte := false
  vertical := false
  charWidth := f.charWidth byCode byText (simpleUnichr umap table)
  charDisp _ := .ok (none, 0)
  height := f.height
  descent := f.getDescent
  width := f.width

/-- The key for `FONT_METRICS` (PDFFont/fonts.py:24-31): `none` is a key that no dictionary of characters has. -/
def baseFontKey (spec : List (Key × Obj)) : Except PyErr (Option PyStr) :=
  match dictGet spec (nm "BaseFont") with
  | none => .ok (some ([117, 110, 107, 110, 111, 119, 110]))
  | some (.name n) => .ok (utf8 n)
  | some (.arr _) => .error .typeError
  | some (.dict _) => .error .typeError
  | some _ => .ok none

/-- The entries `FirstChar` and `Widths` (PDFFont/fonts.py:34-37, 63-66). -/
def simpleWidths (R : Resolver) (spec : List (Key × Obj)) : Except PyErr (List (ℚ × Obj)) := do
  let first ← R.intValue (getOr spec "FirstChar" (.int 0))
  let ws ← R.listValue (getOr spec "Widths" (.arr (List.replicate 256 (.int 0))))
  .ok (setRun [] (first : ℚ) ws)

/-- The encoding in the font file (PDFFont/fonts.py:41-45). -/
def fontFileEncoding (E : FontEnv) (file : Obj) : Except PyErr CodeMap := do
  let (d, raw) ← E.R.streamValue file
  match dictGet d (nm "Length1") with
  | none => .error .keyError
  | some l => do
    let length1 ← E.R.intValue l
    let data ← E.getData d raw
    t1Encoding E.glyphs E.bufsiz (pySlice data 0 length1)

/-- The descriptor, the widths by code and the widths by character (PDFFont/fonts.py:24-37). -/
def type1Source (E : FontEnv) (spec : List (Key × Obj)) : Except PyErr (List (Key × Obj) × List (ℚ × Obj) × List (PyStr × Obj)) :=
  match baseFontKey spec with
  | .error e => .error e
  | .ok key =>
    match key.bind E.metrics with
    | some (d, w) => .ok (d, [], w)
    | none => do
      let d ← E.R.dictValue (getOr spec "FontDescriptor" (.dict []))
      let w ← simpleWidths E.R spec
      .ok (d, w, [])

/-- The encoding in the end (PDFFont/fonts.py:39-45): that of the font file if the dictionary has none. -/
def type1Table (E : FontEnv) (spec descriptor : List (Key × Obj)) (table : CodeMap) : Except PyErr CodeMap :=
  match dictGet spec (nm "Encoding"), dictGet descriptor (nm "FontFile") with
  | none, some file => fontFileEncoding E file
  | _, _ => .ok table

/-- `PDFType1Font.__init__` (PDFFont/fonts.py:23-46), also for TrueType fonts (53-56). -/
def type1Font (E : FontEnv) (spec : List (Key × Obj)) : Except PyErr Font := do
  let source ← type1Source E spec
  let table ← simpleEncoding E spec
  let umap ← toUnicodeMap E spec
  let core ← fontCore E.R source.1 none
  let table ← type1Table E spec source.1 table
  .ok (simpleFont core source.2.1 source.2.2 umap table)

/-- The descriptor of a Type 3 font (PDFFont/fonts.py:67-71). -/
def type3Descriptor (R : Resolver) (spec : List (Key × Obj)) : Except PyErr (List (Key × Obj)) :=
  match dictGet spec (nm "FontDescriptor") with
  | some o => R.dictValue o
  | none => match dictGet spec (nm "FontBBox") with
    | some b => .ok [(nm "Ascent", .int 0), (nm "Descent", .int 0), (nm "FontBBox", b)]
    | none => .error .keyError

/-- `PDFType3Font.__init__` (PDFFont/fonts.py:62-76). -/
def type3Font (E : FontEnv) (spec : List (Key × Obj)) : Except PyErr Font := do
  let byCode ← simpleWidths E.R spec
  let descriptor ← type3Descriptor E.R spec
  let table ← simpleEncoding E spec
  let umap ← toUnicodeMap E spec
  let core ← fontCore E.R descriptor none
  let matrix ← E.R.listValue (getOr spec "FontMatrix" .null)
  match core.bbox with
  | [_, descent, _, ascent] =>
    match matrix with
    | [a, b, c, d, _, _] => do
      let a ← a.num
      let c ← c.num
      let b ← b.num
      let d ← d.num
      .ok (simpleFont { core with descent, ascent, hscale := a + c, vscale := b + d } byCode [] umap table)
    | _ => .error .valueError
  | _ => .error .valueError

/-- A `CMap` or `IdentityCMap` (cmapdb/__init__.py:66-125). -/
inductive CMapObj where
  | identity (vertical : Bool)
  | table (root : List (Nat × CTrie)) (vertical : Bool)

/-- `is_vertical` (cmapdb/__init__.py:47-48). -/
def CMapObj.vertical : CMapObj → Bool
  | .identity v => v
  | .table _ v => v

/-- `decode` (cmapdb/__init__.py:90-101, 120-125). -/
def CMapObj.decode : CMapObj → Bytes → Except PyErr (List Int)
  | .identity _, s => identityDecode s
  | .table root _, s => .ok (cmapDecode root s)

/-- `CMapDB.get_cmap(literal_name(x))` (cmapdb/__init__.py:241-252, PDFFont/fonts.py:95-106): a map that is not found is the empty one. Something
else than a name is no file name. -/
def cidCmap (E : FontEnv) : Option Obj → Except PyErr CMapObj
  | none => .ok (find [117, 110, 107, 110, 111, 119, 110])
  | some (.name n) => match utf8 n with
    | some s => .ok (find s)
    | none => .error .typeError
  | some (.str _) => .error .typeError
  | some (.arr _) => .error .typeError
  | some (.dict _) => .error .typeError
  | some _ => .error .attributeError
where
  /-- The map with this name (cmapdb/__init__.py:242-252). -/
  find (s : PyStr) : CMapObj :=
    if s = (asc "Identity-H").map UInt8.toNat then .identity false
    else if s = (asc "Identity-V").map UInt8.toNat then .identity true
    else match E.cmapFile s with
      | some (root, v) => .table root v
      | none => .table [] false

/-- `resolve1(info.get(key, b'unknown')).decode("latin1")` (PDFFont/fonts.py:93-94). -/
def latin1Entry (R : Resolver) (info : List (Key × Obj)) (key : String) : Except PyErr PyStr :=
  match R.resolve1 (getOr info key (.str (asc "unknown"))) with
  | .ok (.str s) => .ok (s.map UInt8.toNat)
  | .ok _ => .error .attributeError
  | .error e => .error e

/-- Reads the TrueType file of a CID font (PDFFont/fonts.py:113-116), if it has one. -/
def cidTrueType (E : FontEnv) (descriptor : List (Key × Obj)) : Except PyErr Unit :=
  match dictGet descriptor (nm "FontFile2") with
  | some file => do
    let stream ← E.R.streamValue file
    let _ ← E.getData stream.1 stream.2
    .ok ()
  | none => .ok ()

/-- The unicode map of a CID font (PDFFont/fonts.py:113-133). A TrueType file never has one: its table names are `bytes`, not `'cmap'`
(TrueTypeFont.py:16-17, 26-27), so `create_unicode_map` raises `CMapNotFound`. -/
def cidUnicodeMap (E : FontEnv) (spec descriptor : List (Key × Obj)) (cidcoding : PyStr) (vertical : Bool) : Except PyErr (Option CodeMap) :=
  match cidTrueType E descriptor with
  | .error e => .error e
  | .ok () =>
    match dictGet spec (nm "ToUnicode") with
    | some _ => toUnicodeMap E spec
    | none =>
      if cidcoding = (asc "Adobe-Identity").map UInt8.toNat ∨ cidcoding = (asc "Adobe-UCS").map UInt8.toNat then .ok none
      else .ok ((E.umapFile cidcoding).map fun m => if vertical then m.2 else m.1)

/-- `PDFCIDFont.to_unichr` (PDFFont/fonts.py:169-175). -/
def cidUnichr (umap : Option CodeMap) (cid : Int) : Except PyErr PyStr :=
  match umap.bind fun m => dictGet m cid with
  | some t => .ok t
  | none => .error .unicodeNotDefined

/-- The displacement of a code in vertical writing (PDFFont/fonts.py:139-142, 165-167, layout/utils/textdecoder.py:66-71); `None` for `vx` is half of the
width. -/
def cidDisp (disps : List (ℚ × (Obj × Obj × Obj))) (defaultVy : Obj) (cid : Int) : Except PyErr (Option ℚ × ℚ) :=
  match dictGet disps (cid : ℚ) with
  | none => match defaultVy.num with
    | .ok vy => .ok (none, vy)
    | .error e => .error e
  | some (_, vx, vy) => do
    let vx ← match vx with
      | .null => .ok none
      | o => o.num.map some
    let vy ← vy.num
    .ok (vx, vy)

/-- The descriptor of a CID font (PDFFont/fonts.py:107-112). -/
def cidDescriptor (R : Resolver) (spec : List (Key × Obj)) : Except PyErr (List (Key × Obj)) :=
  match dictGet spec (nm "FontDescriptor") with
  | some o => R.dictValue o
  | none => .ok []

/-- `PDFCIDFont.__init__` (PDFFont/fonts.py:85-151). Simplification: `DW2` that is neither a list nor missing is taken to be a `TypeError`. -/
def cidFont (E : FontEnv) (spec : List (Key × Obj)) : Except PyErr Font := do
  let info ← E.R.dictValue (getOr spec "CIDSystemInfo" (.dict []))
  let registry ← latin1Entry E.R info "Registry"
  let ordering ← latin1Entry E.R info "Ordering"
  let cmap ← cidCmap E (dictGet spec (nm "Encoding"))
  let descriptor ← cidDescriptor E.R spec
  let umap ← cidUnicodeMap E spec descriptor (registry ++ 45 :: ordering) cmap.vertical
  if cmap.vertical then do
    let w2 ← E.R.listValue (getOr spec "W2" (.arr []))
    let disps ← getWidths2 w2
    match getOr spec "DW2" (.arr [.int 880, .int (-1000)]) with
    | .arr [vy, w] => do
      let core ← fontCore E.R descriptor (some w)
      .ok { name := core.name, decode := cmap.decode, toUnichr := cidUnichr umap, multibyte := true, vertical := true,
            charWidth := core.charWidth (disps.map fun e => (e.1, e.2.1)) [] (cidUnichr umap), charDisp := cidDisp disps vy,
            height := core.height, descent := core.getDescent, width := core.width }
    | .arr _ => .error .valueError
    | _ => .error .typeError
  else do
    let w ← E.R.listValue (getOr spec "W" (.arr []))
    let widths ← getWidths w
    let core ← fontCore E.R descriptor (some (getOr spec "DW" (.int 1000)))
    .ok { name := core.name, decode := cmap.decode, toUnichr := cidUnichr umap, multibyte := true, vertical := false,
          charWidth := core.charWidth widths [] (cidUnichr umap), charDisp := fun _ => .ok (none, 0),
          height := core.height, descent := core.getDescent, width := core.width }

/-- Copies the resolved entries `Encoding` and `ToUnicode` of a composite font to its descendant (PDFFont/__init__.py:45-47). -/
def composeSpec (R : Resolver) (spec sub : List (Key × Obj)) : Except PyErr (List (Key × Obj)) := do
  let sub ← match dictGet spec (nm "Encoding") with
    | some o => (R.resolve1 o).map fun o => dictSet sub (nm "Encoding") o
    | none => .ok sub
  match dictGet spec (nm "ToUnicode") with
  | some o => (R.resolve1 o).map fun o => dictSet sub (nm "ToUnicode") o
  | none => .ok sub

/-- A new font for a dictionary (PDFFont/__init__.py:18-52), with `settings.STRICT` off; `fuel` is the depth of the recursion. -/
def buildFont (E : FontEnv) : (fuel : Nat) → List (Key × Obj) → Except PyErr Font
  | 0, _ => .error .recursion
  | fuel + 1, spec =>
    match getOr spec "Subtype" (.name (asc "Type1")) with
    | .name n =>
      if n = asc "Type3" then type3Font E spec
      else if n = asc "CIDFontType0" ∨ n = asc "CIDFontType2" then cidFont E spec
      else if n = asc "Type0" then
        match dictGet spec (nm "DescendantFonts") with
        | none => .error .keyError
        | some o =>
          match E.R.listValue o with
          | .error e => .error e
          | .ok [] => .error .assertion
          | .ok (f :: _) => do
            let sub ← E.R.dictValue f
            let sub ← composeSpec E.R spec sub
            buildFont E fuel sub
      else type1Font E spec
    | _ => type1Font E spec

/-- `get_font` (PDFFont/__init__.py:13-55) with the cache `cached_fonts`: the result and the cache afterwards. -/
def getFontCached (E : FontEnv) (fuel : Nat) (cache : List (Int × Font)) (objid : Option Int) (spec : List (Key × Obj)) :
    Except PyErr Font × List (Int × Font) :=
  match objid with
  | none => (buildFont E fuel spec, cache)
  | some i =>
    if i = 0 then (buildFont E fuel spec, cache)
    else
      match dictGet cache i with
      | some f => (.ok f, cache)
      | none =>
        match buildFont E fuel spec with
        | .ok f => (.ok f, dictSet cache i f)
        | .error e => (.error e, cache)

/-- The results of a history of calls of `get_font` with the same cache (PDFFont/__init__.py:13-55). -/
def fontCalls (E : FontEnv) (fuel : Nat) : List (Int × Font) → List (Option Int × List (Key × Obj)) → List (Except PyErr Font)
  | _, [] => []
  | cache, (objid, spec) :: calls =>
    let r := getFontCached E fuel cache objid spec
    r.1 :: fontCalls E fuel r.2 calls

end Pdf
