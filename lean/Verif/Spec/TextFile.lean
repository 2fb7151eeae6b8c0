import Verif.Spec.Write
import Verif.Model.Pipeline
import Verif.Spec.Encoding
/-! A writer of documents with text: a font and lines of text on each page. -/

namespace Pdf.Spec
open Pdf

/-- The content of a page: `BT /F1 12 Tf`, `0 -14 Td (line) Tj` for each line, `ET`. -/
def textToks (lines : List Bytes) : List Tok :=
  [.kw (asc "BT"), .lit (asc "F1"), .int 12, .kw (asc "Tf")] ++
    (lines.flatMap (fun s => [.int 0, .int (-14), .kw (asc "Td"), .str s, .kw (asc "Tj")]) ++ [.kw (asc "ET")])

/-- The content stream of a page. -/
def contentObj (lines : List Bytes) : Obj := .stream [(nm "Length", .int (printToks (textToks lines)).length)] (printToks (textToks lines))

/-- The dictionary of the page with number `k`, counted from 0: its content is object `2 k + 5`. -/
def pageDict (k : Nat) : List (Key × Obj) :=
  [(nm "Type", .name (asc "Page")), (nm "Parent", .ref 2 0), (nm "MediaBox", .arr [.int 0, .int 0, .int 612, .int 792]),
   (nm "Resources", .dict [(nm "Font", .dict [(nm "F1", .ref 3 0)])]), (nm "Contents", .ref ((2 * k + 5 : Nat) : Int) 0)]

/-- The page with number `k` and its content. -/
def pageObjs : (k : Nat) → List (List Bytes) → List Obj
  | _, [] => []
  | k, lines :: pages => .dict (pageDict k) :: contentObj lines :: pageObjs (k + 1) pages

/-- The catalog. -/
def catalogDict : List (Key × Obj) := [(nm "Type", .name (asc "Catalog")), (nm "Pages", .ref 2 0)]

/-- The root of the page tree: page `k` is object `2 k + 4`. -/
def pagesDict (n : Nat) : List (Key × Obj) :=
  [(nm "Type", .name (asc "Pages")), (nm "Kids", .arr ((List.range n).map fun k => .ref ((2 * k + 4 : Nat) : Int) 0)), (nm "Count", .int n)]

/-- The objects: catalog, page tree, font, pages and their contents. -/
def textObjs (font : List (Key × Obj)) (pages : List (List Bytes)) : List Obj :=
  .dict catalogDict :: .dict (pagesDict pages.length) :: .dict font :: pageObjs 0 pages

/-- The file with these pages, each a list of lines, in this font. -/
def writeText (font : List (Key × Obj)) (pages : List (List Bytes)) : Bytes :=
  writeFile (textObjs font pages) [(nm "Size", .int ↑((textObjs font pages).length + 1)), (nm "Root", .ref 1 0)]

/-- Helvetica with the encoding `WinAnsiEncoding`. -/
def helvetica : List (Key × Obj) :=
  [(nm "Type", .name (asc "Font")), (nm "Subtype", .name (asc "Type1")), (nm "BaseFont", .name (asc "Helvetica")),
   (nm "Encoding", .name (asc "WinAnsiEncoding"))]

/-- The metrics of a font: no references, four numbers in the bounding box, numbers as widths. -/
structure PlainMetrics (d : List (Key × Obj)) (w : List (PyStr × Obj)) : Prop where
  direct : ∀ e ∈ d, ∀ i g, e.2 ≠ .ref i g
  box : ∃ x0 y0 x1 y1, getOr d "FontBBox" (.arr [.int 0, .int 0, .int 0, .int 0]) = .arr [x0, y0, x1, y1] ∧ ∀ x ∈ [x0, y0, x1, y1], ∃ q, x.num? = some q
  widths : ∀ e ∈ w, ∃ q, e.2.num? = some q

/-- The program with the glyph names, the tables of encodings and the metrics of Helvetica that it needs. -/
structure Furnished (S : Setup) : Prop where
  bufsiz : 0 < S.bufsiz
  glyphs : AdobeLatin S.glyphs
  tables : EncHeap.initial S.glyphs = .ok S.tables
  helvetica : ∃ d w, S.metrics (pstr "Helvetica") = some (d, w) ∧ PlainMetrics d w

end Pdf.Spec
