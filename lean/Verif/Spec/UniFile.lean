import Verif.Spec.TextFile
import Verif.Spec.ToUnicode
import Verif.Spec.CMap
import Mathlib.Data.List.Dedup
/-! A writer of documents with text in any characters: a composite font whose codes are numbered, with a `ToUnicode` map (ISO 32000-1, 9.7, 9.10.3). -/

namespace Pdf.Spec
open Pdf

/-- The `ToUnicode` map that gives code number `i` the text number `i` of the alphabet. -/
def uniEntries (alphabet : List (List Char)) : List BfEntry := alphabet.zipIdx.map fun x => .char (be16 x.2) (utf16 x.1)

/-- Its program: `begincmap /CMapType 2 def 1 begincodespacerange <0000> <ffff> endcodespacerange`, `1 beginbfchar code text endbfchar` for each text,
`endcmap`. -/
def uniToks (alphabet : List (List Char)) : List Tok :=
  [.kw (asc "begincmap"), .lit (asc "CMapType"), .int 2, .kw (asc "def"), .int 1, .kw (asc "begincodespacerange"), .str [0, 0], .str [255, 255],
    .kw (asc "endcodespacerange")] ++
  (alphabet.zipIdx.flatMap (fun x => [.int 1, .kw (asc "beginbfchar"), .str (be16 x.2), .str (utf16 x.1), .kw (asc "endbfchar")]) ++ [.kw (asc "endcmap")])

/-- A hexadecimal digit. -/
def hexOf (n : Nat) : UInt8 := UInt8.ofNat (if n < 10 then 48 + n else 87 + n)

/-- Data in hexadecimal. -/
def hexText (data : Bytes) : Bytes := data.flatMap fun b => [hexOf (b.toNat / 16), hexOf (b.toNat % 16)]

/-- The map in hexadecimal, with the end marker. -/
def uniBody (alphabet : List (List Char)) : Bytes := hexText (printToks (uniToks alphabet)) ++ [62]

/-- The attributes of its stream. -/
def uniAttrs (alphabet : List (List Char)) : List (Key × Obj) :=
  [(nm "Length", .int (uniBody alphabet).length), (nm "Filter", .name (asc "ASCIIHexDecode"))]

/-- The stream with the map. -/
def uniMapObj (alphabet : List (List Char)) : Obj := .stream (uniAttrs alphabet) (uniBody alphabet)

/-- The composite font; its descendant is object `k`, its `ToUnicode` map object `k + 2`. -/
def uniFont (k : Nat) : List (Key × Obj) :=
  [(nm "Type", .name (asc "Font")), (nm "Subtype", .name (asc "Type0")), (nm "BaseFont", .name (asc "Sample")), (nm "Encoding", .name (asc "Identity-H")),
   (nm "DescendantFonts", .arr [.ref ((k : Nat) : Int) 0]), (nm "ToUnicode", .ref ((k + 2 : Nat) : Int) 0)]

/-- The descendant; its descriptor is object `k + 1`. -/
def uniCidFont (k : Nat) : List (Key × Obj) :=
  [(nm "Type", .name (asc "Font")), (nm "Subtype", .name (asc "CIDFontType2")), (nm "BaseFont", .name (asc "Sample")),
   (nm "CIDSystemInfo", .dict [(nm "Registry", .str (asc "Adobe")), (nm "Ordering", .str (asc "Identity")), (nm "Supplement", .int 0)]),
   (nm "FontDescriptor", .ref ((k + 1 : Nat) : Int) 0)]

/-- The descriptor. -/
def uniDescriptor : List (Key × Obj) :=
  [(nm "Type", .name (asc "FontDescriptor")), (nm "FontName", .name (asc "Sample")), (nm "Flags", .int 4),
   (nm "FontBBox", .arr [.int 0, .int (-200), .int 1000, .int 800]), (nm "ItalicAngle", .int 0), (nm "Ascent", .int 800), (nm "Descent", .int (-200))]

/-- The string for a sequence of codes. -/
def uniString (codes : List Nat) : Bytes := codes.flatMap be16

/-- The objects of a document whose pages have lines, each a sequence of codes. -/
def uniObjs (alphabet : List (List Char)) (pages : List (List (List Nat))) : List Obj :=
  textObjs (uniFont (2 * pages.length + 4)) (pages.map fun lines => lines.map uniString) ++
    [.dict (uniCidFont (2 * pages.length + 4)), .dict uniDescriptor, uniMapObj alphabet]

/-- The file. -/
def writeCodes (alphabet : List (List Char)) (pages : List (List (List Nat))) : Bytes :=
  writeFile (uniObjs alphabet pages) [(nm "Size", .int ↑((uniObjs alphabet pages).length + 1)), (nm "Root", .ref 1 0)]

/-- The text of a sequence of codes. -/
def codesText (alphabet : List (List Char)) (codes : List Nat) : PyStr := codes.flatMap fun c => (alphabet.getD c []).map Char.toNat

/-- The characters that occur on the pages, once each. -/
def charsOf (pages : List (List (List Char))) : List Char := pages.flatten.flatten.dedup

/-- The file with these pages, each a list of lines, each a sequence of characters: the code of a character is its place among the characters that occur. -/
def writeUnicode (pages : List (List (List Char))) : Bytes :=
  writeCodes ((charsOf pages).map fun c => [c]) (pages.map fun lines => lines.map fun line => line.map fun c => (charsOf pages).idxOf c)

end Pdf.Spec
