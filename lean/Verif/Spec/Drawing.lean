import Verif.Spec.TextFile
import Verif.Spec.WellFormed
import Verif.Spec.Outputs
import Verif.Props.Layout
/-! A writer of documents with pictures, lines and text, and what is to be seen of them on the delivered pages. -/

namespace Pdf.Spec
open Pdf

/-! ### The file -/

/-- A decimal number: `mantissa / 10 ^ scale`, written as an integer if `scale` is 0. -/
structure Dec where
  mantissa : Int
  scale : Nat

/-- The number as an object. -/
def Dec.obj (d : Dec) : Obj := if d.scale = 0 then .int d.mantissa else .real d.mantissa d.scale

/-- The number as a token. -/
def Dec.tok (d : Dec) : Tok := if d.scale = 0 then .int d.mantissa else .real d.mantissa d.scale

/-- The value of the number. -/
def Dec.val (d : Dec) : ℚ := d.mantissa / 10 ^ d.scale

/-- A point. -/
abbrev Pt := Dec × Dec

/-- Where a point is. -/
def spot (p : Pt) : ℚ × ℚ := (p.1.val, p.2.val)

/-- What a page is made of. -/
inductive Mark where
  /-- From here on shapes are filled with this colour, and text has it: `r g b rg`. -/
  | fill (r g b : Dec)
  /-- From here on lines have this colour: `r g b RG`. -/
  | stroke (r g b : Dec)
  /-- From here on lines have this width: `w w`. -/
  | width (w : Dec)
  /-- A rectangle: `x y w h re f`. -/
  | rect (x y w h : Dec)
  /-- A line through two or more points: `x y m x y l ... S`. -/
  | path (p q : Pt) (more : List Pt)
  /-- The image with this number, with the matrix `a b c d e f`: `q a b c d e f cm /Im0 Do Q`. -/
  | image (i : Nat) (a b c d e f : Dec)
  /-- A string: `BT /F1 size Tf x y Td (s) Tj ET`. -/
  | text (size x y : Dec) (s : Bytes)

/-- The name of an image in the resources. -/
def imageName (i : Nat) : Bytes := asc "Im" ++ natDigits i

/-- The tokens of a mark. -/
def Mark.toks : Mark → List Tok
  | .fill r g b => [r.tok, g.tok, b.tok, .kw (asc "rg")]
  | .stroke r g b => [r.tok, g.tok, b.tok, .kw (asc "RG")]
  | .width w => [w.tok, .kw (asc "w")]
  | .rect x y w h => [x.tok, y.tok, w.tok, h.tok, .kw (asc "re"), .kw (asc "f")]
  | .path p q more => [p.1.tok, p.2.tok, .kw (asc "m")] ++ (q :: more).flatMap (fun p => [p.1.tok, p.2.tok, .kw (asc "l")]) ++ [.kw (asc "S")]
  | .image i a b c d e f => [.kw (asc "q"), a.tok, b.tok, c.tok, d.tok, e.tok, f.tok, .kw (asc "cm"), .lit (imageName i), .kw (asc "Do"), .kw (asc "Q")]
  | .text size x y s =>
    [.kw (asc "BT"), .lit (asc "F1"), size.tok, .kw (asc "Tf"), x.tok, y.tok, .kw (asc "Td"), .str s, .kw (asc "Tj"), .kw (asc "ET")]

/-- A page: its size and its marks. -/
structure Leaf where
  width : Dec
  height : Dec
  marks : List Mark

/-- The tokens of the content of a page. -/
def Leaf.toks (p : Leaf) : List Tok := p.marks.flatMap Mark.toks

/-- The content stream of a page. -/
def Leaf.content (p : Leaf) : Obj := .stream [(nm "Length", .int (printToks p.toks).length)] (printToks p.toks)

/-- The dictionary of the page with number `k`, counted from 0: its content is object `2 k + 5`, the resources are object 3. -/
def Leaf.dict (p : Leaf) (k : Nat) : List (Key × Obj) :=
  [(nm "Type", .name (asc "Page")), (nm "Parent", .ref 2 0), (nm "MediaBox", .arr [.int 0, .int 0, p.width.obj, p.height.obj]),
   (nm "Resources", .ref 3 0), (nm "Contents", .ref ((2 * k + 5 : Nat) : Int) 0)]

/-- The pages with their contents. -/
def leafObjs : (k : Nat) → List Leaf → List Obj
  | _, [] => []
  | k, p :: ps => .dict (p.dict k) :: p.content :: leafObjs (k + 1) ps

/-- The names of the images and where they are: image `i` is object `n + 5 + i`. -/
def imageRefs (n images : Nat) : List (Key × Obj) := (List.range images).map fun i => (.name (imageName i), .ref ((n + 5 + i : Nat) : Int) 0)

/-- The resources of all pages: the font is object `n + 4`. -/
def drawRes (n images : Nat) : List (Key × Obj) :=
  [(nm "Font", .dict [(nm "F1", .ref ((n + 4 : Nat) : Int) 0)]), (nm "XObject", .dict (imageRefs n images))]

/-- The objects: catalog, page tree, resources, pages and their contents, font, images. -/
def drawObjs (font : List (Key × Obj)) (images : List (List (Key × Obj) × Bytes)) (pages : List Leaf) : List Obj :=
  .dict catalogDict :: .dict (pagesDict pages.length) :: .dict (drawRes (2 * pages.length) images.length) ::
    (leafObjs 0 pages ++ .dict font :: images.map fun i => .stream i.1 i.2)

/-- The file with these pages. -/
def writeDrawing (font : List (Key × Obj)) (images : List (List (Key × Obj) × Bytes)) (pages : List Leaf) : Bytes :=
  writeFile (drawObjs font images pages) [(nm "Size", .int ↑((drawObjs font images pages).length + 1)), (nm "Root", .ref 1 0)]

/-! ### The pages -/

/-- The colours and the line width at a place in the content. -/
structure Style where
  fill : Color
  stroke : Color
  width : Obj

/-- At the beginning of a page. -/
def Style.start : Style := ⟨⟨none, []⟩, ⟨none, []⟩, .int 0⟩

/-- A colour with components from 0 to 255, rounded. -/
def Rgb (r g b : Dec) (c : Color) : Prop :=
  ∃ x y z : Int, c = ⟨some ⟨asc "DeviceRGB", .int 3⟩, [.int x, .int y, .int z]⟩ ∧ Nearest (r.val * 255) x ∧ Nearest (g.val * 255) y ∧ Nearest (b.val * 255) z

/-- What kind of line a segment is. -/
inductive SegmentKind (p q : ℚ × ℚ) : CurveKind → Prop
  | vertical : p.1 = q.1 → SegmentKind p q .vertical
  | horizontal : p.1 ≠ q.1 → p.2 = q.2 → SegmentKind p q .horizontal
  | line : p.1 ≠ q.1 → p.2 ≠ q.2 → SegmentKind p q .line

/-- A path to a point. -/
def lineTo (p : ℚ × ℚ) : CurvePath := ⟨.lineTo, [(some p.1, some p.2)]⟩

/-- The characters of a string one after another, from a place on: text, box and size. The boxes are as wide as the characters are in the font, and
begin where those before them end. -/
inductive Placed (f : Font) (ig : Bool) (size : ℚ) (y : ℚ) : (x : ℚ) → List Int → List (PyStr × Bbox × ℚ) → Prop
  | nil {x} : Placed f ig size y x [] []
  | cons {x c t w h d b cs l} : CodeShows f ig c t → f.charWidth c = .ok w → f.height = .ok h → f.descent = .ok d →
      SmallestBox b [(x, y + d * size), (x + w * size, y + d * size + h * size)] → Placed f ig size y (x + w * size) cs l →
      Placed f ig size y x (c :: cs) ((t, b, b.y1 - b.y0) :: l)

/-- The lower left and the upper right corners of the boxes of characters. -/
def charCorners (l : List (PyStr × Bbox × ℚ)) : List (ℚ × ℚ) := l.flatMap fun c => [(c.2.1.x0, c.2.1.y0), (c.2.1.x1, c.2.1.y1)]

/-- The char-block of a string: its text, font, size and colour, the smallest box around the characters, and, if the font is not a vertical one, the height of the box
and the places of the characters. -/
structure StringBlock (f : Font) (ig : Bool) (σ : Style) (size x y : Dec) (s : Bytes) (b : CharBlock) : Prop where
  text : StringText f ig s (b.chars.map Prod.fst).flatten
  font : b.font = f
  fontsize : b.fontsize = size.obj
  color : b.color = σ.fill
  extent : SmallestBox b.bbox (charCorners b.chars)
  height : f.vertical = false → b.size = b.bbox.y1 - b.bbox.y0
  places : f.vertical = false → ∃ codes, f.decode s = .ok codes ∧ Placed f ig size.val y.val x.val codes b.chars

/-- The items of a mark, and the style after it. -/
inductive Draws (f : Font) (ig : Bool) (images : List (List (Key × Obj) × Bytes)) : Style → Mark → Style → List Item → Prop
  | fill {σ r g b c} : Rgb r g b c → Draws f ig images σ (.fill r g b) { σ with fill := c } []
  | stroke {σ r g b c} : Rgb r g b c → Draws f ig images σ (.stroke r g b) { σ with stroke := c } []
  | width {σ w} : Draws f ig images σ (.width w) { σ with width := w.obj } []
  | rect {σ x y w h ps b} : Quad ps (x.val, y.val) (x.val + w.val, y.val) (x.val + w.val, y.val + h.val) (x.val, y.val + h.val) →
      SmallestBox b [(x.val, y.val), (x.val + w.val, y.val + h.val)] →
      Draws f ig images σ (.rect x y w h) σ [.curve ⟨.rect, σ.width, ps, b, σ.stroke, σ.fill, false⟩]
  | segment {σ p q k b} : SegmentKind (spot p) (spot q) k → SmallestBox b [spot p, spot q] →
      Draws f ig images σ (.path p q []) σ [.curve ⟨k, σ.width, [⟨.moveTo, [(some p.1.val, some p.2.val)]⟩, lineTo (spot q)], b, σ.stroke, σ.fill, false⟩]
  | path {σ p q r more b} : ((∀ v ∈ p :: q :: r :: more, spot v ∈ Box (-INF) (-INF) INF INF) → SmallestBox b ((p :: q :: r :: more).map spot)) →
      Draws f ig images σ (.path p q (r :: more)) σ
        [.curve ⟨.curve, σ.width, ⟨.moveTo, [(some p.1.val, some p.2.val)]⟩ :: (q :: r :: more).map (fun v => lineTo (spot v)), b, σ.stroke, σ.fill, false⟩]
  | image {σ i d raw box} {a b c d' e f' : Dec} : images[i]? = some (d, raw) →
      ((∀ v ∈ [((0 : ℚ), (0 : ℚ)), (1, 0), (0, 1), (1, 1)], (a.val * v.1 + c.val * v.2 + e.val, b.val * v.1 + d'.val * v.2 + f'.val) ∈ Box (-INF) (-INF) INF INF) →
        SmallestBox box ([((0 : ℚ), (0 : ℚ)), (1, 0), (0, 1), (1, 1)].map fun v => (a.val * v.1 + c.val * v.2 + e.val, b.val * v.1 + d'.val * v.2 + f'.val))) →
      Draws f ig images σ (.image i a b c d' e f') σ [.image d raw box]
  | text {σ size x y s b} : StringBlock f ig σ size x y s b → Draws f ig images σ (.text size x y s) σ [.text ⟨some b.bbox, [b]⟩]

/-- The items of marks, in their order. -/
inductive DrawsAll (f : Font) (ig : Bool) (images : List (List (Key × Obj) × Bytes)) : Style → List Mark → List Item → Prop
  | nil {σ} : DrawsAll f ig images σ [] []
  | cons {σ m σ' is ms l} : Draws f ig images σ m σ' is → DrawsAll f ig images σ' ms l → DrawsAll f ig images σ (m :: ms) (is ++ l)

/-- The delivered page (width, height, items) has the size and the marks of the page. -/
def LeafOut (f : Font) (ig : Bool) (images : List (List (Key × Obj) × Bytes)) (p : Leaf) (out : ℚ × ℚ × List Item) : Prop :=
  ∃ items, out = (p.width.val, p.height.val, items) ∧ DrawsAll f ig images Style.start p.marks items

/-- The marks can be drawn: the images exist, and the strings have characters with a text and measures in the font. -/
def Drawable (f : Font) (ig : Bool) (images : Nat) : Mark → Prop
  | .image i _ _ _ _ _ _ => i < images
  | .text _ _ _ s => (∃ t, PlacedText f ig s t) ∧ HasCharacter f [.str s]
  | _ => True

/-- An image that can be written: a stream that is an image and has a size. -/
def IsImage (i : List (Key × Obj) × Bytes) : Prop :=
  Writable (.stream i.1 i.2) ∧ dictGet i.1 (nm "Subtype") = some (.name (asc "Image")) ∧ (dictGet i.1 (nm "Width")).isSome ∧ (dictGet i.1 (nm "Height")).isSome

/-- The string of a mark, if it is text. -/
def Mark.string : Mark → Bytes
  | .text _ _ _ s => s
  | _ => []

/-- What is to be read on a page whose strings are ASCII. -/
def Leaf.sheet (p : Leaf) : Sheet := ⟨(p.marks.flatMap Mark.string).map UInt8.toNat, p.width.val, p.height.val⟩

/-- The images exist, and the strings are printable ASCII and not empty. -/
def AsciiMark (images : Nat) : Mark → Prop
  | .image i _ _ _ _ _ _ => i < images
  | .text _ _ _ s => s ≠ [] ∧ ∀ c ∈ s, 32 ≤ c.toNat ∧ c.toNat < 127
  | _ => True

end Pdf.Spec
