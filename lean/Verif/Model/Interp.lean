import Verif.Model.Geometry
import Verif.Model.Names
/-! Model of the content stream interpreter: interpreter/commands/__init__.py, commands.py, utils.py and the state and layout classes below
interpreter/commands/state (called `state/` in the citations). -/

namespace Pdf

/-- Python `str`: the code points (e.g. the text of state/layout/LTChar.py:16). -/
abbrev Text := List Nat

/-- The methods of a font that the interpreter uses (state/PDFTextState/PDFFont/PDFFont.py:25-90). -/
structure Font where
  name : Obj
  decode : Bytes → Except PyErr (List Int)
  toUnichr : Int → Except PyErr Text
  multibyte : Bool
  vertical : Bool
  charWidth : Int → Except PyErr ℚ
  charDisp : Int → Except PyErr (Option ℚ × ℚ)
  height : Except PyErr ℚ
  descent : Except PyErr ℚ
  width : Except PyErr ℚ

/-- `PDFColorSpace` (state/PDFGraphicState/PDFColorSpace.py:4-8). -/
structure ColorSpace where
  name : Bytes
  ncomponents : Obj
deriving DecidableEq

/-- `PDFColor` (state/PDFGraphicState/PDFColor.py:4-7). -/
structure Color where
  space : Option ColorSpace
  values : List Obj
deriving DecidableEq

/-- `PDFGraphicState` (state/PDFGraphicState/__init__.py:4-17). -/
structure GState where
  linewidth : Obj := .int 0
  linecap : Obj := .null
  linejoin : Obj := .null
  miterlimit : Obj := .null
  dash : Option (Obj × Obj) := none
  intent : Obj := .null
  flatness : Obj := .null
  scolor : Color := ⟨none, []⟩
  ncolor : Color := ⟨none, []⟩
  scolspace : Option ColorSpace := none
  ncolspace : Option ColorSpace := none
deriving DecidableEq

/-- `PDFTextState` (state/PDFTextState/__init__.py:9-20). The list `linematrix` is changed in place and shared by copies: it is given by its
address. -/
structure TState where
  font : Option Font := none
  fontsize : Obj := .int 0
  charspace : Obj := .int 0
  wordspace : Obj := .int 0
  scaling : Obj := .int 100
  leading : ℚ := 0
  render : Obj := .int 0
  rise : Obj := .int 0
  matrix : Mat := Mat.identity
  linematrix : Nat := 0
  ignoreBad : Bool := false

/-- `CurveMethod` (state/Curves.py:18-24). -/
inductive CurveMethod where
  | moveTo | lineTo | curveBothTo | curveNextTo | curveFirstTo | closePath
deriving DecidableEq

/-- `CurvePath` with its `CurvePoint`s (state/Curves.py:5-30). A coordinate that is not a number is `none`. -/
structure CurvePath where
  method : CurveMethod
  points : List (Option ℚ × Option ℚ) := []
deriving DecidableEq

/-- The classes of curves (state/layout/LTCurves.py:10-53). -/
inductive CurveKind where
  | line | horizontal | vertical | rect | curve
deriving DecidableEq

/-- `LTCurve` (state/layout/LTCurves.py:10-25). -/
structure Curve where
  kind : CurveKind
  linewidth : Obj
  paths : List CurvePath
  bbox : Bbox
  stroke : Color
  fill : Color
  evenodd : Bool
deriving DecidableEq

/-- `LTCharBlock` with its `LTChar`s (state/layout/LTCharBlock.py:13-52, LTChar.py:8-24): texts with boxes and sizes. -/
structure CharBlock where
  chars : List (Text × Bbox × ℚ)
  bbox : Bbox
  size : ℚ
  font : Font
  fontsize : Obj
  color : Color

/-- `LTTextBlock` (state/layout/LTTextBlock.py:16-40). The box has no coordinates as long as there is no character. -/
structure TextBlock where
  bbox : Option Bbox := none
  blocks : List CharBlock := []

/-- What the interpreter yields: layout items, or `None` (state/layout/__init__.py:17-134, interpreter/commands/__init__.py:53-69). -/
inductive Item where
  | curve (c : Curve)
  | text (b : TextBlock)
  | image (d : List (Key × Obj)) (data : Bytes) (bbox : Bbox)
  | xobj (stream : Obj) (bbox : Bbox) (resources : Obj) (matrix : Mat) (children : List Item)
  | none

/-- `PDFStateStack` (state/__init__.py:20-33). `lines` are the line matrices, by address. -/
structure St where
  tmatrix : Mat := Mat.identity
  text : TState := {}
  graphics : GState := {}
  gstack : List (Mat × TState × GState) := []
  curves : List CurvePath := []
  args : List Obj := []
  done : List Item := []
  csmap : List (Key × Option ColorSpace)
  fontmap : List (Key × Font) := []
  xobjmap : List (Key × Obj) := []
  resources : Obj := .dict []
  block : Option TextBlock := none
  lines : List (ℚ × ℚ) := [(0, 0)]

/-- `PREDEFINED_COLORSPACE` (state/PDFGraphicState/PDFColorSpace.py:14-27). -/
def predefinedSpaces : List (Key × Option ColorSpace) :=
  [("DeviceGray", 1), ("CalRGB", 3), ("CalGray", 1), ("Lab", 3), ("DeviceRGB", 3), ("DeviceCMYK", 4), ("Separation", 1), ("Indexed", 1),
    ("Pattern", 1)].map fun (x : String × Int) => (nm x.1, some ⟨asc x.1, .int x.2⟩)

/-- `PDFStateStack.pop` (state/__init__.py:35-40) for an integer: the operands taken and those left. A negative number counts from the
front, as slices do. -/
def popArgs (n : Int) (args : List Obj) : List Obj × List Obj :=
  if n = 0 then ([], args)
  else if 0 < n then (args.drop (args.length - n.toNat), args.take (args.length - n.toNat))
  else (args.drop (-n).toNat, args.take (-n).toNat)

/-! ### Layout -/

/-- `linematrix[idx] += d` (state/layout/utils/textdecoder.py:29-47). -/
def bump (vertical : Bool) (l : ℚ × ℚ) (d : ℚ) : ℚ × ℚ := if vertical then (l.1, l.2 + d) else (l.1 + d, l.2)

/-- The numbers that showing text needs (state/layout/utils/textdecoder.py:4-13): matrix, scaling, character and word spacing, font size,
rise and the factor for adjustments. -/
structure ShowPar where
  matrix : Mat
  scaling : ℚ
  charspace : ℚ
  wordspace : ℚ
  fontsize : ℚ
  dxscale : ℚ
  rise : Obj

/-- The start of `decode_text_seq` (state/layout/utils/textdecoder.py:4-13). -/
def showPar (font : Font) (ctm : Mat) (ts : TState) : Except PyErr ShowPar := do
  let sc ← ts.scaling.num
  let cs ← ts.charspace.num
  let ws ← ts.wordspace.num
  let fs ← ts.fontsize.num
  .ok ⟨multMatrix ts.matrix ctm, sc / 100, cs * (sc / 100), if font.multibyte then 0 else ws * (sc / 100), fs, 1 / 1000 * fs * (sc / 100), ts.rise⟩

/-- `__compute_char_bbox` (state/layout/utils/textdecoder.py:52-90): the advance and the corners. -/
def charBbox (font : Font) (p : ShowPar) (m : Mat) (cid : Int) : Except PyErr (ℚ × (ℚ × ℚ) × (ℚ × ℚ)) := do
  let w ← font.charWidth cid
  let adv := w * p.fontsize * p.scaling
  let rise ← p.rise.num
  if font.vertical then
    let disp ← font.charDisp cid
    let fw ← font.width
    let width := fw * p.fontsize
    let vx := match disp.1 with
      | none => width / 2
      | some vx => vx * p.fontsize / 1000
    let vy := (1000 - disp.2) * p.fontsize / 1000
    let p0 := applyPt m (-vx, vy + rise + adv)
    let p1 := applyPt m (-vx + width, vy + rise)
    .ok (adv, (min p0.1 p1.1, min p0.2 p1.2), (max p0.1 p1.1, max p0.2 p1.2))
  else
    let fh ← font.height
    let fd ← font.descent
    let ty := fd * p.fontsize + rise
    let p0 := applyPt m (0, ty)
    let p1 := applyPt m (adv, ty + fh * p.fontsize)
    .ok (adv, (min p0.1 p1.1, min p0.2 p1.2), (max p0.1 p1.1, max p0.2 p1.2))

/-- The state of the loop in `__render_string_along` (state/layout/utils/textdecoder.py:23-50). -/
structure Render where
  line : ℚ × ℚ
  need : Bool
  chars : List (Text × (ℚ × ℚ) × (ℚ × ℚ))

/-- `PDFTextState.to_unichr` (state/PDFTextState/__init__.py:30-39). -/
def toText (font : Font) (ignoreBad : Bool) (cid : Int) : Except PyErr Text :=
  match font.toUnichr cid with
  | .ok t => .ok t
  | .error e => if e = .unicodeNotDefined ∧ ignoreBad then .ok [] else .error e

/-- One character (state/layout/utils/textdecoder.py:32-48). -/
def renderCid (font : Font) (p : ShowPar) (ignoreBad : Bool) (r : Render) (cid : Int) : Except PyErr Render := do
  let line := if r.need then bump font.vertical r.line p.charspace else r.line
  let t ← toText font ignoreBad cid
  let b ← charBbox font p (translateMatrix p.matrix line) cid
  let line := bump font.vertical line b.1
  .ok ⟨if cid = 32 ∧ p.wordspace ≠ 0 then bump font.vertical line p.wordspace else line, true, r.chars ++ [(t, b.2)]⟩

/-- The characters of a string (state/layout/utils/textdecoder.py:32-48). -/
def renderCids (font : Font) (p : ShowPar) (ignoreBad : Bool) : List Int → Render → Except PyErr Render
  | [], r => .ok r
  | c :: cs, r => match renderCid font p ignoreBad r c with
    | .error e => .error e
    | .ok r => renderCids font p ignoreBad cs r

/-- One element of the array (state/layout/utils/textdecoder.py:28-48): a number moves, a string is shown. Anything else is taken to fail in
`decode`. -/
def renderObj (font : Font) (p : ShowPar) (ignoreBad : Bool) (r : Render) (o : Obj) : Except PyErr Render :=
  match o.num? with
  | some q => .ok ⟨bump font.vertical r.line (-(q * p.dxscale)), true, r.chars⟩
  | none => match o with
    | .str s => match font.decode s with
      | .error e => .error e
      | .ok cids => renderCids font p ignoreBad cids r
    | _ => .error .typeError

/-- The loop of `__render_string_along` (state/layout/utils/textdecoder.py:23-50). -/
def renderSeq (font : Font) (p : ShowPar) (ignoreBad : Bool) : List Obj → Render → Except PyErr Render
  | [], r => .ok r
  | o :: os, r => match renderObj font p ignoreBad r o with
    | .error e => .error e
    | .ok r => renderSeq font p ignoreBad os r

/-- The bounds of the characters after the first (state/layout/LTCharBlock.py:30-35). -/
def charBounds (b : Bbox) : List (Text × (ℚ × ℚ) × (ℚ × ℚ)) → Bbox
  | [] => b
  | (_, (nx0, ny0), (nx1, ny1)) :: cs =>
    let x0 := min (min b.x0 b.x1) (min nx0 nx1)
    let x1 := max (max x0 b.x1) (max nx0 nx1)
    let y1 := max (max b.y0 b.y1) (max ny0 ny1)
    let y0 := min (min b.y0 y1) (min ny0 ny1)
    charBounds ⟨x0, y0, x1, y1⟩ cs

/-- `size` of a character or block (state/layout/LTChar.py:20-23, LTCharBlock.py:48-51). -/
def sizeOf (font : Font) (b : Bbox) : ℚ := if font.vertical then b.width else b.height

/-- `LTChar` (state/layout/LTChar.py:10-24): text, box and size. -/
def mkChar (font : Font) (c : Text × (ℚ × ℚ) × (ℚ × ℚ)) : Text × Bbox × ℚ :=
  let b := mkBbox c.2.1.1 c.2.1.2 c.2.2.1 c.2.2.2
  (c.1, b, sizeOf font b)

/-- `LTCharBlock.__init__` (state/layout/LTCharBlock.py:15-52): `IndexError` without characters. -/
def mkCharBlock (font : Font) (fontsize : Obj) (color : Color) : List (Text × (ℚ × ℚ) × (ℚ × ℚ)) → Except PyErr CharBlock
  | [] => .error .indexError
  | c :: cs =>
    let r := charBounds ⟨c.2.1.1, c.2.1.2, c.2.2.1, c.2.2.2⟩ cs
    let b := mkBbox r.x0 r.y0 r.x1 r.y1
    .ok ⟨(c :: cs).map (mkChar font), b, sizeOf font b, font, fontsize, color⟩

/-- The box of a text block after adding a character block (state/layout/LTTextBlock.py:30-39). -/
def growBbox (b : Option Bbox) (c : Bbox) : Bbox :=
  match b with
  | none => c
  | some b => ⟨min b.x0 c.x0, min b.y0 c.y0, max b.x1 c.x1, max b.y1 c.y1⟩

/-- The elements of the operand of `TJ` (state/layout/utils/textdecoder.py:27): the bytes of a string are numbers. Simplification: other
operands raise `TypeError`. -/
def elements : Obj → Except PyErr (List Obj)
  | .arr l => .ok l
  | .str s => .ok (s.map fun b => .int b.toNat)
  | _ => .error .typeError

/-- Both coordinates of the point are numbers; otherwise arithmetic raises `TypeError` (state/layout/__init__.py:31-32). -/
def point (p : Option ℚ × Option ℚ) : Except PyErr (ℚ × ℚ) :=
  match p with
  | (some x, some y) => .ok (x, y)
  | _ => .error .typeError

/-- The end point of a segment (state/layout/__init__.py:88-102). -/
def endPoint (c : CurvePath) : Option (Option ℚ × Option ℚ) :=
  match c.method with
  | .moveTo | .lineTo => c.points[0]?
  | .curveBothTo => c.points[2]?
  | .curveNextTo | .curveFirstTo => c.points[1]?
  | .closePath => none

/-- The end points of the segments (state/layout/__init__.py:86-102). -/
def endPoints : List CurvePath → Except PyErr (List (ℚ × ℚ))
  | [] => .ok []
  | c :: cs => match endPoint c with
    | none => endPoints cs
    | some p => match point p with
      | .error e => .error e
      | .ok p => match endPoints cs with
        | .error e => .error e
        | .ok ps => .ok (p :: ps)

/-- The points `paths[i].points[0]` transformed (state/layout/__init__.py:29-32, 62-69). -/
def transformed (ctm : Mat) : List (Option ℚ × Option ℚ) → Except PyErr (List (ℚ × ℚ))
  | [] => .ok []
  | p :: ps => match point p with
    | .error e => .error e
    | .ok p => match transformed ctm ps with
      | .error e => .error e
      | .ok ps => .ok (applyPt ctm p :: ps)

/-- `make_curve` (state/layout/__init__.py:25-110). A quadrilateral that is not parallel to the axes gives `None`. -/
def makeCurve (ctm : Mat) (g : GState) (evenodd : Bool) (paths : List CurvePath) : Except PyErr Item :=
  match paths with
  | [⟨.moveTo, [p0]⟩, ⟨.lineTo, [p1]⟩] =>
    match transformed ctm [p0, p1] with
    | .ok [(x0, y0), (x1, y1)] =>
      .ok (.curve ⟨if x0 = x1 then .vertical else if y0 = y1 then .horizontal else .line, g.linewidth, paths, mkBbox x0 y0 x1 y1, g.scolor, g.ncolor, evenodd⟩)
    | .ok _ => .error .other
    | .error e => .error e
  | [⟨.moveTo, [p0]⟩, ⟨.lineTo, [p1]⟩, ⟨.lineTo, [p2]⟩, ⟨.lineTo, [p3]⟩, ⟨.closePath, []⟩] =>
    match transformed ctm [p0, p1, p2, p3] with
    | .ok [(x0, y0), (x1, y1), (x2, y2), (x3, y3)] =>
      if (x0 = x1 ∧ y1 = y2 ∧ x2 = x3 ∧ y3 = y0) ∨ (y0 = y1 ∧ x1 = x2 ∧ y2 = y3 ∧ x3 = x0) then
        .ok (.curve ⟨.rect, g.linewidth, paths, mkBbox (min (min x0 x1) (min x2 x3)) (min (min y0 y1) (min y2 y3)) (max (max x0 x1) (max x2 x3))
          (max (max y0 y1) (max y2 y3)), g.scolor, g.ncolor, evenodd⟩)
      else .ok .none
    | .ok _ => .error .other
    | .error e => .error e
  | paths =>
    match endPoints paths with
    | .error e => .error e
    | .ok pts => .ok (.curve ⟨.curve, g.linewidth, paths, fromPoints pts, g.scolor, g.ncolor, evenodd⟩)

/-- `make_image` (state/layout/__init__.py:112-121): the image of the unit square. -/
def imageBbox (ctm : Mat) : Bbox :=
  let m := multMatrix Mat.identity ctm
  fromPoints [applyPt m (0, 0), applyPt m (1, 0), applyPt m (0, 1), applyPt m (1, 1)]

/-- Six numbers, e.g. the entry `Matrix` (state/layout/__init__.py:128, utils/matrix.py:22). -/
def matOf : List Obj → Except PyErr Mat
  | [a, b, c, d, e, f] => do .ok ⟨← a.num, ← b.num, ← c.num, ← d.num, ← e.num, ← f.num⟩
  | _ => .error .valueError

/-- The box of a form (state/layout/__init__.py:123-134). -/
def formBbox (bbox matrix : List Obj) : Except PyErr Bbox :=
  match bbox with
  | [x, y, w, h] => do
    let x ← x.num
    let y ← y.num
    let w ← w.num
    let h ← h.num
    let m ← matOf matrix
    .ok (fromPoints [applyPt m (x, y), applyPt m (x + w, y), applyPt m (x, y + h), applyPt m (x + w, y + h)])
  | _ => .error .valueError

/-! ### Operators -/

/-- `round(x)` for a number: to the nearest integer, halves to the even one (interpreter/commands/commands.py:292-294). -/
def pyRound (q : ℚ) : Int :=
  let f := q.floor
  if q - f < 1 / 2 then f else if 1 / 2 < q - f then f + 1 else if f % 2 = 0 then f else f + 1

/-- An operator: a function of its operands and the state (interpreter/commands/PDFCommands.py:12-27). -/
abbrev Op := List Obj → St → Except PyErr St

/-- `q` (interpreter/commands/commands.py:52-59). -/
def opSave : Op := fun _ s => .ok { s with gstack := (s.tmatrix, s.text, s.graphics) :: s.gstack }

/-- `Q` (interpreter/commands/commands.py:61-65): the graphics state is stored in an attribute that nothing reads. -/
def opRestore : Op := fun _ s =>
  match s.gstack with
  | [] => .ok s
  | (m, t, _) :: rest => .ok { s with tmatrix := m, text := t, gstack := rest }

/-- `cm` (interpreter/commands/commands.py:68-71). -/
def opConcat : Op := fun args s => do
  let m ← matOf args
  .ok { s with tmatrix := multMatrix m s.tmatrix }

/-- The operators that store one operand in the graphics state (interpreter/commands/commands.py:74-113). -/
def setG (f : GState → Obj → GState) : Op := fun args s =>
  match args with
  | [x] => .ok { s with graphics := f s.graphics x }
  | _ => .error .typeError

/-- `d` (interpreter/commands/commands.py:98-101). -/
def opDash : Op := fun args s =>
  match args with
  | [d, p] => .ok { s with graphics := { s.graphics with dash := some (d, p) } }
  | _ => .error .typeError

/-- `CurvePoint`s from operands (state/Curves.py:5-13): the matrix is not applied. -/
def pointsOf : List Obj → List (Option ℚ × Option ℚ)
  | x :: y :: r => (x.num?, y.num?) :: pointsOf r
  | _ => []

/-- `m`, `l`, `c`, `v`, `y`, `h` (interpreter/commands/commands.py:116-175). -/
def opCurve (m : CurveMethod) : Op := fun args s => .ok { s with curves := s.curves ++ [⟨m, pointsOf args⟩] }

/-- `re` (interpreter/commands/commands.py:178-187). -/
def opRect : Op := fun args s =>
  match args with
  | [x, y, w, h] => do
    let x ← x.num
    let y ← y.num
    let w ← w.num
    let h ← h.num
    .ok { s with curves := s.curves ++ [⟨.moveTo, [(some x, some y)]⟩, ⟨.lineTo, [(some (x + w), some y)]⟩,
      ⟨.lineTo, [(some (x + w), some (y + h))]⟩, ⟨.lineTo, [(some x, some (y + h))]⟩, ⟨.closePath, []⟩] }
  | _ => .error .typeError

/-- `S`, `f`, `F`, `B`, `f*`, `B*` (interpreter/commands/commands.py:190-211). -/
def opPaint (evenodd : Bool) : Op := fun _ s =>
  match makeCurve s.tmatrix s.graphics evenodd s.curves with
  | .error e => .error e
  | .ok i => .ok { s with done := s.done ++ [i], curves := [] }

/-- `s`, `b`, `b*` (interpreter/commands/commands.py:214-241). -/
def opClosePaint (evenodd : Bool) : Op := fun args s => opPaint evenodd args { s with curves := s.curves ++ [⟨.closePath, []⟩] }

/-- `n` (interpreter/commands/commands.py:244-247). -/
def opEndPath : Op := fun _ s => .ok { s with curves := [] }

/-- `CS`, `cs` (interpreter/commands/commands.py:251-266). -/
def opSpace (f : GState → Option ColorSpace → GState) : Op := fun args s =>
  match args with
  | [x] => match x.key with
    | .error e => .error e
    | .ok k => match dictGet s.csmap k with
      | none => .error .invalidOperation
      | some c => .ok { s with graphics := f s.graphics c }
  | _ => .error .typeError

/-- `set_stroke_color` (state/PDFGraphicState/__init__.py:19-22). -/
def setStroke (g : GState) (c : Option ColorSpace) (vs : List Obj) : GState :=
  { g with scolor := ⟨match c with | some c => some c | none => g.scolspace, vs⟩ }

/-- `set_nostroke_color` (state/PDFGraphicState/__init__.py:24-27). -/
def setFill (g : GState) (c : Option ColorSpace) (vs : List Obj) : GState :=
  { g with ncolor := ⟨match c with | some c => some c | none => g.ncolspace, vs⟩ }

/-- `G`, `g`, `K`, `k` (interpreter/commands/commands.py:269-284, 310-325). -/
def opColor (space : String) (set : GState → Option ColorSpace → List Obj → GState) : Op := fun args s =>
  match dictGet s.csmap (nm space) with
  | none => .error .keyError
  | some c => .ok { s with graphics := set s.graphics c args }

/-- `round(x*255)` for each operand (interpreter/commands/commands.py:292-294, 303-305). -/
def bytesOfColor : List Obj → Except PyErr (List Obj)
  | [] => .ok []
  | x :: xs => match x.num with
    | .error e => .error e
    | .ok q => match bytesOfColor xs with
      | .error e => .error e
      | .ok ys => .ok (.int (pyRound (q * 255)) :: ys)

/-- `RG`, `rg` (interpreter/commands/commands.py:288-307). -/
def opRgb (set : GState → Option ColorSpace → List Obj → GState) : Op := fun args s =>
  match dictGet s.csmap (nm "DeviceRGB") with
  | none => .error .keyError
  | some c => match bytesOfColor args with
    | .error e => .error e
    | .ok vs => .ok { s with graphics := set s.graphics c vs }

/-- `SCN`, `SC`, `scn`, `sc` (interpreter/commands/commands.py:327-347): the operands are taken here. -/
def opCustom (get : GState → Option ColorSpace) (set : GState → Option ColorSpace → List Obj → GState) : Op := fun _ s =>
  match get s.graphics with
  | none => .error .invalidOperation
  | some c => match c.ncomponents with
    | .int n => .ok { s with args := (popArgs n s.args).2, graphics := set s.graphics (some c) (popArgs n s.args).1 }
    | .bool b => .ok { s with args := (popArgs (if b then 1 else 0) s.args).2,
                              graphics := set s.graphics (some c) (popArgs (if b then 1 else 0) s.args).1 }
    | _ => .error .typeError

/-- `linematrix = [0, 0]`: a new list (interpreter/commands/commands.py:353). -/
def newLine (s : St) (f : TState → TState) : St :=
  { s with text := { f s.text with linematrix := s.lines.length }, lines := s.lines ++ [(0, 0)] }

/-- `BT` (interpreter/commands/commands.py:350-358). -/
def opBegin : Op := fun _ s =>
  match s.block with
  | some _ => .error .invalidOperation
  | none => .ok { newLine s (fun t => { t with matrix := Mat.identity }) with block := some {} }

/-- `ET` (interpreter/commands/commands.py:360-364): `None` without `BT`. -/
def opEnd : Op := fun _ s =>
  .ok { s with done := s.done ++ [match s.block with | some b => .text b | none => .none], block := none }

/-- `Tc`, `Tw`, `Tz`, `Tr`, `Ts` (interpreter/commands/commands.py:367-382, 401-410). -/
def setT (f : TState → Obj → TState) : Op := fun args s =>
  match args with
  | [x] => .ok { s with text := f s.text x }
  | _ => .error .typeError

/-- `TL` (interpreter/commands/commands.py:385-388). -/
def opLeading : Op := fun args s =>
  match args with
  | [x] => match x.num with
    | .error e => .error e
    | .ok q => .ok { s with text := { s.text with leading := -q } }
  | _ => .error .typeError

/-- `Tf` (interpreter/commands/commands.py:391-398). -/
def opFont : Op := fun args s =>
  match args with
  | [x, size] => match x.key with
    | .error e => .error e
    | .ok k => match dictGet s.fontmap k with
      | none => .error .invalidOperation
      | some f => .ok { s with text := { s.text with font := some f, fontsize := size } }
  | _ => .error .typeError

/-- `Td` (interpreter/commands/commands.py:413-418). -/
def opMove : Op := fun args s =>
  match args with
  | [x, y] => do
    let tx ← x.num
    let ty ← y.num
    .ok (newLine s fun t => { t with matrix := ⟨t.matrix.a, t.matrix.b, t.matrix.c, t.matrix.d, tx * t.matrix.a + ty * t.matrix.c + t.matrix.e,
      tx * t.matrix.b + ty * t.matrix.d + t.matrix.f⟩ })
  | _ => .error .typeError

/-- `TD` (interpreter/commands/commands.py:421-427). -/
def opMoveLead : Op := fun args s =>
  match args with
  | [x, y] => do
    let tx ← x.num
    let ty ← y.num
    .ok (newLine s fun t => { t with leading := ty, matrix := ⟨t.matrix.a, t.matrix.b, t.matrix.c, t.matrix.d,
      tx * t.matrix.a + ty * t.matrix.c + t.matrix.e, tx * t.matrix.b + ty * t.matrix.d + t.matrix.f⟩ })
  | _ => .error .typeError

/-- `Tm` (interpreter/commands/commands.py:430-434). Simplification: operands that are not numbers fail at once. -/
def opMatrix : Op := fun args s => do
  let m ← matOf args
  .ok (newLine s fun t => { t with matrix := m })

/-- `T*` (interpreter/commands/commands.py:437-442). -/
def nextLine (s : St) : St :=
  newLine s fun t => { t with matrix := ⟨t.matrix.a, t.matrix.b, t.matrix.c, t.matrix.d, t.leading * t.matrix.c + t.matrix.e,
    t.leading * t.matrix.d + t.matrix.f⟩ }

/-- `T*` (interpreter/commands/commands.py:437-442). -/
def opNextLine : Op := fun _ s => .ok (nextLine s)

/-- `add_char_block` (state/layout/LTTextBlock.py:23-40): the character block and the new line matrix. -/
def showSeq (font : Font) (ctm : Mat) (ts : TState) (line : ℚ × ℚ) (color : Color) (seq : List Obj) : Except PyErr (CharBlock × (ℚ × ℚ)) := do
  let p ← showPar font ctm ts
  let r ← renderSeq font p ts.ignoreBad seq ⟨line, false, []⟩
  let b ← mkCharBlock font ts.fontsize color r.chars
  .ok (b, r.line)

/-- `TJ` (interpreter/commands/commands.py:445-457), on the elements of its operand. -/
def showText (seq : List Obj) (s : St) : Except PyErr St :=
  match s.text.font, s.block with
  | none, _ => .error .invalidOperation
  | some _, none => .error .invalidOperation
  | some font, some blk =>
    match showSeq font s.tmatrix s.text (s.lines[s.text.linematrix]?.getD (0, 0)) s.graphics.ncolor seq with
    | .error e => .error e
    | .ok (b, line) => .ok { s with block := some ⟨some (growBbox blk.bbox b.bbox), blk.blocks ++ [b]⟩, lines := s.lines.set s.text.linematrix line }

/-- `TJ` (interpreter/commands/commands.py:445-457). -/
def opShowArray : Op := fun args s =>
  match args with
  | [x] => match s.text.font, s.block, elements x with
    | some _, some _, .error e => .error e
    | some _, some _, .ok l => showText l s
    | _, _, _ => .error .invalidOperation
  | _ => .error .typeError

/-- `Tj` (interpreter/commands/commands.py:460-462). -/
def opShow : Op := fun args s => showText args s

/-- `'` (interpreter/commands/commands.py:465-467). -/
def opQuote : Op := fun args s => showText args (nextLine s)

/-- `"` (interpreter/commands/commands.py:470-474): it does not go to the next line. -/
def opDoubleQuote : Op := fun args s =>
  match args with
  | [w, c, b] => showText [b] { s with text := { s.text with wordspace := w, charspace := c } }
  | _ => .error .typeError

/-- `EI` (interpreter/commands/commands.py:476-482). Simplification: only streams are images; `in` fails on most other operands. -/
def opImage : Op := fun args s =>
  match args with
  | [.stream d raw] =>
    if (dictGet d (nm "W")).isSome ∧ (dictGet d (nm "H")).isSome then .ok { s with done := s.done ++ [.image d raw (imageBbox s.tmatrix)] }
    else .ok s
  | [.arr _] => .ok s
  | _ => .error .typeError

/-- `validated_stream` (parser/PDFStream/__init__.py:13-20), lenient: the dictionary and the raw data. -/
def Resolver.streamValue (R : Resolver) (o : Obj) : Except PyErr (List (Key × Obj) × Bytes) :=
  match R.resolve1 o with
  | .ok (.stream d raw) => .ok (d, raw)
  | .ok _ => .ok ([], [])
  | .error e => .error e

/-- The resources of a form (interpreter/commands/commands.py:500-501): its own, or those of the page. -/
def formResources (R : Resolver) (d : List (Key × Obj)) (res : Obj) : Except PyErr Obj :=
  match dictGet d (nm "Resources") with
  | some o => if o.truthy then (match R.dictValue o with | .ok d => .ok (.dict d) | .error e => .error e) else copyOf res
  | none => copyOf res
where
  /-- `stack.resources.copy()`; only dictionaries and lists can be copied. -/
  copyOf : Obj → Except PyErr Obj
    | .dict d => .ok (.dict d)
    | .arr l => .ok (.arr l)
    | _ => .error .attributeError

/-- The matrix of a form (interpreter/commands/commands.py:496): the identity by default. -/
def formMatrix (R : Resolver) (d : List (Key × Obj)) : Except PyErr (List Obj) :=
  match dictGet d (nm "Matrix") with
  | some m => R.listValue m
  | none => .ok [.int 1, .int 0, .int 0, .int 1, .int 0, .int 0]

/-- The form as an item (interpreter/commands/commands.py:494-508). -/
def formItem (R : Resolver) (d : List (Key × Obj)) (raw : Bytes) (res : Obj) (ctm : Mat) : Except PyErr Item := do
  let bbox ← R.listValue ((dictGet d (nm "BBox")).getD .null)
  let matrix ← formMatrix R d
  let res ← formResources R d res
  let b ← formBbox bbox matrix
  .ok (.xobj (.stream d raw) b res ctm [])

/-- `Do` (interpreter/commands/commands.py:485-516). -/
def opXObject (R : Resolver) : Op := fun args s =>
  match args with
  | [x] => match x.key with
    | .error e => .error e
    | .ok k => match dictGet s.xobjmap k with
      | none => .error .invalidOperation
      | some o => match R.streamValue o with
        | .error e => .error e
        | .ok (d, raw) =>
          if dictGet d (nm "Subtype") = some (.name (asc "Form")) ∧ (dictGet d (nm "BBox")).isSome then
            match formItem R d raw s.resources s.tmatrix with
            | .error e => .error e
            | .ok i => .ok { s with done := s.done ++ [i] }
          else if dictGet d (nm "Subtype") = some (.name (asc "Image")) ∧ (dictGet d (nm "Width")).isSome ∧ (dictGet d (nm "Height")).isSome then
            .ok { s with done := s.done ++ [.image d raw (imageBbox s.tmatrix)] }
          else .ok s
  | _ => .error .typeError

/-- `PDFCommands.commands` (interpreter/commands/commands.py:52-516): the operators by their method names, with their numbers of operands. -/
def commands (R : Resolver) : List (Bytes × Nat × Op) :=
  [(asc "q", 0, opSave), (asc "Q", 0, opRestore), (asc "cm", 6, opConcat),
   (asc "w", 1, setG fun g x => { g with linewidth := x }), (asc "J", 1, setG fun g x => { g with linecap := x }),
   (asc "j", 1, setG fun g x => { g with linejoin := x }), (asc "M", 1, setG fun g x => { g with miterlimit := x }),
   (asc "d", 2, opDash), (asc "ri", 1, setG fun g x => { g with intent := x }), (asc "i", 1, setG fun g x => { g with flatness := x }),
   (asc "m", 2, opCurve .moveTo), (asc "l", 2, opCurve .lineTo), (asc "c", 6, opCurve .curveBothTo), (asc "v", 4, opCurve .curveNextTo),
   (asc "y", 4, opCurve .curveFirstTo), (asc "h", 0, opCurve .closePath), (asc "re", 4, opRect),
   (asc "S", 0, opPaint false), (asc "f", 0, opPaint false), (asc "F", 0, opPaint false), (asc "B", 0, opPaint false),
   (asc "f_a", 0, opPaint true), (asc "B_a", 0, opPaint true), (asc "s", 0, opClosePaint false), (asc "b", 0, opClosePaint false),
   (asc "b_a", 0, opClosePaint true), (asc "n", 0, opEndPath),
   (asc "CS", 1, opSpace fun g c => { g with scolspace := c }), (asc "cs", 1, opSpace fun g c => { g with ncolspace := c }),
   (asc "G", 1, opColor "DeviceGray" setStroke), (asc "g", 1, opColor "DeviceGray" setFill),
   (asc "RG", 3, opRgb setStroke), (asc "rg", 3, opRgb setFill),
   (asc "K", 4, opColor "DeviceCMYK" setStroke), (asc "k", 4, opColor "DeviceCMYK" setStroke),
   (asc "SCN", 0, opCustom GState.scolspace setStroke), (asc "SC", 0, opCustom GState.scolspace setStroke),
   (asc "scn", 0, opCustom GState.ncolspace setFill), (asc "sc", 0, opCustom GState.ncolspace setFill),
   (asc "BT", 0, opBegin), (asc "ET", 0, opEnd),
   (asc "Tc", 1, setT fun t x => { t with charspace := x }), (asc "Tw", 1, setT fun t x => { t with wordspace := x }),
   (asc "Tz", 1, setT fun t x => { t with scaling := x }), (asc "TL", 1, opLeading), (asc "Tf", 2, opFont),
   (asc "Tr", 1, setT fun t x => { t with render := x }), (asc "Ts", 1, setT fun t x => { t with rise := x }),
   (asc "Td", 2, opMove), (asc "TD", 2, opMoveLead), (asc "Tm", 6, opMatrix), (asc "T_a", 0, opNextLine),
   (asc "TJ", 1, opShowArray), (asc "Tj", 1, opShow), (asc "_q", 1, opQuote), (asc "_w", 3, opDoubleQuote),
   (asc "EI", 1, opImage), (asc "Do", 1, opXObject R)]

/-- `name.replace('*', '_a').replace('"', '_w').replace("'", '_q')` (interpreter/commands/__init__.py:28). Simplification: `keyword_name`
(PSStackParser/__init__.py:28-37) drops bytes that are not UTF-8; here they are kept, so a keyword with such bytes is an unknown operator. -/
def methodName (n : Bytes) : Bytes :=
  n.flatMap fun c => if c = 42 then [95, 97] else if c = 34 then [95, 119] else if c = 39 then [95, 113] else [c]

/-- One object of the content stream (interpreter/commands/__init__.py:26-50). -/
def exec (R : Resolver) (s : St) (o : Obj) : Except PyErr St :=
  match o with
  | .kw n =>
    match dictGet (commands R) (methodName n) with
    | none => .ok s
    | some (nargs, f) =>
      if nargs = 0 then f [] s
      else if (popArgs nargs s.args).1.length = nargs then f (popArgs nargs s.args).1 { s with args := (popArgs nargs s.args).2 }
      else .error .commandError
  | o => .ok { s with args := s.args ++ [o] }

/-- The effect of a sequence of objects on the state (interpreter/commands/__init__.py:26-50), with the completed items collected instead of
yielded. -/
def execs (R : Resolver) : List Obj → St → Except PyErr St
  | [], s => .ok s
  | o :: os, s => match exec R s o with
    | .error e => .error e
    | .ok s => execs R os s

/-- `get_colorspace` (interpreter/commands/utils.py:10-20). -/
def getColorspace (R : Resolver) (spec : Obj) : Except PyErr (Option ColorSpace) :=
  match spec with
  | .arr [] => .error .indexError
  | .arr (x :: rest) => match x.key with
    | .error e => .error e
    | .ok k => match rest with
      | [] => .ok ((dictGet predefinedSpaces k).join)
      | y :: _ =>
        if k = nm "ICCBased" then match R.streamValue y with
          | .error e => .error e
          | .ok (d, _) => match dictGet d (nm "N") with
            | none => .error .keyError
            | some n => .ok (some ⟨asc "ICCBased", n⟩)
        else if k = nm "DeviceN" then match R.listValue y with
          | .error e => .error e
          | .ok l => .ok (some ⟨asc "DeviceN", .int l.length⟩)
        else .ok ((dictGet predefinedSpaces k).join)
  | o => match o.key with
    | .error e => .error e
    | .ok k => .ok ((dictGet predefinedSpaces k).join)

/-- What the interpreter takes from its surroundings: references, fonts (`get_font`, with its cache) and the objects of content streams
(`PDFContentParser`), see interpreter/commands/__init__.py:21-24, utils.py:42. -/
structure Env1 where
  R : Resolver
  getFont : Option Int → List (Key × Obj) → Except PyErr Font
  content : List Obj → Gen Obj

/-- The number of a referenced object (interpreter/commands/utils.py:38-40). -/
def refId : Obj → Option Int
  | .ref i _ => some i
  | _ => none

/-- The fonts of the resources (interpreter/commands/utils.py:37-42). -/
def initFonts (E : Env1) : List (Key × Obj) → St → Except PyErr St
  | [], s => .ok s
  | (k, spec) :: r, s => match E.R.dictValue spec with
    | .error e => .error e
    | .ok d => match E.getFont (refId spec) d with
      | .error e => .error e
      | .ok f => initFonts E r { s with fontmap := dictSet s.fontmap k f }

/-- The colour spaces of the resources (interpreter/commands/utils.py:44-45). -/
def initSpaces (R : Resolver) : List (Key × Obj) → St → Except PyErr St
  | [], s => .ok s
  | (k, spec) :: r, s => match R.resolve1 spec with
    | .error e => .error e
    | .ok o => match getColorspace R o with
      | .error e => .error e
      | .ok c => initSpaces R r { s with csmap := dictSet s.csmap k c }

/-- One entry of the resources (interpreter/commands/utils.py:36-50). -/
def initEntry (E : Env1) (k : Key) (v : Obj) (s : St) : Except PyErr St :=
  if k = nm "Font" then match E.R.dictValue v with
    | .error e => .error e
    | .ok d => initFonts E d s
  else if k = nm "ColorSpace" then match E.R.dictValue v with
    | .error e => .error e
    | .ok d => initSpaces E.R d s
  else if k = nm "ProcSet" then match E.R.listValue v with
    | .error e => .error e
    | .ok _ => .ok s
  else if k = nm "XObject" then match E.R.dictValue v with
    | .error e => .error e
    | .ok d => .ok { s with xobjmap := d.foldl (fun m e => dictSet m e.1 e.2) s.xobjmap }
  else .ok s

/-- The loop of `init_resources` (interpreter/commands/utils.py:33-50). -/
def initEntries (E : Env1) : List (Key × Obj) → St → Except PyErr St
  | [], s => .ok s
  | (k, v) :: r, s => match initEntry E k v s with
    | .error e => .error e
    | .ok s => initEntries E r s

/-- `init_resources` (interpreter/commands/utils.py:33-50). -/
def initResources (E : Env1) (s : St) : Except PyErr St :=
  match E.R.dictValue s.resources with
  | .error e => .error e
  | .ok d => initEntries E d s

/-- `prep_state(PDFStateStack(), ...)` (interpreter/commands/__init__.py:71-82): the colour spaces are `DeviceGray`. -/
def prepState (E : Env1) (ctm : Mat) (resources : Obj) (ignoreBad : Bool) : Except PyErr St :=
  let gray : Option ColorSpace := some ⟨asc "DeviceGray", .int 1⟩
  initResources E { csmap := predefinedSpaces, tmatrix := ctm, resources := resources, text := { ignoreBad := ignoreBad },
                    graphics := { ncolspace := gray, scolspace := gray } }

/-- The completed items (interpreter/commands/__init__.py:53-69): the content of a form is interpreted by `nested`, with a state of its own
and the graphics state of the page. -/
def finish (E : Env1) (nested : List Obj → St → Gen Item) (g : GState) : List Item → Gen Item
  | [] => ([], none)
  | .xobj st b res m cs :: is =>
    match prepState E m res false with
    | .error e => ([], some e)
    | .ok s =>
      match nested [st] { s with graphics := g } with
      | (_, some e) => ([], some e)
      | (items, none) => (.xobj st b res m (cs ++ items) :: (finish E nested g is).1, (finish E nested g is).2)
  | i :: is => (i :: (finish E nested g is).1, (finish E nested g is).2)

/-- The loop of `process_command_stream` (interpreter/commands/__init__.py:25-69) over the objects of the content: what is yielded and the
final state. -/
def runWith (E : Env1) (nested : List Obj → St → Gen Item) : List Obj → Option PyErr → St → Gen Item × St
  | [], e, s => (([], e), s)
  | o :: os, e, s =>
    match exec E.R s o with
    | .error x => (([], some x), s)
    | .ok s1 =>
      match finish E nested s1.graphics s1.done with
      | (items, some x) => ((items, some x), s1)
      | (items, none) =>
        ((items ++ (runWith E nested os e { s1 with done := [] }).1.1, (runWith E nested os e { s1 with done := [] }).1.2),
          (runWith E nested os e { s1 with done := [] }).2)

/-- `process_command_stream` (interpreter/commands/__init__.py:21-69). The `fuel` bounds the nesting of forms. -/
def run (E : Env1) : (fuel : Nat) → List Obj → St → Gen Item × St
  | 0, _, s => (([], some .recursion), s)
  | fuel + 1, streams, s => runWith E (fun st s => (run E fuel st s).1) (E.content streams).1 (E.content streams).2 s

end Pdf
