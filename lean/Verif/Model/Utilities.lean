import Verif.Model.Geometry
import Verif.Model.Resolver
/-! Functions of the library that the converters do not use (utils/text.py, parser/PDFStream/util.py). -/

namespace Pdf

/-- `vecBetweenBoxes` (utils/text.py:53-74): `width` and `height` of the boxes are the differences of their coordinates (layout/_base.py:33-36). Numbers are exact. -/
def vecBetweenBoxes (a b : Bbox) : ℚ × ℚ :=
  let x0 := min a.x0 b.x0
  let y0 := min a.y0 b.y0
  let x1 := max a.x1 b.x1
  let y1 := max a.y1 b.y1
  let ow := x1 - x0
  let oh := y1 - y0
  let iw := ow - (a.x1 - a.x0) - (b.x1 - b.x0)
  let ih := oh - (a.y1 - a.y0) - (b.y1 - b.y0)
  if iw < 0 ∧ ih < 0 then ((a.x0 + a.x1) / 2 - (b.x0 + b.x1) / 2, (a.y0 + a.y1) / 2 - (b.y0 + b.y1) / 2)
  else (max 0 iw, max 0 ih)

mutual
/-- `resolve_all` (parser/PDFStream/util.py:20-33) with the default `None`: lists are followed, and dictionaries have no `iteritems` in Python 3 (`AttributeError`).
A stream is no `dict`. `fuel` bounds the recursion. -/
def resolveAll (R : Resolver) : (fuel : Nat) → Obj → Except PyErr Obj
  | 0, _ => .error .recursion
  | fuel + 1, x =>
    match R.resolve1 x with
    | .error e => .error e
    | .ok (.arr l) => match resolveEach R fuel l with
      | .error e => .error e
      | .ok l => .ok (.arr l)
    | .ok (.dict _) => .error .attributeError
    | .ok o => .ok o
/-- `[resolve_all(v, default=default) for v in x]` (parser/PDFStream/util.py:29). -/
def resolveEach (R : Resolver) : (fuel : Nat) → List Obj → Except PyErr (List Obj)
  | _, [] => .ok []
  | fuel, x :: xs =>
    match resolveAll R fuel x with
    | .error e => .error e
    | .ok y => match resolveEach R fuel xs with
      | .error e => .error e
      | .ok ys => .ok (y :: ys)
end

end Pdf
