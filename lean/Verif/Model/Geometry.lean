import Verif.Model.Resolver
import Mathlib.Data.Rat.Cast.Order
import Mathlib.Tactic.Ring
import Mathlib.Tactic.Linarith
/-! Model of utils/matrix.py, of `Bbox` (utils/types.py), of the relations between boxes (state/layout/_base.py) and of the initial matrix
of a page (interpreter/PageInterpreter.py). Numbers are exact rationals: the rounding of Python's floats is not modelled. -/

namespace Pdf

/-- The number an object is for Python's arithmetic (`int`, `float`, `bool`), see `isnumber` (utils/generic.py:76-77). -/
def Obj.num? : Obj → Option ℚ
  | .int n => some n
  | .real m k => some (m / 10 ^ k)
  | .bool b => some (if b then 1 else 0)
  | _ => none

/-- The operand of an arithmetic operation. Simplification: an operand that is not a number raises `TypeError`; Python can also concatenate
and repeat strings and lists (e.g. interpreter/commands/commands.py:70). -/
def Obj.num (o : Obj) : Except PyErr ℚ :=
  match o.num? with
  | some q => .ok q
  | none => .error .typeError

/-- A matrix, as the tuple `(a, b, c, d, e, f)` (utils/matrix.py:3). -/
structure Mat where
  a : ℚ
  b : ℚ
  c : ℚ
  d : ℚ
  e : ℚ
  f : ℚ
deriving DecidableEq

/-- `MATRIX_IDENTITY` (utils/matrix.py:3). -/
def Mat.identity : Mat := ⟨1, 0, 0, 1, 0, 0⟩

/-- `mult_matrix` (utils/matrix.py:5-11). -/
def multMatrix (m1 m0 : Mat) : Mat :=
  ⟨m0.a * m1.a + m0.c * m1.b, m0.b * m1.a + m0.d * m1.b,
   m0.a * m1.c + m0.c * m1.d, m0.b * m1.c + m0.d * m1.d,
   m0.a * m1.e + m0.c * m1.f + m0.e, m0.b * m1.e + m0.d * m1.f + m0.f⟩

/-- `translate_matrix` (utils/matrix.py:14-18). -/
def translateMatrix (m : Mat) (v : ℚ × ℚ) : Mat :=
  ⟨m.a, m.b, m.c, m.d, v.1 * m.a + v.2 * m.c + m.e, v.1 * m.b + v.2 * m.d + m.f⟩

/-- `apply_matrix_pt` (utils/matrix.py:21-25). -/
def applyPt (m : Mat) (v : ℚ × ℚ) : ℚ × ℚ := (m.a * v.1 + m.c * v.2 + m.e, m.b * v.1 + m.d * v.2 + m.f)

/-- `apply_matrix_norm` (utils/matrix.py:28-32). -/
def applyNorm (m : Mat) (v : ℚ × ℚ) : ℚ × ℚ := (m.a * v.1 + m.c * v.2, m.b * v.1 + m.d * v.2)

/-- `Bbox` (utils/types.py:7-31), with all coordinates given. -/
structure Bbox where
  x0 : ℚ
  y0 : ℚ
  x1 : ℚ
  y1 : ℚ
deriving DecidableEq

/-- `Bbox.__init__` (utils/types.py:11-21). -/
def mkBbox (x0 y0 x1 y1 : ℚ) : Bbox := ⟨min x0 x1, min y0 y1, max x0 x1, max y0 y1⟩

/-- `height` (utils/types.py:23-25). -/
def Bbox.height (b : Bbox) : ℚ := b.y1 - b.y0

/-- `width` (utils/types.py:27-29). -/
def Bbox.width (b : Bbox) : ℚ := b.x1 - b.x0

/-- `INF` (utils/types.py:3). -/
def INF : ℚ := 2147483647

/-- The loop of `from_points` (utils/types.py:41-45): the four bounds. -/
def boundsOf (acc : Bbox) : List (ℚ × ℚ) → Bbox
  | [] => acc
  | (x, y) :: ps => boundsOf ⟨min acc.x0 x, min acc.y0 y, max acc.x1 x, max acc.y1 y⟩ ps

/-- `Bbox.from_points` (utils/types.py:37-46). -/
def fromPoints (pts : List (ℚ × ℚ)) : Bbox :=
  let b := boundsOf ⟨INF, INF, -INF, -INF⟩ pts
  mkBbox b.x0 b.y0 b.x1 b.y1

/-! ### Relations between boxes (state/layout/_base.py) -/

/-- `is_empty` (layout/_base.py:50-51). -/
def Bbox.isEmpty (b : Bbox) : Bool := b.width ≤ 0 ∨ b.height ≤ 0

/-- `is_hoverlap` (layout/_base.py:53-55). -/
def Bbox.isHoverlap (s o : Bbox) : Bool := o.x0 ≤ s.x1 ∧ s.x0 ≤ o.x1

/-- `hdistance` (layout/_base.py:57-62). -/
def Bbox.hdistance (s o : Bbox) : ℚ := if s.isHoverlap o then 0 else min |s.x0 - o.x1| |s.x1 - o.x0|

/-- `hoverlap` (layout/_base.py:64-69). -/
def Bbox.hoverlap (s o : Bbox) : ℚ := if s.isHoverlap o then min |s.x0 - o.x1| |s.x1 - o.x0| else 0

/-- `is_voverlap` (layout/_base.py:71-73). -/
def Bbox.isVoverlap (s o : Bbox) : Bool := o.y0 ≤ s.y1 ∧ s.y0 ≤ o.y1

/-- `vdistance` (layout/_base.py:75-80). -/
def Bbox.vdistance (s o : Bbox) : ℚ := if s.isVoverlap o then 0 else min |s.y0 - o.y1| |s.y1 - o.y0|

/-- `voverlap` (layout/_base.py:82-87). -/
def Bbox.voverlap (s o : Bbox) : ℚ := if s.isVoverlap o then min |s.y0 - o.y1| |s.y1 - o.y0| else 0

/-! ### The initial matrix of a page -/

/-- The matrix by rotation (PageInterpreter.py:10-18). -/
def initialMatrix (rotate : Int) (x0 y0 x1 y1 : ℚ) : Mat :=
  if rotate = 90 then ⟨0, -1, 1, 0, -y0, x1⟩
  else if rotate = 180 then ⟨-1, 0, 0, -1, x1, y1⟩
  else if rotate = 270 then ⟨0, 1, -1, 0, y1, -x0⟩
  else ⟨1, 0, 0, 1, -x0, -y0⟩

/-- What `PageInterpreter.__init__` (PageInterpreter.py:9-25) computes from the page: matrix, width and height. A media box that is not a
list of four raises `ValueError` or `TypeError`. -/
def pageGeometry (mediabox : Obj) (rotate : Int) : Except PyErr (Mat × ℚ × ℚ) :=
  match mediabox with
  | .arr [a, b, c, d] => do
    let x0 ← a.num
    let y0 ← b.num
    let x1 ← c.num
    let y1 ← d.num
    .ok (initialMatrix rotate x0 y0 x1 y1, x1 - x0, y1 - y0)
  | .arr _ => .error .valueError
  | _ => .error .typeError

end Pdf
