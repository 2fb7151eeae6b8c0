import Mathlib.Data.Rat.Cast.Order
/-! Showing text (PDF 32000-1, 9.4.4), independent of the interpreter. -/

namespace Pdf.Spec

/-- What the elements of the operand of `TJ` ask for: glyphs and adjustments. -/
inductive Ev where
  | glyph (code : Int)
  | move (n : ℚ)
deriving DecidableEq

/-- Font size, horizontal scaling (1 = 100%), character and word spacing and the widths of the glyphs. -/
structure Pace where
  size : ℚ
  scaling : ℚ
  charspace : ℚ
  wordspace : ℚ
  width : Int → ℚ

/-- How far the pen moves. -/
def Pace.step (p : Pace) : Ev → ℚ
  | .glyph c => (p.width c * p.size + p.charspace + if c = 32 then p.wordspace else 0) * p.scaling
  | .move n => -n / 1000 * p.size * p.scaling

/-- The glyphs with the positions of the pen at which they are painted, starting at `x`. -/
def Pace.origins (p : Pace) (x : ℚ) : List Ev → List (Int × ℚ)
  | [] => []
  | .glyph c :: es => (c, x) :: p.origins (x + p.step (.glyph c)) es
  | .move n :: es => p.origins (x + p.step (.move n)) es

/-- Where the pen is afterwards. -/
def Pace.final (p : Pace) (x : ℚ) : List Ev → ℚ
  | [] => x
  | e :: es => p.final (x + p.step e) es

end Pdf.Spec
