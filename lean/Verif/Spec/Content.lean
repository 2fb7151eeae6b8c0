import Verif.Model.StackParser
import Mathlib.Data.Rat.Cast.Order
/-! Content streams, independent of the interpreter. -/

namespace Pdf.Spec

/-- The operator with that name. -/
def operator (s : String) : Obj := .kw (s.toList.map fun c => UInt8.ofNat c.toNat)

/-- An operand: anything but an operator. -/
def Operand (o : Obj) : Prop := ∀ n, o ≠ .kw n

/-- Sequences of operands and operators in which every `q` has its `Q`. -/
inductive Balanced : List Obj → Prop where
  | nil : Balanced []
  | other {o : Obj} {p : List Obj} (hq : o ≠ operator "q") (hQ : o ≠ operator "Q") (h : Balanced p) : Balanced (o :: p)
  | group {p r : List Obj} (h : Balanced p) (hr : Balanced r) : Balanced (operator "q" :: p ++ operator "Q" :: r)

/-- The text line of the PDF specification: where a point given relative to the start of the line lies, and the leading. -/
structure Line where
  place : ℚ × ℚ → ℚ × ℚ
  leading : ℚ

/-- The operators that move the text line (PDF 32000-1, 9.4.2). -/
inductive LineOp where
  | BT
  | Td (x y : ℚ)
  | TD (x y : ℚ)
  | Tm (a b c d e f : ℚ)
  | Tstar
  | TL (l : ℚ)

/-- The next line starts at `(x, y)` relative to the start of this one. -/
def Line.move (l : Line) (x y : ℚ) : Line := ⟨fun p => l.place (p.1 + x, p.2 + y), l.leading⟩

/-- What the operators do. -/
def LineOp.step (l : Line) : LineOp → Line
  | .BT => ⟨fun p => p, l.leading⟩
  | .Td x y => l.move x y
  | .TD x y => Line.move ⟨l.place, -y⟩ x y
  | .Tm a b c d e f => ⟨fun p => (a * p.1 + c * p.2 + e, b * p.1 + d * p.2 + f), l.leading⟩
  | .Tstar => l.move 0 (-l.leading)
  | .TL x => ⟨l.place, x⟩

end Pdf.Spec
