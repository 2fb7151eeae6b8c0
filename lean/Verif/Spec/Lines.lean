import Verif.Model.Basic
/-! Specification of the lines of a file. A line ends with LF, CR LF, or CR not followed by LF; the reader needs to see
the byte after a CR, so a CR at the very end of the file does not complete a line. -/

namespace Pdf.Spec
open Pdf (Bytes)

def NoEol (w : Bytes) : Prop := ∀ c ∈ w, c ≠ 10 ∧ c ≠ 13

/-- `IsLine l rest`: followed by `rest`, the bytes `l` are one complete line. -/
inductive IsLine : Bytes → Bytes → Prop
  | lf {body rest} : NoEol body → IsLine (body ++ [10]) rest
  | crlf {body rest} : NoEol body → IsLine (body ++ [13, 10]) rest
  | cr {body c rest} : NoEol body → c ≠ 10 → IsLine (body ++ [13]) (c :: rest)

/-- No line is completed in `w`. -/
def Unfinished (w : Bytes) : Prop := NoEol w ∨ ∃ body, NoEol body ∧ w = body ++ [13]

/-- `Lines p w ls rest`: from offset `p` on the bytes `w` are the lines `ls` (with their offsets) and an unfinished
`rest`. -/
inductive Lines : Nat → Bytes → List (Nat × Bytes) → Bytes → Prop
  | stop {p w} : Unfinished w → Lines p w [] w
  | line {p l w ls rest} : IsLine l w → Lines (p + l.length) w ls rest → Lines p (l ++ w) ((p, l) :: ls) rest

end Pdf.Spec
