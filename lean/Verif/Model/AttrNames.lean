import Verif.Model.Text
/-! Model of `convert_capcase_to_snakecase` (converters/xml.py:14-18), which makes the names of the attributes of a char-block from the keys
of the font descriptor. -/

namespace Pdf

/-- `[A-Z]` (converters/xml.py:14-15). -/
def isCap (c : Nat) : Bool := decide (65 ≤ c ∧ c ≤ 90)

/-- `[a-z]` (converters/xml.py:14-15). -/
def isSmall (c : Nat) : Bool := decide (97 ≤ c ∧ c ≤ 122)

/-- `[a-z0-9]` (converters/xml.py:15). -/
def isSmallOrDigit (c : Nat) : Bool := isSmall c || decide (48 ≤ c ∧ c ≤ 57)

/-- `FIRST_CAP_RE.sub(r'\1-\2', text)` with `(.)([A-Z][a-z]+)` (converters/xml.py:14, 17): from left to right, without overlaps; `.` is any
character but the line feed, `+` takes as many as there are. -/
def firstCapSub : PyStr → PyStr
  | c :: u :: l :: rest =>
    if c ≠ 10 ∧ isCap u ∧ isSmall l then
      c :: 45 :: u :: l :: (rest.takeWhile isSmall ++ firstCapSub (rest.dropWhile isSmall))
    else c :: firstCapSub (u :: l :: rest)
  | s => s
termination_by s => s.length
decreasing_by
  · have := (List.dropWhile_sublist isSmall (l := rest)).length_le
    simp only [List.length_cons]
    omega
  · simp

/-- `ALL_CAP_RE.sub(r'\1-\2', s1)` with `([a-z0-9])([A-Z])` (converters/xml.py:15, 18). -/
def allCapSub : PyStr → PyStr
  | c :: u :: rest =>
    if isSmallOrDigit c ∧ isCap u then c :: 45 :: u :: allCapSub rest
    else c :: allCapSub (u :: rest)
  | s => s
termination_by s => s.length

/-- `.lower()` (converters/xml.py:18), for the letters A to Z. The other capital letters of Unicode are not modelled: they stay as they are
here. -/
def lowerText (s : PyStr) : PyStr := s.map fun c => if isCap c then c + 32 else c

/-- `convert_capcase_to_snakecase` (converters/xml.py:16-18). -/
def snakeCase (text : PyStr) : PyStr := lowerText (allCapSub (firstCapSub text))

end Pdf
