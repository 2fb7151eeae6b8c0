import Verif.Model.Interp
import Verif.Model.Lists
/-! Model of the width arrays of CID fonts (state/PDFTextState/PDFFont/util.py). Numbers are rationals: Python's `1 == 1.0 == True` are one
dictionary key. -/

namespace Pdf

/-- An object that Python accepts as an argument of `range` (PDFFont/util.py:18): `int` and `bool`. -/
def rangeArg : Obj → Option Int
  | .int n => some n
  | .bool b => some (if b then 1 else 0)
  | _ => none

/-- `for (i, w) in enumerate(v): widths[char1+i] = w` (PDFFont/util.py:11-13), for any values. -/
def setRun {α : Type} (widths : List (ℚ × α)) (char1 : ℚ) : List α → List (ℚ × α)
  | [] => widths
  | w :: ws => setRun (dictSet widths char1 w) (char1 + 1) ws

/-- `for i in range(char1, char2+1): widths[i] = w` (PDFFont/util.py:18-19); `n` is the length of the range. -/
def setRange {α : Type} (widths : List (ℚ × α)) (i : Int) (w : α) : (n : Nat) → List (ℚ × α)
  | 0 => widths
  | n + 1 => setRange (dictSet widths (i : ℚ) w) (i + 1) w n

/-- The loop of `get_widths` (PDFFont/util.py:7-20); `r` holds the numbers read so far. -/
def widthsLoop (widths : List (ℚ × Obj)) (r : List Obj) : List Obj → Except PyErr (List (ℚ × Obj))
  | [] => .ok widths
  | v :: seq =>
    match v with
    | .arr l =>
      match r.getLast?.bind Obj.num? with
      | some char1 => widthsLoop (setRun widths char1 l) [] seq
      | none => widthsLoop widths r seq
    | v =>
      match v.num? with
      | none => widthsLoop widths r seq
      | some _ =>
        match r ++ [v] with
        | [char1, char2, w] =>
          match rangeArg char1, rangeArg char2 with
          | some a, some b => widthsLoop (setRange widths a w (b + 1 - a).toNat) [] seq
          | _, _ => .error .typeError
        | r => widthsLoop widths r seq

/-- `get_widths` (PDFFont/util.py:4-21). -/
def getWidths (seq : List Obj) : Except PyErr (List (ℚ × Obj)) := widthsLoop [] [] seq

/-- The groups `(w, vx, vy)` of a list: `choplist(3, v)` (PDFFont/util.py:33), with the result of `get_widths2` for each. -/
def triples : List Obj → List (Obj × Obj × Obj)
  | w :: vx :: vy :: rest => (w, vx, vy) :: triples rest
  | _ => []

/-- The loop of `get_widths2` (PDFFont/util.py:29-42). -/
def widths2Loop (widths : List (ℚ × (Obj × Obj × Obj))) (r : List Obj) : List Obj → Except PyErr (List (ℚ × (Obj × Obj × Obj)))
  | [] => .ok widths
  | v :: seq =>
    match v with
    | .arr l =>
      match r.getLast?.bind Obj.num? with
      | some char1 => widths2Loop (setRun widths char1 (triples l)) [] seq
      | none => widths2Loop widths r seq
    | v =>
      match v.num? with
      | none => widths2Loop widths r seq
      | some _ =>
        match r ++ [v] with
        | [char1, char2, w, vx, vy] =>
          match rangeArg char1, rangeArg char2 with
          | some a, some b => widths2Loop (setRange widths a (w, vx, vy) (b + 1 - a).toNat) [] seq
          | _, _ => .error .typeError
        | r => widths2Loop widths r seq

/-- `get_widths2` (PDFFont/util.py:26-43). -/
def getWidths2 (seq : List Obj) : Except PyErr (List (ℚ × (Obj × Obj × Obj))) := widths2Loop [] [] seq

end Pdf
