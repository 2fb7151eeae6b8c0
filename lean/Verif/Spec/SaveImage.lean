import Verif.Model.SaveImage
import Verif.Spec.Filters
import Verif.Spec.Bmp
/-! Specification for C105: images in files. -/

namespace Pdf.Spec

/-- `path` is the file with a name in a directory; no directory is the current one. -/
inductive InDir : PyStr → PyStr → PyStr → Prop
  | here {file} : InDir [] file file
  | slash {d file} : InDir (d ++ pstr "/") file (d ++ pstr "/" ++ file)
  | plain {d file} : d ≠ [] → ¬ pstr "/" <:+ d → InDir d file (d ++ pstr "/" ++ file)

/-- The name without extension: the given one, or the name of the image. -/
def BaseName (i : LtImage) : Option PyStr → PyStr → Prop
  | some n, base => base = n
  | none, base => base = i.name

/-- A width or height, cut to a whole number. -/
def WholePart : PyNum → Nat → Prop
  | .int n, k => n = k
  | .float q, k => (k : ℚ) ≤ q ∧ q < k + 1

/-- The colour space of an image names `DeviceCMYK`. -/
def NamesCmyk (attrs : List (Key × Obj)) : Prop :=
  ∃ co, EitherEntry attrs "ColorSpace" "CS" (some co) ∧ (co = .name (asc "DeviceCMYK") ∨ ∃ l, co = .arr l ∧ Obj.name (asc "DeviceCMYK") ∈ l)

/-- The bits per component: an entry, or 1 if there is none. -/
def BitsAre (attrs : List (Key × Obj)) (n : Nat) : Prop :=
  ∃ bo, EitherEntry attrs "BitsPerComponent" "BPC" bo ∧ (bo = some (.int n) ∨ bo = none ∧ n = 1)

/-- A stream object during a run: nobody has asked for its data, or it keeps them. -/
def StreamOf (decode : Bytes → Except PyErr Bytes) (raw : Bytes) (s : StreamSt) : Prop :=
  s = .fresh raw ∨ ∃ d, decode raw = .ok d ∧ s = ⟨none, some d⟩

/-- The files are the same but for one path, where there is now a file. -/
def Wrote (F F' : Files) (path : PyStr) (data : Bytes) : Prop := F' path = some data ∧ ∀ q, q ≠ path → F' q = F q

/-- A bitmap file of black and white pixels, whose rows are the rows of `data`. -/
structure Bitmap (file : Bytes) (w h : Nat) (data : Bytes) : Prop where
  width : bmpWidth file = w
  height : bmpHeight file = h
  bits : bmpBits file = 1
  row : ∀ y < h, bmpRow file y = (data.drop (y * ((w + 7) / 8))).take ((w + 7) / 8)

end Pdf.Spec
