import Verif.Model.SaveAll
import Verif.Spec.SaveImage
import Verif.Spec.Drawing
import Verif.Props.Bmp
import Mathlib.Algebra.Order.Floor.Semiring
/-! Specification for C116: the images that were put in a document come out of it. -/

namespace Pdf.Spec
open Pdf

/-- Marks that are seen; the others only choose colours and widths. -/
def Mark.seen : Mark → Bool
  | .fill _ _ _ => false
  | .stroke _ _ _ => false
  | .width _ => false
  | _ => true

/-- The mark with number `j`, of those that are seen on the page, is image `i` with the matrix `a b c d e f`. -/
def HasImage (p : Leaf) (j i : Nat) (a b c d e f : Dec) : Prop :=
  ∃ before after, p.marks = before ++ .image i a b c d e f :: after ∧ (before.filter Mark.seen).length = j

/-- The unit square is mapped to a place where boxes are computed rightly. -/
def OnSheet (a b c d e f : Dec) : Prop :=
  ∀ v ∈ [((0 : ℚ), (0 : ℚ)), (1, 0), (0, 1), (1, 1)], (a.val * v.1 + c.val * v.2 + e.val, b.val * v.1 + d.val * v.2 + f.val) ∈ Box (-INF) (-INF) INF INF

/-- The width of the unit square after the matrix. -/
def across (a c : Dec) : ℚ := |a.val| + |c.val|

/-- What is to become of an image: the extension of its file, and what the file is. `whole`: width and height are Python integers. -/
inductive FileOf (R : Resolver) (deflated : Bytes → Bytes → Prop) (attrs : List (Key × Obj)) (raw : Bytes) (whole : Prop) (a b c d e f : Dec) :
    PyStr → (Bytes → Prop) → Prop
  /-- The file is the stream itself. -/
  | jpeg {params co} : Stages attrs [(.dct, params)] → EitherEntry attrs "ColorSpace" "CS" co → ¬ NamesCmyk attrs →
      FileOf R deflated attrs raw whole a b c d e f (pstr ".jpg") (· = raw)
  /-- The file has the data that were encoded. -/
  | data {stages plain bits} : Stages attrs stages → stages.map (·.1) ≠ [Filter.dct] → Chain R deflated stages plain raw → BitsAre attrs bits → bits ≠ 1 →
      OnSheet a b c d e f →
      FileOf R deflated attrs raw whole a b c d e f
        (pstr ".b" ++ numText bits ++ pstr "w" ++ numText ⌊across a c⌋₊ ++ pstr "h" ++ numText ⌊across b d⌋₊ ++ pstr ".img") (· = plain)
  /-- The file is a bitmap with the rows that were encoded. -/
  | bitmap {stages plain w h} : Stages attrs stages → stages.map (·.1) ≠ [Filter.dct] → Chain R deflated stages plain raw → BitsAre attrs 1 →
      OnSheet a b c d e f → whole → across a c = (w : Nat) → across b d = (h : Nat) → 0 < w → BmpFits 1 w h → (w + 7) / 8 * h ≤ plain.length →
      FileOf R deflated attrs raw whole a b c d e f (pstr ".w" ++ numText w ++ pstr "h" ++ numText h ++ pstr ".bmp") (Bitmap · w h plain)

/-- The name of the file for item `j` of page `n`, without extension. -/
def imageFile (base : PyStr) (n j : Nat) : PyStr := base ++ pstr "_p" ++ numText n ++ pstr "i" ++ numText j

/-- What the program needs: references to integers are followed, zlib decompresses, the files can be opened; the first part of the names does not begin with a
slash. -/
structure SaveWorks (L : SaveEnv) (deflated : Bytes → Bytes → Prop) : Prop where
  ints : ∀ n : Int, L.objects.resolve1 (.int n) = .ok (.int n)
  inflate : ∀ plain coded, deflated plain coded → L.inflate coded = some plain
  base : ¬ pstr "/" <+: L.base
  opens : ∀ n j ext path, InDir L.outdir (imageFile L.base n j ++ ext) path → L.canOpen path = true

/-- The image is in its file. -/
def Out (L : SaveEnv) (deflated : Bytes → Bytes → Prop) (images : List (List (Key × Obj) × Bytes)) (n j i : Nat) (a b c d e f : Dec) (F : Files) : Prop :=
  ∃ attrs raw path file, images[i]? = some (attrs, raw) ∧ F path = some file ∧
    ∀ ext P, FileOf L.objects deflated attrs raw (L.floats n j = (false, false)) a b c d e f ext P → InDir L.outdir (imageFile L.base n j ++ ext) path ∧ P file

/-- The program can save the images of a page. -/
def Savable (L : SaveEnv) (deflated : Bytes → Bytes → Prop) (images : List (List (Key × Obj) × Bytes)) (n : Nat) (p : Leaf) : Prop :=
  ∀ j i a b c d e f, HasImage p j i a b c d e f → ∀ attrs raw, images[i]? = some (attrs, raw) →
    ∃ ext P, FileOf L.objects deflated attrs raw (L.floats n j = (false, false)) a b c d e f ext P

/-- The program can save the images before item `j` of page `n`. -/
def SavableTo (L : SaveEnv) (deflated : Bytes → Bytes → Prop) (images : List (List (Key × Obj) × Bytes)) (pages : List Leaf) (n j : Nat) : Prop :=
  ∀ n' p, pages[n']? = some p → ∀ j', (n' < n ∨ n' = n ∧ j' < j) → ∀ i a b c d e f, HasImage p j' i a b c d e f → ∀ attrs raw, images[i]? = some (attrs, raw) →
    ∃ ext P, FileOf L.objects deflated attrs raw (L.floats n' j' = (false, false)) a b c d e f ext P

/-- Two items have one stream object only if they are the same image. -/
def SameObject (L : SaveEnv) (pages : List Leaf) : Prop :=
  ∀ n n' p p', pages[n]? = some p → pages[n']? = some p' → ∀ j j' i i' a b c d e f a' b' c' d' e' f',
    HasImage p j i a b c d e f → HasImage p' j' i' a' b' c' d' e' f' → L.holds n j = L.holds n' j' → i = i'

end Pdf.Spec
