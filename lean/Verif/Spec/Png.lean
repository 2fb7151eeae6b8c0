import Verif.Model.Basic
/-! PNG row filters (PNG specification, section 6), for `bpp` bytes per pixel, and big-endian values. -/

namespace Pdf.Spec
open Pdf

inductive PngFilter where
  | none | sub | up | average | paeth
deriving DecidableEq

def PngFilter.code : PngFilter → UInt8
  | .none => 0 | .sub => 1 | .up => 2 | .average => 3 | .paeth => 4

/-- Byte `x` of a row, 0 to the left of the row (`x < bpp` for the left neighbour). -/
def left (row : Bytes) (bpp x : Nat) : UInt8 := if x < bpp then 0 else row.getD (x - bpp) 0

/-- The Paeth predictor on numbers. -/
def paethPredictor (a b c : Nat) : Nat :=
  let p : Int := a + b - c
  let pa := (p - a).natAbs; let pb := (p - b).natAbs; let pc := (p - c).natAbs
  if pa ≤ pb ∧ pa ≤ pc then a else if pb ≤ pc then b else c

/-- The prediction for byte `x` of `row`, `prior` being the previous row (all zeros before the first). -/
def predict (f : PngFilter) (bpp : Nat) (prior row : Bytes) (x : Nat) : UInt8 :=
  match f with
  | .none => 0
  | .sub => left row bpp x
  | .up => prior.getD x 0
  | .average => UInt8.ofNat (((left row bpp x).toNat + (prior.getD x 0).toNat) / 2)
  | .paeth => UInt8.ofNat (paethPredictor (left row bpp x).toNat (prior.getD x 0).toNat (left prior bpp x).toNat)

/-- The filtered row: each byte minus its prediction, modulo 256. -/
def filterRow (f : PngFilter) (bpp : Nat) (prior row : Bytes) : Bytes :=
  (List.range row.length).map (fun x => row.getD x 0 - predict f bpp prior row x)

/-- A filtered image: each row is preceded by its filter code. -/
def pngEncode (bpp : Nat) : (prior : Bytes) → List (PngFilter × Bytes) → Bytes
  | _, [] => []
  | prior, (f, row) :: rows => f.code :: filterRow f bpp prior row ++ pngEncode bpp row rows

/-- The value of a big-endian byte string. -/
def beValue (s : Bytes) : Nat := s.foldl (fun v b => v * 256 + b.toNat) 0

end Pdf.Spec
