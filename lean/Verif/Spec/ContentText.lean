import Verif.Spec.Token
import Verif.Spec.Object
/-! How the content of a page is written: operands and operators, and inline images (ISO 32000, 8.9.7), independently of the
content parser. -/

namespace Pdf.Spec
open Pdf (Bytes Tok Obj Key)

/-- The elements between `BI` and `ID` as key/value pairs. -/
inductive ImagePairs : List Obj → List (Key × Obj) → Prop
  | nil : ImagePairs [] []
  | cons {k key v os ps} : keyOf k = some key → ImagePairs os ps → ImagePairs (k :: v :: os) ((key, v) :: ps)

/-- No `EI` that is followed by white space. -/
def NoEI (u : Bytes) : Prop := ∀ x c y, White c → u ≠ x ++ 69 :: 73 :: c :: y

/-- `ImageData raw data`: the bytes `raw` between `ID`, one white-space byte, and `EI` stand for the image data `data`: the data
and the end of a line, or the data alone. -/
inductive ImageData : Bytes → Bytes → Prop
  /-- carriage return before `EI` -/
  | cr (data) : ImageData (data ++ [13]) data
  /-- carriage return and line feed before `EI` -/
  | crlf (data) : ImageData (data ++ [13, 10]) data
  /-- line feed before `EI` -/
  | lf (data) : data.getLast? ≠ some 13 → data.getLast? ≠ some 10 → ImageData (data ++ [10]) data
  /-- `EI` right after the data -/
  | bare (data) : data.getLast? ≠ some 13 → data.getLast? ≠ some 10 → ¬ [69] <:+ data → ¬ [69, 73] <:+ data → ImageData data data

/-- `Content w os`: the bytes `w` write the objects `os`: operands and operators, and for an inline image the stream object
followed by the operator `EI`. -/
inductive Content : Bytes → List Obj → Prop
  | nil : Content [] []
  /-- operands and operators -/
  | objects {p pts a b os os'} : Text p pts a b → WritesSeq contentDialect (pts.map Prod.snd) os → Content b os' → Content (a ++ b) (os ++ os')
  /-- `BI ... ID`, white space, data, `EI`, white space -/
  | image {p pts x w raw data w' b ts os ps d os'} : Text p pts x ([73, 68, w] ++ raw ++ [69, 73, w'] ++ b) → pts.map Prod.snd = .kw [66, 73] :: ts →
      WritesSeq contentDialect ts os → ImagePairs os ps → DictOf ps d → White w → ImageData raw data → NoEI raw → White w' → Content b os' →
      Content (x ++ ([73, 68, w] ++ raw ++ [69, 73, w'] ++ b)) (.stream d data :: .kw [69, 73] :: os')

/-- Nothing, or something that ends with white space. -/
def EndsWhite (a : Bytes) : Prop := ∀ c ∈ a.getLast?, White c

/-- No stream but the last ends with the letter `I` or the letters `ID`. -/
def Uncut (streams : List Bytes) : Prop := ∀ s ∈ streams.dropLast, ¬ [73] <:+ s ∧ ¬ [73, 68] <:+ s

end Pdf.Spec
