import Verif.Spec.Print
import Verif.Model.Resolver
/-! A simple writer of PDF files: the objects numbered from 1 on, a cross-reference table, a trailer. -/

namespace Pdf.Spec
open Pdf (Bytes Tok Obj Key asc)

/-- `i 0 obj ... endobj`, for a stream with its data just before `endstream`. -/
def writeObj (i : Nat) : Obj → Bytes
  | .stream d body => printToks ([.int i, .int 0, .kw (asc "obj")] ++ objToks (.dict d)) ++ (asc "stream" ++ ([10] ++ (body ++
      (asc "endstream" ++ ([10] ++ (asc "endobj" ++ [10]))))))
  | o => printToks ([.int i, .int 0, .kw (asc "obj")] ++ objToks o ++ [.kw (asc "endobj")]) ++ [10]

/-- The objects, numbered from `i` on. -/
def writeObjs : (i : Nat) → List Obj → Bytes
  | _, [] => []
  | i, o :: os => writeObj i o ++ writeObjs (i + 1) os

/-- The lines of the cross-reference table for objects written from offset `p` on: ten digits, `00000 n`. -/
def entryLines : (i p : Nat) → List Obj → List Bytes
  | _, _, [] => []
  | i, p, o :: os => (padded p 9 ++ asc " 00000 n \n") :: entryLines (i + 1) (p + (writeObj i o).length) os

/-- The lines of the table: `0 n`, the free object 0, and the objects. -/
def tableLines (objs : List Obj) : List Bytes :=
  (asc "0 " ++ natDigits (objs.length + 1) ++ [10]) :: asc "0000000000 65535 f \n" :: entryLines 1 9 objs

/-- The file up to the cross-reference table. -/
def writeBody (objs : List Obj) : Bytes := asc "%PDF-1.4\n" ++ writeObjs 1 objs

/-- The trailer and what follows. -/
def writeTrailer (trailer : List (Key × Obj)) (xref : Nat) : Bytes :=
  printToks ([.kw (asc "trailer")] ++ objToks (.dict trailer)) ++ ([10] ++ (asc "startxref" ++ ([10] ++ (natDigits xref ++ ([10] ++ asc "%%EOF\n")))))

/-- The whole file. -/
def writeFile (objs : List Obj) (trailer : List (Key × Obj)) : Bytes :=
  writeBody objs ++ (asc "xref\n" ++ ((tableLines objs).flatten ++ writeTrailer trailer (writeBody objs).length))

/-- What is left of the file when it is cut off after the trailer dictionary and the cross-reference table is lost. -/
def writeRest (objs : List Obj) (trailer : List (Key × Obj)) : Bytes :=
  writeBody objs ++ (printToks ([.kw (asc "trailer")] ++ objToks (.dict trailer)) ++ [10])

/-- The objects that can be written: see `WF`; streams whose data do not contain `endstream` and that do not contain other objects; no bare
references. -/
def Writable : Obj → Prop
  | .stream d body => WF (.dict d) ∧ dictGet d (.name (asc "Type")) ≠ some (.name (asc "ObjStm")) ∧ ¬ asc "endstream" <:+: body
  | .ref _ _ => False
  | o => WF o

/-- The objects with their numbers. -/
def numbered : (i : Nat) → List Obj → List (Int × Obj)
  | _, [] => []
  | i, o :: os => (↑i, o) :: numbered (i + 1) os

end Pdf.Spec
