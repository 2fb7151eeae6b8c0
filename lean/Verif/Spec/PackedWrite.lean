import Verif.Spec.Write
import Verif.Spec.XrefStream
/-! A writer of PDF files with an object stream and a cross-reference stream (PDF 1.5; ISO 32000, 7.5.7 and 7.5.8). -/

namespace Pdf.Spec
open Pdf (Bytes Tok Obj Key asc nm)

/-- The objects that are streams, each with the number of its place in the list. -/
def writeStreams : (i : Nat) → List Obj → Bytes
  | _, [] => []
  | i, .stream d b :: os => writeObj i (.stream d b) ++ writeStreams (i + 1) os
  | i, _ :: os => writeStreams (i + 1) os

/-- The other objects with their numbers. -/
def packed : (i : Nat) → List Obj → List (Nat × Obj)
  | _, [] => []
  | i, .stream _ _ :: os => packed (i + 1) os
  | i, o :: os => (i, o) :: packed (i + 1) os

/-- The number and the offset of each object in an object stream, the first at offset `p`. -/
def packIndex : (p : Nat) → List (Nat × Obj) → List (Nat × Nat)
  | _, [] => []
  | p, (i, o) :: os => (i, p) :: packIndex (p + (printToks (objToks o)).length) os

/-- The numbers at the head of the object stream. -/
def packHead (ms : List (Nat × Obj)) : List Tok := (packIndex 0 ms).flatMap fun x => [.int x.1, .int x.2]

/-- The content of the object stream. -/
def packText (ms : List (Nat × Obj)) : Bytes := printToks (packHead ms) ++ printToks (ms.flatMap fun x => objToks x.2)

/-- A way of coding the data of a stream: what it adds to the dictionary, and the coded data. -/
structure Coding where
  filter : List (Key × Obj)
  code : Bytes → Bytes

/-- No filter. -/
def uncoded : Coding := ⟨[], fun b => b⟩

/-- The filter `FlateDecode`, with a compressor `z`. -/
def flated (z : Bytes → Bytes) : Coding := ⟨[(nm "Filter", .name (asc "FlateDecode"))], z⟩

/-- The object stream. -/
def packStream (c : Coding) (ms : List (Nat × Obj)) : Obj :=
  .stream ([(nm "Type", .name (asc "ObjStm")), (nm "N", .int ms.length), (nm "First", .int (printToks (packHead ms)).length),
    (nm "Length", .int (c.code (packText ms)).length)] ++ c.filter) (c.code (packText ms))

/-- A number in two and in four bytes. -/
def num2 (n : Nat) : Bytes := [UInt8.ofNat (n / 256), UInt8.ofNat (n % 256)]
def num4 (n : Nat) : Bytes := num2 (n / 65536) ++ num2 (n % 65536)

/-- The entry of an object at an offset, and of the `k`-th object of the object stream with number `s`. -/
def rowAt (p : Nat) : XRow := ⟨[1], num4 p, [0, 0]⟩
def rowIn (s k : Nat) : XRow := ⟨[2], num4 s, num2 k⟩

/-- The entries of the objects from number `i` on; the next stream is at offset `p`, the next other object has index `k` in the object stream. -/
def xrefRows (s : Nat) : (i p k : Nat) → List Obj → List XRow
  | _, _, _, [] => []
  | i, p, k, .stream d b :: os => rowAt p :: xrefRows s (i + 1) (p + (writeObj i (.stream d b)).length) k os
  | i, p, k, _ :: os => rowIn s k :: xrefRows s (i + 1) p (k + 1) os

/-- Where the object stream and the cross-reference stream are. -/
def packPos (objs : List Obj) : Nat := 9 + (writeStreams 1 objs).length
def xrefPos (c : Coding) (objs : List Obj) : Nat := packPos objs + (writeObj (objs.length + 1) (packStream c (packed 1 objs))).length

/-- The entries of the whole file: object 0 is free. -/
def allRows (c : Coding) (objs : List Obj) : List XRow :=
  ⟨[0], [0, 0, 0, 0], [255, 255]⟩ :: (xrefRows (objs.length + 1) 1 9 0 objs ++ [rowAt (packPos objs), rowAt (xrefPos c objs)])

/-- The cross-reference stream, which is the trailer as well. -/
def xrefStream (c x : Coding) (objs : List Obj) (root : Obj) : Obj :=
  .stream ([(nm "Type", .name (asc "XRef")), (nm "Size", .int ↑(objs.length + 3)), (nm "W", .arr [.int 1, .int 4, .int 2]), (nm "Root", root),
    (nm "Length", .int (x.code ((allRows c objs).map XRow.bytes).flatten).length)] ++ x.filter) (x.code ((allRows c objs).map XRow.bytes).flatten)

/-- The file: the streams, the object stream with the other objects, the cross-reference stream; the codings are those of these two. -/
def writePacked (c x : Coding) (objs : List Obj) (root : Obj) : Bytes :=
  asc "%PDF-1.5\n" ++ (writeStreams 1 objs ++ (writeObj (objs.length + 1) (packStream c (packed 1 objs)) ++ (writeObj (objs.length + 2) (xrefStream c x objs root) ++
    (asc "startxref" ++ ([10] ++ (natDigits (xrefPos c objs) ++ ([10] ++ asc "%%EOF\n")))))))

/-- The objects of the file. -/
def packedObjs (c x : Coding) (objs : List Obj) (root : Obj) : List Obj := objs ++ [packStream c (packed 1 objs), xrefStream c x objs root]

/-- The coding of a stream is undone by `decode`: it adds nothing but filters, and the coded data do not contain `endstream`. -/
structure Coding.Good (decode : List (Key × Obj) → Bytes → Except PyErr Bytes) (c : Coding) (d : List (Key × Obj)) (text : Bytes) : Prop where
  keys : ∀ x ∈ c.filter, x.1 = nm "Filter" ∨ x.1 = nm "DecodeParms"
  nodup : (c.filter.map Prod.fst).Nodup
  wf : WFitems c.filter
  clean : ¬ asc "endstream" <:+: c.code text
  decodes : decode d (c.code text) = .ok text

/-- What can be written: see `Writable`. The codings are undone, and the numbers fit into the entries. -/
structure Packable (decode : List (Key × Obj) → Bytes → Except PyErr Bytes) (c x : Coding) (objs : List Obj) (root : Obj) : Prop where
  objects : ∀ o ∈ objs, Writable o
  rootOk : WF root
  pack : ∀ d b, packStream c (packed 1 objs) = .stream d b → c.Good decode d (packText (packed 1 objs))
  xref : ∀ d b, xrefStream c x objs root = .stream d b → x.Good decode d ((allRows c objs).map XRow.bytes).flatten
  count : objs.length < 65536
  size : xrefPos c objs < 4294967296

end Pdf.Spec
