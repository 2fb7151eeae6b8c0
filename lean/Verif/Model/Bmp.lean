import Verif.Model.XrefStream
/-! Model of the BMP writer (BMPWriter/__init__.py). The file is a fresh binary file open for writing, as in
interpreter/commands/state/layout/LTImage.py:60. -/

namespace Pdf

/-- A binary file: its bytes and the position (the `fp` of BMPWriter/__init__.py:23). -/
structure BFile where
  content : Bytes := []
  pos : Nat := 0

/-- `fp.write(data)` (BMPWriter/__init__.py:43, 59): a gap between the end of the file and the position is filled with zeros. -/
def BFile.write (f : BFile) (data : Bytes) : BFile :=
  if data = [] then f
  else
    { content := f.content.take f.pos ++ List.replicate (f.pos - f.content.length) 0 ++ data ++
        f.content.drop (f.pos + data.length)
      pos := f.pos + data.length }

/-- `fp.seek(n)` (BMPWriter/__init__.py:58). -/
def BFile.seek (f : BFile) (n : Int) : Except PyErr BFile :=
  if n < 0 then .error .valueError else .ok { f with pos := n.toNat }

/-- The `k` bytes of a natural number, least significant first (`struct.pack('<I', n)`, BMPWriter/__init__.py:39, 41). -/
def leBytes : (k : Nat) → Nat → Bytes
  | 0, _ => []
  | k + 1, n => UInt8.ofNat (n % 256) :: leBytes k (n / 256)

/-- `struct.pack('<I', n)` (BMPWriter/__init__.py:39, 41). -/
def packI (n : Int) : Except PyErr Bytes :=
  if 0 ≤ n ∧ n < 4294967296 then .ok (leBytes 4 n.toNat) else .error .structError

/-- `struct.pack('<i', n)` (BMPWriter/__init__.py:39). -/
def packi (n : Int) : Except PyErr Bytes :=
  if -2147483648 ≤ n ∧ n < 2147483648 then .ok (leBytes 4 (n % 4294967296).toNat) else .error .structError

/-- `struct.pack('<H', n)` (BMPWriter/__init__.py:39, 41). -/
def packH (n : Int) : Except PyErr Bytes :=
  if 0 ≤ n ∧ n < 65536 then .ok (leBytes 2 n.toNat) else .error .structError

/-- `align32` (BMPWriter/__init__.py:7-8). -/
def align32 (x : Int) : Int := ((x + 3) / 4) * 4

/-- The attributes of a `BMPWriter` (BMPWriter/__init__.py:24-54). -/
structure BmpWriter where
  fp : BFile
  linesize : Int
  datasize : Int
  pos0 : Int
  pos1 : Int

/-- `ncols` (BMPWriter/__init__.py:28-35). -/
def bmpColours (bits : Int) : Except PyErr Int :=
  if bits = 1 then .ok 2 else if bits = 8 then .ok 256 else if bits = 24 then .ok 0 else .error .valueError

/-- `info` (BMPWriter/__init__.py:39). -/
def bmpInfo (width height bits datasize ncols : Int) : Except PyErr Bytes := do
  let a ← packI 40
  let b ← packi width
  let c ← packi height
  let d ← packH 1
  let e ← packH bits
  let f ← packI 0
  let g ← packI datasize
  let h ← packI 0
  let i ← packI 0
  let j ← packI ncols
  let k ← packI 0
  .ok (a ++ b ++ c ++ d ++ e ++ f ++ g ++ h ++ i ++ j ++ k)

/-- `header` (BMPWriter/__init__.py:41). -/
def bmpHeader (headersize datasize : Int) : Except PyErr Bytes := do
  let a ← packI (headersize + datasize)
  let b ← packH 0
  let c ← packH 0
  let d ← packI headersize
  .ok ([66, 77] ++ a ++ b ++ c ++ d)

/-- The colour table (BMPWriter/__init__.py:45-52): one `struct.pack('BBBx', i, i, i)` per colour. -/
def bmpTable (ncols : Int) : Bytes :=
  if ncols = 2 then [0, 0, 0, 0, 255, 255, 255, 0]
  else if ncols = 256 then (List.range 256).flatMap fun i => [UInt8.ofNat i, UInt8.ofNat i, UInt8.ofNat i, 0]
  else []

/-- `BMPWriter.__init__` (BMPWriter/__init__.py:23-55), on a fresh file; the length assertions hold. -/
def bmpNew (bits width height : Int) : Except PyErr BmpWriter := do
  let ncols ← bmpColours bits
  let linesize := align32 ((width * bits + 7) / 8)
  let datasize := linesize * height
  let headersize := 14 + 40 + ncols * 4
  let info ← bmpInfo width height bits datasize ncols
  let header ← bmpHeader headersize datasize
  let fp := (((({} : BFile).write header).write info).write (bmpTable ncols))
  .ok { fp := fp, linesize := linesize, datasize := datasize, pos0 := fp.pos, pos1 := fp.pos + datasize }

/-- `write_line` (BMPWriter/__init__.py:57-60). -/
def BmpWriter.writeLine (w : BmpWriter) (y : Int) (data : Bytes) : Except PyErr BmpWriter := do
  let fp ← w.fp.seek (w.pos1 - (y + 1) * w.linesize)
  .ok { w with fp := fp.write data }

/-- A sequence of calls of `write_line` (BMPWriter/__init__.py:57-60). -/
def BmpWriter.writeLines (w : BmpWriter) : List (Int × Bytes) → Except PyErr BmpWriter
  | [] => .ok w
  | (y, d) :: rest => do
    let w' ← w.writeLine y d
    w'.writeLines rest

/-- `write_all` (BMPWriter/__init__.py:14-21); `data` is `stream.get_data()`. The parameter `bits` is not used. -/
def bmpWriteAll (data : Bytes) (width height step : Int) : Except PyErr BmpWriter := do
  let bmp ← bmpNew 1 width height
  bmp.writeLines ((List.range height.toNat).map fun (y : Nat) => ((y : Int), pySlice data ((y : Int) * step) ((y : Int) * step + step)))

end Pdf
