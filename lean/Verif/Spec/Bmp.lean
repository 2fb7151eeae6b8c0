import Verif.Model.Basic
/-! A reader of BMP files with a BITMAPINFOHEADER, for C58: fields are little-endian, rows of pixels are stored bottom-up and
padded to a multiple of 32 bits. -/

namespace Pdf.Spec

/-- The value of little-endian bytes. -/
def leValue : Bytes → Nat
  | [] => 0
  | b :: bs => b.toNat + 256 * leValue bs

/-- The field of `len` bytes at offset `off`. -/
def bmpField (file : Bytes) (off len : Nat) : Nat := leValue ((file.drop off).take len)

/-- The size of the file as recorded in the file header. -/
def bmpSize (file : Bytes) : Nat := bmpField file 2 4
/-- The offset of the pixels. -/
def bmpOffset (file : Bytes) : Nat := bmpField file 10 4
/-- The width in pixels. -/
def bmpWidth (file : Bytes) : Nat := bmpField file 18 4
/-- The number of rows. -/
def bmpHeight (file : Bytes) : Nat := bmpField file 22 4
/-- The bits per pixel. -/
def bmpBits (file : Bytes) : Nat := bmpField file 28 2
/-- The bytes from one row to the next: the bits of a row rounded up to a multiple of 32. -/
def bmpStride (file : Bytes) : Nat := (bmpWidth file * bmpBits file + 31) / 32 * 4
/-- The bytes of pixels in a row. -/
def bmpRowBytes (file : Bytes) : Nat := (bmpWidth file * bmpBits file + 7) / 8
/-- The pixels of row `y`, counted from the top of the image. -/
def bmpRow (file : Bytes) (y : Nat) : Bytes :=
  (file.drop (bmpOffset file + (bmpHeight file - 1 - y) * bmpStride file)).take (bmpRowBytes file)

/-- The colour table: one group of four bytes per colour. -/
def bmpColour (file : Bytes) (i : Nat) : Bytes := (file.drop (54 + 4 * i)).take 4

end Pdf.Spec
