import Verif.Model.Basic
/-! Reference encoders for ASCII85 and ASCIIHex (PDF Reference 1.4, 3.3.1 and 3.3.2). -/

namespace Pdf.Spec
open Pdf

/-- Big-endian value of four bytes. -/
def be32 (a b c d : UInt8) : Nat := ((a.toNat * 256 + b.toNat) * 256 + c.toNat) * 256 + d.toNat

/-- The five base-85 digits of a 32-bit number, most significant first, as characters from `!`. -/
def digits85 (v : Nat) : Bytes :=
  [33 + UInt8.ofNat (v / 85 ^ 4 % 85), 33 + UInt8.ofNat (v / 85 ^ 3 % 85), 33 + UInt8.ofNat (v / 85 ^ 2 % 85),
   33 + UInt8.ofNat (v / 85 % 85), 33 + UInt8.ofNat (v % 85)]

/-- `A85 d s`: `s` is an ASCII85 body (without the terminator `~>`) for the data `d`. A group of four
zero bytes may be written `z`; a final group of `k < 4` bytes is padded with zeros and written as
`k + 1` digits. -/
inductive A85 : Bytes → Bytes → Prop
  | nil : A85 [] []
  | group (a b c d : UInt8) {t s} : A85 t s → A85 (a :: b :: c :: d :: t) (digits85 (be32 a b c d) ++ s)
  | zero {t s} : A85 t s → A85 (0 :: 0 :: 0 :: 0 :: t) (122 :: s)
  | tail1 (a : UInt8) : A85 [a] ((digits85 (be32 a 0 0 0)).take 2)
  | tail2 (a b : UInt8) : A85 [a, b] ((digits85 (be32 a b 0 0)).take 3)
  | tail3 (a b c : UInt8) : A85 [a, b, c] ((digits85 (be32 a b c 0)).take 4)

/-- Characters that carry information: the digits `!`..`u`, the abbreviation `z`, the terminator `~`. -/
def a85Significant (c : UInt8) : Bool := (33 ≤ c && c ≤ 117) || c == 122 || c == 126

/-- A standard encoder: never abbreviates. -/
def a85encode : Bytes → Bytes
  | a :: b :: c :: d :: t => digits85 (be32 a b c d) ++ a85encode t
  | [a, b, c] => (digits85 (be32 a b c 0)).take 4
  | [a, b] => (digits85 (be32 a b 0 0)).take 3
  | [a] => (digits85 (be32 a 0 0 0)).take 2
  | [] => []

/-- `HexDigit n c`: the character `c` is a hexadecimal digit of value `n`, in either case. -/
def HexDigit (n : Nat) (c : UInt8) : Prop :=
  (n < 10 ∧ c.toNat = 48 + n) ∨ (10 ≤ n ∧ n < 16 ∧ (c.toNat = 55 + n ∨ c.toNat = 87 + n))

/-- `HexEnc d s`: `s` writes the bytes `d` as pairs of hexadecimal digits of either case, with white
space allowed between (not inside) the pairs. -/
inductive HexEnc : Bytes → Bytes → Prop
  | nil : HexEnc [] []
  | space (w : UInt8) {d s} : isSpace w = true → HexEnc d s → HexEnc d (w :: s)
  | pair (b : UInt8) (h l : UInt8) {d s} : HexDigit (b.toNat / 16) h → HexDigit (b.toNat % 16) l →
      HexEnc d s → HexEnc (b :: d) (h :: l :: s)

end Pdf.Spec
