import Verif.Model.Basic
/-! Model of `apply_png_predictor` and `nunpack` (pdfmajor/utils/generic.py). -/

namespace Pdf

/-- PNG sub: the running sum (utils/generic.py:45-50). -/
def pngSub : (c : Nat) → Bytes → Bytes
  | _, [] => []
  | c, b :: bs => let c' := (c + b.toNat) % 256; UInt8.ofNat c' :: pngSub c' bs

/-- PNG up: `zip(line0, line1)` (utils/generic.py:51-55). -/
def pngUp : Bytes → Bytes → Bytes
  | a :: as, b :: bs => UInt8.ofNat ((a.toNat + b.toNat) % 256) :: pngUp as bs
  | _, _ => []

/-- PNG average, as coded: `c = ((c+a+b)//2) & 255` (utils/generic.py:56-61). -/
def pngAvg : (c : Nat) → Bytes → Bytes → Bytes
  | c, a :: as, b :: bs =>
    let c' := (c + a.toNat + b.toNat) / 2 % 256
    UInt8.ofNat c' :: pngAvg c' as bs
  | _, _, _ => []

/-- One row (utils/generic.py:42-64). -/
def pngRow (ft : UInt8) (line0 line1 : Bytes) : Except PyErr Bytes :=
  if ft = 0 then .ok line1
  else if ft = 1 then .ok (pngSub 0 line1)
  else if ft = 2 then .ok (pngUp line0 line1)
  else if ft = 3 then .ok (pngAvg 0 line0 line1)
  else .error .valueError

/-- The row loop (utils/generic.py:37-66): `range(0, len(data), nbytes+1)`; the last row may be short. -/
def pngRows (nbytes : Nat) (data line0 buf : Bytes) : Except PyErr Bytes :=
  match data with
  | [] => .ok buf
  | ft :: rest => do
    let line2 ← pngRow ft line0 (rest.take nbytes)
    pngRows nbytes (rest.drop nbytes) line2 (buf ++ line2)
termination_by data.length
decreasing_by simp; omega

/-- `apply_png_predictor` (utils/generic.py:28-67). `pred` is unused by the code. -/
def applyPngPredictor (colors columns bits : Nat) (data : Bytes) : Except PyErr Bytes :=
  if bits ≠ 8 then .error .valueError
  else pngRows (colors * columns * bits / 8) data (List.replicate columns 0) []

/-- `nunpack` (utils/generic.py:128-144); `struct.unpack` of `>H`, `>L`, `>Q` written out. -/
def nunpack (s : Bytes) (default : Nat := 0) : Except PyErr Nat :=
  match s with
  | [] => .ok default
  | [a] => .ok a.toNat
  | [a, b] => .ok (a.toNat * 2 ^ 8 + b.toNat)
  | [a, b, c] => .ok (0 * 2 ^ 24 + a.toNat * 2 ^ 16 + b.toNat * 2 ^ 8 + c.toNat)
  | [a, b, c, d] => .ok (a.toNat * 2 ^ 24 + b.toNat * 2 ^ 16 + c.toNat * 2 ^ 8 + d.toNat)
  | [a, b, c, d, e, f, g, h] =>
    .ok (a.toNat * 2 ^ 56 + b.toNat * 2 ^ 48 + c.toNat * 2 ^ 40 + d.toNat * 2 ^ 32 + e.toNat * 2 ^ 24 +
      f.toNat * 2 ^ 16 + g.toNat * 2 ^ 8 + h.toNat)
  | _ => .error .typeError

end Pdf
