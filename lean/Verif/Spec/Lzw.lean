import Verif.Model.Basic
/-! LZW as a PDF encoder produces it (PDF Reference 1.4, 3.3.3; EarlyChange = 1), described from the
encoder's side: the data is cut into phrases; the encoder's dictionary gains the entry "previous phrase +
first byte of the phrase now being written" before each phrase but the first after a clear. -/

namespace Pdf.Spec
open Pdf

/-- The eight bits of a byte, most significant first. -/
def byteBits (b : UInt8) : List Bool :=
  [b.toNat.testBit 7, b.toNat.testBit 6, b.toNat.testBit 5, b.toNat.testBit 4,
   b.toNat.testBit 3, b.toNat.testBit 2, b.toNat.testBit 1, b.toNat.testBit 0]

/-- The `n` low bits of a number, most significant first. -/
def natBits (v : Nat) : Nat → List Bool
  | 0 => []
  | n + 1 => v.testBit n :: natBits v n

/-- Width of the code that follows `k` phrase codes since the last clear code. The encoder's table then
holds 257 + k complete entries besides the one the decoder cannot know yet; the width grows one code
early, at 511, 1023 and 2047 entries. -/
def codeWidth (k : Nat) : Nat :=
  if 257 + k < 511 then 9 else if 257 + k < 1023 then 10 else if 257 + k < 2047 then 11 else 12

/-- `IsCode dict p c`: `c` is a code for the phrase `p` under the encoder dictionary `dict` (entries 258,
259, ...): a single byte, or the index of an entry equal to `p`. -/
def IsCode (dict : List Bytes) (p : Bytes) (c : Nat) : Prop :=
  (∃ b : UInt8, p = [b] ∧ c = b.toNat) ∨ (258 ≤ c ∧ dict[c - 258]? = some p)

/-- `LzwEnc st data bits`: in the encoder state `st`, the rest of the output `bits` (without the padding
to a byte boundary) stands for the rest `data` of the input. The state is `none` after a clear code,
otherwise the dictionary and the last phrase written. -/
inductive LzwEnc : Option (List Bytes × Bytes) → Bytes → List Bool → Prop
  /-- the data may end without an end-of-data code ... -/
  | stop (st) : LzwEnc st [] []
  /-- ... or with the code 257. -/
  | eod (st) : LzwEnc st [] (natBits 257 (codeWidth (st.elim 0 (fun s => s.1.length + 1))))
  /-- A clear code can be written at any time. -/
  | clear (st) {data bits} : LzwEnc none data bits →
      LzwEnc st data (natBits 256 (codeWidth (st.elim 0 (fun s => s.1.length + 1))) ++ bits)
  /-- The first phrase after a clear code. -/
  | first (p : Bytes) (c : Nat) {data bits} : IsCode [] p c → LzwEnc (some ([], p)) data bits →
      LzwEnc none (p ++ data) (natBits c (codeWidth 0) ++ bits)
  /-- Any other phrase; its code must fit into the current width. -/
  | next (dict : List Bytes) (prev p : Bytes) (h : UInt8) (c : Nat) {data bits} :
      p.head? = some h → IsCode (dict ++ [prev ++ [h]]) p c → c < 2 ^ codeWidth (dict.length + 1) →
      LzwEnc (some (dict ++ [prev ++ [h]], p)) data bits →
      LzwEnc (some (dict, prev)) (p ++ data) (natBits c (codeWidth (dict.length + 1)) ++ bits)

/-- A complete LZW body starts with a clear code. -/
def LzwBody (data : Bytes) (bits : List Bool) : Prop :=
  ∃ b, bits = natBits 256 9 ++ b ∧ LzwEnc none data b

end Pdf.Spec

namespace Pdf.Spec
open Pdf

/-- The longest phrase of the dictionary (or else the single byte `h`) that starts the data `h :: t`,
with its code. -/
def lzwBest (dict : List Bytes) (h : UInt8) (t : Bytes) : Bytes × Nat :=
  dict.zipIdx.foldl (fun best e =>
    if e.1.isPrefixOf (h :: t) && decide (best.1.length < e.1.length) then (e.1, 258 + e.2) else best) ([h], h.toNat)

/-- The usual greedy encoder; the table is cleared when it has 4094 entries. -/
def lzwGreedy : (fuel : Nat) → Option (List Bytes × Bytes) → Bytes → List Bool
  | 0, _, _ => []
  | _ + 1, st, [] => natBits 257 (codeWidth (st.elim 0 (fun s => s.1.length + 1)))
  | fuel + 1, none, h :: t => natBits h.toNat (codeWidth 0) ++ lzwGreedy fuel (some ([], [h])) t
  | fuel + 1, some (dict, prev), h :: t =>
    if 3836 ≤ dict.length then
      natBits 256 (codeWidth (dict.length + 1)) ++ lzwGreedy fuel none (h :: t)
    else
      let best := lzwBest (dict ++ [prev ++ [h]]) h t
      natBits best.2 (codeWidth (dict.length + 1)) ++
        lzwGreedy fuel (some (dict ++ [prev ++ [h]], best.1)) ((h :: t).drop best.1.length)

/-- A complete greedy encoding: clear code, phrases, end-of-data code. -/
def lzwEncode (data : Bytes) : List Bool := natBits 256 9 ++ lzwGreedy (2 * data.length + 2) none data

/-- Packing bits into bytes, most significant bit first, zero bits filling the last byte. -/
def packBits : List Bool → Bytes
  | [] => []
  | a :: as =>
    let b8 := ((a :: as) ++ List.replicate 7 false).take 8
    UInt8.ofNat (b8.foldl (fun v b => 2 * v + b.toNat) 0) :: packBits (as.drop 7)
termination_by l => l.length
decreasing_by simp; omega

end Pdf.Spec
