import Verif.Model.Encoding
import Verif.Model.Png
/-! Model of the character maps (parser/cmapdb/__init__.py:39-167). -/

namespace Pdf

/-- The values in the nested dictionaries `code2cid` of a `CMap` (cmapdb/__init__.py:66-101). -/
inductive CTrie where
  | cid (n : Int)
  | node (d : List (Nat × CTrie))

/-- `CMap.decode` from the dictionary `d` reached so far (cmapdb/__init__.py:92-101); `root` is `self.code2cid`. -/
def cmapDecodeFrom (root : List (Nat × CTrie)) : List (Nat × CTrie) → List Nat → List Int
  | _, [] => []
  | d, i :: rest =>
    match dictGet d i with
    | some (.cid n) => n :: cmapDecodeFrom root root rest
    | some (.node d') => cmapDecodeFrom root d' rest
    | none => cmapDecodeFrom root root rest

/-- `CMap.decode` (cmapdb/__init__.py:90-101); iterating over `bytes` gives numbers. -/
def cmapDecode (root : List (Nat × CTrie)) (code : Bytes) : List Int := cmapDecodeFrom root root (code.map UInt8.toNat)

/-- `FileCMap.add_code2cid` (cmapdb/__init__.py:154-167). The code is a `str`, given by its code points. Looking up or storing in a number is
a `TypeError`, and an empty code an `IndexError`; then nothing has changed. -/
def addCode2cid (d : List (Nat × CTrie)) : (code : List Nat) → (cid : Int) → Except PyErr (List (Nat × CTrie))
  | [], _ => .error .indexError
  | [c], cid => .ok (dictSet d c (.cid cid))
  | c :: code, cid =>
    match dictGet d c with
    | some (.node d') => (addCode2cid d' code cid).map fun t => dictSet d c (.node t)
    | some (.cid _) => .error .typeError
    | none => (addCode2cid [] code cid).map fun t => dictSet d c (.node t)

/-- Calls of `add_code2cid` (cmapdb/__init__.py:154-167) from left to right. -/
def addCodes (d : List (Nat × CTrie)) : List (List Nat × Int) → Except PyErr (List (Nat × CTrie))
  | [] => .ok d
  | (code, cid) :: rest =>
    match addCode2cid d code cid with
    | .ok d' => addCodes d' rest
    | .error e => .error e

/-- Big-endian 16-bit numbers: `struct.unpack('>%dH' % n, code)` for `2 * n` bytes (cmapdb/__init__.py:123). -/
def unpackH : Bytes → List Int
  | a :: b :: rest => (a.toNat * 256 + b.toNat : Int) :: unpackH rest
  | _ => []

/-- `IdentityCMap.decode` (cmapdb/__init__.py:120-125): more than one byte and an odd number of bytes is a `struct.error`. -/
def identityDecode (code : Bytes) : Except PyErr (List Int) :=
  if code.length / 2 = 0 then .ok []
  else if code.length = 2 * (code.length / 2) then .ok (unpackH code)
  else .error .structError

end Pdf
