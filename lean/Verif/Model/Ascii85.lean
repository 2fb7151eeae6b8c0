import Verif.Model.Basic
/-! Model of pdfmajor/utils/ascii85.py. -/

namespace Pdf

/-- `for _ in range(5-n): b = b*85+84` (utils/ascii85.py:41-42). -/
def a85Pad : Nat → Nat → Nat
  | 0, b => b
  | k + 1, b => a85Pad k (b * 85 + 84)

/-- The loop of `ascii85decode` (utils/ascii85.py:26-44); `n`, `b`, `out` are the Python variables. -/
def a85Loop : Bytes → (n b : Nat) → (out : Bytes) → Except PyErr Bytes
  | [], _, _, out => .ok out
  | c :: cs, n, b, out =>
    if 33 ≤ c ∧ c ≤ 117 then
      if n + 1 = 5 then do
        let p ← packL (b * 85 + (c.toNat - 33))
        a85Loop cs 0 0 (out ++ p)
      else a85Loop cs (n + 1) (b * 85 + (c.toNat - 33)) out
    else if c = 122 then
      if n = 0 then a85Loop cs n b (out ++ [0, 0, 0, 0]) else .error .assertion
    else if c = 126 then
      if n = 0 then .ok out
      else do
        let p ← packL (a85Pad (5 - n) b)
        .ok (out ++ p.take (n - 1))
    else a85Loop cs n b out

/-- `ascii85decode` (utils/ascii85.py:15-45). -/
def ascii85decode (data : Bytes) : Except PyErr Bytes := a85Loop data 0 0 []

/-- `hex_re.findall(data)` with `hex_re = ([a-f\d]{2})`, IGNORECASE, each match decoded by
`int(x,16)` (utils/ascii85.py:48, 62-68): leftmost non-overlapping adjacent pairs of hex digits. -/
def hexFindAll : Bytes → Bytes
  | [] => []
  | [_] => []
  | c :: d :: rest =>
    if isHex c && isHex d then UInt8.ofNat (hexVal c * 16 + hexVal d) :: hexFindAll rest
    else hexFindAll (d :: rest)

/-- `[\s>]*$` on what follows the group of `trail_re` (utils/ascii85.py:49). -/
def hexTail (s : Bytes) : Bool := s.all (fun c => isSpace c || c == 62)

/-- `trail_re.search(data)` with `trail_re = ^(?:[a-f\d]{2}|\s)*([a-f\d])[\s>]*$` (utils/ascii85.py:49, 70-72):
the digit matched by the group. The pattern is deterministic: `\s` and digits are disjoint, and the
star must stop exactly before the group's digit, so the digit is one that is not followed by a digit, has
only pairs and white space before it and only white space or `>` after it. -/
def hexTrail : Bytes → Option UInt8
  | [] => none
  | [c] => if isHex c then some c else none
  | c :: d :: rest =>
    if isSpace c then hexTrail (d :: rest)
    else if isHex c then
      if isHex d then hexTrail rest
      else if hexTail (d :: rest) then some c else none
    else none

/-- `asciihexdecode` (utils/ascii85.py:52-73). -/
def asciihexdecode (data : Bytes) : Bytes :=
  hexFindAll data ++
    match hexTrail data with
    | some d => [UInt8.ofNat (hexVal d * 16)]
    | none => []

end Pdf
