import Verif.Model.CcittTables
import Verif.Model.Names
/-! Model of the CCITT Group 4 decoder (pdfmajor/parser/PDFStream/ccitt.py). Python 3.8 or earlier is assumed:
`array.tostring`, used at ccitt.py:544, was removed in 3.9. -/

namespace Pdf

/-- The lists of two elements built by `BitParser.add`, each element `None`, a value or such a list (ccitt.py:32-46). -/
inductive Trie (α : Type) where
  | none
  | leaf (v : α)
  | node (l r : Trie α)

/-- `BitParser.add` (ccitt.py:32-46) on one element. Adding below a value, which would fail, does not happen. -/
def Trie.add {α : Type} (v : α) : Trie α → List Bool → Trie α
  | _, [] => .leaf v
  | .node l r, b :: bs => if b then .node l (r.add v bs) else .node (l.add v bs) r
  | .none, b :: bs => if b then .node .none (Trie.none.add v bs) else .node (Trie.none.add v bs) .none
  | .leaf x, _ :: _ => .leaf x

/-- The bits of a code (`bits[i] == '1'`, ccitt.py:41). -/
def codeBits (s : String) : List Bool := s.toList.map (· = '1')

/-- A table made by calls of `add`, from `[None, None]` (ccitt.py:75-320). -/
def Trie.ofCodes {α : Type} (l : List (α × String)) : Trie α := l.foldl (fun t x => t.add x.1 (codeBits x.2)) (.node .none .none)

/-- The values of `MODE` (ccitt.py:75-93): `ext` stands for `x1` to `x7`. -/
inductive G4Mode where
  | vert (dx : Int)
  | horiz | pass | uncompressed | ext | eofb
deriving DecidableEq, Repr

/-- The codes of `MODE` (ccitt.py:75-93). -/
def modeCodes : List (G4Mode × String) := [
  (.vert 0, "1"), (.vert 1, "011"), (.vert (-1), "010"), (.horiz, "001"), (.pass, "0001"), (.vert 2, "000011"), (.vert (-2), "000010"),
  (.vert 3, "0000011"), (.vert (-3), "0000010"), (.uncompressed, "0000001111"), (.ext, "0000001000"), (.ext, "0000001001"),
  (.ext, "0000001010"), (.ext, "0000001011"), (.ext, "0000001100"), (.ext, "0000001101"), (.ext, "0000001110"),
  (.eofb, "000000000001000000000001")]

/-- The codes of `UNCOMPRESSED` (ccitt.py:307-321): the colour after the letter `T`, if there is one, and the pixels. -/
def uncompressedCodes : List ((Option Bool × List Bool) × String) := [
  ((none, codeBits "1"), "1"), ((none, codeBits "01"), "01"), ((none, codeBits "001"), "001"), ((none, codeBits "0001"), "0001"),
  ((none, codeBits "00001"), "00001"), ((none, codeBits "00000"), "000001"),
  ((some false, codeBits "0"), "00000011"), ((some true, codeBits "0"), "00000010"),
  ((some false, codeBits "00"), "000000011"), ((some true, codeBits "00"), "000000010"),
  ((some false, codeBits "000"), "0000000011"), ((some true, codeBits "000"), "0000000010"),
  ((some false, codeBits "0000"), "00000000011"), ((some true, codeBits "0000"), "00000000010")]

/-- `MODE` (ccitt.py:75-93). -/
def modeTable : Trie G4Mode := .ofCodes modeCodes
/-- `WHITE` (ccitt.py:95-199). -/
def whiteTable : Trie Nat := .ofCodes whiteCodes
/-- `BLACK` (ccitt.py:201-305). -/
def blackTable : Trie Nat := .ofCodes blackCodes
/-- `UNCOMPRESSED` (ccitt.py:307-321). -/
def uncompressedTable : Trie (Option Bool × List Bool) := .ofCodes uncompressedCodes

/-- `_accept` together with `_state`, the table or the part of it that is reached (ccitt.py:27-30, 54-65): the two always belong
together. -/
inductive G4State where
  | mode (t : Trie G4Mode)
  | horiz1 (t : Trie Nat)
  | horiz2 (t : Trie Nat)
  | uncompressed (t : Trie (Option Bool × List Bool))

/-- The variables of the decoder (ccitt.py:323-328, 419-436, 528-532). Pixels are `true` for 1. -/
structure G4 where
  width : Int
  bytealign : Bool
  reversed : Bool
  refline : List Bool
  curline : List Bool
  curpos : Int
  color : Bool
  st : G4State
  n1 : Nat
  n2 : Nat
  buf : Bytes

/-- How a method ends: normally, with `ByteSkip`, with `EOFB`, or with another exception (ccitt.py:330-341). -/
inductive G4Res where
  | ok (s : G4)
  | byteSkip (s : G4)
  | eofb (s : G4)
  | err (e : PyErr)

/-- `l[i] = c` (Python built-in; used at ccitt.py:464-467, 495, 507-512, 518): a negative index counts from the end. -/
def pySetBit (l : List Bool) (i : Int) (c : Bool) : Except PyErr (List Bool) :=
  if 0 ≤ i ∧ i < l.length then .ok (l.set i.toNat c)
  else if -(l.length : Int) ≤ i ∧ i < 0 then .ok (l.set (i + l.length).toNat c)
  else .error .indexError

/-- `for x in range(x, x + n): self._curline[x] = self._color` (ccitt.py:462-467, 494-495). -/
def fillLine (c : Bool) : (n : Nat) → (x : Int) → List Bool → Except PyErr (List Bool)
  | 0, _, l => .ok l
  | n + 1, x, l =>
    match pySetBit l x c with
    | .ok l => fillLine c n (x + 1) l
    | .error e => .error e

/-- `output_line` of `CCITTFaxDecoder`, the sum for one byte (ccitt.py:541-543). -/
def packByte (bits : List Bool) : UInt8 :=
  UInt8.ofNat (((bits.zip [128, 64, 32, 16, 8, 4, 2, 1]).map fun x => if x.1 then x.2 else 0).sum)

/-- `output_line` of `CCITTFaxDecoder` (ccitt.py:537-545): eight pixels to a byte. -/
def packLine : (n : Nat) → List Bool → Bytes
  | 0, _ => []
  | n + 1, bits => packByte (bits.take 8) :: packLine n (bits.drop 8)

/-- `_reset_line` (ccitt.py:431-436). -/
def G4.resetLine (s : G4) : G4 :=
  { s with refline := s.curline, curline := List.replicate s.width.toNat true, curpos := -1, color := true }

/-- `_flush_line` (ccitt.py:438-445). -/
def G4.flushLine (s : G4) : G4Res :=
  if s.width ≤ s.curpos then
    let bits := if s.reversed then s.curline.map not else s.curline
    let s := { s with buf := s.buf ++ packLine ((bits.length + 7) / 8) bits }.resetLine
    if s.bytealign then .byteSkip s else .ok s
  else .ok s

/-- The loop that looks for `b1` (ccitt.py:448-458, 473-483). -/
def findB1 (ref : List Bool) (color : Bool) : (fuel : Nat) → (x : Nat) → Except PyErr Nat
  | 0, _ => .error .recursion
  | fuel + 1, x =>
    if x = 0 then
      if color then
        match ref[0]? with
        | some b => if b ≠ color then .ok 0 else findB1 ref color fuel 1
        | none => .error .indexError
      else findB1 ref color fuel 1
    else if x = ref.length then .ok x
    else match ref[x - 1]? with
      | none => .error .indexError
      | some a =>
        if a = color then
          match ref[x]? with
          | none => .error .indexError
          | some b => if b ≠ color then .ok x else findB1 ref color fuel (x + 1)
        else findB1 ref color fuel (x + 1)

/-- The loop that looks for `b2` (ccitt.py:484-493). -/
def findB2 (ref : List Bool) (color : Bool) : (fuel : Nat) → (x : Nat) → Except PyErr Nat
  | 0, _ => .error .recursion
  | fuel + 1, x =>
    if x = 0 then
      if color then findB2 ref color fuel 1
      else match ref[0]? with
        | some b => if b = color then .ok 0 else findB2 ref color fuel 1
        | none => .error .indexError
    else if x = ref.length then .ok x
    else match ref[x - 1]? with
      | none => .error .indexError
      | some a =>
        if a ≠ color then
          match ref[x]? with
          | none => .error .indexError
          | some b => if b = color then .ok x else findB2 ref color fuel (x + 1)
        else findB2 ref color fuel (x + 1)

/-- `_do_vertical` (ccitt.py:447-470). -/
def G4.doVertical (s : G4) (dx : Int) : Except PyErr G4 :=
  match findB1 s.refline s.color (s.refline.length + 2) (s.curpos + 1).toNat with
  | .error e => .error e
  | .ok b1 =>
    let x0 := max 0 s.curpos
    let x1 := max 0 (min s.width (b1 + dx))
    match (if x1 < x0 then fillLine s.color (x0 - x1).toNat x1 s.curline else fillLine s.color (x1 - x0).toNat x0 s.curline) with
    | .error e => .error e
    | .ok l => .ok { s with curline := l, curpos := x1, color := !s.color }

/-- `_do_pass` (ccitt.py:472-497). -/
def G4.doPass (s : G4) : Except PyErr G4 :=
  match findB1 s.refline s.color (s.refline.length + 2) (s.curpos + 1).toNat with
  | .error e => .error e
  | .ok b1 =>
    match findB2 s.refline s.color (s.refline.length + 2) b1 with
    | .error e => .error e
    | .ok b2 =>
      match fillLine s.color (b2 - s.curpos).toNat s.curpos s.curline with
      | .error e => .error e
      | .ok l => .ok { s with curline := l, curpos := b2 }

/-- A loop of `_do_horizontal` (ccitt.py:503-507, 508-512). -/
def runLoop (c : Bool) : (n : Nat) → List Bool → (x : Nat) → List Bool × Nat
  | 0, l, x => (l, x)
  | n + 1, l, x => if l.length ≤ x then (l, x) else runLoop c n (l.set x c) (x + 1)

/-- `_do_horizontal` (ccitt.py:499-514). -/
def G4.doHorizontal (s : G4) : G4 :=
  let (l, x) := runLoop s.color s.n1 s.curline s.curpos.toNat
  let (l, x) := runLoop (!s.color) s.n2 l x
  { s with curline := l, curpos := x }

/-- `_do_uncompressed` (ccitt.py:516-521). -/
def G4.doUncompressed : (bits : List Bool) → G4 → G4Res
  | [], s => .ok s
  | c :: bits, s =>
    match pySetBit s.curline s.curpos c with
    | .error e => .err e
    | .ok l =>
      match { s with curline := l, curpos := s.curpos + 1 }.flushLine with
      | .ok s => doUncompressed bits s
      | r => r

/-- The state after a method that ended normally (ccitt.py:63). -/
def G4Res.next (st : G4State) : G4Res → G4Res
  | .ok s => .ok { s with st := st }
  | r => r

/-- `WHITE` or `BLACK`, by `_color` (ccitt.py:350-353, 374-377, 389-392). -/
def runTable (color : Bool) : Trie Nat := if color then whiteTable else blackTable

/-- `_parse_mode` (ccitt.py:342-364). -/
def G4.parseMode (s : G4) : Option G4Mode → G4Res
  | some .pass =>
    match s.doPass with
    | .error e => .err e
    | .ok s => s.flushLine.next (.mode modeTable)
  | some .horiz => .ok { s with n1 := 0, st := .horiz1 (runTable s.color) }
  | some .uncompressed => .ok { s with st := .uncompressed uncompressedTable }
  | some .eofb => .eofb s
  | some (.vert dx) =>
    match s.doVertical dx with
    | .error e => .err e
    | .ok s => s.flushLine.next (.mode modeTable)
  | _ => .err .ccittInvalid

/-- `_parse_horiz1` (ccitt.py:366-377). -/
def G4.parseHoriz1 (s : G4) : Option Nat → G4Res
  | none => .err .ccittInvalid
  | some n =>
    let s := { s with n1 := s.n1 + n }
    if n < 64 then .ok { s with n2 := 0, color := !s.color, st := .horiz2 (runTable (!s.color)) }
    else .ok { s with st := .horiz1 (runTable s.color) }

/-- `_parse_horiz2` (ccitt.py:379-392). -/
def G4.parseHoriz2 (s : G4) : Option Nat → G4Res
  | none => .err .ccittInvalid
  | some n =>
    let s := { s with n2 := s.n2 + n }
    if n < 64 then ({ s with color := !s.color }.doHorizontal.flushLine).next (.mode modeTable)
    else .ok { s with st := .horiz2 (runTable s.color) }

/-- `_parse_uncompressed` (ccitt.py:394-404). -/
def G4.parseUncompressed (s : G4) : Option (Option Bool × List Bool) → G4Res
  | none => .err .ccittInvalid
  | some (some c, bits) => (G4.doUncompressed bits { s with color := c }).next (.mode modeTable)
  | some (none, bits) => (G4.doUncompressed bits s).next (.uncompressed uncompressedTable)

/-- One step in a table (ccitt.py:55-64): the part reached, or the value. -/
def Trie.step {α : Type} (t : Trie α) (x : Bool) : Trie α :=
  match t with
  | .node l r => if x then r else l
  | t => t

/-- `_parse_bit` (ccitt.py:54-65). -/
def G4.parseBit (s : G4) (x : Bool) : G4Res :=
  match s.st with
  | .mode t => match t.step x with
    | .node l r => .ok { s with st := .mode (.node l r) }
    | .leaf v => s.parseMode (some v)
    | .none => s.parseMode none
  | .horiz1 t => match t.step x with
    | .node l r => .ok { s with st := .horiz1 (.node l r) }
    | .leaf v => s.parseHoriz1 (some v)
    | .none => s.parseHoriz1 none
  | .horiz2 t => match t.step x with
    | .node l r => .ok { s with st := .horiz2 (.node l r) }
    | .leaf v => s.parseHoriz2 (some v)
    | .none => s.parseHoriz2 none
  | .uncompressed t => match t.step x with
    | .node l r => .ok { s with st := .uncompressed (.node l r) }
    | .leaf v => s.parseUncompressed (some v)
    | .none => s.parseUncompressed none

/-- The inner loop of `feedbytes` (ccitt.py:333-334). -/
def G4.feedBits : (bits : List Bool) → G4 → G4Res
  | [], s => .ok s
  | x :: xs, s =>
    match s.parseBit x with
    | .ok s => feedBits xs s
    | r => r

/-- `byte & m` for the masks `m` (ccitt.py:333). -/
def bitsOfByte (b : UInt8) : List Bool := [128, 64, 32, 16, 8, 4, 2, 1].map fun m => b &&& m ≠ 0

/-- `feedbytes` (ccitt.py:330-341). -/
def G4.feedBytes : (data : Bytes) → G4 → Except PyErr G4
  | [], s => .ok s
  | b :: bs, s =>
    match G4.feedBits (bitsOfByte b) s with
    | .ok s => feedBytes bs s
    | .byteSkip s => feedBytes bs { s with st := .mode modeTable }
    | .eofb s => .ok s
    | .err e => .error e

/-- `CCITTFaxDecoder(width, bytealign, reversed)` (ccitt.py:323-328, 419-425, 528-532). -/
def G4.init (width : Int) (bytealign reversed : Bool) : G4 :=
  G4.resetLine {
    width := width, bytealign := bytealign, reversed := reversed, refline := [], curline := List.replicate width.toNat true,
    curpos := -1, color := true, st := .mode modeTable, n1 := 0, n2 := 0, buf := [] }

/-- `params.get(name)` (ccitt.py:549-552). -/
def paramGet (params : List (Key × Obj)) (name : String) : Option Obj := dictGet params (.name (asc name))

/-- `K == -1` (ccitt.py:553). -/
def isMinusOne : Option Obj → Bool
  | some (.int n) => n = -1
  | some (.real m k) => m = -(10 ^ k : Nat)
  | _ => false

/-- `[1]*cols` and the comparisons with `cols` (ccitt.py:325, 421, 439): an integer is needed. -/
def columns : Option Obj → Except PyErr Int
  | some (.int n) => .ok n
  | some (.bool b) => .ok (if b then 1 else 0)
  | _ => .error .typeError

/-- The truth of an entry that may be missing (ccitt.py:443, 539). -/
def paramTrue : Option Obj → Bool
  | some o => o.truthy
  | none => false

/-- `ccittfaxdecode` (ccitt.py:548-559). -/
def ccittfaxdecode (data : Bytes) (params : List (Key × Obj)) : Except PyErr Bytes :=
  if isMinusOne (paramGet params "K") then
    match columns (paramGet params "Columns") with
    | .error e => .error e
    | .ok w =>
      match G4.feedBytes data (G4.init w (paramTrue (paramGet params "EncodedByteAlign")) (paramTrue (paramGet params "BlackIs1"))) with
      | .ok s => .ok s.buf
      | .error e => .error e
  else .error .valueError

end Pdf
