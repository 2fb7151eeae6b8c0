import Verif.Model.Basic
/-! Model of pdfmajor/utils/lzw.py. -/

namespace Pdf

/-- `LZWDecoder.readbits` (utils/lzw.py:23-47). `rest` is the unread part of `fp`, `v` the accumulator.
`none` is `EOFError`; the new reader state is returned with the value. -/
def lzwReadBits (rest : Bytes) (buff bpos bits v : Nat) : Option (Nat × Bytes × Nat × Nat) :=
  let r := 8 - bpos
  if bits ≤ r then
    some ((v <<< bits) ||| ((buff >>> (r - bits)) &&& ((1 <<< bits) - 1)), rest, buff, bpos + bits)
  else
    match rest with
    | [] => none
    | x :: rest' => lzwReadBits rest' x.toNat 0 (bits - r) ((v <<< r) ||| (buff &&& ((1 <<< r) - 1)))
termination_by rest.length

/-- Decoder state other than the bit reader (utils/lzw.py:14-21). -/
structure LzwSt where
  nbits : Nat
  table : Option (List (Option Bytes))
  prevbuf : Option Bytes
deriving DecidableEq

/-- Initial state (utils/lzw.py:18-20). -/
def LzwSt.init : LzwSt := ⟨9, none, none⟩

/-- The table after a clear code: the 256 single bytes, then `None` twice (utils/lzw.py:52-54). -/
def lzwTable0 : List (Option Bytes) :=
  (List.range 256).map (fun c => some [UInt8.ofNat c]) ++ [none, none]

/-- `nbits` after an entry was added (utils/lzw.py:70-76). -/
def lzwWidth (nbits l : Nat) : Nat :=
  if l = 511 then 10 else if l = 1023 then 11 else if l = 2047 then 12 else nbits

/-- `self.table[i]`: `TypeError` if the table is `None`, `IndexError` outside. A `None` entry cannot be
used as bytes later (`TypeError`) (utils/lzw.py:60-67). -/
def lzwAt (table : Option (List (Option Bytes))) (i : Nat) : Except PyErr Bytes :=
  match table with
  | none => .error .typeError
  | some t =>
    match t[i]? with
    | none => .error .indexError
    | some none => .error .typeError
    | some (some x) => .ok x

/-- `LZWDecoder.feed` (utils/lzw.py:49-78): new state and output. -/
def lzwFeed (s : LzwSt) (code : Nat) : Except PyErr (LzwSt × Bytes) :=
  if code = 256 then .ok (⟨9, some lzwTable0, some []⟩, [])
  else if code = 257 then .ok (s, [])
  else
    match s.prevbuf with
    | none | some [] => do
      let x ← lzwAt s.table code
      .ok ({ s with prevbuf := some x }, x)
    | some (p :: ps) =>
      match s.table with
      | none => .error .typeError
      | some t =>
        if code < t.length then do
          let x ← lzwAt (some t) code
          let t' := t ++ [some ((p :: ps) ++ x.take 1)]
          .ok (⟨lzwWidth s.nbits t'.length, some t', some x⟩, x)
        else if code = t.length then
          let x := (p :: ps) ++ [p]
          let t' := t ++ [some x]
          .ok (⟨lzwWidth s.nbits t'.length, some t', some x⟩, x)
        else .error .corruptData

/-- `LZWDecoder.run` (utils/lzw.py:80-94), collecting what is yielded. `CorruptDataError` stops quietly.
The `logging.debug` call formats `self.table[258:]` eagerly, so a `None` table raises `TypeError` there
(lines 94-95). The fuel bounds the number of codes; `lzw_fuel_sufficient` shows it is never reached. -/
def lzwRun : (fuel : Nat) → (rest : Bytes) → (buff bpos : Nat) → LzwSt → (out : Bytes) → Except PyErr Bytes
  | 0, _, _, _, _, _ => .error .recursion
  | fuel + 1, rest, buff, bpos, s, out =>
    match lzwReadBits rest buff bpos s.nbits 0 with
    | none => .ok out
    | some (code, rest', buff', bpos') =>
      match lzwFeed s code with
      | .error .corruptData => .ok out
      | .error e => .error e
      | .ok (s', x) =>
        if s'.table.isNone then .error .typeError
        else lzwRun fuel rest' buff' bpos' s' (out ++ x)

/-- `lzwdecode` (utils/lzw.py:98-101). -/
def lzwdecode (data : Bytes) : Except PyErr Bytes :=
  lzwRun (data.length + 1) data 0 8 .init []

end Pdf
