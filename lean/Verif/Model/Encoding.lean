import Verif.Model.LatinEncoding
import Verif.Model.StackParser
/-! Model of glyph names and character encodings (utils/encoding/__init__.py, parser/EncodingDB.py). -/

namespace Pdf

/-- `str(b, 'utf-8')`, strict (PSBaseParser.py:204, PSStackParser/__init__.py:22): `none` if it raises. Overlong forms, surrogates and
values above 0x10ffff are rejected. -/
def utf8 : Bytes → Option PyStr
  | [] => some []
  | a :: rest =>
    if a < 0x80 then (utf8 rest).map (a.toNat :: ·)
    else if 0xc2 ≤ a ∧ a < 0xe0 then
      match rest with
      | b :: rest =>
        if b &&& 0xc0 = 0x80 then (utf8 rest).map (((a.toNat - 0xc0) * 64 + (b.toNat - 0x80)) :: ·) else none
      | [] => none
    else if 0xe0 ≤ a ∧ a < 0xf0 then
      match rest with
      | b :: c :: rest =>
        if b &&& 0xc0 = 0x80 ∧ c &&& 0xc0 = 0x80 then
          let u := (a.toNat - 0xe0) * 4096 + (b.toNat - 0x80) * 64 + (c.toNat - 0x80)
          if u < 0x800 ∨ (0xd800 ≤ u ∧ u < 0xe000) then none else (utf8 rest).map (u :: ·)
        else none
      | _ => none
    else if 0xf0 ≤ a ∧ a < 0xf5 then
      match rest with
      | b :: c :: d :: rest =>
        if b &&& 0xc0 = 0x80 ∧ c &&& 0xc0 = 0x80 ∧ d &&& 0xc0 = 0x80 then
          let u := (a.toNat - 0xf0) * 262144 + (b.toNat - 0x80) * 4096 + (c.toNat - 0x80) * 64 + (d.toNat - 0x80)
          if u < 0x10000 ∨ 0x110000 ≤ u then none else (utf8 rest).map (u :: ·)
        else none
      | _ => none
    else none
termination_by s => s.length

/-- `chr(n)` for a number that is not negative (utils/encoding/__init__.py:16, cmapdb/__init__.py:183): from 2^31 on it is an `OverflowError`. -/
def chr (n : Nat) : Except PyErr PyStr :=
  if n < 0x110000 then .ok [n] else if n < 0x80000000 then .error .valueError else .error .other

/-- The character class `[0-9]` in a `str` (utils/encoding/__init__.py:5). -/
def strDigit (c : Nat) : Bool := 48 ≤ c && c ≤ 57

/-- `name2unicode` of a `str` (utils/encoding/__init__.py:9-16). `glyphs` is the dictionary `glyphname2unicode` (glyphlist.py), which is not
modelled: the theorems hold for every dictionary. The limit of Python 3.11 on the digits that `int` takes is not modelled. -/
def name2unicodeStr (glyphs : PyStr → Option PyStr) (name : PyStr) : Except PyErr PyStr :=
  match glyphs name with
  | some u => .ok u
  | none =>
    match (name.dropWhile (fun c => !strDigit c)).takeWhile strDigit with
    | [] => .error .keyError
    | ds => chr (ds.foldl (fun v c => v * 10 + (c - 48)) 0)

/-- `name2unicode(x.name)` of a literal (EncodingDB.py:39): the name is a `str` if its bytes are UTF-8 (PSBaseParser.py:203-206), else it
is `bytes`, which a `str` pattern cannot search (`TypeError`). -/
def name2unicode (glyphs : PyStr → Option PyStr) (name : Bytes) : Except PyErr PyStr :=
  match utf8 name with
  | some s => name2unicodeStr glyphs s
  | none => .error .typeError

/-- A dictionary from character codes to text (EncodingDB.py:6-9). -/
abbrev CodeMap := List (Int × PyStr)

/-- `if code: table[code] = c` (EncodingDB.py:12-19); 0 counts as false. -/
def setCode (code : Option Nat) (c : PyStr) (table : CodeMap) : CodeMap :=
  match code with
  | none => table
  | some n => if n = 0 then table else dictSet table (n : Int) c

/-- The loop that fills the tables of `EncodingDB` (EncodingDB.py:10-19): StandardEncoding, MacRomanEncoding, WinAnsiEncoding,
PDFDocEncoding. -/
def encodingTables (glyphs : PyStr → Option PyStr) :
    List (PyStr × Option Nat × Option Nat × Option Nat × Option Nat) → CodeMap × CodeMap × CodeMap × CodeMap →
    Except PyErr (CodeMap × CodeMap × CodeMap × CodeMap)
  | [], t => .ok t
  | (name, std, mac, win, pdf) :: rest, (ts, tm, tw, tp) =>
    match name2unicodeStr glyphs name with
    | .error e => .error e
    | .ok c => encodingTables glyphs rest (setCode std c ts, setCode mac c tm, setCode win c tw, setCode pdf c tp)

/-- The dictionary objects in existence, by address. The class `EncodingDB` owns the first four (EncodingDB.py:6-26). -/
abbrev EncHeap := List CodeMap

/-- The heap after the class body of `EncodingDB` (EncodingDB.py:4-26). -/
def EncHeap.initial (glyphs : PyStr → Option PyStr) : Except PyErr EncHeap :=
  match encodingTables glyphs latinEncoding ([], [], [], []) with
  | .ok (ts, tm, tw, tp) => .ok [ts, tm, tw, tp]
  | .error e => .error e

/-- `klass.encodings.get(name, klass.std2unicode)` (EncodingDB.py:21-26, 30): the address of a table. -/
def encodingAddr (name : Bytes) : Nat :=
  if name = asciiName "StandardEncoding" then 0
  else if name = asciiName "MacRomanEncoding" then 1
  else if name = asciiName "WinAnsiEncoding" then 2
  else if name = asciiName "PDFDocEncoding" then 3
  else 0
where
  /-- A name in ASCII (EncodingDB.py:22-25). -/
  asciiName (s : String) : Bytes := s.toList.map fun c => UInt8.ofNat c.toNat

/-- The loop over the `Differences` array (EncodingDB.py:33-42); `cid` is the code of the next name. A `bool` is an `int`. -/
def applyDiff (glyphs : PyStr → Option PyStr) : (cid : Int) → CodeMap → List Obj → Except PyErr CodeMap
  | _, t, [] => .ok t
  | cid, t, x :: rest =>
    match x with
    | .int n => applyDiff glyphs n t rest
    | .bool b => applyDiff glyphs (if b then 1 else 0) t rest
    | .name n =>
      match name2unicode glyphs n with
      | .ok u => applyDiff glyphs (cid + 1) (dictSet t cid u) rest
      | .error .keyError => applyDiff glyphs (cid + 1) t rest
      | .error e => .error e
    | _ => applyDiff glyphs cid t rest

/-- `EncodingDB.get_encoding` (EncodingDB.py:28-43): the address of the resulting dictionary, and the heap. `name` is the bytes of the name;
an exception leaves the half-built copy behind, which nothing refers to. -/
def getEncoding (glyphs : PyStr → Option PyStr) (h : EncHeap) (name : Bytes) (diff : List Obj) : Except PyErr Nat × EncHeap :=
  if diff = [] then (.ok (encodingAddr name), h)
  else
    match applyDiff glyphs 0 (h.getD (encodingAddr name) []) diff with
    | .ok t => (.ok h.length, h ++ [t])
    | .error e => (.error e, h)

/-- A history of calls of `get_encoding` (EncodingDB.py:28-43), each with a name and a `Differences` array: the heap afterwards. -/
def encCalls (glyphs : PyStr → Option PyStr) (h : EncHeap) (calls : List (Bytes × List Obj)) : EncHeap :=
  calls.foldl (fun h c => (getEncoding glyphs h c.1 c.2).2) h

end Pdf
