import Verif.Model.CMap
import Verif.Model.Resolver
/-! Model of `FileUnicodeMap` and `CMapParser` (parser/cmapdb/__init__.py:130-186, 267-413), as used for `ToUnicode` maps. -/

namespace Pdf

/-- `FileUnicodeMap.add_cid2unichr` (cmapdb/__init__.py:174-186). -/
def addCid2unichr (glyphs : PyStr → Option PyStr) (m : CodeMap) (cid : Int) (code : Obj) : Except PyErr CodeMap :=
  match code with
  | .name n => (name2unicode glyphs n).map fun u => dictSet m cid u
  | .str s => .ok (dictSet m cid (utf16be s))
  | .int n => if n < 0 then .error .valueError else (chr n.toNat).map fun u => dictSet m cid u
  | .bool b => .ok (dictSet m cid [if b then 1 else 0])
  | _ => .error .typeError

/-- `get_unichr` (cmapdb/__init__.py:140-142). -/
def getUnichr (m : CodeMap) (cid : Int) : Except PyErr PyStr :=
  match dictGet m cid with
  | some u => .ok u
  | none => .error .keyError

/-- `x[-n:]` (cmapdb/__init__.py:386-392): all of it for `n = 0`. -/
def lastBytes (n : Nat) (s : Bytes) : Bytes := if n = 0 then s else s.drop (s.length - n)

/-- `for i in range(e1-s1+1): self.cmap.add_cid2unichr(s1+i, code[i])` (cmapdb/__init__.py:382-384), from `i` on, `n` rounds. -/
def bfListLoop (glyphs : PyStr → Option PyStr) (s1 : Nat) (code : List Obj) : (i n : Nat) → CodeMap → Except PyErr CodeMap
  | _, 0, m => .ok m
  | i, n + 1, m =>
    match code[i]? with
    | none => .error .indexError
    | some o =>
      match addCid2unichr glyphs m (s1 + i : Nat) o with
      | .ok m => bfListLoop glyphs s1 code (i + 1) n m
      | .error e => .error e

/-- The loop for a range with one destination (cmapdb/__init__.py:390-392), from `i` on, `n` rounds. -/
def bfStrLoop (s1 base vlen : Nat) (pre : Bytes) : (i n : Nat) → CodeMap → Except PyErr CodeMap
  | _, 0, m => .ok m
  | i, n + 1, m =>
    match packL (base + i) with
    | .error e => .error e
    | .ok p => bfStrLoop s1 base vlen pre (i + 1) n (dictSet m ((s1 + i : Nat) : Int) (utf16be (pre ++ lastBytes vlen p)))

/-- One entry of a `bfrange` section (cmapdb/__init__.py:376-392). -/
def bfRangeEntry (glyphs : PyStr → Option PyStr) (m : CodeMap) (s e code : Obj) : Except PyErr CodeMap :=
  match s, e with
  | .str s, .str e =>
    if s.length ≠ e.length then .ok m
    else
      match nunpack s, nunpack e with
      | .ok s1, .ok e1 =>
        match code with
        | .arr l => bfListLoop glyphs s1 l 0 (e1 + 1 - s1) m
        | .str c =>
          match nunpack (lastBytes 4 c) with
          | .ok base => bfStrLoop s1 base (lastBytes 4 c).length (c.take (c.length - 4)) 0 (e1 + 1 - s1) m
          | .error e => .error e
        | _ => .error .typeError
      | _, _ => .error .typeError
  | _, _ => .ok m

/-- `for (s, e, code) in choplist(3, objs)` of `endbfrange` (cmapdb/__init__.py:375-392). -/
def bfRanges (glyphs : PyStr → Option PyStr) : CodeMap → List Obj → Except PyErr CodeMap
  | m, s :: e :: code :: rest =>
    match bfRangeEntry glyphs m s e code with
    | .ok m => bfRanges glyphs m rest
    | .error e => .error e
  | m, _ => .ok m

/-- `for (cid, code) in choplist(2, objs)` of `endbfchar` (cmapdb/__init__.py:399-402). -/
def bfChars (glyphs : PyStr → Option PyStr) : CodeMap → List Obj → Except PyErr CodeMap
  | m, cid :: code :: rest =>
    match cid, code with
    | .str c, .str d =>
      match nunpack c with
      | .ok n =>
        match addCid2unichr glyphs m n (.str d) with
        | .ok m => bfChars glyphs m rest
        | .error e => .error e
      | .error e => .error e
    | _, _ => bfChars glyphs m rest
  | m, _ => .ok m

/-- The state of a `CMapParser` with a `FileUnicodeMap` (cmapdb/__init__.py:269-274): the parser's stacks, `_in_cmap`, and the map's
`cid2unichr` and `attrs`. -/
structure CMapSt where
  stack : StackSt := {}
  inCmap : Bool := true
  umap : CodeMap := []
  attrs : List (Key × Obj) := []

/-- `popall()` (PSStackParser/__init__.py:69-72): the objects and the state. -/
def CMapSt.popAll (s : CMapSt) : List Obj × CMapSt := (s.stack.curstack.map Prod.snd, { s with stack := { s.stack with curstack := [] } })

/-- The outcome of `self.cmap.use_cmap(CMapDB.get_cmap(literal_name(cmapname)))` (cmapdb/__init__.py:319-327, 222-252): a unicode map ignores
the other map, and an unknown one is no error; but the name must be a `str`. Failures while reading an existing file are not modelled. -/
def useCmap : Obj → Except PyErr Unit
  | .name n => match utf8 n with
    | some _ => .ok ()
    | none => .error .typeError
  | .str _ => .error .typeError
  | .arr _ => .error .typeError
  | .dict _ => .error .typeError
  | _ => .error .attributeError

/-- The keywords that only clear the stack (cmapdb/__init__.py:329-338, 360-362, 370-372, 395-397, 405-410). -/
def clearWords : List Bytes := [asc "begincodespacerange", asc "endcodespacerange", asc "begincidrange", asc "begincidchar",
  asc "beginbfrange", asc "beginbfchar", asc "beginnotdefrange", asc "endnotdefrange"]

/-- `CMapParser.do_keyword` (cmapdb/__init__.py:300-413) with a `FileUnicodeMap`. The entries of `endcidrange` and `endcidchar` are strings of type
`bytes`, never `str`: they are skipped (cmapdb/__init__.py:342-344, 366-367). -/
def CMapSt.keyword (glyphs : PyStr → Option PyStr) (s : CMapSt) (pos : Nat) (name : Bytes) : Except PyErr CMapSt :=
  if name = asc "begincmap" then .ok { s.popAll.2 with inCmap := true }
  else if name = asc "endcmap" then .ok { s with inCmap := false }
  else if !s.inCmap then .ok s
  else if name = asc "def" then
    match s.stack.pop 2 with
    | ([(_, k), (_, v)], stack) =>
      match k.key with
      | .ok key => .ok { s with stack := stack, attrs := dictSet s.attrs key v }
      | .error e => .error e
    | _ => .error .valueError
  else if name = asc "usecmap" then
    match s.stack.pop 1 with
    | ([(_, x)], stack) =>
      match useCmap x with
      | .ok _ => .ok { s with stack := stack }
      | .error e => .error e
    | _ => .error .valueError
  else if name ∈ clearWords then .ok s.popAll.2
  else if name = asc "endcidrange" ∨ name = asc "endcidchar" then .ok s.popAll.2
  else if name = asc "endbfrange" then (bfRanges glyphs s.umap s.popAll.1).map fun m => { s.popAll.2 with umap := m }
  else if name = asc "endbfchar" then (bfChars glyphs s.umap s.popAll.1).map fun m => { s.popAll.2 with umap := m }
  else .ok { s with stack := s.stack.push (pos, .kw name) }

/-- The methods that the brackets use (PSStackParser/__init__.py:118-152); `flush` does nothing (PSBaseParser.py:31-32). -/
def cmapHooks : Hooks := ⟨fun st pos name => .ok (st.push (pos, .kw name)), id⟩

/-- One round of `nextobject` (PSStackParser/__init__.py:114-163) for a `CMapParser`. -/
def CMapSt.feed (glyphs : PyStr → Option PyStr) (s : CMapSt) (t : Nat × Tok) : Except PyErr CMapSt :=
  match t with
  | (pos, .kw name) =>
    if name ∈ ([[91], [93], [60, 60], [62, 62], [123], [125]] : List Bytes) then
      (s.stack.feed cmapHooks pos (.kw name)).map fun st => { s with stack := st }
    else s.keyword glyphs pos name
  | (pos, tok) => (s.stack.feed cmapHooks pos tok).map fun st => { s with stack := st }

/-- `CMapParser(map, BytesIO(data)).run()` (cmapdb/__init__.py:276-281): `nextobject` never returns an object (nothing calls `add_results`), so
it reads all tokens, until `PSEOF`. -/
def cmapRun (glyphs : PyStr → Option PyStr) (bufsiz : Nat) (data : Bytes) : Except PyErr CMapSt :=
  match (tokenize bufsiz data).1.foldlM (CMapSt.feed glyphs) {}, (tokenize bufsiz data).2 with
  | .ok s, some .psEOF => .ok s
  | .ok _, some e => .error e
  | .ok _, none => .error .recursion
  | .error e, _ => .error e

end Pdf
