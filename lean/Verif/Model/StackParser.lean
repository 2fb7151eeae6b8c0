import Verif.Model.Lexer
/-! Model of `PSStackParser` (pdfmajor/parser/PSStackParser/__init__.py) and of the token-driven part of its subclasses
`PDFParser`, `PDFStreamParser` (parser/PDFParser.py) and `PDFContentParser` (parser/PDFContentParser.py). -/

namespace Pdf

/-- Dictionary keys: what `literal_name` (PSStackParser/__init__.py:14-26) returns and Python can hash. Names are given by
their bytes. Simplifications: reference objects are compared by value (Python compares them by identity), and
Python's `1 == 1.0 == True` is not modelled. -/
inductive Key where
  | name (n : Bytes)
  | null
  | int (n : Int)
  | real (m : Int) (k : Nat)
  | bool (b : Bool)
  | str (s : Bytes)
  | kw (n : Bytes)
  | ref (id gen : Int)
deriving DecidableEq, Repr

/-- Parsed objects. A Python `dict` is the list of its items in insertion order. A procedure `{...}` is a Python list
too (PSStackParser/types.py, PDFStream/PDFObjRef.py, PDFStream/__init__.py:11-30). -/
inductive Obj where
  | null
  | int (n : Int)
  | real (m : Int) (k : Nat)
  | bool (b : Bool)
  | str (s : Bytes)
  | name (n : Bytes)
  | kw (n : Bytes)
  | ref (id gen : Int)
  | arr (l : List Obj)
  | dict (l : List (Key × Obj))
  | stream (d : List (Key × Obj)) (data : Bytes)
deriving Repr

/-- `literal_name` (PSStackParser/__init__.py:14-26) in lenient mode, followed by hashing: lists, dictionaries are
unhashable (`TypeError`); a stream object cannot occur as a key (`stream` resets the parser). -/
def Obj.key : Obj → Except PyErr Key
  | .null => .ok .null
  | .int n => .ok (.int n)
  | .real m k => .ok (.real m k)
  | .bool b => .ok (.bool b)
  | .str s => .ok (.str s)
  | .name n => .ok (.name n)
  | .kw n => .ok (.kw n)
  | .ref i g => .ok (.ref i g)
  | .arr _ => .error .typeError
  | .dict _ => .error .typeError
  | .stream _ _ => .error .typeError

/-- `d[k] = v` on a Python dictionary: an existing key keeps its place (Python built-in; used at PSStackParser/__init__.py:138). -/
def dictSet {κ α : Type} [DecidableEq κ] (d : List (κ × α)) (k : κ) (v : α) : List (κ × α) :=
  match d with
  | [] => [(k, v)]
  | (k', v') :: r => if k' = k then (k', v) :: r else (k', v') :: dictSet r k v

/-- `d.get(k)` (Python built-in; used at PDFStream/__init__.py:51-58). -/
def dictGet {κ α : Type} [DecidableEq κ] (d : List (κ × α)) (k : κ) : Option α :=
  match d with
  | [] => none
  | (k', v) :: r => if k' = k then some v else dictGet r k

/-- `v is not None` (used at PSStackParser/__init__.py:138). -/
def Obj.isNull : Obj → Bool
  | .null => true
  | _ => false

/-- `dict((literal_name(k), v) for (k, v) in choplist(2, objs) if v is not None)` (PSStackParser/__init__.py:138), from
the dictionary `d` built so far. -/
def buildDict (d : List (Key × Obj)) : List Obj → Except PyErr (List (Key × Obj))
  | k :: v :: rest =>
    if v.isNull then buildDict d rest
    else match k.key with
      | .ok key => buildDict (dictSet d key v) rest
      | .error e => .error e
  | _ => .ok d

/-- `curtype`: array, dictionary, procedure, inline image (PSStackParser/__init__.py:48-94). -/
inductive Ty where
  | a | d | p | inline
deriving DecidableEq, Repr

/-- The stack variables (PSStackParser/__init__.py:48-53). The last element of `context` in Python is the first here. -/
structure StackSt where
  context : List (Nat × Option Ty × List (Nat × Obj)) := []
  curtype : Option Ty := none
  curstack : List (Nat × Obj) := []
  results : List (Nat × Obj) := []

/-- `push` of one object (PSStackParser/__init__.py:60-62). -/
def StackSt.push (st : StackSt) (x : Nat × Obj) : StackSt := { st with curstack := st.curstack ++ [x] }

/-- `pop(n)`, `n > 0` (PSStackParser/__init__.py:64-67): the last `n` objects, or all if there are fewer. -/
def StackSt.pop (st : StackSt) (n : Nat) : List (Nat × Obj) × StackSt :=
  (st.curstack.drop (st.curstack.length - n), { st with curstack := st.curstack.take (st.curstack.length - n) })

/-- `popall` and `add_results` (PSStackParser/__init__.py:69-80), as used by the `flush` methods. -/
def StackSt.flushAll (st : StackSt) : StackSt :=
  { st with results := st.results ++ st.curstack, curstack := [] }

/-- `start_type` (PSStackParser/__init__.py:82-86). -/
def StackSt.startType (st : StackSt) (pos : Nat) (t : Ty) : StackSt :=
  { st with context := (pos, st.curtype, st.curstack) :: st.context, curtype := some t, curstack := [] }

/-- `end_type` (PSStackParser/__init__.py:88-94). -/
def StackSt.endType (st : StackSt) (t : Ty) : Except PyErr ((Nat × List Obj) × StackSt) :=
  if st.curtype ≠ some t then .error .psTypeError
  else match st.context with
    | (pos, ty, stack) :: ctx =>
      .ok ((pos, st.curstack.map Prod.snd), { st with context := ctx, curtype := ty, curstack := stack })
    | [] => .error .indexError

/-- The methods a subclass overrides (PSStackParser/__init__.py:96-97, PSBaseParser.py:31-32). -/
structure Hooks where
  keyword : StackSt → Nat → Bytes → Except PyErr StackSt
  flush : StackSt → StackSt

/-- `]` and `}` (PSStackParser/__init__.py:121-127, 146-152) in lenient mode: a mismatch is ignored. -/
def StackSt.closeSeq (st : StackSt) (t : Ty) : Except PyErr StackSt :=
  match st.endType t with
  | .ok ((p, objs), st) => .ok (st.push (p, .arr objs))
  | .error e => if e = .psTypeError then .ok st else .error e

/-- `>>` (PSStackParser/__init__.py:131-142) in lenient mode. -/
def StackSt.closeDict (st : StackSt) : Except PyErr StackSt :=
  match st.endType .d with
  | .ok ((p, objs), st) =>
    if objs.length % 2 ≠ 0 then .error .psSyntaxError
    else match buildDict [] objs with
      | .ok d => .ok (st.push (p, .dict d))
      | .error e => .error e
  | .error e => if e = .psTypeError then .ok st else .error e

/-- The branches of the loop of `nextobject` (PSStackParser/__init__.py:115-159). -/
def StackSt.feedBody (h : Hooks) (st : StackSt) (pos : Nat) (tok : Tok) : Except PyErr StackSt :=
  match tok with
  | .int n => .ok (st.push (pos, .int n))
  | .real m k => .ok (st.push (pos, .real m k))
  | .bool b => .ok (st.push (pos, .bool b))
  | .str s => .ok (st.push (pos, .str s))
  | .lit n => .ok (st.push (pos, .name n))
  | .kw name =>
    if name = [91] then .ok (st.startType pos .a)
    else if name = [93] then st.closeSeq .a
    else if name = [60, 60] then .ok (st.startType pos .d)
    else if name = [62, 62] then st.closeDict
    else if name = [123] then .ok (st.startType pos .p)
    else if name = [125] then st.closeSeq .p
    else h.keyword st pos name

/-- `if self.context: continue else: self.flush()` (PSStackParser/__init__.py:160-163). -/
def Hooks.settle (h : Hooks) : Except PyErr StackSt → Except PyErr StackSt
  | .ok st => if st.context = [] then .ok (h.flush st) else .ok st
  | .error e => .error e

/-- One round of the loop of `nextobject` (PSStackParser/__init__.py:114-163) on the token `tok` at `pos`. -/
def StackSt.feed (h : Hooks) (st : StackSt) (pos : Nat) (tok : Tok) : Except PyErr StackSt :=
  h.settle (st.feedBody h pos tok)

/-- `int(x)` on an operand of `R` (PDFParser.py:76): the strings Python would accept are not modelled. -/
def Obj.toInt : Obj → Except PyErr Int
  | .int n => .ok n
  | .bool b => .ok (if b then 1 else 0)
  | .real m k => .ok (Int.tdiv m (10 ^ k))
  | .str _ => .error .valueError
  | _ => .error .typeError

/-- The `R` keyword (PDFParser.py:72-80 and 158-166): fewer than two operands cannot be unpacked (`ValueError`). -/
def StackSt.doRef (st : StackSt) (pos : Nat) : Except PyErr StackSt :=
  match (st.pop 2).1 with
  | [(_, a), (_, b)] =>
    match a.toInt with
    | .error e => .error e
    | .ok i => match b.toInt with
      | .error e => .error e
      | .ok g => .ok ((st.pop 2).2.push (pos, .ref i g))
  | _ => .error .valueError

/-- `KEYWORD_R` (PDFParser.py:52). -/
def kwR : Bytes := [82]
/-- `KEYWORD_NULL` (PDFParser.py:53). -/
def kwNull : Bytes := [110, 117, 108, 108]
/-- `KEYWORD_OBJ` (PDFParser.py:154, PDFDocument/__init__.py:107). -/
def kwObj : Bytes := [111, 98, 106]
/-- `KEYWORD_ENDOBJ` (PDFParser.py:54). -/
def kwEndobj : Bytes := [101, 110, 100, 111, 98, 106]
/-- `KEYWORD_STREAM` (PDFParser.py:55). -/
def kwStream : Bytes := [115, 116, 114, 101, 97, 109]
/-- `KEYWORD_XREF` (PDFParser.py:56). -/
def kwXref : Bytes := [120, 114, 101, 102]
/-- `KEYWORD_STARTXREF` (PDFParser.py:57). -/
def kwStartxref : Bytes := [115, 116, 97, 114, 116, 120, 114, 101, 102]

/-- `PDFParser.do_keyword` (PDFParser.py:59-131) except for `stream`, which is modelled in `Model/FileParser`; `flush` is
the empty method of `PSBaseParser` (PSBaseParser.py:31-32). -/
def fileKeyword (st : StackSt) (pos : Nat) (name : Bytes) : Except PyErr StackSt :=
  if name = kwXref ∨ name = kwStartxref then
    let (r, st) := st.pop 1; .ok { st with results := st.results ++ r }
  else if name = kwEndobj then
    let (r, st) := st.pop 4; .ok { st with results := st.results ++ r }
  else if name = kwNull then .ok (st.push (pos, .null))
  else if name = kwR then st.doRef pos
  else .ok (st.push (pos, .kw name))

/-- The methods of `PDFParser` (PDFParser.py:59-131), without streams. -/
def fileHooks : Hooks := ⟨fileKeyword, id⟩

/-- `PDFStreamParser` (PDFParser.py:150-174). -/
def streamHooks : Hooks where
  keyword st pos name :=
    if name = kwR then st.doRef pos
    else if name = kwObj ∨ name = kwEndobj then .ok st
    else .ok (st.push (pos, .kw name))
  flush := StackSt.flushAll

/-- `PDFContentParser` (PDFContentParser.py:82-109) except for inline images. -/
def contentHooks : Hooks where
  keyword st pos name := .ok (st.push (pos, .kw name))
  flush := StackSt.flushAll

/-- `nextobject` (PSStackParser/__init__.py:107-169). Every round reads a token, so the number of rounds is bounded by
the unread bytes. -/
def nextobjectLoop (h : Hooks) (bufsiz : Nat) : (fuel : Nat) → PSt → StackSt → Except PyErr (Nat × Obj) × PSt × StackSt
  | 0, ps, st => (.error .recursion, ps, st)
  | fuel + 1, ps, st =>
    match st.results with
    | r :: rs => (.ok r, ps, { st with results := rs })
    | [] =>
      match ps.nexttoken bufsiz with
      | (.error e, ps) => (.error e, ps, st)
      | (.ok (pos, tok), ps) =>
        match st.feed h pos tok with
        | .ok st => nextobjectLoop h bufsiz fuel ps st
        | .error e => (.error e, ps, st)

/-- `nextobject` (PSStackParser/__init__.py:107-169). -/
def nextobject (h : Hooks) (bufsiz : Nat) (ps : PSt) (st : StackSt) : Except PyErr (Nat × Obj) × PSt × StackSt :=
  nextobjectLoop h bufsiz (ps.toks.length + ps.unread.length + 3) ps st

/-- Calls `nextobject` at most `n` times, until it raises: the objects and the exception (`__iter__`,
PSStackParser/__init__.py:99-105, stops silently at `PSEOF`). -/
def objects (h : Hooks) (bufsiz : Nat) : Nat → PSt → StackSt → List Obj × Option PyErr
  | 0, _, _ => ([], none)
  | n + 1, ps, st =>
    match nextobject h bufsiz ps st with
    | (.error e, _, _) => ([], some e)
    | (.ok r, ps, st) => let q := objects h bufsiz n ps st; (r.2 :: q.1, q.2)

/-- The first `n` objects of a file, read with a fresh parser (a client of PSStackParser/__init__.py:107-169). -/
def parseObjects (h : Hooks) (bufsiz : Nat) (data : Bytes) (n : Nat) : List Obj × Option PyErr :=
  objects h bufsiz n (PSt.seek data 0) {}

end Pdf
