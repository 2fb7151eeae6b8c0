import Verif.Model.StackParser
/-! Model of `PDFContentParser` (pdfmajor/parser/PDFContentParser.py): several content streams, inline images. -/

namespace Pdf

/-- The variables of the content parser: the decoded data of the streams that are not opened yet
(`self.streams[self.istream:]`, each through `validated_stream` and `get_data`), whether `self.fp` is not `None`, and those of
`PSBaseParser`, whose `data` is the contents of `self.fp` (PDFContentParser.py:18-33). -/
structure CSt where
  streams : List Bytes
  opened : Bool
  ps : PSt

/-- `fillfp` (PDFContentParser.py:24-32). -/
def CSt.fillfp (cs : CSt) : Except PyErr CSt :=
  if cs.opened then .ok cs
  else match cs.streams with
    | [] => .error .psEOF
    | d :: ds => .ok ⟨ds, true, { cs.ps with data := d, fpos := 0 }⟩

/-- `seek` (PDFContentParser.py:34-37) without the stacks, which `PSStackParser.seek` clears. -/
def CSt.seek (cs : CSt) (pos : Nat) : Except PyErr CSt :=
  match cs.fillfp with
  | .error e => .error e
  | .ok cs => .ok { cs with ps := PSt.seek cs.ps.data pos }

/-- The rounds of the loop of `fillbuf` that begin with `self.fp` being `None` (PDFContentParser.py:42-48): the state, and
whether `PSEOF` was raised. -/
def CSt.refill (bufsiz : Nat) : (streams : List Bytes) → PSt → CSt × Bool
  | [], ps => (⟨[], false, ps⟩, true)
  | d :: ds, ps =>
    match PSt.fillbuf bufsiz { ps with data := d, fpos := 0 } with
    | (ps, false) => (⟨ds, true, ps⟩, false)
    | (ps, true) => CSt.refill bufsiz ds ps

/-- `fillbuf` (PDFContentParser.py:39-50): the state, and whether `PSEOF` was raised. -/
def CSt.fillbuf (bufsiz : Nat) (cs : CSt) : CSt × Bool :=
  if cs.ps.charpos < cs.ps.buf.length then (cs, false)
  else if cs.opened then
    match cs.ps.fillbuf bufsiz with
    | (ps, false) => (⟨cs.streams, true, ps⟩, false)
    | (ps, true) => CSt.refill bufsiz cs.streams ps
  else CSt.refill bufsiz cs.streams cs.ps

/-- Bytes that are not read yet, of all streams (observation, of the variables of PDFContentParser.py:18-50). -/
def CSt.unread (cs : CSt) : Bytes :=
  cs.ps.buf.drop cs.ps.charpos ++ (if cs.opened then cs.ps.data.drop cs.ps.fpos else []) ++ cs.streams.flatten

/-- The loop of `nexttoken` (PSBaseParser.py:340-346). -/
def CSt.nexttokenLoop (bufsiz : Nat) : (fuel : Nat) → CSt → Except PyErr (Nat × Tok) × CSt
  | 0, cs => (.error .recursion, cs)
  | fuel + 1, cs =>
    match cs.ps.toks with
    | t :: ts => (.ok t, { cs with ps := { cs.ps with toks := ts } })
    | [] =>
      match cs.fillbuf bufsiz with
      | (cs, true) => (.error .psEOF, cs)
      | (cs, false) =>
        match parseCall cs.ps.lex (cs.ps.bufpos + cs.ps.charpos) (cs.ps.buf.drop cs.ps.charpos) with
        | .error e => (.error e, cs)
        | .ok (lex, n, toks) =>
          CSt.nexttokenLoop bufsiz fuel
            { cs with ps := { cs.ps with lex := lex, charpos := cs.ps.charpos + n, toks := cs.ps.toks ++ toks } }

/-- `nexttoken` (PSBaseParser.py:340-346). The bound is always sufficient. -/
def CSt.nexttoken (bufsiz : Nat) (cs : CSt) : Except PyErr (Nat × Tok) × CSt :=
  cs.nexttokenLoop bufsiz (3 * cs.unread.length + 4)

/-- `self.charpos += n` (PDFContentParser.py:62, 73, 77). -/
def CSt.advance (cs : CSt) (n : Nat) : CSt := { cs with ps := { cs.ps with charpos := cs.ps.charpos + n } }

/-- The next value of `i` after the byte `c`, for `i > 0` (PDFContentParser.py:63-68). -/
def inlineNext (target : Bytes) (i : Nat) (c : UInt8) : Nat :=
  if target.length ≤ i ∧ isSpace c = true then i + 1
  else if i < target.length ∧ target[i]? = some c then i + 1
  else 0

/-- The loop of `get_inline_data` (PDFContentParser.py:56-77). Every round reads a byte. -/
def CSt.inlineLoop (bufsiz : Nat) (target : Bytes) : (fuel : Nat) → CSt → (i : Nat) → (data : Bytes) → Except PyErr (Bytes × CSt)
  | 0, _, _, _ => .error .recursion
  | fuel + 1, cs, i, data =>
    if target.length < i then .ok (data, cs)
    else match cs.fillbuf bufsiz with
      | (_, true) => .error .psEOF
      | (cs, false) =>
        let w := cs.ps.buf.drop cs.ps.charpos
        if i = 0 then
          match w.idxOf? (target.headD 0) with
          | some j => CSt.inlineLoop bufsiz target fuel (cs.advance (j + 1)) 1 (data ++ w.take (j + 1))
          | none => CSt.inlineLoop bufsiz target fuel (cs.advance w.length) 0 (data ++ w)
        else match w with
          | [] => .error .indexError
          | c :: _ => CSt.inlineLoop bufsiz target fuel (cs.advance 1) (inlineNext target i c) (data ++ [c])

/-- Where `$` matches: at the end, and before a newline at the end (Python's `re`; used at PDFContentParser.py:79). -/
def atDollar (rest : Bytes) : Bool := rest = [] || rest = [10]

/-- `re.sub(br'(\x0d\x0a|[\x0d\x0a])$', b'', data)` (PDFContentParser.py:79). -/
def subEol : Bytes → Bytes
  | [] => []
  | [c] => if c = 13 ∨ c = 10 then [] else [c]
  | c :: c' :: r =>
    if c = 13 ∧ c' = 10 ∧ atDollar r = true then subEol r
    else if (c = 13 ∨ c = 10) ∧ atDollar (c' :: r) = true then subEol (c' :: r)
    else c :: subEol (c' :: r)

/-- `b'EI'` (PDFContentParser.py:52, 88). -/
def kwEI : Bytes := [69, 73]
/-- `b'ID'` (PDFContentParser.py:87). -/
def kwID : Bytes := [73, 68]
/-- `b'BI'` (PDFContentParser.py:86). -/
def kwBI : Bytes := [66, 73]

/-- `get_inline_data(pos)` (PDFContentParser.py:52-80): the data and the state. -/
def CSt.getInline (bufsiz : Nat) (cs : CSt) (pos : Nat) : Except PyErr (Bytes × CSt) :=
  match cs.seek pos with
  | .error e => .error e
  | .ok cs =>
    match cs.inlineLoop bufsiz kwEI (cs.unread.length + 2) 0 [] with
    | .error e => .error e
    | .ok (data, cs) => .ok (subEol (data.take (data.length - (kwEI.length + 1))), cs)

/-- `dict((literal_name(k), v) for (k, v) in choplist(2, objs))` (PDFContentParser.py:99). -/
def inlineDict (d : List (Key × Obj)) : List Obj → Except PyErr (List (Key × Obj))
  | k :: v :: rest =>
    match k.key with
    | .ok key => inlineDict (dictSet d key v) rest
    | .error e => .error e
  | _ => .ok d

/-- The keyword `ID` at `pos` (PDFContentParser.py:94-106) in lenient mode. `get_inline_data` clears the stacks, through
`seek`. -/
def CSt.idKw (bufsiz : Nat) (cs : CSt) (st : StackSt) (pos : Nat) : Except PyErr (CSt × StackSt) :=
  match st.endType .inline with
  | .error e => if e = .psTypeError then .ok (cs, st) else .error e
  | .ok ((_, objs), st) =>
    if objs.length % 2 ≠ 0 then .ok (cs, st)
    else match inlineDict [] objs with
      | .error e => .error e
      | .ok d =>
        match cs.getInline bufsiz (pos + 3) with
        | .error e => .error e
        | .ok (data, cs) => .ok (cs, (StackSt.push {} (pos + 3, .stream d data)).push (pos + 3, .kw kwEI))

/-- `PDFContentParser` (PDFContentParser.py:82-109) without `ID`. -/
def inlineHooks : Hooks where
  keyword st pos name := if name = kwBI then .ok (st.startType pos .inline) else .ok (st.push (pos, .kw name))
  flush := StackSt.flushAll

/-- `if self.context: continue else: self.flush()` (PSStackParser/__init__.py:160-163), after `ID`. -/
def settleC : Except PyErr (CSt × StackSt) → Except PyErr (CSt × StackSt)
  | .ok (cs, st) => if st.context = [] then .ok (cs, st.flushAll) else .ok (cs, st)
  | .error e => .error e

/-- One round of `nextobject` (PSStackParser/__init__.py:114-163). -/
def CSt.step (bufsiz : Nat) (cs : CSt) (st : StackSt) (pos : Nat) (tok : Tok) : Except PyErr (CSt × StackSt) :=
  if tok = .kw kwID then settleC (cs.idKw bufsiz st pos)
  else match st.feed inlineHooks pos tok with
    | .ok st => .ok (cs, st)
    | .error e => .error e

/-- `nextobject` (PSStackParser/__init__.py:107-169). `fuel` bounds the number of tokens read. -/
def CSt.nextobject (bufsiz : Nat) : (fuel : Nat) → CSt → StackSt → Except PyErr (Obj × CSt × StackSt)
  | 0, _, _ => .error .recursion
  | fuel + 1, cs, st =>
    match st.results with
    | r :: rs => .ok (r.2, cs, { st with results := rs })
    | [] =>
      match cs.nexttoken bufsiz with
      | (.error e, _) => .error e
      | (.ok (pos, tok), cs) =>
        match cs.step bufsiz st pos tok with
        | .ok (cs, st) => CSt.nextobject bufsiz fuel cs st
        | .error e => .error e

/-- Calls `nextobject` at most `n` times, until it raises: the objects and the exception (`__iter__`,
PSStackParser/__init__.py:99-105, stops silently at `PSEOF`). -/
def CSt.objects (bufsiz fuel : Nat) : Nat → CSt → StackSt → List Obj × Option PyErr
  | 0, _, _ => ([], none)
  | n + 1, cs, st =>
    match cs.nextobject bufsiz fuel st with
    | .error e => ([], some e)
    | .ok (o, cs, st) => let q := CSt.objects bufsiz fuel n cs st; (o :: q.1, q.2)

/-- `PDFContentParser(streams)` and `n` objects (PDFContentParser.py:18-22, PSBaseParser.py:23-26): the constructor seeks to 0,
which raises `PSEOF` already if there are no streams. -/
def contentObjects (bufsiz fuel : Nat) (streams : List Bytes) (n : Nat) : List Obj × Option PyErr :=
  match CSt.seek ⟨streams, false, PSt.seek [] 0⟩ 0 with
  | .error e => ([], some e)
  | .ok cs => cs.objects bufsiz fuel n {}

end Pdf
