import Verif.Model.Basic
/-! Model of the tokenizer `PSBaseParser` (pdfmajor/parser/PSStackParser/PSBaseParser.py) and of the
regular expressions it uses (PSStackParser/constants.py). -/

namespace Pdf

/-- Tokens. `LIT(name)` is represented by the raw bytes of the name (the code decodes them to `str` when they
are valid UTF-8; this is an injective renaming). A `float` is represented exactly, as the decimal
`mantissa * 10 ^ -scale` (Python rounds it to a double) (PSStackParser/types.py:16-80, PSBaseParser.py:175-177). -/
inductive Tok where
  | int (n : Int)
  | real (mantissa : Int) (scale : Nat)
  | bool (b : Bool)
  | str (bs : Bytes)
  | lit (name : Bytes)
  | kw (name : Bytes)
deriving DecidableEq, Repr

/-- The parse functions `self._current_parse_func` can refer to (PSBaseParser.py:131-346). -/
inductive LexFn where
  | main | comment | literal | literalHex | number | float | keyword
  | string | string1 | wopen | wclose | hexstring
deriving DecidableEq, Repr

/-- Tokenizer variables (PSBaseParser.py:60-63 and `self.paren`, `self.hex`, `self.oct`). -/
structure LexSt where
  fn : LexFn := .main
  cur : Bytes := []
  tpos : Nat := 0
  paren : Nat := 0
  hex : Bytes := []
  oct : Bytes := []
deriving DecidableEq, Repr

/-- `EOL = [\r\n]` (constants.py:17). -/
def isEol (c : UInt8) : Bool := c == 13 || c == 10

/-- `END_LITERAL` and `END_KEYWORD`: `[#/%\[\]()<>{}\s]` (constants.py:21,25). -/
def isEndWord (c : UInt8) : Bool :=
  c == 35 || c == 47 || c == 37 || c == 91 || c == 93 || c == 40 || c == 41 || c == 60 || c == 62 ||
  c == 123 || c == 125 || isSpace c

/-- `END_STRING = [()\134]` (constants.py:26). -/
def isEndString (c : UInt8) : Bool := c == 40 || c == 41 || c == 92

/-- `END_HEX_STRING = [^\s0-9a-fA-F]` (constants.py:22). -/
def isEndHexString (c : UInt8) : Bool := !(isSpace c || isHex c)

/-- `OCT_STRING = [0-7]` (constants.py:27). -/
def isOct (c : UInt8) : Bool := 48 ≤ c && c ≤ 55

/-- `bytes.isalpha` on one byte (PSBaseParser.py:154). -/
def isAlpha (c : UInt8) : Bool := (65 ≤ c && c ≤ 90) || (97 ≤ c && c ≤ 122)

/-- `ESC_STRING` (constants.py:28). -/
def escString (c : UInt8) : Option UInt8 :=
  if c = 98 then some 8 else if c = 116 then some 9 else if c = 110 then some 10
  else if c = 102 then some 12 else if c = 114 then some 13 else if c = 40 then some 40
  else if c = 41 then some 41 else if c = 92 then some 92 else none

/-- Value of a list of decimal digits (PSBaseParser.py:234). -/
def decVal (ds : Bytes) : Nat := ds.foldl (fun v c => v * 10 + (c.toNat - 48)) 0

/-- Value of a list of octal digits, `int(x, 8)` (PSBaseParser.py:302). -/
def octVal (ds : Bytes) : Nat := ds.foldl (fun v c => v * 8 + (c.toNat - 48)) 0

/-- Value of a list of hexadecimal digits, `int(x, 16)` (PSBaseParser.py:217). -/
def hexVals (ds : Bytes) : Nat := ds.foldl (fun v c => v * 16 + hexVal c) 0

/-- Splits an optional sign off (`true` = negative) (PSBaseParser.py:233-249). -/
def splitSign : Bytes → Bool × Bytes
  | c :: cs => if c = 45 then (true, cs) else if c = 43 then (false, cs) else (false, c :: cs)
  | [] => (false, [])

/-- The number with its sign, in `int` and `float` (PSBaseParser.py:234, 248). -/
def applySign (neg : Bool) (n : Nat) : Int := if neg then -(n : Int) else n

/-- `int(tok)` on what the number state collects, an optional sign and digits; `none` is `ValueError`
(PSBaseParser.py:234). -/
def intOf (cur : Bytes) : Option Int :=
  let (neg, ds) := splitSign cur
  if ds = [] then none else some (applySign neg (decVal ds))

/-- `float(tok)` on what the float state collects: optional sign, digits, a dot, digits; `none` is
`ValueError` (PSBaseParser.py:248). The value is the exact decimal. -/
def floatOf (cur : Bytes) : Option (Int × Nat) :=
  let (neg, ds) := splitSign cur
  let ip := ds.takeWhile (· != 46)
  let fp := (ds.dropWhile (· != 46)).drop 1
  if ip = [] ∧ fp = [] then none else some (applySign neg (decVal (ip ++ fp)), fp.length)

/-- `HEX_PAIR.sub(...)` with `HEX_PAIR = [0-9a-fA-F]{2}|.` (constants.py:23, PSBaseParser.py:335): pairs of
digits; a single last digit is converted on its own. -/
def hexPairs : Bytes → Bytes
  | [] => []
  | [c] => [UInt8.ofNat (hexVal c)]
  | c :: d :: rest => UInt8.ofNat (hexVal c * 16 + hexVal d) :: hexPairs rest

/-- What one call of a parse function does: new tokenizer variables, number of bytes consumed, tokens
added. The Python functions take `(s, i)` and return the new index; here they take the unread part
`w = s[i:]` of the buffer and the file position `pos = bufpos + i` of its first byte, and return the
number of bytes consumed (PSBaseParser.py:131-346). -/
abbrev LexOut := LexSt × Nat × List (Nat × Tok)

/-- The dispatch on the first non-space byte `c` at file position `p` (PSBaseParser.py:137-173). -/
def mainDispatch (st : LexSt) (p : Nat) (c : UInt8) : LexSt × List (Nat × Tok) :=
  let st := { st with tpos := p }
  if c = 37 then ({ st with cur := [37], fn := .comment }, [])
  else if c = 47 then ({ st with cur := [], fn := .literal }, [])
  else if c = 45 ∨ c = 43 ∨ isDigit c = true then ({ st with cur := [c], fn := .number }, [])
  else if c = 46 then ({ st with cur := [c], fn := .float }, [])
  else if isAlpha c = true then ({ st with cur := [c], fn := .keyword }, [])
  else if c = 40 then ({ st with cur := [], paren := 1, fn := .string }, [])
  else if c = 60 then ({ st with cur := [], fn := .wopen }, [])
  else if c = 62 then ({ st with cur := [], fn := .wclose }, [])
  else (st, [(p, .kw [c])])

/-- `_parse_main` (PSBaseParser.py:131-173). -/
def parseMain (st : LexSt) (pos : Nat) (w : Bytes) : LexOut :=
  let sp := w.takeWhile isSpace
  match w.dropWhile isSpace with
  | [] => (st, w.length, [])
  | c :: _ =>
    let (st', toks) := mainDispatch st (pos + sp.length) c
    (st', sp.length + 1, toks)

/-- `_parse_comment` (PSBaseParser.py:179-189). -/
def parseComment (st : LexSt) (w : Bytes) : LexOut :=
  let pre := w.takeWhile (fun c => !isEol c)
  match w.dropWhile (fun c => !isEol c) with
  | [] => ({ st with cur := st.cur ++ w }, w.length, [])
  | _ :: _ => ({ st with cur := st.cur ++ pre, fn := .main }, pre.length, [])

/-- `_parse_literal` (PSBaseParser.py:191-209). -/
def parseLiteral (st : LexSt) (w : Bytes) : LexOut :=
  let pre := w.takeWhile (fun c => !isEndWord c)
  match w.dropWhile (fun c => !isEndWord c) with
  | [] => ({ st with cur := st.cur ++ w }, w.length, [])
  | c :: _ =>
    if c = 35 then ({ st with cur := st.cur ++ pre, hex := [], fn := .literalHex }, pre.length + 1, [])
    else ({ st with cur := st.cur ++ pre, fn := .main }, pre.length, [(st.tpos, .lit (st.cur ++ pre))])

/-- `_parse_literal_hex` (PSBaseParser.py:211-219), `c` being the next byte. -/
def parseLiteralHex (st : LexSt) (c : UInt8) : LexOut :=
  if isHex c = true ∧ st.hex.length < 2 then ({ st with hex := st.hex ++ [c] }, 1, [])
  else if st.hex ≠ [] then
    ({ st with cur := st.cur ++ [UInt8.ofNat (hexVals st.hex)], fn := .literal }, 0, [])
  else ({ st with fn := .literal }, 0, [])

/-- `_parse_number` (PSBaseParser.py:221-238). -/
def parseNumber (st : LexSt) (w : Bytes) : LexOut :=
  let pre := w.takeWhile isDigit
  match w.dropWhile isDigit with
  | [] => ({ st with cur := st.cur ++ w }, w.length, [])
  | c :: _ =>
    let cur := st.cur ++ pre
    if c = 46 then ({ st with cur := cur ++ [c], fn := .float }, pre.length + 1, [])
    else ({ st with cur := cur, fn := .main }, pre.length,
      match intOf cur with
      | some n => [(st.tpos, .int n)]
      | none => [])

/-- `_parse_float` (PSBaseParser.py:240-252). -/
def parseFloat (st : LexSt) (w : Bytes) : LexOut :=
  let pre := w.takeWhile isDigit
  match w.dropWhile isDigit with
  | [] => ({ st with cur := st.cur ++ w }, w.length, [])
  | _ :: _ =>
    let cur := st.cur ++ pre
    ({ st with cur := cur, fn := .main }, pre.length,
      match floatOf cur with
      | some (m, k) => [(st.tpos, .real m k)]
      | none => [])

/-- The token of a finished keyword (PSBaseParser.py:261-266): `true`, `false` or `KWD(name)`. -/
def keywordTok (cur : Bytes) : Tok :=
  if cur = [116, 114, 117, 101] then .bool true
  else if cur = [102, 97, 108, 115, 101] then .bool false
  else .kw cur

/-- `_parse_keyword` (PSBaseParser.py:254-269). -/
def parseKeyword (st : LexSt) (w : Bytes) : LexOut :=
  let pre := w.takeWhile (fun c => !isEndWord c)
  match w.dropWhile (fun c => !isEndWord c) with
  | [] => ({ st with cur := st.cur ++ w }, w.length, [])
  | _ :: _ => ({ st with cur := st.cur ++ pre, fn := .main }, pre.length, [(st.tpos, keywordTok (st.cur ++ pre))])

/-- `_parse_string` (PSBaseParser.py:271-294). -/
def parseString (st : LexSt) (w : Bytes) : LexOut :=
  let pre := w.takeWhile (fun c => !isEndString c)
  match w.dropWhile (fun c => !isEndString c) with
  | [] => ({ st with cur := st.cur ++ w }, w.length, [])
  | c :: _ =>
    let cur := st.cur ++ pre
    if c = 92 then ({ st with cur := cur, oct := [], fn := .string1 }, pre.length + 1, [])
    else if c = 40 then ({ st with cur := cur ++ [c], paren := st.paren + 1 }, pre.length + 1, [])
    else if st.paren - 1 ≠ 0 then ({ st with cur := cur ++ [c], paren := st.paren - 1 }, pre.length + 1, [])
    else ({ st with cur := cur, paren := st.paren - 1, fn := .main }, pre.length + 1, [(st.tpos, .str cur)])

/-- `_parse_string_1` (PSBaseParser.py:296-308); `int2byte` of an octal value above 255 raises `struct.error`. -/
def parseString1 (st : LexSt) (c : UInt8) : Except PyErr LexOut :=
  if isOct c = true ∧ st.oct.length < 3 then .ok ({ st with oct := st.oct ++ [c] }, 1, [])
  else if st.oct ≠ [] then
    if octVal st.oct < 256 then
      .ok ({ st with cur := st.cur ++ [UInt8.ofNat (octVal st.oct)], fn := .string }, 0, [])
    else .error .structError
  else
    match escString c with
    | some e => .ok ({ st with cur := st.cur ++ [e], fn := .string }, 1, [])
    | none => .ok ({ st with fn := .string }, 1, [])

/-- `_parse_wopen` (PSBaseParser.py:310-318). -/
def parseWopen (st : LexSt) (c : UInt8) : LexOut :=
  if c = 60 then ({ st with fn := .main }, 1, [(st.tpos, .kw [60, 60])])
  else ({ st with fn := .hexstring }, 0, [])

/-- `_parse_wclose` (PSBaseParser.py:320-326). -/
def parseWclose (st : LexSt) (c : UInt8) : LexOut :=
  if c = 62 then ({ st with fn := .main }, 1, [(st.tpos, .kw [62, 62])])
  else ({ st with fn := .main }, 0, [])

/-- `_parse_hexstring` (PSBaseParser.py:328-338). -/
def parseHexstring (st : LexSt) (w : Bytes) : LexOut :=
  let pre := w.takeWhile (fun c => !isEndHexString c)
  match w.dropWhile (fun c => !isEndHexString c) with
  | [] => ({ st with cur := st.cur ++ w }, w.length, [])
  | _ :: _ =>
    let cur := st.cur ++ pre
    ({ st with cur := cur, fn := .main }, pre.length, [(st.tpos, .str (hexPairs (cur.filter (fun c => !isSpace c))))])

/-- `self._current_parse_func(self.buf, self.charpos)` (PSBaseParser.py:343). The functions that look at
`s[i:i+1]` are only called with a non-empty rest (`fillbuf` guarantees it). -/
def parseCall (st : LexSt) (pos : Nat) (w : Bytes) : Except PyErr LexOut :=
  match st.fn, w with
  | .main, w => .ok (parseMain st pos w)
  | .comment, w => .ok (parseComment st w)
  | .literal, w => .ok (parseLiteral st w)
  | .number, w => .ok (parseNumber st w)
  | .float, w => .ok (parseFloat st w)
  | .keyword, w => .ok (parseKeyword st w)
  | .string, w => .ok (parseString st w)
  | .hexstring, w => .ok (parseHexstring st w)
  | .literalHex, c :: _ => .ok (parseLiteralHex st c)
  | .string1, c :: _ => parseString1 st c
  | .wopen, c :: _ => .ok (parseWopen st c)
  | .wclose, c :: _ => .ok (parseWclose st c)
  | _, [] => .ok (st, 0, [])

/-- The parser object: file contents, `fp.tell()`, `bufpos`, `buf`, `charpos`, tokenizer variables, the queue
`_tokens` (PSBaseParser.py:50-64). -/
structure PSt where
  data : Bytes
  fpos : Nat
  bufpos : Nat
  buf : Bytes
  charpos : Nat
  lex : LexSt
  toks : List (Nat × Tok)
deriving DecidableEq

/-- `seek(pos)` (PSBaseParser.py:50-64). -/
def PSt.seek (data : Bytes) (pos : Nat) : PSt := ⟨data, pos, pos, [], 0, {}, []⟩

/-- `tell()` (PSBaseParser.py:38-39). -/
def PSt.tell (ps : PSt) : Nat := ps.bufpos + ps.charpos

/-- `fillbuf` (PSBaseParser.py:66-75) with buffer size `bufsiz`: the new state and whether `PSEOF` was raised. -/
def PSt.fillbuf (bufsiz : Nat) (ps : PSt) : PSt × Bool :=
  if ps.charpos < ps.buf.length then (ps, false)
  else
    let buf := (ps.data.drop ps.fpos).take bufsiz
    if buf = [] then ({ ps with bufpos := ps.fpos, buf := [] }, true)
    else ({ ps with bufpos := ps.fpos, buf := buf, fpos := ps.fpos + buf.length, charpos := 0 }, false)

/-- Bytes the tokenizer has not looked at yet (observation, of the variables of PSBaseParser.py:50-75). -/
def PSt.unread (ps : PSt) : Bytes := ps.buf.drop ps.charpos ++ ps.data.drop ps.fpos

/-- The loop of `nexttoken` (PSBaseParser.py:340-346). -/
def PSt.nexttokenLoop (bufsiz : Nat) : (fuel : Nat) → PSt → Except PyErr (Nat × Tok) × PSt
  | 0, ps => (.error .recursion, ps)
  | fuel + 1, ps =>
    match ps.toks with
    | t :: ts => (.ok t, { ps with toks := ts })
    | [] =>
      match ps.fillbuf bufsiz with
      | (ps, true) => (.error .psEOF, ps)
      | (ps, false) =>
        match parseCall ps.lex (ps.bufpos + ps.charpos) (ps.buf.drop ps.charpos) with
        | .error e => (.error e, ps)
        | .ok (lex, n, toks) =>
          PSt.nexttokenLoop bufsiz fuel { ps with lex := lex, charpos := ps.charpos + n, toks := ps.toks ++ toks }

/-- `nexttoken` (PSBaseParser.py:340-346). The bound on the number of iterations is always sufficient
(`tokenizer_terminates`). -/
def PSt.nexttoken (bufsiz : Nat) (ps : PSt) : Except PyErr (Nat × Tok) × PSt :=
  ps.nexttokenLoop bufsiz (3 * ps.unread.length + 4)

/-- The outcomes of `n` successive calls of `nexttoken` (a client of PSBaseParser.py:340-346). -/
def PSt.outcomes (bufsiz : Nat) : Nat → PSt → List (Except PyErr (Nat × Tok))
  | 0, _ => []
  | n + 1, ps => let (r, ps') := ps.nexttoken bufsiz; r :: PSt.outcomes bufsiz n ps'

/-- Calls `nexttoken` until it raises (at most `n` times): the tokens, and the exception if there was one (a client of PSBaseParser.py:340-346). -/
def PSt.drain (bufsiz : Nat) : Nat → PSt → List (Nat × Tok) × Option PyErr
  | 0, _ => ([], none)
  | n + 1, ps =>
    match ps.nexttoken bufsiz with
    | (.error e, _) => ([], some e)
    | (.ok t, ps') => let r := PSt.drain bufsiz n ps'; (t :: r.1, r.2)

/-- All tokens of a file from a position on, and the exception that ends reading (a client of PSBaseParser.py:50-64, 340-346). -/
def tokenize (bufsiz : Nat) (data : Bytes) (pos : Nat := 0) : List (Nat × Tok) × Option PyErr :=
  (PSt.seek data pos).drain bufsiz (data.length + 1)

end Pdf
