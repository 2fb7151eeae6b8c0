import Verif.Model.StackParser
import Verif.Model.Lines
/-! Model of `PDFParser` (parser/PDFParser.py) with stream objects, and of `PDFDocument._getobj_parse`. -/

namespace Pdf

/-- The key `Length` (PDFParser.py:89). -/
def nameLength : Key := .name [76, 101, 110, 103, 116, 104]
/-- `b'endstream'` (PDFParser.py:111). -/
def kwEndstream : Bytes := [101, 110, 100, 115, 116, 114, 101, 97, 109]

/-- What the parser gets from outside: its `fallback` flag (PDFParser.py:44) and, through the document, the resolution of
references (`resolve1`, PDFStream/util.py:9-17), which may change the state `σ` of the document (its caches). -/
structure Env (σ : Type) where
  fallback : Bool
  resolve1 : Obj → σ → Except PyErr Obj × σ

variable {σ : Type}

/-- `int_value` (PDFStream/util.py:48-54), lenient mode; `bool` is a subclass of `int`. -/
def Env.intValue (env : Env σ) (o : Obj) (s : σ) : Except PyErr Int × σ :=
  match env.resolve1 o s with
  | (.ok (.int n), s) => (.ok n, s)
  | (.ok (.bool b), s) => (.ok (if b then 1 else 0), s)
  | (.ok _, s) => (.ok 0, s)
  | (.error e, s) => (.error e, s)

/-- `dict_value` (PDFStream/util.py:93-100), lenient mode. -/
def Env.dictValue (env : Env σ) (o : Obj) (s : σ) : Except PyErr (List (Key × Obj)) × σ :=
  match env.resolve1 o s with
  | (.ok (.dict d), s) => (.ok d, s)
  | (.ok _, s) => (.ok [], s)
  | (.error e, s) => (.error e, s)

/-- `line.index(pat)` if `pat in line`, for a non-empty pattern (PDFParser.py:111-112). -/
def findSub (pat : Bytes) : Bytes → Option Nat
  | [] => none
  | c :: cs => if pat.isPrefixOf (c :: cs) then some 0 else (findSub pat cs).map (· + 1)

/-- The loop that looks for `endstream` line by line (PDFParser.py:104-119): how many bytes it skipped, and these bytes.
Every round reads a line; `fuel` is the length of the file. -/
def scanEnd (b : Nat) : (fuel : Nat) → PSt → (len : Nat) → (acc : Bytes) → Nat × Bytes
  | 0, _, len, acc => (len, acc)
  | fuel + 1, ps, len, acc =>
    match ps.nextline b with
    | (.error _, _) => (len, acc)
    | (.ok (_, line), ps) =>
      match findSub kwEndstream line with
      | some i => (len + i, acc ++ line.take i)
      | none => scanEnd b fuel ps (len + line.length) (acc ++ line)

/-- `objlen` (PDFParser.py:86-92). -/
def Env.objlen (env : Env σ) (d : List (Key × Obj)) (s : σ) : Except PyErr Int × σ :=
  if env.fallback then (.ok 0, s)
  else match dictGet d nameLength with
    | none => (.ok 0, s)
    | some o => env.intValue o s

/-- `fp.seek(p); fp.read(n)`: a negative size reads everything (PDFParser.py:101-102). -/
def readAt (data : Bytes) (p : Nat) (n : Int) : Bytes :=
  if n < 0 then data.drop p else (data.drop p).take n.toNat

/-- What follows the `stream` line (PDFParser.py:95-125); `p` is the position after it. Seeking before the start of the
file raises. -/
def streamBody (env : Env σ) (b : Nat) (data : Bytes) (p : Nat) (d : List (Key × Obj)) (objlen : Int) : Except PyErr (PSt × StackSt) :=
  let start := (p : Int) + objlen
  if start < 0 then .error .valueError
  else
    let s := scanEnd b (data.length + 1) (PSt.seek data start.toNat) 0 []
    .ok (PSt.seek data (start.toNat + s.1),
      StackSt.push {} (p, .stream d (if env.fallback then readAt data p objlen ++ s.2 else readAt data p objlen)))

/-- The `stream` keyword at `pos` (PDFParser.py:82-125). `seek` also clears the stacks (PSStackParser/__init__.py:55-58).
(Resolving a reference uses the same parser object and moves it; the code seeks back to `pos` afterwards.) -/
def streamKw (env : Env σ) (b : Nat) (data : Bytes) (st : StackSt) (pos : Nat) (s : σ) : Except PyErr (PSt × StackSt) × σ :=
  match (st.pop 1).1 with
  | [(_, o)] =>
    match env.dictValue o s with
    | (.error e, s) => (.error e, s)
    | (.ok d, s) =>
      match env.objlen d s with
      | (.error e, s) => (.error e, s)
      | (.ok objlen, s) =>
        match (PSt.seek data pos).nextline b with
        | (.error _, ps) => (.ok (ps, {}), s)
        | (.ok (_, line), _) => (streamBody env b data (pos + line.length) d objlen, s)
  | _ => (.error .valueError, s)

/-- One round of `nextobject` for `PDFParser` (its `flush` does nothing) (PSStackParser/__init__.py:107-169). -/
def fileStep (env : Env σ) (b : Nat) (ps : PSt) (st : StackSt) (pos : Nat) (tok : Tok) (s : σ) : Except PyErr (PSt × StackSt) × σ :=
  if tok = .kw kwStream then streamKw env b ps.data st pos s
  else match st.feed fileHooks pos tok with
    | .ok st => (.ok (ps, st), s)
    | .error e => (.error e, s)

/-- `PDFParser.nextobject` (PSStackParser/__init__.py:107-169). `fuel` bounds the number of tokens read; with a negative
`Length` the parser may go back and loop forever. -/
def nextobjectF (env : Env σ) (b : Nat) : (fuel : Nat) → PSt → StackSt → σ → Except PyErr (Nat × Obj) × σ
  | 0, _, _, s => (.error .recursion, s)
  | fuel + 1, ps, st, s =>
    match st.results with
    | r :: _ => (.ok r, s)
    | [] =>
      match ps.nexttoken b with
      | (.error e, _) => (.error e, s)
      | (.ok (pos, tok), ps) =>
        match fileStep env b ps st pos tok s with
        | (.ok (ps, st), s) => nextobjectF env b fuel ps st s
        | (.error e, s) => (.error e, s)

/-- `token == objid` for an integer `objid`: Python compares numbers by value (PDFDocument/__init__.py:171, 180). -/
def Tok.isNum (t : Tok) (n : Int) : Bool :=
  match t with
  | .int m => m = n
  | .real m k => m = n * 10 ^ k
  | .bool b => (if b then 1 else 0) = n
  | _ => false

/-- `while kwd is not KEYWORD_OBJ: (_, kwd) = nexttoken(); x.append(kwd)` (PDFDocument/__init__.py:173-175), up to the
`fuel`: the tokens read. -/
def skipToObj (b : Nat) : (fuel : Nat) → PSt → Tok → List Tok → Except PyErr (PSt × Tok × List Tok)
  | 0, _, _, _ => .error .recursion
  | fuel + 1, ps, kwd, x =>
    if kwd = .kw kwObj then .ok (ps, kwd, x)
    else match ps.nexttoken b with
      | (.error e, _) => .error e
      | (.ok (_, kwd), ps) => skipToObj b fuel ps kwd (x ++ [kwd])

/-- The hack for a wrong object number (PDFDocument/__init__.py:171-178): `objid1 = x[-2]` is the token before `obj`, so
the generation number is compared with the object number (`IndexError` if `obj` is the only token read). -/
def fixObjid (b : Nat) (fuel : Nat) (ps : PSt) (objid1 kwd : Tok) (objid : Int) : Except PyErr (PSt × Tok × Tok) :=
  if objid1.isNum objid then .ok (ps, objid1, kwd)
  else match skipToObj b fuel ps kwd [] with
    | .error e => .error e
    | .ok (ps, kwd, x) =>
      match x.reverse with
      | [] => .ok (ps, objid1, kwd)
      | [_] => .error .indexError
      | _ :: t :: _ => .ok (ps, t, kwd)

/-- The end of `_getobj_parse` (PDFDocument/__init__.py:180-186). -/
def finishParse (env : Env σ) (b : Nat) (fuel : Nat) (ps : PSt) (objid1 kwd : Tok) (objid : Int) (s : σ) : Except PyErr Obj × σ :=
  if ¬ objid1.isNum objid then (.error .pdfSyntaxError, s)
  else if kwd ≠ .kw kwObj then (.error .pdfSyntaxError, s)
  else match nextobjectF env b fuel ps {} s with
    | (.ok (_, o), s) => (.ok o, s)
    | (.error e, s) => (.error e, s)

/-- `PDFDocument._getobj_parse` (PDFDocument/__init__.py:162-186). -/
def getobjParse (env : Env σ) (b : Nat) (fuel : Nat) (data : Bytes) (pos : Nat) (objid : Int) (s : σ) : Except PyErr Obj × σ :=
  match (PSt.seek data pos).nexttoken b with
  | (.error e, _) => (.error e, s)
  | (.ok (_, t1), ps) =>
    match ps.nexttoken b with
    | (.error e, _) => (.error e, s)
    | (.ok (_, _), ps) =>
      match ps.nexttoken b with
      | (.error e, _) => (.error e, s)
      | (.ok (_, t3), ps) =>
        match fixObjid b fuel ps t1 t3 objid with
        | .error e => (.error e, s)
        | .ok (ps, objid1, kwd) => finishParse env b fuel ps objid1 kwd objid s

end Pdf
