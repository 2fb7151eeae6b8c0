import Verif.Model.Document
import Verif.Model.Png
/-! Model of the cross-reference sections (parser/PDFDocument/PDFXRef.py) and of the functions that find them
(parser/PDFDocument/__init__.py). -/

namespace Pdf

variable {σ : Type}

/-- `bytes.strip()` (used at PDFDocument/PDFXRef.py:52-73). -/
def strip (w : Bytes) : Bytes := ((w.dropWhile isSpace).reverse.dropWhile isSpace).reverse

/-- `bytes.split(b' ')` (used at PDFDocument/PDFXRef.py:61-73). -/
def splitSp : Bytes → List Bytes
  | [] => [[]]
  | c :: cs =>
    if c = 32 then [] :: splitSp cs
    else match splitSp cs with
      | f :: fs => (c :: f) :: fs
      | [] => [[c]]

/-- The digits of `int(bytes)`: single underscores may stand between digits. `prev`: the last byte was a digit (used at PDFDocument/PDFXRef.py:79). -/
def intBody : (prev : Bool) → Nat → Bytes → Option Nat
  | prev, n, [] => if prev then some n else none
  | prev, n, c :: cs =>
    if isDigit c then intBody true (n * 10 + (c.toNat - 48)) cs
    else if c = 95 ∧ prev = true then intBody false n cs
    else none

/-- `int(bytes)`; the limit of 4300 digits of recent Pythons is not modelled (used at PDFDocument/PDFXRef.py:79). -/
def pyInt (w : Bytes) : Except PyErr Int :=
  let (neg, ds) := splitSign (strip w)
  match intBody false 0 ds with
  | some n => .ok (applySign neg n)
  | none => .error .valueError

/-- The loop of `find_xref` (PDFDocument/__init__.py:288-297) over the lines from the end of the file. -/
def findLoop : List Bytes → (prev : Option Bytes) → Except PyErr (Option Bytes)
  | [], _ => .error .pdfNoValidXRef
  | l :: ls, prev =>
    if strip l = kwStartxref then .ok prev
    else findLoop ls (if strip l = [] then prev else some (strip l))

/-- `find_xref` (PDFDocument/__init__.py:285-299). -/
def findXref (b : Nat) (data : Bytes) : Except PyErr Int :=
  match findLoop (revreadlines b data) none with
  | .error e => .error e
  | .ok none => .error .typeError
  | .ok (some w) => pyInt w

/-- `PDFParser.nextobject` with the state it leaves behind (PSStackParser/__init__.py:107-169). -/
def nextobjectG (env : Env σ) (b : Nat) : (fuel : Nat) → PSt → StackSt → σ → Except PyErr (Nat × Obj) × (PSt × StackSt) × σ
  | 0, ps, st, s => (.error .recursion, (ps, st), s)
  | fuel + 1, ps, st, s =>
    match st.results with
    | r :: rs => (.ok r, (ps, { st with results := rs }), s)
    | [] =>
      match ps.nexttoken b with
      | (.error e, ps) => (.error e, (ps, st), s)
      | (.ok (pos, tok), ps) =>
        match fileStep env b ps st pos tok s with
        | (.ok (ps, st), s) => nextobjectG env b fuel ps st s
        | (.error e, s) => (.error e, (ps, st), s)

/-- What a cross-reference section has: `offsets` and `trailer` (PDFDocument/PDFXRef.py:40-43). -/
structure XTable where
  offsets : List (Int × XPos) := []
  trailer : List (Key × Obj) := []

/-- `get_pos` of a table (PDFXRef.py:104-108). -/
def XTable.getPos (t : XTable) (i : Int) : Except PyErr XPos :=
  match dictGet t.offsets i with
  | some p => .ok p
  | none => .error .keyError

/-- `b'trailer'` (PDFDocument/PDFXRef.py:58). -/
def kwTrailer : Bytes := [116, 114, 97, 105, 108, 101, 114]

/-- The entries of a subsection (PDFXRef.py:68-79). `PDFNoValidXRef` is not imported there, so a malformed table raises
`NameError`. -/
def loadEntries (b : Nat) : (nobjs : Nat) → (objid : Int) → PSt → List (Int × XPos) → Except PyErr (PSt × List (Int × XPos))
  | 0, _, ps, offs => .ok (ps, offs)
  | n + 1, objid, ps, offs =>
    match ps.nextline b with
    | (.error _, _) => .error .nameError
    | (.ok (_, line), ps) =>
      match splitSp (strip line) with
      | [pos, gen, use] =>
        if use ≠ [110] then loadEntries b n (objid + 1) ps offs
        else match pyInt pos with
          | .error e => .error e
          | .ok p => match pyInt gen with
            | .error e => .error e
            | .ok g => loadEntries b n (objid + 1) ps (dictSet offs objid (none, p, g))
      | _ => .error .nameError

/-- The loop of `PDFXRef.load` (PDFXRef.py:49-79); every round reads a line, so the size of the file bounds the rounds. The
result is the position of the trailer line and the offsets. -/
def loadTable (b : Nat) : (fuel : Nat) → PSt → List (Int × XPos) → Except PyErr (Nat × List (Int × XPos))
  | 0, _, _ => .error .recursion
  | fuel + 1, ps, offs =>
    match ps.nextline b with
    | (.error _, _) => .error .nameError
    | (.ok (pos, line), ps) =>
      if strip line = [] then loadTable b fuel ps offs
      else if kwTrailer.isPrefixOf line then .ok (pos, offs)
      else match splitSp (strip line) with
        | [f1, f2] =>
          match pyInt f1, pyInt f2 with
          | .ok start, .ok nobjs =>
            match loadEntries b nobjs.toNat start ps offs with
            | .error e => .error e
            | .ok (ps, offs) => loadTable b fuel ps offs
          | _, _ => .error .nameError
        | _ => .error .nameError

/-- `load_trailer` (PDFXRef.py:84-96) of a parser at position `pos`: the dictionary, and the parser afterwards. -/
def loadTrailer (env : Env σ) (b : Nat) (fuel : Nat) (data : Bytes) (pos : Nat) (s : σ) :
    Except PyErr (List (Key × Obj)) × (PSt × StackSt) × σ :=
  match (PSt.seek data pos).nexttoken b with
  | (.error _, ps) => (.error .nameError, (ps, {}), s)
  | (.ok (_, kwd), ps) =>
    if kwd ≠ .kw kwTrailer then (.error .assertion, (ps, {}), s)
    else match nextobjectG env b fuel ps {} s with
      | (.ok (_, dic), ps, s) =>
        let r := env.dictValue dic s
        (r.1, ps, r.2)
      | (.error e, ps, s) =>
        if e ≠ .psEOF then (.error e, ps, s)
        else match (ps.2.pop 1).1 with
          | [(_, dic)] =>
            let r := env.dictValue dic s
            (r.1, (ps.1, (ps.2.pop 1).2), r.2)
          | _ => (.error .nameError, ps, s)

/-- `self.trailer.update(...)` (PDFDocument/PDFXRef.py:94). -/
def dictUpdate {κ α : Type} [DecidableEq κ] (d : List (κ × α)) : List (κ × α) → List (κ × α)
  | [] => d
  | (k, v) :: r => dictUpdate (dictSet d k v) r

/-- `PDFXRef.load` (PDFXRef.py:48-82) by a parser in state `ps`. -/
def loadXref (env : Env σ) (b : Nat) (fuel : Nat) (ps : PSt) (s : σ) : Except PyErr XTable × σ :=
  match loadTable b (ps.unread.length + 1) ps [] with
  | .error e => (.error e, s)
  | .ok (pos, offs) =>
    match loadTrailer env b fuel ps.data pos s with
    | (.error e, _, s) => (.error e, s)
    | (.ok d, _, s) => (.ok ⟨offs, dictUpdate [] d⟩, s)

end Pdf
