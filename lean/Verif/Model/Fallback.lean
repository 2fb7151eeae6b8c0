import Verif.Model.XrefStream
/-! Model of the scan for objects of a damaged file (parser/PDFDocument/PDFXRef.py, class `PDFXRefFallback`). -/

namespace Pdf

variable {σ : Type}

/-- `\s` of a regular expression on text decoded as Latin-1 (used by `PDFOBJ_CUE`, PDFDocument/PDFXRef.py:118). -/
def isSpaceL (c : UInt8) : Bool := (9 ≤ c && c ≤ 13) || (28 ≤ c && c ≤ 32) || c == 133 || c == 160

/-- `\w` of a regular expression on text decoded as Latin-1 (used by `PDFOBJ_CUE`, PDFDocument/PDFXRef.py:118). -/
def isWordL (c : UInt8) : Bool :=
  (48 ≤ c && c ≤ 57) || (65 ≤ c && c ≤ 90) || c == 95 || (97 ≤ c && c ≤ 122) || c == 170 || c == 178 || c == 179 || c == 181 || c == 185 || c == 186 ||
    (188 ≤ c && c ≤ 190) || (192 ≤ c && c != 215 && c != 247)

/-- The number written by ASCII digits, `int(...)` (PDFDocument/PDFXRef.py:137-138). -/
def digitsVal (ds : Bytes) : Nat := ds.foldl (fun n c => n * 10 + (c.toNat - 48)) 0

/-- `PDFOBJ_CUE = re.compile(r'^(\d+)\s+(\d+)\s+obj\b')` and `m.groups()` as integers (PDFXRef.py:118, 133-138). Among the Latin-1
characters only the ASCII digits match `\d`, so the greedy match is the only one. -/
def objCue (line : Bytes) : Option (Nat × Nat) :=
  let d1 := line.takeWhile isDigit
  let r1 := line.dropWhile isDigit
  let s1 := r1.takeWhile isSpaceL
  let r2 := r1.dropWhile isSpaceL
  let d2 := r2.takeWhile isDigit
  let r3 := r2.dropWhile isDigit
  let s2 := r3.takeWhile isSpaceL
  let r4 := r3.dropWhile isSpaceL
  if d1 = [] ∨ s1 = [] ∨ d2 = [] ∨ s2 = [] then none
  else if kwObj.isPrefixOf r4 then
    match r4.drop 3 with
    | [] => some (digitsVal d1, digitsVal d2)
    | c :: _ => if isWordL c then none else some (digitsVal d1, digitsVal d2)
  else none

/-- `LITERAL_OBJSTM` (PDFDocument/constants.py:4). -/
def nameObjStm : Bytes := [79, 98, 106, 83, 116, 109]

/-- `for index in range(n): self.offsets[objs[index*2]] = (objid, index, 0)` (PDFXRef.py:159-162). Lists and dictionaries are not
hashable. Keys that are not integers are never looked up; they are left out. -/
def addObjs (objid : Int) (objs : List Obj) : (todo index : Nat) → List (Int × XPos) → Except PyErr (List (Int × XPos))
  | 0, _, offs => .ok offs
  | n + 1, index, offs =>
    match objs[index * 2]? with
    | some (.int i) => addObjs objid objs n (index + 1) (dictSet offs i (some objid, index, 0))
    | some (.bool i) => addObjs objid objs n (index + 1) (dictSet offs (if i then 1 else 0) (some objid, index, 0))
    | some (.arr _) => .error .typeError
    | some (.dict _) => .error .typeError
    | _ => addObjs objid objs n (index + 1) offs

/-- The expansion of an object stream (PDFXRef.py:143-162). -/
def expandObjstm (decode : List (Key × Obj) → Bytes → Except PyErr Bytes) (b : Nat) (objid : Int) (o : Obj) (offs : List (Int × XPos)) :
    Except PyErr (List (Int × XPos)) :=
  match o with
  | .stream d raw =>
    if dictGet d nameType ≠ some (.name nameObjStm) then .ok offs
    else match decode d raw with
      | .error e => .error e
      | .ok data =>
        match parseObjects streamHooks b data (data.length + 1) with
        | (objs, some .psEOF) =>
          match (dictGet d nameN).getD (.int 0) with
          | .int n => addObjs objid objs (min n (objs.length / 2 : Nat)).toNat 0 offs
          | .bool n => addObjs objid objs (min (if n then 1 else 0) (objs.length / 2 : Nat) : Int).toNat 0 offs
          | _ => .error .typeError
        | (_, some e) => .error e
        | (_, none) => .error .recursion
  | _ => .ok offs

/-- The loop of `PDFXRefFallback.load` (PDFXRef.py:120-163). The `fuel` bounds the rounds, and the tokens of an object. -/
def fallbackLoop (env : Env σ) (decode : List (Key × Obj) → Bytes → Except PyErr Bytes) (b : Nat) (data : Bytes) :
    (fuel : Nat) → PSt → List (Int × XPos) → σ → Except PyErr XTable × σ
  | 0, _, _, s => (.error .recursion, s)
  | fuel + 1, ps, offs, s =>
    match ps.nextline b with
    | (.error _, _) => (.ok ⟨offs, []⟩, s)
    | (.ok (pos, line), ps) =>
      if kwTrailer.isPrefixOf line then
        match loadTrailer env b fuel data pos s with
        | (.error e, _, s) => (.error e, s)
        | (.ok d, _, s) => (.ok ⟨offs, dictUpdate [] d⟩, s)
      else match objCue line with
        | none => fallbackLoop env decode b data fuel ps offs s
        | some (objid, genno) =>
          match nextobjectG env b fuel (PSt.seek data pos) {} s with
          | (.error e, _, s) => (.error e, s)
          | (.ok (_, o), (ps, _), s) =>
            match expandObjstm decode b objid o (dictSet offs objid (none, pos, genno)) with
            | .error e => (.error e, s)
            | .ok offs => fallbackLoop env decode b data fuel ps offs s

/-- `PDFXRefFallback.load` (PDFXRef.py:120-163). -/
def fallbackLoad (env : Env σ) (decode : List (Key × Obj) → Bytes → Except PyErr Bytes) (b fuel : Nat) (data : Bytes) (s : σ) : Except PyErr XTable × σ :=
  fallbackLoop env decode b data fuel (PSt.seek data 0) [] s

end Pdf
