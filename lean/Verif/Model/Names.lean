import Verif.Model.Resolver
/-! Model of outlines and name trees (parser/PDFDocument/__init__.py:223-282). -/

namespace Pdf

/-- What `get_outlines` yields: level, title, destination, action, structure element (PDFDocument/__init__.py:235). -/
structure Outline (τ : Type) where
  level : Nat
  title : τ
  dest : Option Obj
  action : Option Obj
  se : Option Obj
deriving DecidableEq

/-- The item of an outline dictionary, if it has a title and a destination or action (PDFDocument/__init__.py:229-235). `dt` is
`decode_text`; it fails on a title that is not a string, because `str_value` gives `''`. -/
def outlineItem {τ : Type} (R : Resolver) (dt : Bytes → τ) (d : List (Key × Obj)) (level : Nat) : Gen (Outline τ) :=
  match dictGet d (nm "Title") with
  | none => ([], none)
  | some t =>
    if (dictGet d (nm "A")).isSome ∨ (dictGet d (nm "Dest")).isSome then
      match R.strValue t with
      | .error e => ([], some e)
      | .ok none => ([], some .typeError)
      | .ok (some s) => ([⟨level, dt s, dictGet d (nm "Dest"), dictGet d (nm "A"), dictGet d (nm "SE")⟩], none)
    else ([], none)

/-- `if 'First' in entry and 'Last' in entry: ...` (PDFDocument/__init__.py:236-238). -/
def below {α : Type} (d : List (Key × Obj)) (f : Obj → Gen α) : Gen α :=
  match dictGet d (nm "First"), dictGet d (nm "Last") with
  | some o, some _ => f o
  | _, _ => ([], none)

/-- `search` in `get_outlines` (PDFDocument/__init__.py:227-242). The `fuel` bounds the length of chains of entries. -/
def outlineSearch {τ : Type} (R : Resolver) (dt : Bytes → τ) : (fuel : Nat) → Obj → Nat → Gen (Outline τ)
  | 0, _, _ => ([], some .recursion)
  | fuel + 1, entry, level =>
    match R.dictValue entry with
    | .error e => ([], some e)
    | .ok d =>
      (outlineItem R dt d level).andThen <|
        (below d fun o => outlineSearch R dt fuel o (level + 1)).andThen
        (match dictGet d (nm "Next") with
          | some n => outlineSearch R dt fuel n level
          | none => ([], none))

/-- `get_outlines` (PDFDocument/__init__.py:223-243). -/
def getOutlines {τ : Type} (R : Resolver) (dt : Bytes → τ) (catalog : List (Key × Obj)) (fuel : Nat) : Except PyErr (Gen (Outline τ)) :=
  match dictGet catalog (nm "Outlines") with
  | none => .error .pdfNoOutlines
  | some o => .ok (outlineSearch R dt fuel o 0)

/-- `a < b` for `bytes` (used at PDFDocument/__init__.py:256). -/
def bytesLt : Bytes → Bytes → Bool
  | _, [] => false
  | [], _ :: _ => true
  | a :: as, b :: bs => if a < b then true else if b < a then false else bytesLt as bs

/-- `key < k1 or k2 < key` (PDFDocument/__init__.py:256); only `bytes` can be compared with `bytes`. -/
def outsideLimits (key : Key) (k1 k2 : Obj) : Except PyErr Bool :=
  match key, k1 with
  | .str s, .str s1 =>
    if bytesLt s s1 then .ok true
    else match k2 with
      | .str s2 => .ok (bytesLt s2 s)
      | _ => .error .typeError
  | _, _ => .error .typeError

/-- `if 'Limits' in d` (PDFDocument/__init__.py:254-257): whether to return `None`. -/
def checkLimits (R : Resolver) (key : Key) (d : List (Key × Obj)) : Except PyErr Bool :=
  match dictGet d (nm "Limits") with
  | none => .ok false
  | some o =>
    match R.listValue o with
    | .error e => .error e
    | .ok [k1, k2] => outsideLimits key k1 k2
    | .ok _ => .error .valueError

/-- `dict(choplist(2, objs))` (PDFDocument/__init__.py:260). -/
def pairsDict (d : List (Key × Obj)) : List Obj → Except PyErr (List (Key × Obj))
  | k :: v :: rest =>
    match (match k with | .name n => .ok (Key.kw (47 :: n)) | k => k.key : Except PyErr Key) with
    | .error e => .error e
    | .ok key => pairsDict (dictSet d key v) rest
  | _ => .ok d

/-- The truth value of an object (used at PDFDocument/__init__.py:265). -/
def Obj.truthy : Obj → Bool
  | .null => false
  | .int n => n ≠ 0
  | .real m _ => m ≠ 0
  | .bool b => b
  | .str s => s ≠ []
  | .arr l => !l.isEmpty
  | .dict d => !d.isEmpty
  | _ => true

/-- `for c in kids: v = lookup(c); if v: return v` then `raise KeyError` (PDFDocument/__init__.py:263-267). -/
def firstTruthy (f : Obj → Except PyErr Obj) : List Obj → Except PyErr Obj
  | [] => .error .keyError
  | c :: cs =>
    match f c with
    | .error e => .error e
    | .ok v => if v.truthy then .ok v else firstTruthy f cs

/-- `lookup` in `lookup_name` (PDFDocument/__init__.py:253-267). The `fuel` bounds the depth of the tree. -/
def nameLookup (R : Resolver) (key : Key) : (fuel : Nat) → List (Key × Obj) → Except PyErr Obj
  | 0, _ => .error .recursion
  | fuel + 1, d =>
    match checkLimits R key d with
    | .error e => .error e
    | .ok true => .ok .null
    | .ok false =>
      match dictGet d (nm "Names") with
      | some o =>
        match R.listValue o with
        | .error e => .error e
        | .ok objs =>
          match pairsDict [] objs with
          | .error e => .error e
          | .ok names =>
            match dictGet names key with
            | some v => .ok v
            | none => .error .keyError
      | none =>
        match dictGet d (nm "Kids") with
        | none => .error .keyError
        | some o =>
          match R.listValue o with
          | .error e => .error e
          | .ok kids => firstTruthy (fun c => match R.dictValue c with
            | .error e => .error e
            | .ok d => nameLookup R key fuel d) kids

/-- `lookup_name` (PDFDocument/__init__.py:245-268). A missing `Names` entry and a missing category raise `KeyError`. -/
def lookupName (R : Resolver) (catalog : List (Key × Obj)) (cat : Key) (key : Key) (fuel : Nat) : Except PyErr Obj :=
  match dictGet catalog (nm "Names") with
  | none => .error .keyError
  | some o =>
    match R.dictValue o with
    | .error e => if e = .pdfTypeError then .error .keyError else .error e
    | .ok names =>
      match dictGet names cat with
      | none => .error .keyError
      | some o =>
        match R.dictValue o with
        | .error e => .error e
        | .ok d0 => nameLookup R key fuel d0

/-- The destinations of PDF 1.1 (PDFDocument/__init__.py:275-281). -/
def oldDest (R : Resolver) (catalog : List (Key × Obj)) (name : Key) : Except PyErr Obj :=
  match dictGet catalog (nm "Dests") with
  | none => .error .pdfDestNotFound
  | some o =>
    match R.dictValue o with
    | .error e => .error e
    | .ok d0 =>
      match dictGet d0 name with
      | none => .error .pdfDestNotFound
      | some v => .ok v

/-- `get_dest` (PDFDocument/__init__.py:270-282). -/
def getDest (R : Resolver) (catalog : List (Key × Obj)) (name : Key) (fuel : Nat) : Except PyErr Obj :=
  match lookupName R catalog (nm "Dests") name fuel with
  | .ok v => .ok v
  | .error e => if e = .keyError then oldDest R catalog name else .error e

end Pdf
