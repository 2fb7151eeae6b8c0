import Verif.Model.StackParser
/-! How objects are written as token sequences (ISO 32000, 7.3), independently of the parser's stacks. Of the model it
uses only the types `Tok`, `Obj`, `Key`. -/

namespace Pdf.Spec
open Pdf (Bytes Tok Obj Key)

/-- The words of a dialect: are there references and `null`, and which keywords stand for themselves. -/
structure Dialect where
  refs : Bool
  nulls : Bool
  plain : Bytes → Prop

def brackets : List Bytes := [[91], [93], [60, 60], [62, 62], [123], [125]]

/-- Objects in the body of a file; `R`, `null`, `xref`, `startxref`, `endobj`, `stream` have a meaning. -/
def fileDialect : Dialect where
  refs := true
  nulls := true
  plain n := n ∉ brackets ∧ n ∉ [[82], [110, 117, 108, 108], [120, 114, 101, 102],
    [115, 116, 97, 114, 116, 120, 114, 101, 102], [101, 110, 100, 111, 98, 106], [115, 116, 114, 101, 97, 109]]

/-- Objects in an object stream; `R`, `obj`, `endobj` have a meaning (`null` is an ordinary keyword for this parser). -/
def objstmDialect : Dialect where
  refs := true
  nulls := false
  plain n := n ∉ brackets ∧ n ∉ [[82], [111, 98, 106], [101, 110, 100, 111, 98, 106]]

/-- Operands and operators of a content stream; `BI`, `ID`, `EI` have a meaning. -/
def contentDialect : Dialect where
  refs := false
  nulls := false
  plain n := n ∉ brackets ∧ n ∉ [[66, 73], [73, 68], [69, 73]]

/-- What can be a dictionary key. -/
def keyOf : Obj → Option Key
  | .null => some .null
  | .int n => some (.int n)
  | .real m k => some (.real m k)
  | .bool b => some (.bool b)
  | .str s => some (.str s)
  | .name n => some (.name n)
  | .kw n => some (.kw n)
  | .ref i g => some (.ref i g)
  | .arr _ => none
  | .dict _ => none
  | .stream _ _ => none

/-- The elements of a dictionary as key/value pairs, pairs with value `null` left out. -/
inductive Pairs : List Obj → List (Key × Obj) → Prop
  | nil : Pairs [] []
  | null {k os ps} : Pairs os ps → Pairs (k :: .null :: os) ps
  | cons {k key v os ps} : v ≠ .null → keyOf k = some key → Pairs os ps → Pairs (k :: v :: os) ((key, v) :: ps)

/-- The value given last for a key. -/
def lastValue (k : Key) : List (Key × Obj) → Option Obj
  | [] => none
  | (k', v) :: ps => match lastValue k ps with
    | some w => some w
    | none => if k' = k then some v else none

/-- The distinct keys, in the order of their first occurrence. -/
def firsts : List Key → List Key
  | [] => []
  | k :: ks => k :: (firsts ks).filter (fun x => decide (x ≠ k))

/-- `d` is the dictionary the pairs `ps` denote: each key once, in the order in which the keys first occur, with the value
given last. -/
def DictOf (ps d : List (Key × Obj)) : Prop :=
  d.map Prod.fst = firsts (ps.map Prod.fst) ∧ ∀ x ∈ d, lastValue x.1 ps = some x.2

mutual
/-- `Writes D ts o`: the tokens `ts` write the object `o`. -/
inductive Writes (D : Dialect) : List Tok → Obj → Prop
  | int (n) : Writes D [.int n] (.int n)
  | real (m k) : Writes D [.real m k] (.real m k)
  | bool (b) : Writes D [.bool b] (.bool b)
  | str (s) : Writes D [.str s] (.str s)
  | name (n) : Writes D [.lit n] (.name n)
  /-- `null` -/
  | null : D.nulls = true → Writes D [.kw [110, 117, 108, 108]] .null
  /-- `i g R` -/
  | ref (i g) : D.refs = true → Writes D [.int i, .int g, .kw [82]] (.ref i g)
  | kw (n) : D.plain n → Writes D [.kw n] (.kw n)
  /-- `[ ... ]` -/
  | arr {ts os} : WritesSeq D ts os → Writes D (.kw [91] :: ts ++ [.kw [93]]) (.arr os)
  /-- `{ ... }` -/
  | proc {ts os} : WritesSeq D ts os → Writes D (.kw [123] :: ts ++ [.kw [125]]) (.arr os)
  /-- `<< ... >>` -/
  | dict {ts os ps d} : WritesSeq D ts os → Pairs os ps → DictOf ps d →
      Writes D (.kw [60, 60] :: ts ++ [.kw [62, 62]]) (.dict d)
/-- Objects one after another. -/
inductive WritesSeq (D : Dialect) : List Tok → List Obj → Prop
  | nil : WritesSeq D [] []
  | cons {t o ts os} : Writes D t o → WritesSeq D ts os → WritesSeq D (t ++ ts) (o :: os)
end

/-- The brackets open after a token sequence, innermost first. A closing bracket closes the innermost open bracket if it
is of its kind and is ignored otherwise. -/
def openBrackets (acc : List Bytes) : List Tok → List Bytes
  | [] => acc
  | .kw n :: ts =>
    if n = [91] ∨ n = [60, 60] ∨ n = [123] then openBrackets (n :: acc) ts
    else if (n = [93] ∧ acc.head? = some [91]) ∨ (n = [62, 62] ∧ acc.head? = some [60, 60]) ∨
        (n = [125] ∧ acc.head? = some [123]) then openBrackets acc.tail ts
    else openBrackets acc ts
  | _ :: ts => openBrackets acc ts

/-- A closing bracket that does not close the innermost open bracket. -/
def Stray (c : Bytes) (opened : List Bytes) : Prop :=
  (c = [93] ∧ opened.head? ≠ some [91]) ∨ (c = [62, 62] ∧ opened.head? ≠ some [60, 60]) ∨
    (c = [125] ∧ opened.head? ≠ some [123])

end Pdf.Spec
