import Verif.Model.ToUnicode
/-! Model of the reader of Type 1 font programs (PDFFont/Type1FontHeaderParser.py). -/

namespace Pdf

/-- A `Type1FontHeaderParser` (PDFFont/Type1FontHeaderParser.py:22-25): the stacks and the encoding found so far. -/
structure T1St where
  stack : StackSt := {}
  table : CodeMap := []

/-- `do_keyword` (PDFFont/Type1FontHeaderParser.py:39-45), with what `get_encoding` does at once with a result (28-36): `put` with a code and a
name gives the code the character of the name, if it has one. All other words are dropped. -/
def T1St.keyword (glyphs : PyStr → Option PyStr) (s : T1St) (name : Bytes) : Except PyErr T1St :=
  if name = asc "put" then
    match s.stack.pop 2 with
    | ([(_, k), (_, v)], stack) =>
      match intKey k, v with
      | some code, .name n =>
        match name2unicode glyphs n with
        | .ok u => .ok ⟨stack, dictSet s.table code u⟩
        | .error .keyError => .ok { s with stack := stack }
        | .error e => .error e
      | _, _ => .ok { s with stack := stack }
    | _ => .error .valueError
  else .ok s
where
  /-- `isinstance(key, int)` (PDFFont/Type1FontHeaderParser.py:42); `bool` is an `int`. -/
  intKey : Obj → Option Int
    | .int n => some n
    | .bool b => some (if b then 1 else 0)
    | _ => none

/-- One round of `nextobject` (PSStackParser/__init__.py:114-163). -/
def T1St.feed (glyphs : PyStr → Option PyStr) (s : T1St) (t : Nat × Tok) : Except PyErr T1St :=
  match t with
  | (pos, .kw name) =>
    if name ∈ ([[91], [93], [60, 60], [62, 62], [123], [125]] : List Bytes) then
      (s.stack.feed cmapHooks pos (.kw name)).map fun st => { s with stack := st }
    else s.keyword glyphs name
  | (pos, tok) => (s.stack.feed cmapHooks pos tok).map fun st => { s with stack := st }

/-- `Type1FontHeaderParser(BytesIO(data)).get_encoding()` (PDFFont/Type1FontHeaderParser.py:27-37). -/
def t1Encoding (glyphs : PyStr → Option PyStr) (bufsiz : Nat) (data : Bytes) : Except PyErr CodeMap :=
  match (tokenize bufsiz data).1.foldlM (T1St.feed glyphs) {}, (tokenize bufsiz data).2 with
  | .ok s, some .psEOF => .ok s.table
  | .ok _, some e => .error e
  | .ok _, none => .error .recursion
  | .error e, _ => .error e

end Pdf
