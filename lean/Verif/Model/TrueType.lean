import Verif.Model.Fonts
/-! Model of the reader of TrueType files (interpreter/commands/state/PDFTextState/PDFFont/TrueTypeFont.py). -/

namespace Pdf

/-- A key of a Python dictionary that is a `str` or `bytes` (PDFFont/TrueTypeFont.py:17, 26): the two kinds are never equal. -/
inductive TtKey where
  | str (s : String)
  | bytes (b : Bytes)
deriving DecidableEq

/-- A big-endian number of `struct.unpack` (PDFFont/TrueTypeFont.py:14-16). -/
def ttNumber (s : Bytes) : Nat := s.foldl (fun n b => n * 256 + b.toNat) 0

/-- The entries of the table directory (PDFFont/TrueTypeFont.py:15-17): `data` is what is after the position in the file. A `struct.error` for an entry that
is not complete ends the loop (18-22). -/
def ttEntries : (n : Nat) → (data : Bytes) → (tables : List (TtKey × (Nat × Nat))) → List (TtKey × (Nat × Nat))
  | 0, _, d => d
  | n + 1, data, d =>
    let e := data.take 16
    if e.length = 16 then
      ttEntries n (data.drop 16) (dictSet d (.bytes (e.take 4)) (ttNumber ((e.drop 8).take 4), ttNumber ((e.drop 12).take 4)))
    else d

/-- `TrueTypeFont.__init__` (PDFFont/TrueTypeFont.py:8-23): the `tables`. -/
def ttTables (data : Bytes) : List (TtKey × (Nat × Nat)) :=
  let h := (data.drop 4).take 8
  if h.length = 8 then ttEntries (ttNumber (h.take 2)) (data.drop 12) [] else []

/-- `TrueTypeFont.create_unicode_map` (PDFFont/TrueTypeFont.py:25-85). What is done with the offset of the table, once it is found (28-85), is the parameter
`read`. -/
def ttUnicodeMap (read : Nat → Except PyErr CodeMap) (tables : List (TtKey × (Nat × Nat))) : Except PyErr CodeMap :=
  match dictGet tables (.str "cmap") with
  | none => .error .cmapNotFound
  | some t => read t.1

end Pdf
