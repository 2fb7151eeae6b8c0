import Verif.Model.Text
/-! Specifications for text strings (C59) and markup escaping (C51). -/

namespace Pdf.Spec

/-- The UTF-16BE code of a character (Unicode standard, D91). -/
def utf16Char (c : Char) : Bytes :=
  let n := c.toNat
  let unit (u : Nat) : Bytes := [UInt8.ofNat (u / 256), UInt8.ofNat (u % 256)]
  if n < 0x10000 then unit n else unit (0xd800 + (n - 0x10000) / 0x400) ++ unit (0xdc00 + (n - 0x10000) % 0x400)

/-- The UTF-16BE code of a text. -/
def utf16 (s : List Char) : Bytes := s.flatMap utf16Char

/-- The characters of PDFDocEncoding at codes 24 to 31 (ISO 32000-1, table D.2). -/
def docLow : List Char := ['˘', 'ˇ', 'ˆ', '˙', '˝', '˛', '˚', '˜']

/-- The characters of PDFDocEncoding at codes 128 to 158, and the euro sign at 160 (ISO 32000-1, table D.2). -/
def docHigh : List Char :=
  ['•', '†', '‡', '…', '—', '–', 'ƒ', '⁄', '‹', '›', '−', '‰', '„', '“', '”', '‘', '’', '‚', '™', 'ﬁ', 'ﬂ', 'Ł', 'Œ', 'Š', 'Ÿ',
    'Ž', 'ı', 'ł', 'œ', 'š', 'ž']

/-- PDFDocEncoding (ISO 32000-1, table D.2): the character of a code, for the codes that have one. The white-space codes 9, 10 and 13
and the printable ASCII codes are themselves; so are the Latin-1 codes above 160 but 173. -/
def docChar (c : Nat) : Option Char :=
  if c = 9 ∨ c = 10 ∨ c = 13 then some (Char.ofNat c)
  else if 24 ≤ c ∧ c < 32 then docLow[c - 24]?
  else if 32 ≤ c ∧ c < 127 then some (Char.ofNat c)
  else if 128 ≤ c ∧ c < 159 then docHigh[c - 128]?
  else if c = 160 then some '€'
  else if 161 ≤ c ∧ c < 256 ∧ c ≠ 173 then some (Char.ofNat c)
  else none

/-- The value of ASCII decimal digits. -/
def digitsValue (ds : Bytes) : Nat := ds.foldl (fun n d => n * 10 + (d.toNat - 48)) 0

/-- The ASCII bytes of a string. -/
def ascii (s : String) : Bytes := s.toList.map fun c => UInt8.ofNat c.toNat

/-- The predefined entities of XML (apart from `apos`). -/
def entity (name : Bytes) : Option Nat :=
  if name = ascii "amp" then some ('&'.toNat)
  else if name = ascii "lt" then some ('<'.toNat)
  else if name = ascii "gt" then some ('>'.toNat)
  else if name = ascii "quot" then some ('"'.toNat)
  else none

/-- `Reads b s`: the ASCII markup text `b`, in which `&` only starts references and `<`, `>` and quotes do not occur, stands for the
text `s`. -/
inductive Reads : Bytes → PyStr → Prop
  | nil : Reads [] []
  | plain {c : UInt8} {b s} : c.toNat < 128 → c.toNat ≠ '&'.toNat → c.toNat ≠ '<'.toNat → c.toNat ≠ '>'.toNat → c.toNat ≠ '"'.toNat →
      Reads b s → Reads (c :: b) (c.toNat :: s)
  | named {name : Bytes} {n : Nat} {b s} : entity name = some n → Reads b s →
      Reads (UInt8.ofNat '&'.toNat :: name ++ UInt8.ofNat ';'.toNat :: b) (n :: s)
  | numeric {ds : Bytes} {b s} : ds ≠ [] → (∀ d ∈ ds, 48 ≤ d.toNat ∧ d.toNat ≤ 57) → Reads b s →
      Reads (UInt8.ofNat '&'.toNat :: UInt8.ofNat '#'.toNat :: ds ++ UInt8.ofNat ';'.toNat :: b) (digitsValue ds :: s)

end Pdf.Spec
