import Verif.Model.Encoding
import Verif.Spec.AdobeGlyphs
import Verif.Spec.Text
/-! Specifications for character encodings (C43, C79). -/

namespace Pdf.Spec

/-- The number that an element of a `Differences` array sets the code to. -/
def codeMark : Obj → Option Int
  | .int n => some n
  | .bool b => some (if b then 1 else 0)
  | _ => none

/-- How many glyph names a piece of a `Differences` array contains. -/
def nameCount : List Obj → Nat
  | [] => 0
  | .name _ :: l => nameCount l + 1
  | _ :: l => nameCount l

/-- `CodeAfter pre c`: a glyph name that follows `pre` in a `Differences` array stands for the code `c`, which is the last number
in `pre` (0 if there is none) plus the number of names after it. -/
inductive CodeAfter : List Obj → Int → Prop
  | start {pre : List Obj} : (∀ x ∈ pre, codeMark x = none) → CodeAfter pre (nameCount pre)
  | after {a b : List Obj} {x : Obj} {k : Int} : codeMark x = some k → (∀ y ∈ b, codeMark y = none) →
      CodeAfter (a ++ x :: b) (k + nameCount b)

/-- `Names diff pre c n post`: the array is `pre`, the name `n` for the code `c`, and `post`. -/
def Names (diff pre : List Obj) (c : Int) (n : Bytes) (post : List Obj) : Prop :=
  diff = pre ++ .name n :: post ∧ CodeAfter pre c

/-- The text of a code after the base encoding `base` is modified by `diff`: the character of the last name for this code that
stands for a character, else what `base` says. -/
inductive TextOf (glyph : Bytes → Option PyStr) (base : Int → Option PyStr) (diff : List Obj) (c : Int) : Option PyStr → Prop
  | named {pre n post u} : Names diff pre c n post → glyph n = some u →
      (∀ pre' n' post' , Names diff pre' c n' post' → pre.length < pre'.length → glyph n' = none) →
      TextOf glyph base diff c (some u)
  | base : (∀ pre n post, Names diff pre c n post → glyph n = none) → TextOf glyph base diff c (base c)

/-- The characters that Windows code page 1252 has at the codes 0x80 to 0x9f. -/
def cp1252High : List (Option Char) :=
  [some '€', none, some '‚', some 'ƒ', some '„', some '…', some '†', some '‡', some 'ˆ', some '‰', some 'Š', some '‹', some 'Œ',
    none, some 'Ž', none, none, some '‘', some '’', some '“', some '”', some '•', some '–', some '—', some '˜', some '™', some 'š',
    some '›', some 'œ', none, some 'ž', some 'Ÿ']

/-- WinAnsiEncoding as the library understands it: Windows code page 1252 without control characters, with spaces for the no-break space
(160) and the soft hyphen (173). -/
def winChar (c : Nat) : Option Char :=
  if 32 ≤ c ∧ c < 127 then some (Char.ofNat c)
  else if 128 ≤ c ∧ c < 160 then (cp1252High[c - 128]?).join
  else if c = 160 ∨ c = 173 then some ' '
  else if 161 ≤ c ∧ c < 256 then some (Char.ofNat c)
  else none

/-- The characters of MacRomanEncoding at the codes 0x80 to 0xff: the Mac OS Roman character set with the currency sign at 0xdb, a space
for the no-break space at 0xca, and without the mathematical signs and the Apple sign, which PDF does not have. -/
def macHigh : List (Option Char) :=
  [some 'Ä', some 'Å', some 'Ç', some 'É', some 'Ñ', some 'Ö', some 'Ü', some 'á', some 'à', some 'â', some 'ä', some 'ã', some 'å',
    some 'ç', some 'é', some 'è', some 'ê', some 'ë', some 'í', some 'ì', some 'î', some 'ï', some 'ñ', some 'ó', some 'ò', some 'ô',
    some 'ö', some 'õ', some 'ú', some 'ù', some 'û', some 'ü', some '†', some '°', some '¢', some '£', some '§', some '•', some '¶',
    some 'ß', some '®', some '©', some '™', some '´', some '¨', none, some 'Æ', some 'Ø', none, some '±', none, none, some '¥', some 'µ',
    none, none, none, none, none, some 'ª', some 'º', none, some 'æ', some 'ø', some '¿', some '¡', some '¬', none, some 'ƒ', none, none,
    some '«', some '»', some '…', some ' ', some 'À', some 'Ã', some 'Õ', some 'Œ', some 'œ', some '–', some '—', some '“', some '”',
    some '‘', some '’', some '÷', none, some 'ÿ', some 'Ÿ', some '⁄', some '¤', some '‹', some '›', some 'ﬁ', some 'ﬂ', some '‡',
    some '·', some '‚', some '„', some '‰', some 'Â', some 'Ê', some 'Á', some 'Ë', some 'È', some 'Í', some 'Î', some 'Ï', some 'Ì',
    some 'Ó', some 'Ô', none, some 'Ò', some 'Ú', some 'Û', some 'Ù', some 'ı', some 'ˆ', some '˜', some '¯', some '˘', some '˙',
    some '˚', some '¸', some '˝', some '˛', some 'ˇ']

/-- MacRomanEncoding (ISO 32000-1, table D.2, with its note 6 for the space at 0xca). -/
def macChar (c : Nat) : Option Char :=
  if 32 ≤ c ∧ c < 127 then some (Char.ofNat c)
  else if 128 ≤ c ∧ c < 256 then (macHigh[c - 128]?).join
  else none

/-- The characters of StandardEncoding above the ASCII range (ISO 32000-1, table D.2). -/
def stdHigh : List (Nat × Char) :=
  [(161, '¡'), (162, '¢'), (163, '£'), (164, '⁄'), (165, '¥'), (166, 'ƒ'), (167, '§'), (168, '¤'), (169, '\''), (170, '“'), (171, '«'),
    (172, '‹'), (173, '›'), (174, 'ﬁ'), (175, 'ﬂ'), (177, '–'), (178, '†'), (179, '‡'), (180, '·'), (182, '¶'), (183, '•'), (184, '‚'),
    (185, '„'), (186, '”'), (187, '»'), (188, '…'), (189, '‰'), (191, '¿'), (193, '`'), (194, '´'), (195, 'ˆ'), (196, '˜'), (197, '¯'),
    (198, '˘'), (199, '˙'), (200, '¨'), (202, '˚'), (203, '¸'), (205, '˝'), (206, '˛'), (207, 'ˇ'), (208, '—'), (225, 'Æ'), (227, 'ª'),
    (232, 'Ł'), (233, 'Ø'), (234, 'Œ'), (235, 'º'), (241, 'æ'), (245, 'ı'), (248, 'ł'), (249, 'ø'), (250, 'œ'), (251, 'ß')]

/-- StandardEncoding (ISO 32000-1, table D.2): ASCII with curved quotes, and some codes above. -/
def stdChar (c : Nat) : Option Char :=
  if c = 39 then some '’'
  else if c = 96 then some '‘'
  else if 32 ≤ c ∧ c < 127 then some (Char.ofNat c)
  else (stdHigh.find? fun e => e.1 == c).map Prod.snd

/-- PDFDocEncoding as the library has it for fonts: table D.2 without the white-space codes 9, 10 and 13. -/
def pdfChar (c : Nat) : Option Char := if c < 24 then none else docChar c

/-- The four built-in encodings: name and characters. -/
def builtinEncodings : List (String × (Nat → Option Char)) :=
  [("StandardEncoding", stdChar), ("MacRomanEncoding", macChar), ("WinAnsiEncoding", winChar), ("PDFDocEncoding", pdfChar)]

/-- The glyph list gives the Latin glyph names their characters. -/
def AdobeLatin (glyphs : PyStr → Option PyStr) : Prop := ∀ e ∈ adobeLatin, glyphs e.1 = some [e.2]

end Pdf.Spec
