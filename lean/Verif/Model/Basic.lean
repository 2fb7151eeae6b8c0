/-!
# Common vocabulary of the model

`bytes` objects of Python are lists of `UInt8`; raised exceptions are values of `PyErr`.
-/

namespace Pdf

/-- Python `bytes` (python `bytes` objects are lists of bytes everywhere, e.g. PSBaseParser.py:50-75). -/
abbrev Bytes := List UInt8

/-- The exception classes that the modelled code can raise (pdfmajor/execptions.py:1-104 and the Python
built-ins that the modelled functions can let escape). -/
inductive PyErr where
  | structError        -- struct.error
  | assertion          -- AssertionError
  | indexError         -- IndexError
  | typeError          -- TypeError
  | valueError         -- ValueError
  | keyError           -- KeyError
  | nameError          -- NameError
  | attributeError     -- AttributeError
  | recursion          -- unbounded recursion / RecursionError
  | corruptData        -- lzw.CorruptDataError
  | psEOF              -- PSEOF
  | psTypeError        -- PSTypeError
  | psSyntaxError      -- PSSyntaxError
  | psValueError       -- PSValueError
  | pdfSyntaxError     -- PDFSyntaxError
  | pdfNoValidXRef     -- PDFNoValidXRef
  | pdfObjectNotFound  -- PDFObjectNotFound
  | pdfDestNotFound    -- PDFDestinationNotFound
  | pdfNoOutlines      -- PDFNoOutlines
  | pdfTypeError       -- PDFTypeError
  | pdfValueError      -- PDFValueError
  | pdfNotImplemented  -- PDFNotImplementedError
  | emptyDocument      -- EmptyDocumentError
  | notAllowed         -- PDFTextExtractionNotAllowed
  | ccittInvalid       -- CCITTG4Parser.InvalidData
  | ccittEOFB          -- CCITTG4Parser.EOFB
  | ccittByteSkip      -- CCITTG4Parser.ByteSkip
  | unicodeNotDefined  -- PDFUnicodeNotDefined
  | converter          -- ConverterException / InvalidOutputType etc.
  | commandError       -- CommandProcessorError
  | invalidOperation   -- InvalidOperation
  | missingFont        -- MissingFont
  | zeroDivision       -- ZeroDivisionError
  | fontError          -- FontError
  | cmapNotFound       -- CMapNotFound
  | osError            -- OSError: FileNotFoundError etc.
  | other              -- any other exception
deriving DecidableEq, Repr

deriving instance DecidableEq for Except

/-- `struct.pack('>L', b)`: four big-endian bytes, `struct.error` if out of range (utils/ascii85.py:34, 43). -/
def packL (b : Nat) : Except PyErr Bytes :=
  if b < 4294967296 then
    .ok [UInt8.ofNat (b / 16777216), UInt8.ofNat (b / 65536), UInt8.ofNat (b / 256), UInt8.ofNat b]
  else .error .structError

/-- Python's regular expression class `\s` on bytes: space, `\t`, `\n`, `\v`, `\f`, `\r` (PSStackParser/constants.py:18). -/
def isSpace (c : UInt8) : Bool :=
  c == 32 || (9 ≤ c && c ≤ 13)

/-- ASCII decimal digit, `[0-9]` (PSBaseParser.py:146). -/
def isDigit (c : UInt8) : Bool := 48 ≤ c && c ≤ 57

/-- ASCII hexadecimal digit, `[0-9a-fA-F]` (PSStackParser/constants.py:20). -/
def isHex (c : UInt8) : Bool :=
  (48 ≤ c && c ≤ 57) || (97 ≤ c && c ≤ 102) || (65 ≤ c && c ≤ 70)

/-- Value of a hexadecimal digit (`int(x, 16)` on one digit) (PSBaseParser.py:217, 335). -/
def hexVal (c : UInt8) : Nat :=
  if 48 ≤ c ∧ c ≤ 57 then c.toNat - 48
  else if 97 ≤ c ∧ c ≤ 102 then c.toNat - 87
  else if 65 ≤ c ∧ c ≤ 70 then c.toNat - 55
  else 0

end Pdf
