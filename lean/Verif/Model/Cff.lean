import Verif.Model.Png
import Verif.Model.StackParser
import Verif.Model.Geometry
/-! Model of the reader of compact fonts (interpreter/commands/state/PDFTextState/PDFFont/CFFFont.py). The file is given by its bytes, as a `BytesIO`;
the position in it is passed along. Floats are exact. -/

namespace Pdf

/-- A number in a dictionary of a compact font (PDFFont/CFFFont.py:24-50): an `int` or a `float`. -/
inductive CffNum where
  | int (i : Int)
  | real (q : ℚ)
deriving DecidableEq

/-- `str.isdigit` for the characters that occur here (PDFFont/CFFFont.py:9). -/
def cffDigit (c : Nat) : Bool := decide (0x30 ≤ c ∧ c ≤ 0x39)

/-- The value of digits (PDFFont/CFFFont.py:34). -/
def cffDigits (s : List Nat) : Nat := s.foldl (fun n c => n * 10 + (c - 0x30)) 0

/-- The exponent after `e` (PDFFont/CFFFont.py:34): digits, perhaps after a minus sign. -/
def cffExponent : List Nat → Option Int
  | 0x2d :: s => if s ≠ [] ∧ s.all cffDigit then some (-(cffDigits s : Int)) else none
  | s => if s ≠ [] ∧ s.all cffDigit then some (cffDigits s : Int) else none

/-- The digits after a point (PDFFont/CFFFont.py:34), and what is after them. -/
def cffFraction : List Nat → List Nat × List Nat
  | 0x2e :: r => (r.takeWhile cffDigit, r.dropWhile cffDigit)
  | r => ([], r)

/-- The number with what is after the digits (PDFFont/CFFFont.py:34). -/
def cffScale (m : ℚ) : List Nat → Option ℚ
  | [] => some m
  | 0x65 :: r => (cffExponent r).map fun e => m * 10 ^ e
  | _ => none

/-- The unsigned part of `float(s)` (PDFFont/CFFFont.py:34): digits, perhaps with a point among them, and perhaps an exponent. -/
def cffUnsigned (s : List Nat) : Option ℚ :=
  let whole := s.takeWhile cffDigit
  let fr := cffFraction (s.dropWhile cffDigit)
  if whole ++ fr.1 = [] then none else cffScale (cffDigits (whole ++ fr.1) / 10 ^ fr.1.length) fr.2

/-- `float(s)` (PDFFont/CFFFont.py:34), for texts of digits, points, minus signs and `e`; `none` is `ValueError`. -/
def cffFloat : List Nat → Option ℚ
  | 0x2d :: s => (cffUnsigned s).map fun q => -q
  | s => cffUnsigned s

/-- `NIBBLES[n]` for `n` other than 15 (PDFFont/CFFFont.py:9); `None` for 13. -/
def cffNibble (n : Nat) : Option (List Nat) :=
  if n ≤ 9 then some [0x30 + n] else if n = 10 then some [0x2e] else if n = 11 then some [0x65] else if n = 12 then some [0x65, 0x2d]
  else if n = 14 then some [0x2d] else none

/-- One step of the inner loop (PDFFont/CFFFont.py:29-33): the text and whether the number goes on. `s += None` is a `TypeError`. -/
def cffNib (n : Nat) (r : List Nat × Bool) : Except PyErr (List Nat × Bool) :=
  if n = 15 then .ok (r.1, false) else match cffNibble n with
    | none => .error .typeError
    | some t => .ok (r.1 ++ t, r.2)

/-- The text of a real number (PDFFont/CFFFont.py:25-33): both halves of the byte with the end mark are read. `ord(b'')` is a `TypeError`. -/
def cffReal : Bytes → List Nat → Except PyErr (List Nat × Bytes)
  | [], _ => .error .typeError
  | b :: rest, s =>
    match cffNib (b.toNat / 16) (s, true) with
    | .error e => .error e
    | .ok r => match cffNib (b.toNat % 16) r with
      | .error e => .error e
      | .ok (s, true) => cffReal rest s
      | .ok (s, false) => .ok (s, rest)

/-- The first byte of an integer of several bytes, with its sign (PDFFont/CFFFont.py:45-46). -/
def cffSigned (b : UInt8) : Int := if 128 ≤ b.toNat then (b.toNat : Int) - 256 else b.toNat

/-- A number that begins with the byte `b0`, which is more than 21 (PDFFont/CFFFont.py:24-50), and the bytes after it. Bytes that are reserved are taken
for 29. The `|` of parts without common bits is written as a sum. -/
def cffNumber (b0 : Nat) (data : Bytes) : Except PyErr (CffNum × Bytes) :=
  if b0 = 30 then match cffReal data [] with
    | .error e => .error e
    | .ok (s, rest) => match cffFloat s with
      | none => .error .valueError
      | some q => .ok (.real q, rest)
  else if 32 ≤ b0 ∧ b0 ≤ 246 then .ok (.int ((b0 : Int) - 139), data)
  else match data with
    | [] => .error .typeError
    | b1 :: rest =>
      if 247 ≤ b0 ∧ b0 ≤ 250 then .ok (.int (((b0 : Int) - 247) * 256 + b1.toNat + 108), rest)
      else if 251 ≤ b0 ∧ b0 ≤ 254 then .ok (.int (-(((b0 : Int) - 251) * 256) - b1.toNat - 108), rest)
      else match rest with
        | [] => .error .typeError
        | b2 :: rest =>
          if b0 = 28 then .ok (.int (cffSigned b1 * 256 + b2.toNat), rest)
          else match rest with
            | b3 :: b4 :: rest => .ok (.int (cffSigned b1 * 2 ^ 24 + b2.toNat * 2 ^ 16 + b3.toNat * 256 + b4.toNat), rest)
            | _ => .error .structError

theorem cffReal_length {data : Bytes} {s s' : List Nat} {rest : Bytes} (h : cffReal data s = .ok (s', rest)) : rest.length ≤ data.length := by
  induction data generalizing s with
  | nil => cases h
  | cons b data ih =>
    rw [cffReal] at h
    rcases h1 : cffNib (b.toNat / 16) (s, true) with e | r
    · rw [h1] at h; cases h
    · rw [h1] at h
      dsimp only at h
      rcases h2 : cffNib (b.toNat % 16) r with e | ⟨t, c⟩
      · rw [h2] at h; cases h
      · rw [h2] at h
        cases c with
        | true => have := ih h; simp only [List.length_cons]; omega
        | false => cases h; simp

theorem cffNumber_length {b0 : Nat} {data : Bytes} {v : CffNum} {rest : Bytes} (h : cffNumber b0 data = .ok (v, rest)) : rest.length ≤ data.length := by
  unfold cffNumber at h
  split at h
  · rcases h1 : cffReal data [] with e | ⟨s, r⟩
    · rw [h1] at h; cases h
    · rw [h1] at h
      dsimp only at h
      cases h2 : cffFloat s with
      | none => rw [h2] at h; cases h
      | some q => rw [h2] at h; cases h; exact cffReal_length h1
  · split at h
    · cases h; exact Nat.le_refl _
    · split at h
      · cases h
      · split at h
        · cases h; simp
        · split at h
          · cases h; simp
          · split at h
            · cases h
            · split at h
              · cases h; simp only [List.length_cons]; omega
              · split at h
                · cases h; simp only [List.length_cons]; omega
                · cases h

/-- The loop of `getdict` (PDFFont/CFFFont.py:15-52). -/
def cffDictLoop (data : Bytes) (stack : List CffNum) (d : List (Nat × List CffNum)) : Except PyErr (List (Nat × List CffNum)) :=
  match data with
  | [] => .ok d
  | b0 :: rest =>
    if b0.toNat ≤ 21 then cffDictLoop rest [] (dictSet d b0.toNat stack)
    else match _h : cffNumber b0.toNat rest with
      | .error e => .error e
      | .ok (v, rest') => cffDictLoop rest' (stack ++ [v]) d
termination_by data.length
decreasing_by
  · simp
  · have := cffNumber_length _h; simp only [List.length_cons]; omega

/-- `getdict` (PDFFont/CFFFont.py:11-52): the operands of each operator. -/
def cffDict (data : Bytes) : Except PyErr (List (Nat × List CffNum)) := cffDictLoop data [] []

/-! ### Indexes -/

/-- `fp.read(n)` at a position (PDFFont/CFFFont.py:143-158): the bytes and the new position. A negative `n` reads everything. -/
def cffRead (data : Bytes) (pos : Nat) (n : Int) : Bytes × Nat :=
  let s := if n < 0 then data.drop pos else (data.drop pos).take n.toNat
  (s, pos + s.length)

/-- `INDEX` (PDFFont/CFFFont.py:138-148): the offsets and what they are counted from. -/
structure CffIndex where
  offsets : List Nat
  base : Nat
deriving DecidableEq

/-- The offsets (PDFFont/CFFFont.py:144-145), and the position after them. -/
def cffOffsets (data : Bytes) (offsize : Nat) : (n : Nat) → (pos : Nat) → Except PyErr (List Nat × Nat)
  | 0, pos => .ok ([], pos)
  | n + 1, pos => match nunpack (cffRead data pos offsize).1 with
    | .error e => .error e
    | .ok o => match cffOffsets data offsize n (cffRead data pos offsize).2 with
      | .error e => .error e
      | .ok (os, pos) => .ok (o :: os, pos)

/-- `INDEX.__init__` (PDFFont/CFFFont.py:140-148): the index, and the position after it. -/
def cffIndex (data : Bytes) (pos : Nat) : Except PyErr (CffIndex × Nat) :=
  match (cffRead data pos 3).1 with
  | [a, b, offsize] =>
    match cffOffsets data offsize.toNat (a.toNat * 256 + b.toNat + 1) (pos + 3) with
    | .error e => .error e
    | .ok (os, pos) => .ok (⟨os, pos - 1⟩, pos - 1 + os.getLast?.getD 0)
  | _ => .error .structError

/-- `len` of an index (PDFFont/CFFFont.py:153-154). -/
def CffIndex.count (x : CffIndex) : Nat := x.offsets.length - 1

/-- `INDEX.__getitem__` (PDFFont/CFFFont.py:156-158): the bytes, and the position after them. -/
def CffIndex.get (data : Bytes) (x : CffIndex) (i : Nat) : Except PyErr (Bytes × Nat) :=
  match x.offsets[i]?, x.offsets[i + 1]? with
  | some a, some b => .ok (cffRead data (x.base + a) ((b : Int) - a))
  | _, _ => .error .indexError

/-! ### Fonts -/

/-- `CFFFont.STANDARD_STRINGS` (PDFFont/CFFFont.py:57-136). -/
def cffStrings : List String :=
  [".notdef", "space", "exclam", "quotedbl", "numbersign", "dollar", "percent", "ampersand", "quoteright", "parenleft", "parenright",
   "asterisk", "plus", "comma", "hyphen", "period", "slash", "zero", "one", "two", "three", "four", "five", "six", "seven", "eight", "nine",
   "colon", "semicolon", "less", "equal", "greater", "question", "at", "A", "B", "C", "D", "E", "F", "G", "H", "I", "J", "K", "L", "M", "N",
   "O", "P", "Q", "R", "S", "T", "U", "V", "W", "X", "Y", "Z", "bracketleft", "backslash", "bracketright", "asciicircum", "underscore",
   "quoteleft", "a", "b", "c", "d", "e", "f", "g", "h", "i", "j", "k", "l", "m", "n", "o", "p", "q", "r", "s", "t", "u", "v", "w", "x", "y",
   "z", "braceleft", "bar", "braceright", "asciitilde", "exclamdown", "cent", "sterling", "fraction", "yen", "florin", "section",
   "currency", "quotesingle", "quotedblleft", "guillemotleft", "guilsinglleft", "guilsinglright", "fi", "fl", "endash", "dagger",
   "daggerdbl", "periodcentered", "paragraph", "bullet", "quotesinglbase", "quotedblbase", "quotedblright", "guillemotright", "ellipsis",
   "perthousand", "questiondown", "grave", "acute", "circumflex", "tilde", "macron", "breve", "dotaccent", "dieresis", "ring", "cedilla",
   "hungarumlaut", "ogonek", "caron", "emdash", "AE", "ordfeminine", "Lslash", "Oslash", "OE", "ordmasculine", "ae", "dotlessi", "lslash",
   "oslash", "oe", "germandbls", "onesuperior", "logicalnot", "mu", "trademark", "Eth", "onehalf", "plusminus", "Thorn", "onequarter",
   "divide", "brokenbar", "degree", "thorn", "threequarters", "twosuperior", "registered", "minus", "eth", "multiply", "threesuperior",
   "copyright", "Aacute", "Acircumflex", "Adieresis", "Agrave", "Aring", "Atilde", "Ccedilla", "Eacute", "Ecircumflex", "Edieresis",
   "Egrave", "Iacute", "Icircumflex", "Idieresis", "Igrave", "Ntilde", "Oacute", "Ocircumflex", "Odieresis", "Ograve", "Otilde", "Scaron",
   "Uacute", "Ucircumflex", "Udieresis", "Ugrave", "Yacute", "Ydieresis", "Zcaron", "aacute", "acircumflex", "adieresis", "agrave", "aring",
   "atilde", "ccedilla", "eacute", "ecircumflex", "edieresis", "egrave", "iacute", "icircumflex", "idieresis", "igrave", "ntilde", "oacute",
   "ocircumflex", "odieresis", "ograve", "otilde", "scaron", "uacute", "ucircumflex", "udieresis", "ugrave", "yacute", "ydieresis",
   "zcaron", "exclamsmall", "Hungarumlautsmall", "dollaroldstyle", "dollarsuperior", "ampersandsmall", "Acutesmall", "parenleftsuperior",
   "parenrightsuperior", "twodotenleader", "onedotenleader", "zerooldstyle", "oneoldstyle", "twooldstyle", "threeoldstyle", "fouroldstyle",
   "fiveoldstyle", "sixoldstyle", "sevenoldstyle", "eightoldstyle", "nineoldstyle", "commasuperior", "threequartersemdash",
   "periodsuperior", "questionsmall", "asuperior", "bsuperior", "centsuperior", "dsuperior", "esuperior", "isuperior", "lsuperior",
   "msuperior", "nsuperior", "osuperior", "rsuperior", "ssuperior", "tsuperior", "ff", "ffi", "ffl", "parenleftinferior",
   "parenrightinferior", "Circumflexsmall", "hyphensuperior", "Gravesmall", "Asmall", "Bsmall", "Csmall", "Dsmall", "Esmall", "Fsmall",
   "Gsmall", "Hsmall", "Ismall", "Jsmall", "Ksmall", "Lsmall", "Msmall", "Nsmall", "Osmall", "Psmall", "Qsmall", "Rsmall", "Ssmall",
   "Tsmall", "Usmall", "Vsmall", "Wsmall", "Xsmall", "Ysmall", "Zsmall", "colonmonetary", "onefitted", "rupiah", "Tildesmall",
   "exclamdownsmall", "centoldstyle", "Lslashsmall", "Scaronsmall", "Zcaronsmall", "Dieresissmall", "Brevesmall", "Caronsmall",
   "Dotaccentsmall", "Macronsmall", "figuredash", "hypheninferior", "Ogoneksmall", "Ringsmall", "Cedillasmall", "questiondownsmall",
   "oneeighth", "threeeighths", "fiveeighths", "seveneighths", "onethird", "twothirds", "zerosuperior", "foursuperior", "fivesuperior",
   "sixsuperior", "sevensuperior", "eightsuperior", "ninesuperior", "zeroinferior", "oneinferior", "twoinferior", "threeinferior",
   "fourinferior", "fiveinferior", "sixinferior", "seveninferior", "eightinferior", "nineinferior", "centinferior", "dollarinferior",
   "periodinferior", "commainferior", "Agravesmall", "Aacutesmall", "Acircumflexsmall", "Atildesmall", "Adieresissmall", "Aringsmall",
   "AEsmall", "Ccedillasmall", "Egravesmall", "Eacutesmall", "Ecircumflexsmall", "Edieresissmall", "Igravesmall", "Iacutesmall",
   "Icircumflexsmall", "Idieresissmall", "Ethsmall", "Ntildesmall", "Ogravesmall", "Oacutesmall", "Ocircumflexsmall", "Otildesmall",
   "Odieresissmall", "OEsmall", "Oslashsmall", "Ugravesmall", "Uacutesmall", "Ucircumflexsmall", "Udieresissmall", "Yacutesmall",
   "Thornsmall", "Ydieresissmall", "001.000", "001.001", "001.002", "001.003", "Black", "Bold", "Book", "Light", "Medium", "Regular",
   "Roman", "Semibold"]

/-- The names of glyphs (PDFFont/CFFFont.py:243-246): a `str` of the table, or `bytes` of the font. -/
inductive CffName where
  | std (s : String)
  | own (b : Bytes)
deriving DecidableEq

/-- `getstr` (PDFFont/CFFFont.py:243-246): the string, and the position in the file, which a string of the font changes. -/
def cffString (data : Bytes) (strings : CffIndex) (sid pos : Nat) : Except PyErr (CffName × Nat) :=
  match cffStrings[sid]? with
  | some s => .ok (.std s, pos)
  | none => match strings.get data (sid - 391) with
    | .error e => .error e
    | .ok (b, pos) => .ok (.own b, pos)

/-- `(pos,) = self.top_dict.get(op, [0])` and `fp.seek(pos)` (PDFFont/CFFFont.py:179-183, 189, 212): `ValueError` unless there is one operand,
`TypeError` if it is a `float`, `ValueError` if it is negative. Simplification: the errors of `seek` are raised where the operand is read. -/
def cffPos (top : List (Nat × List CffNum)) (op : Nat) : Except PyErr Nat :=
  match (dictGet top op).getD [.int 0] with
  | [.int i] => if i < 0 then .error .valueError else .ok i.toNat
  | [.real _] => .error .typeError
  | _ => .error .valueError

/-- The maps of encodings and charsets (PDFFont/CFFFont.py:187-188, 210-211). -/
structure CffMaps (κ : Type) where
  toGid : List (κ × Nat) := []
  ofGid : List (Nat × κ) := []

/-- A pair is entered in both maps (PDFFont/CFFFont.py:195-196, 204-205, 220-221, 230-231). -/
def CffMaps.add {κ : Type} [DecidableEq κ] (m : CffMaps κ) (k : κ) (gid : Nat) : CffMaps κ := ⟨dictSet m.toGid k gid, dictSet m.ofGid gid k⟩

/-- Format 0 of encodings (PDFFont/CFFFont.py:191-196): the byte at a place is the glyph of the code that is the place. -/
def cffCodes : Bytes → (code : Nat) → CffMaps Nat → CffMaps Nat
  | [], _, m => m
  | g :: r, code, m => cffCodes r (code + 1) (m.add code g.toNat)

/-- A range of glyphs (PDFFont/CFFFont.py:203-206). -/
def cffCodeRange : (n : Nat) → (gid code : Nat) → CffMaps Nat → CffMaps Nat
  | 0, _, _, m => m
  | n + 1, gid, code, m => cffCodeRange n (gid + 1) (code + 1) (m.add code gid)

/-- Format 1 of encodings (PDFFont/CFFFont.py:197-206). -/
def cffCodeRanges (data : Bytes) : (n : Nat) → (pos code : Nat) → CffMaps Nat → Except PyErr (CffMaps Nat)
  | 0, _, _, m => .ok m
  | n + 1, pos, code, m => match (cffRead data pos 2).1 with
    | [first, nleft] => cffCodeRanges data n (pos + 2) (code + (nleft.toNat + 1)) (cffCodeRange (nleft.toNat + 1) first.toNat code m)
    | _ => .error .structError

/-- The encoding (PDFFont/CFFFont.py:187-208). -/
def cffEncoding (data : Bytes) (pos : Nat) : Except PyErr (CffMaps Nat) :=
  match (cffRead data pos 1).1 with
  | [0] => match (cffRead data (pos + 1) 1).1 with
    | [n] => if (cffRead data (pos + 2) n.toNat).1.length = n.toNat then .ok (cffCodes (cffRead data (pos + 2) n.toNat).1 0 {}) else .error .structError
    | _ => .error .structError
  | [1] => match (cffRead data (pos + 1) 1).1 with
    | [n] => cffCodeRanges data n.toNat (pos + 2) 0 {}
    | _ => .error .structError
  | _ => .error .valueError

/-- Format 0 of charsets (PDFFont/CFFFont.py:214-221): the names of the glyphs from `gid` on. -/
def cffNames (data : Bytes) (strings : CffIndex) : Bytes → (gid : Nat) → CffMaps CffName → Except PyErr (CffMaps CffName)
  | a :: b :: r, gid, m => match cffString data strings (a.toNat * 256 + b.toNat) 0 with
    | .error e => .error e
    | .ok (name, _) => cffNames data strings r (gid + 1) (m.add name gid)
  | _, _, m => .ok m

/-- A range of glyphs (PDFFont/CFFFont.py:228-232), and the position in the file after it. -/
def cffNameRange (data : Bytes) (strings : CffIndex) : (n : Nat) → (gid sid pos : Nat) → CffMaps CffName → Except PyErr (CffMaps CffName × Nat)
  | 0, _, _, pos, m => .ok (m, pos)
  | n + 1, gid, sid, pos, m => match cffString data strings sid pos with
    | .error e => .error e
    | .ok (name, pos) => cffNameRange data strings n (gid + 1) (sid + 1) pos (m.add name gid)

/-- Format 1 of charsets (PDFFont/CFFFont.py:222-232): the next range is read where the last string was found. -/
def cffNameRanges (data : Bytes) (strings : CffIndex) : (n : Nat) → (pos sid : Nat) → CffMaps CffName → Except PyErr (CffMaps CffName)
  | 0, _, _, m => .ok m
  | n + 1, pos, sid, m => match (cffRead data pos 2).1 with
    | [first, nleft] => match cffNameRange data strings (nleft.toNat + 1) first.toNat sid (pos + 2) m with
      | .error e => .error e
      | .ok (m, pos) => cffNameRanges data strings n pos (sid + (nleft.toNat + 1)) m
    | _ => .error .structError

/-- The charset (PDFFont/CFFFont.py:210-237). Without glyphs, everything to the end of the file is read. -/
def cffCharset (data : Bytes) (strings : CffIndex) (nglyphs pos : Nat) : Except PyErr (CffMaps CffName) :=
  match (cffRead data pos 1).1 with
  | [0] =>
    let s := (cffRead data (pos + 1) (2 * ((nglyphs : Int) - 1))).1
    if s.length = 2 * (nglyphs - 1) then cffNames data strings s 1 {} else .error .structError
  | [1] => match (cffRead data (pos + 1) 1).1 with
    | [n] => cffNameRanges data strings n.toNat (pos + 2) 0 {}
    | _ => .error .structError
  | [2] => .error .assertion
  | _ => .error .valueError

/-- A font that has been read (PDFFont/CFFFont.py:163-241). -/
structure CffFont where
  names : CffIndex
  dicts : CffIndex
  strings : CffIndex
  subrs : CffIndex
  top : List (Nat × List CffNum)
  charstrings : CffIndex
  encoding : CffMaps Nat
  charset : CffMaps CffName

/-- The header (PDFFont/CFFFont.py:167-168): the position after it. -/
def cffHeader (data : Bytes) : Except PyErr Nat :=
  match (cffRead data 0 4).1 with
  | [_, _, hdrsize, _] => .ok (cffRead data 4 ((hdrsize.toNat : Int) - 4)).2
  | _ => .error .structError

/-- `CFFFont.__init__` (PDFFont/CFFFont.py:163-241). -/
def cffFont (data : Bytes) : Except PyErr CffFont := do
  let pos ← cffHeader data
  let (names, pos) ← cffIndex data pos
  let (dicts, pos) ← cffIndex data pos
  let (strings, pos) ← cffIndex data pos
  let (subrs, _) ← cffIndex data pos
  let top ← cffDict (← dicts.get data 0).1
  let charsetPos ← cffPos top 15
  let encodingPos ← cffPos top 16
  let charstringPos ← cffPos top 17
  let (charstrings, _) ← cffIndex data charstringPos
  let encoding ← cffEncoding data encodingPos
  let charset ← cffCharset data strings charstrings.count charsetPos
  .ok ⟨names, dicts, strings, subrs, top, charstrings, encoding, charset⟩

end Pdf
