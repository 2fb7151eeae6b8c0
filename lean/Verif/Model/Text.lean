import Verif.Model.Basic
/-! Model of text strings (utils/text.py:1-51). A Python `str` is the list of its code points. -/

namespace Pdf

/-- Python `str` as code points (e.g. the result of `decode_text`, utils/text.py:37-42). -/
abbrev PyStr := List Nat

/-- `PDFDocEncoding` (utils/text.py:2-35). -/
def pdfDocEncoding : PyStr := [
  0x0000, 0x0001, 0x0002, 0x0003, 0x0004, 0x0005, 0x0006, 0x0007,
  0x0008, 0x0009, 0x000a, 0x000b, 0x000c, 0x000d, 0x000e, 0x000f,
  0x0010, 0x0011, 0x0012, 0x0013, 0x0014, 0x0015, 0x0017, 0x0017,
  0x02d8, 0x02c7, 0x02c6, 0x02d9, 0x02dd, 0x02db, 0x02da, 0x02dc,
  0x0020, 0x0021, 0x0022, 0x0023, 0x0024, 0x0025, 0x0026, 0x0027,
  0x0028, 0x0029, 0x002a, 0x002b, 0x002c, 0x002d, 0x002e, 0x002f,
  0x0030, 0x0031, 0x0032, 0x0033, 0x0034, 0x0035, 0x0036, 0x0037,
  0x0038, 0x0039, 0x003a, 0x003b, 0x003c, 0x003d, 0x003e, 0x003f,
  0x0040, 0x0041, 0x0042, 0x0043, 0x0044, 0x0045, 0x0046, 0x0047,
  0x0048, 0x0049, 0x004a, 0x004b, 0x004c, 0x004d, 0x004e, 0x004f,
  0x0050, 0x0051, 0x0052, 0x0053, 0x0054, 0x0055, 0x0056, 0x0057,
  0x0058, 0x0059, 0x005a, 0x005b, 0x005c, 0x005d, 0x005e, 0x005f,
  0x0060, 0x0061, 0x0062, 0x0063, 0x0064, 0x0065, 0x0066, 0x0067,
  0x0068, 0x0069, 0x006a, 0x006b, 0x006c, 0x006d, 0x006e, 0x006f,
  0x0070, 0x0071, 0x0072, 0x0073, 0x0074, 0x0075, 0x0076, 0x0077,
  0x0078, 0x0079, 0x007a, 0x007b, 0x007c, 0x007d, 0x007e, 0x0000,
  0x2022, 0x2020, 0x2021, 0x2026, 0x2014, 0x2013, 0x0192, 0x2044,
  0x2039, 0x203a, 0x2212, 0x2030, 0x201e, 0x201c, 0x201d, 0x2018,
  0x2019, 0x201a, 0x2122, 0xfb01, 0xfb02, 0x0141, 0x0152, 0x0160,
  0x0178, 0x017d, 0x0131, 0x0142, 0x0153, 0x0161, 0x017e, 0x0000,
  0x20ac, 0x00a1, 0x00a2, 0x00a3, 0x00a4, 0x00a5, 0x00a6, 0x00a7,
  0x00a8, 0x00a9, 0x00aa, 0x00ab, 0x00ac, 0x0000, 0x00ae, 0x00af,
  0x00b0, 0x00b1, 0x00b2, 0x00b3, 0x00b4, 0x00b5, 0x00b6, 0x00b7,
  0x00b8, 0x00b9, 0x00ba, 0x00bb, 0x00bc, 0x00bd, 0x00be, 0x00bf,
  0x00c0, 0x00c1, 0x00c2, 0x00c3, 0x00c4, 0x00c5, 0x00c6, 0x00c7,
  0x00c8, 0x00c9, 0x00ca, 0x00cb, 0x00cc, 0x00cd, 0x00ce, 0x00cf,
  0x00d0, 0x00d1, 0x00d2, 0x00d3, 0x00d4, 0x00d5, 0x00d6, 0x00d7,
  0x00d8, 0x00d9, 0x00da, 0x00db, 0x00dc, 0x00dd, 0x00de, 0x00df,
  0x00e0, 0x00e1, 0x00e2, 0x00e3, 0x00e4, 0x00e5, 0x00e6, 0x00e7,
  0x00e8, 0x00e9, 0x00ea, 0x00eb, 0x00ec, 0x00ed, 0x00ee, 0x00ef,
  0x00f0, 0x00f1, 0x00f2, 0x00f3, 0x00f4, 0x00f5, 0x00f6, 0x00f7,
  0x00f8, 0x00f9, 0x00fa, 0x00fb, 0x00fc, 0x00fd, 0x00fe, 0x00ff]

/-- `str(s, 'utf-16be', 'ignore')` (utils/text.py:40): pairs of bytes; a pair of surrogates gives one character; lone surrogates and
an odd last byte are skipped. -/
def utf16be : Bytes → PyStr
  | [] => []
  | [_] => []
  | a :: b :: rest =>
    let u := a.toNat * 256 + b.toNat
    if u < 0xd800 ∨ 0xe000 ≤ u then u :: utf16be rest
    else if 0xdc00 ≤ u then utf16be rest
    else
      match rest with
      | c :: d :: rest' =>
        let v := c.toNat * 256 + d.toNat
        if 0xdc00 ≤ v ∧ v < 0xe000 then (0x10000 + (u - 0xd800) * 0x400 + (v - 0xdc00)) :: utf16be rest'
        else utf16be (c :: d :: rest')
      | _ => []
termination_by s => s.length

/-- `decode_text` of a `bytes` object (utils/text.py:37-42). -/
def decodeText (s : Bytes) : PyStr :=
  match s with
  | 0xfe :: 0xff :: rest => utf16be rest
  | _ => s.map fun c => pdfDocEncoding.getD c.toNat 0

/-- `x.replace(c, new)` for a single character (utils/text.py:48). -/
def replaceChar (c : Nat) (new : PyStr) (x : PyStr) : PyStr := x.flatMap fun a => if a = c then new else [a]

/-- The decimal digits of a number (used by `xmlcharrefreplace`, utils/text.py:50), most significant first. -/
def decimal (n : Nat) : Bytes :=
  if n < 10 then [UInt8.ofNat (48 + n)] else decimal (n / 10) ++ [UInt8.ofNat (48 + n % 10)]

/-- The replacements of `enc` (utils/text.py:48). -/
def escapeMarkup (x : PyStr) : PyStr :=
  replaceChar 0x22 [0x26, 0x71, 0x75, 0x6f, 0x74, 0x3b]
    (replaceChar 0x3c [0x26, 0x6c, 0x74, 0x3b]
      (replaceChar 0x3e [0x26, 0x67, 0x74, 0x3b]
        (replaceChar 0x26 [0x26, 0x61, 0x6d, 0x70, 0x3b] x)))

/-- `x.encode('ascii', 'xmlcharrefreplace')` (utils/text.py:50). -/
def asciiCharRefs (x : PyStr) : Bytes :=
  x.flatMap fun c => if c < 128 then [UInt8.ofNat c] else [0x26, 0x23] ++ decimal c ++ [0x3b]

/-- `enc(x)` for a `str` (utils/text.py:44-51), with the default codec. -/
def enc (x : PyStr) : Bytes := asciiCharRefs (escapeMarkup x)

/-- `enc(x, None)` for a `str` (utils/text.py:44-51). -/
def encNone (x : PyStr) : PyStr := escapeMarkup x

/-- `enc(x)` for a `bytes` object (utils/text.py:46-47). -/
def encBytes (_x : Bytes) : PyStr := []

end Pdf
