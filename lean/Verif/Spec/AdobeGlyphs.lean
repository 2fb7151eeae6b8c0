import Verif.Model.Paths
/-! Generated by tools/latin.py: the characters of the glyph names of the Latin character set (Adobe Glyph List). -/

namespace Pdf.Spec

/-- Glyph names of the Latin character set with their Unicode code points (Adobe Glyph List 2.0). -/
def adobeLatin : List (PyStr × Nat) := [
  (pstr "A", 0x0041),
  (pstr "AE", 0x00c6),
  (pstr "Aacute", 0x00c1),
  (pstr "Acircumflex", 0x00c2),
  (pstr "Adieresis", 0x00c4),
  (pstr "Agrave", 0x00c0),
  (pstr "Aring", 0x00c5),
  (pstr "Atilde", 0x00c3),
  (pstr "B", 0x0042),
  (pstr "C", 0x0043),
  (pstr "Ccedilla", 0x00c7),
  (pstr "D", 0x0044),
  (pstr "E", 0x0045),
  (pstr "Eacute", 0x00c9),
  (pstr "Ecircumflex", 0x00ca),
  (pstr "Edieresis", 0x00cb),
  (pstr "Egrave", 0x00c8),
  (pstr "Eth", 0x00d0),
  (pstr "Euro", 0x20ac),
  (pstr "F", 0x0046),
  (pstr "G", 0x0047),
  (pstr "H", 0x0048),
  (pstr "I", 0x0049),
  (pstr "Iacute", 0x00cd),
  (pstr "Icircumflex", 0x00ce),
  (pstr "Idieresis", 0x00cf),
  (pstr "Igrave", 0x00cc),
  (pstr "J", 0x004a),
  (pstr "K", 0x004b),
  (pstr "L", 0x004c),
  (pstr "Lslash", 0x0141),
  (pstr "M", 0x004d),
  (pstr "N", 0x004e),
  (pstr "Ntilde", 0x00d1),
  (pstr "O", 0x004f),
  (pstr "OE", 0x0152),
  (pstr "Oacute", 0x00d3),
  (pstr "Ocircumflex", 0x00d4),
  (pstr "Odieresis", 0x00d6),
  (pstr "Ograve", 0x00d2),
  (pstr "Oslash", 0x00d8),
  (pstr "Otilde", 0x00d5),
  (pstr "P", 0x0050),
  (pstr "Q", 0x0051),
  (pstr "R", 0x0052),
  (pstr "S", 0x0053),
  (pstr "Scaron", 0x0160),
  (pstr "T", 0x0054),
  (pstr "Thorn", 0x00de),
  (pstr "U", 0x0055),
  (pstr "Uacute", 0x00da),
  (pstr "Ucircumflex", 0x00db),
  (pstr "Udieresis", 0x00dc),
  (pstr "Ugrave", 0x00d9),
  (pstr "V", 0x0056),
  (pstr "W", 0x0057),
  (pstr "X", 0x0058),
  (pstr "Y", 0x0059),
  (pstr "Yacute", 0x00dd),
  (pstr "Ydieresis", 0x0178),
  (pstr "Z", 0x005a),
  (pstr "Zcaron", 0x017d),
  (pstr "a", 0x0061),
  (pstr "aacute", 0x00e1),
  (pstr "acircumflex", 0x00e2),
  (pstr "acute", 0x00b4),
  (pstr "adieresis", 0x00e4),
  (pstr "ae", 0x00e6),
  (pstr "agrave", 0x00e0),
  (pstr "ampersand", 0x0026),
  (pstr "aring", 0x00e5),
  (pstr "asciicircum", 0x005e),
  (pstr "asciitilde", 0x007e),
  (pstr "asterisk", 0x002a),
  (pstr "at", 0x0040),
  (pstr "atilde", 0x00e3),
  (pstr "b", 0x0062),
  (pstr "backslash", 0x005c),
  (pstr "bar", 0x007c),
  (pstr "braceleft", 0x007b),
  (pstr "braceright", 0x007d),
  (pstr "bracketleft", 0x005b),
  (pstr "bracketright", 0x005d),
  (pstr "breve", 0x02d8),
  (pstr "brokenbar", 0x00a6),
  (pstr "bullet", 0x2022),
  (pstr "c", 0x0063),
  (pstr "caron", 0x02c7),
  (pstr "ccedilla", 0x00e7),
  (pstr "cedilla", 0x00b8),
  (pstr "cent", 0x00a2),
  (pstr "circumflex", 0x02c6),
  (pstr "colon", 0x003a),
  (pstr "comma", 0x002c),
  (pstr "copyright", 0x00a9),
  (pstr "currency", 0x00a4),
  (pstr "d", 0x0064),
  (pstr "dagger", 0x2020),
  (pstr "daggerdbl", 0x2021),
  (pstr "degree", 0x00b0),
  (pstr "dieresis", 0x00a8),
  (pstr "divide", 0x00f7),
  (pstr "dollar", 0x0024),
  (pstr "dotaccent", 0x02d9),
  (pstr "dotlessi", 0x0131),
  (pstr "e", 0x0065),
  (pstr "eacute", 0x00e9),
  (pstr "ecircumflex", 0x00ea),
  (pstr "edieresis", 0x00eb),
  (pstr "egrave", 0x00e8),
  (pstr "eight", 0x0038),
  (pstr "ellipsis", 0x2026),
  (pstr "emdash", 0x2014),
  (pstr "endash", 0x2013),
  (pstr "equal", 0x003d),
  (pstr "eth", 0x00f0),
  (pstr "exclam", 0x0021),
  (pstr "exclamdown", 0x00a1),
  (pstr "f", 0x0066),
  (pstr "fi", 0xfb01),
  (pstr "five", 0x0035),
  (pstr "fl", 0xfb02),
  (pstr "florin", 0x0192),
  (pstr "four", 0x0034),
  (pstr "fraction", 0x2044),
  (pstr "g", 0x0067),
  (pstr "germandbls", 0x00df),
  (pstr "grave", 0x0060),
  (pstr "greater", 0x003e),
  (pstr "guillemotleft", 0x00ab),
  (pstr "guillemotright", 0x00bb),
  (pstr "guilsinglleft", 0x2039),
  (pstr "guilsinglright", 0x203a),
  (pstr "h", 0x0068),
  (pstr "hungarumlaut", 0x02dd),
  (pstr "hyphen", 0x002d),
  (pstr "i", 0x0069),
  (pstr "iacute", 0x00ed),
  (pstr "icircumflex", 0x00ee),
  (pstr "idieresis", 0x00ef),
  (pstr "igrave", 0x00ec),
  (pstr "j", 0x006a),
  (pstr "k", 0x006b),
  (pstr "l", 0x006c),
  (pstr "less", 0x003c),
  (pstr "logicalnot", 0x00ac),
  (pstr "lslash", 0x0142),
  (pstr "m", 0x006d),
  (pstr "macron", 0x00af),
  (pstr "minus", 0x2212),
  (pstr "mu", 0x00b5),
  (pstr "multiply", 0x00d7),
  (pstr "n", 0x006e),
  (pstr "nbspace", 0x00a0),
  (pstr "nine", 0x0039),
  (pstr "ntilde", 0x00f1),
  (pstr "numbersign", 0x0023),
  (pstr "o", 0x006f),
  (pstr "oacute", 0x00f3),
  (pstr "ocircumflex", 0x00f4),
  (pstr "odieresis", 0x00f6),
  (pstr "oe", 0x0153),
  (pstr "ogonek", 0x02db),
  (pstr "ograve", 0x00f2),
  (pstr "one", 0x0031),
  (pstr "onehalf", 0x00bd),
  (pstr "onequarter", 0x00bc),
  (pstr "onesuperior", 0x00b9),
  (pstr "ordfeminine", 0x00aa),
  (pstr "ordmasculine", 0x00ba),
  (pstr "oslash", 0x00f8),
  (pstr "otilde", 0x00f5),
  (pstr "p", 0x0070),
  (pstr "paragraph", 0x00b6),
  (pstr "parenleft", 0x0028),
  (pstr "parenright", 0x0029),
  (pstr "percent", 0x0025),
  (pstr "period", 0x002e),
  (pstr "periodcentered", 0x00b7),
  (pstr "perthousand", 0x2030),
  (pstr "plus", 0x002b),
  (pstr "plusminus", 0x00b1),
  (pstr "q", 0x0071),
  (pstr "question", 0x003f),
  (pstr "questiondown", 0x00bf),
  (pstr "quotedbl", 0x0022),
  (pstr "quotedblbase", 0x201e),
  (pstr "quotedblleft", 0x201c),
  (pstr "quotedblright", 0x201d),
  (pstr "quoteleft", 0x2018),
  (pstr "quoteright", 0x2019),
  (pstr "quotesinglbase", 0x201a),
  (pstr "quotesingle", 0x0027),
  (pstr "r", 0x0072),
  (pstr "registered", 0x00ae),
  (pstr "ring", 0x02da),
  (pstr "s", 0x0073),
  (pstr "scaron", 0x0161),
  (pstr "section", 0x00a7),
  (pstr "semicolon", 0x003b),
  (pstr "seven", 0x0037),
  (pstr "six", 0x0036),
  (pstr "slash", 0x002f),
  (pstr "space", 0x0020),
  (pstr "sterling", 0x00a3),
  (pstr "t", 0x0074),
  (pstr "thorn", 0x00fe),
  (pstr "three", 0x0033),
  (pstr "threequarters", 0x00be),
  (pstr "threesuperior", 0x00b3),
  (pstr "tilde", 0x02dc),
  (pstr "trademark", 0x2122),
  (pstr "two", 0x0032),
  (pstr "twosuperior", 0x00b2),
  (pstr "u", 0x0075),
  (pstr "uacute", 0x00fa),
  (pstr "ucircumflex", 0x00fb),
  (pstr "udieresis", 0x00fc),
  (pstr "ugrave", 0x00f9),
  (pstr "underscore", 0x005f),
  (pstr "v", 0x0076),
  (pstr "w", 0x0077),
  (pstr "x", 0x0078),
  (pstr "y", 0x0079),
  (pstr "yacute", 0x00fd),
  (pstr "ydieresis", 0x00ff),
  (pstr "yen", 0x00a5),
  (pstr "z", 0x007a),
  (pstr "zcaron", 0x017e),
  (pstr "zero", 0x0030)]

end Pdf.Spec
