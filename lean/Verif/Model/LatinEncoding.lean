import Verif.Model.Paths
/-! Generated by tools/latin.py: the table of utils/encoding/latin_enc.py. -/

namespace Pdf

/-- `LATIN_ENCODING` (utils/encoding/latin_enc.py:10-243): name, StandardEncoding, MacRomanEncoding, WinAnsiEncoding, PDFDocEncoding. -/
def latinEncoding : List (PyStr × Option Nat × Option Nat × Option Nat × Option Nat) := [
  (pstr "A", some 65, some 65, some 65, some 65),
  (pstr "AE", some 225, some 174, some 198, some 198),
  (pstr "Aacute", .none, some 231, some 193, some 193),
  (pstr "Acircumflex", .none, some 229, some 194, some 194),
  (pstr "Adieresis", .none, some 128, some 196, some 196),
  (pstr "Agrave", .none, some 203, some 192, some 192),
  (pstr "Aring", .none, some 129, some 197, some 197),
  (pstr "Atilde", .none, some 204, some 195, some 195),
  (pstr "B", some 66, some 66, some 66, some 66),
  (pstr "C", some 67, some 67, some 67, some 67),
  (pstr "Ccedilla", .none, some 130, some 199, some 199),
  (pstr "D", some 68, some 68, some 68, some 68),
  (pstr "E", some 69, some 69, some 69, some 69),
  (pstr "Eacute", .none, some 131, some 201, some 201),
  (pstr "Ecircumflex", .none, some 230, some 202, some 202),
  (pstr "Edieresis", .none, some 232, some 203, some 203),
  (pstr "Egrave", .none, some 233, some 200, some 200),
  (pstr "Eth", .none, .none, some 208, some 208),
  (pstr "Euro", .none, .none, some 128, some 160),
  (pstr "F", some 70, some 70, some 70, some 70),
  (pstr "G", some 71, some 71, some 71, some 71),
  (pstr "H", some 72, some 72, some 72, some 72),
  (pstr "I", some 73, some 73, some 73, some 73),
  (pstr "Iacute", .none, some 234, some 205, some 205),
  (pstr "Icircumflex", .none, some 235, some 206, some 206),
  (pstr "Idieresis", .none, some 236, some 207, some 207),
  (pstr "Igrave", .none, some 237, some 204, some 204),
  (pstr "J", some 74, some 74, some 74, some 74),
  (pstr "K", some 75, some 75, some 75, some 75),
  (pstr "L", some 76, some 76, some 76, some 76),
  (pstr "Lslash", some 232, .none, .none, some 149),
  (pstr "M", some 77, some 77, some 77, some 77),
  (pstr "N", some 78, some 78, some 78, some 78),
  (pstr "Ntilde", .none, some 132, some 209, some 209),
  (pstr "O", some 79, some 79, some 79, some 79),
  (pstr "OE", some 234, some 206, some 140, some 150),
  (pstr "Oacute", .none, some 238, some 211, some 211),
  (pstr "Ocircumflex", .none, some 239, some 212, some 212),
  (pstr "Odieresis", .none, some 133, some 214, some 214),
  (pstr "Ograve", .none, some 241, some 210, some 210),
  (pstr "Oslash", some 233, some 175, some 216, some 216),
  (pstr "Otilde", .none, some 205, some 213, some 213),
  (pstr "P", some 80, some 80, some 80, some 80),
  (pstr "Q", some 81, some 81, some 81, some 81),
  (pstr "R", some 82, some 82, some 82, some 82),
  (pstr "S", some 83, some 83, some 83, some 83),
  (pstr "Scaron", .none, .none, some 138, some 151),
  (pstr "T", some 84, some 84, some 84, some 84),
  (pstr "Thorn", .none, .none, some 222, some 222),
  (pstr "U", some 85, some 85, some 85, some 85),
  (pstr "Uacute", .none, some 242, some 218, some 218),
  (pstr "Ucircumflex", .none, some 243, some 219, some 219),
  (pstr "Udieresis", .none, some 134, some 220, some 220),
  (pstr "Ugrave", .none, some 244, some 217, some 217),
  (pstr "V", some 86, some 86, some 86, some 86),
  (pstr "W", some 87, some 87, some 87, some 87),
  (pstr "X", some 88, some 88, some 88, some 88),
  (pstr "Y", some 89, some 89, some 89, some 89),
  (pstr "Yacute", .none, .none, some 221, some 221),
  (pstr "Ydieresis", .none, some 217, some 159, some 152),
  (pstr "Z", some 90, some 90, some 90, some 90),
  (pstr "Zcaron", .none, .none, some 142, some 153),
  (pstr "a", some 97, some 97, some 97, some 97),
  (pstr "aacute", .none, some 135, some 225, some 225),
  (pstr "acircumflex", .none, some 137, some 226, some 226),
  (pstr "acute", some 194, some 171, some 180, some 180),
  (pstr "adieresis", .none, some 138, some 228, some 228),
  (pstr "ae", some 241, some 190, some 230, some 230),
  (pstr "agrave", .none, some 136, some 224, some 224),
  (pstr "ampersand", some 38, some 38, some 38, some 38),
  (pstr "aring", .none, some 140, some 229, some 229),
  (pstr "asciicircum", some 94, some 94, some 94, some 94),
  (pstr "asciitilde", some 126, some 126, some 126, some 126),
  (pstr "asterisk", some 42, some 42, some 42, some 42),
  (pstr "at", some 64, some 64, some 64, some 64),
  (pstr "atilde", .none, some 139, some 227, some 227),
  (pstr "b", some 98, some 98, some 98, some 98),
  (pstr "backslash", some 92, some 92, some 92, some 92),
  (pstr "bar", some 124, some 124, some 124, some 124),
  (pstr "braceleft", some 123, some 123, some 123, some 123),
  (pstr "braceright", some 125, some 125, some 125, some 125),
  (pstr "bracketleft", some 91, some 91, some 91, some 91),
  (pstr "bracketright", some 93, some 93, some 93, some 93),
  (pstr "breve", some 198, some 249, .none, some 24),
  (pstr "brokenbar", .none, .none, some 166, some 166),
  (pstr "bullet", some 183, some 165, some 149, some 128),
  (pstr "c", some 99, some 99, some 99, some 99),
  (pstr "caron", some 207, some 255, .none, some 25),
  (pstr "ccedilla", .none, some 141, some 231, some 231),
  (pstr "cedilla", some 203, some 252, some 184, some 184),
  (pstr "cent", some 162, some 162, some 162, some 162),
  (pstr "circumflex", some 195, some 246, some 136, some 26),
  (pstr "colon", some 58, some 58, some 58, some 58),
  (pstr "comma", some 44, some 44, some 44, some 44),
  (pstr "copyright", .none, some 169, some 169, some 169),
  (pstr "currency", some 168, some 219, some 164, some 164),
  (pstr "d", some 100, some 100, some 100, some 100),
  (pstr "dagger", some 178, some 160, some 134, some 129),
  (pstr "daggerdbl", some 179, some 224, some 135, some 130),
  (pstr "degree", .none, some 161, some 176, some 176),
  (pstr "dieresis", some 200, some 172, some 168, some 168),
  (pstr "divide", .none, some 214, some 247, some 247),
  (pstr "dollar", some 36, some 36, some 36, some 36),
  (pstr "dotaccent", some 199, some 250, .none, some 27),
  (pstr "dotlessi", some 245, some 245, .none, some 154),
  (pstr "e", some 101, some 101, some 101, some 101),
  (pstr "eacute", .none, some 142, some 233, some 233),
  (pstr "ecircumflex", .none, some 144, some 234, some 234),
  (pstr "edieresis", .none, some 145, some 235, some 235),
  (pstr "egrave", .none, some 143, some 232, some 232),
  (pstr "eight", some 56, some 56, some 56, some 56),
  (pstr "ellipsis", some 188, some 201, some 133, some 131),
  (pstr "emdash", some 208, some 209, some 151, some 132),
  (pstr "endash", some 177, some 208, some 150, some 133),
  (pstr "equal", some 61, some 61, some 61, some 61),
  (pstr "eth", .none, .none, some 240, some 240),
  (pstr "exclam", some 33, some 33, some 33, some 33),
  (pstr "exclamdown", some 161, some 193, some 161, some 161),
  (pstr "f", some 102, some 102, some 102, some 102),
  (pstr "fi", some 174, some 222, .none, some 147),
  (pstr "five", some 53, some 53, some 53, some 53),
  (pstr "fl", some 175, some 223, .none, some 148),
  (pstr "florin", some 166, some 196, some 131, some 134),
  (pstr "four", some 52, some 52, some 52, some 52),
  (pstr "fraction", some 164, some 218, .none, some 135),
  (pstr "g", some 103, some 103, some 103, some 103),
  (pstr "germandbls", some 251, some 167, some 223, some 223),
  (pstr "grave", some 193, some 96, some 96, some 96),
  (pstr "greater", some 62, some 62, some 62, some 62),
  (pstr "guillemotleft", some 171, some 199, some 171, some 171),
  (pstr "guillemotright", some 187, some 200, some 187, some 187),
  (pstr "guilsinglleft", some 172, some 220, some 139, some 136),
  (pstr "guilsinglright", some 173, some 221, some 155, some 137),
  (pstr "h", some 104, some 104, some 104, some 104),
  (pstr "hungarumlaut", some 205, some 253, .none, some 28),
  (pstr "hyphen", some 45, some 45, some 45, some 45),
  (pstr "i", some 105, some 105, some 105, some 105),
  (pstr "iacute", .none, some 146, some 237, some 237),
  (pstr "icircumflex", .none, some 148, some 238, some 238),
  (pstr "idieresis", .none, some 149, some 239, some 239),
  (pstr "igrave", .none, some 147, some 236, some 236),
  (pstr "j", some 106, some 106, some 106, some 106),
  (pstr "k", some 107, some 107, some 107, some 107),
  (pstr "l", some 108, some 108, some 108, some 108),
  (pstr "less", some 60, some 60, some 60, some 60),
  (pstr "logicalnot", .none, some 194, some 172, some 172),
  (pstr "lslash", some 248, .none, .none, some 155),
  (pstr "m", some 109, some 109, some 109, some 109),
  (pstr "macron", some 197, some 248, some 175, some 175),
  (pstr "minus", .none, .none, .none, some 138),
  (pstr "mu", .none, some 181, some 181, some 181),
  (pstr "multiply", .none, .none, some 215, some 215),
  (pstr "n", some 110, some 110, some 110, some 110),
  (pstr "nbspace", .none, some 202, some 160, .none),
  (pstr "nine", some 57, some 57, some 57, some 57),
  (pstr "ntilde", .none, some 150, some 241, some 241),
  (pstr "numbersign", some 35, some 35, some 35, some 35),
  (pstr "o", some 111, some 111, some 111, some 111),
  (pstr "oacute", .none, some 151, some 243, some 243),
  (pstr "ocircumflex", .none, some 153, some 244, some 244),
  (pstr "odieresis", .none, some 154, some 246, some 246),
  (pstr "oe", some 250, some 207, some 156, some 156),
  (pstr "ogonek", some 206, some 254, .none, some 29),
  (pstr "ograve", .none, some 152, some 242, some 242),
  (pstr "one", some 49, some 49, some 49, some 49),
  (pstr "onehalf", .none, .none, some 189, some 189),
  (pstr "onequarter", .none, .none, some 188, some 188),
  (pstr "onesuperior", .none, .none, some 185, some 185),
  (pstr "ordfeminine", some 227, some 187, some 170, some 170),
  (pstr "ordmasculine", some 235, some 188, some 186, some 186),
  (pstr "oslash", some 249, some 191, some 248, some 248),
  (pstr "otilde", .none, some 155, some 245, some 245),
  (pstr "p", some 112, some 112, some 112, some 112),
  (pstr "paragraph", some 182, some 166, some 182, some 182),
  (pstr "parenleft", some 40, some 40, some 40, some 40),
  (pstr "parenright", some 41, some 41, some 41, some 41),
  (pstr "percent", some 37, some 37, some 37, some 37),
  (pstr "period", some 46, some 46, some 46, some 46),
  (pstr "periodcentered", some 180, some 225, some 183, some 183),
  (pstr "perthousand", some 189, some 228, some 137, some 139),
  (pstr "plus", some 43, some 43, some 43, some 43),
  (pstr "plusminus", .none, some 177, some 177, some 177),
  (pstr "q", some 113, some 113, some 113, some 113),
  (pstr "question", some 63, some 63, some 63, some 63),
  (pstr "questiondown", some 191, some 192, some 191, some 191),
  (pstr "quotedbl", some 34, some 34, some 34, some 34),
  (pstr "quotedblbase", some 185, some 227, some 132, some 140),
  (pstr "quotedblleft", some 170, some 210, some 147, some 141),
  (pstr "quotedblright", some 186, some 211, some 148, some 142),
  (pstr "quoteleft", some 96, some 212, some 145, some 143),
  (pstr "quoteright", some 39, some 213, some 146, some 144),
  (pstr "quotesinglbase", some 184, some 226, some 130, some 145),
  (pstr "quotesingle", some 169, some 39, some 39, some 39),
  (pstr "r", some 114, some 114, some 114, some 114),
  (pstr "registered", .none, some 168, some 174, some 174),
  (pstr "ring", some 202, some 251, .none, some 30),
  (pstr "s", some 115, some 115, some 115, some 115),
  (pstr "scaron", .none, .none, some 154, some 157),
  (pstr "section", some 167, some 164, some 167, some 167),
  (pstr "semicolon", some 59, some 59, some 59, some 59),
  (pstr "seven", some 55, some 55, some 55, some 55),
  (pstr "six", some 54, some 54, some 54, some 54),
  (pstr "slash", some 47, some 47, some 47, some 47),
  (pstr "space", some 32, some 32, some 32, some 32),
  (pstr "space", .none, some 202, some 160, .none),
  (pstr "space", .none, some 202, some 173, .none),
  (pstr "sterling", some 163, some 163, some 163, some 163),
  (pstr "t", some 116, some 116, some 116, some 116),
  (pstr "thorn", .none, .none, some 254, some 254),
  (pstr "three", some 51, some 51, some 51, some 51),
  (pstr "threequarters", .none, .none, some 190, some 190),
  (pstr "threesuperior", .none, .none, some 179, some 179),
  (pstr "tilde", some 196, some 247, some 152, some 31),
  (pstr "trademark", .none, some 170, some 153, some 146),
  (pstr "two", some 50, some 50, some 50, some 50),
  (pstr "twosuperior", .none, .none, some 178, some 178),
  (pstr "u", some 117, some 117, some 117, some 117),
  (pstr "uacute", .none, some 156, some 250, some 250),
  (pstr "ucircumflex", .none, some 158, some 251, some 251),
  (pstr "udieresis", .none, some 159, some 252, some 252),
  (pstr "ugrave", .none, some 157, some 249, some 249),
  (pstr "underscore", some 95, some 95, some 95, some 95),
  (pstr "v", some 118, some 118, some 118, some 118),
  (pstr "w", some 119, some 119, some 119, some 119),
  (pstr "x", some 120, some 120, some 120, some 120),
  (pstr "y", some 121, some 121, some 121, some 121),
  (pstr "yacute", .none, .none, some 253, some 253),
  (pstr "ydieresis", .none, some 216, some 255, some 255),
  (pstr "yen", some 165, some 180, some 165, some 165),
  (pstr "z", some 122, some 122, some 122, some 122),
  (pstr "zcaron", .none, .none, some 158, some 158),
  (pstr "zero", some 48, some 48, some 48, some 48)]

end Pdf
