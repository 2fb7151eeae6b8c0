#!/usr/bin/env python3
"""Generates /verif/properties.jsonl (kept as a script so that the list is easy to extend)."""
import json, os
P=[]
def p(title, statement, quantifier, why, *anchors):
    P.append(dict(id="C%02d"%(len(P)+1), title=title, statement=statement, quantifier=quantifier,
                  why_tests_cant=why, anchors=list(anchors)))
U="pdfmajor/"; FN=U+"interpreter/commands/state/PDFTextState/PDFFont/"
INF="the domain is all byte strings; a test samples finitely many of them"
p("ASCII85 round trip",
  "ascii85decode returns exactly the original bytes for any standard ASCII85 encoding of them (with 'z' abbreviations and the '~>' terminator), even when white space or other characters outside the alphabet are inserted anywhere before the terminator and arbitrary bytes follow it.",
  "every byte string, every placement of ignorable characters, every trailing garbage", INF, U+"utils/ascii85.py:ascii85decode")
p("ASCIIHex round trip",
  "asciihexdecode returns exactly the original bytes for any ASCIIHex encoding (upper or lower case digits, optional white space between pairs, optional '>' terminator); an odd final digit d is read as d0.",
  "every byte string, digit case choice, inter-pair white space and final odd digit; the stronger docstring claims (white space inside a pair, data after '>') are part of the statement and are refuted", INF, U+"utils/ascii85.py:asciihexdecode")
p("RunLength round trip",
  "rldecode(encode(d)) == d for every run-length encoding of d (any split into literal and repeat runs), with or without the 128 end marker, and bytes after the end marker are ignored.",
  "every byte string and every legal run decomposition of it", INF, U+"parser/PDFStream/util.py:rldecode")
p("LZW round trip",
  "lzwdecode(encode(d)) == d for the standard early-change LZW encoding of d: code width changes at table sizes 511/1023/2047, clear codes anywhere, KwKwK case included.",
  "every byte string and every sequence of codes a conforming encoder can emit", INF+" and table-width boundaries need inputs of thousands of codes", U+"utils/lzw.py:LZWDecoder.feed",U+"utils/lzw.py:LZWDecoder.readbits",U+"utils/lzw.py:lzwdecode")
p("PNG predictor reversal",
  "apply_png_predictor inverts PNG row filtering: for rows filtered with None, Sub or Up (one byte per pixel) it returns the original raster, row by row, for any mix of filter types; Average and Paeth are rejected or reproduced faithfully.",
  "every raster, width, number of rows, number of colours and per-row filter choice", INF+", and rows depend on all previous rows", U+"utils/generic.py:apply_png_predictor")
p("CCITT Group 4 decoding",
  "ccittfaxdecode with K=-1 recovers every bitmap from its Group 4 (T.6) encoding: emitted rows equal the encoded rows in order, each packed most significant bit first, inverted iff BlackIs1 is unset/set as documented.",
  "every bitmap of every width and height", "the coding of a row depends on all previous rows; mode/run combinations are unbounded", U+"parser/PDFStream/ccitt.py:CCITTG4Parser",U+"parser/PDFStream/ccitt.py:ccittfaxdecode",U+"parser/PDFStream/ccitt.py:BitParser")
p("Big-endian unpacking",
  "nunpack(s) is the big-endian unsigned integer value of s for the lengths it supports, returns the default for the empty string, and raises TypeError for every unsupported length rather than returning a wrong number.",
  "every byte string", INF, U+"utils/generic.py:nunpack")
p("Filter pipeline",
  "PDFStream.get_data applies exactly the filters named in the dictionary, in order, each with its own decode parameters; the first call fixes the result and every later call returns the same bytes.",
  "every filter list, parameter list and call history of get_data", "histories and filter combinations are unbounded", U+"parser/PDFStream/__init__.py:PDFStream.decode",U+"parser/PDFStream/__init__.py:PDFStream.get_filters",U+"parser/PDFStream/__init__.py:PDFStream.get_data")
p("Tokens independent of buffering",
  "The token sequence (values and byte positions) the tokenizer yields depends only on the bytes of the file from the seek point, not on where the 4096-byte read buffer boundaries fall.",
  "every file content, every starting offset, every (positive) buffer size / split of the content into buffers", "a token can straddle a buffer boundary in every lexical state", U+"parser/PSStackParser/PSBaseParser.py:PSBaseParser.nexttoken",U+"parser/PSStackParser/PSBaseParser.py:PSBaseParser.fillbuf")
p("Tokenizer termination and progress",
  "On every finite file the tokenizer terminates: nexttoken returns or raises end-of-file after finitely many steps, never loops without consuming input, and so does reading tokens to exhaustion.",
  "every byte string and every buffer split", "non-termination cannot be observed by a test", U+"parser/PSStackParser/PSBaseParser.py:PSBaseParser.nexttoken")
p("Token positions",
  "Positions reported with tokens are the offsets of the token's first byte in the file, lie inside the file, and strictly increase along the token sequence.",
  "every byte string", INF, U+"parser/PSStackParser/PSBaseParser.py:PSBaseParser._parse_main",U+"parser/PSStackParser/PSBaseParser.py:PSBaseParser._add_token")
p("Literal string round trip",
  "Any byte string written as a PDF literal string -- '(' with \\\\, \\( and \\) escaped (or parentheses balanced and left alone), any byte optionally as a three digit octal escape -- is tokenized back to exactly that byte string.",
  "every byte string and every choice of escaping per byte", INF, U+"parser/PSStackParser/PSBaseParser.py:PSBaseParser._parse_string",U+"parser/PSStackParser/PSBaseParser.py:PSBaseParser._parse_string_1")
p("Hexadecimal string round trip",
  "Any byte string written as '<' hex pairs '>' with white space inserted anywhere is tokenized back to exactly that byte string; an odd final digit d counts as d0.",
  "every byte string, digit case and white space placement", INF, U+"parser/PSStackParser/PSBaseParser.py:PSBaseParser._parse_hexstring",U+"parser/PSStackParser/constants.py:HEX_PAIR")
p("Name round trip",
  "Any name (byte sequence) written with '/' and '#xx' escapes for delimiter, space and '#' bytes is tokenized back to the same name, and equal names give the identical interned object.",
  "every byte sequence, every choice of which bytes are escaped", INF, U+"parser/PSStackParser/PSBaseParser.py:PSBaseParser._parse_literal",U+"parser/PSStackParser/PSBaseParser.py:PSBaseParser._parse_literal_hex",U+"parser/PSStackParser/types.py:PSSymbolTable.intern")
p("Integer round trip",
  "The decimal numeral of every integer (optional sign, leading zeros allowed) followed by a delimiter tokenizes to that integer.",
  "every integer", "infinitely many integers", U+"parser/PSStackParser/PSBaseParser.py:PSBaseParser._parse_number")
p("Comments are transparent",
  "A comment from '%' to end of line between two tokens never changes the token sequence.",
  "every comment text and every surrounding content", INF, U+"parser/PSStackParser/PSBaseParser.py:PSBaseParser._parse_comment")
p("White space is transparent",
  "Extra white space between tokens never changes the token values.",
  "every non-empty white space run and every surrounding content", INF, U+"parser/PSStackParser/PSBaseParser.py:PSBaseParser._parse_main",U+"parser/PSStackParser/constants.py:NONSPC")
p("Line reader",
  "nextline returns the lines of the file one after another: every returned line ends with CR, LF or CR LF, contains no earlier line end, the position is its file offset, and the concatenation of the returned lines is the prefix of the file that has been consumed, independent of buffering.",
  "every file content and buffer split", INF, U+"parser/PSStackParser/PSBaseParser.py:PSBaseParser.nextline")
p("Reverse line reader",
  "revreadlines yields the lines of the file from last to first; the pieces, reversed and concatenated, form a suffix of the file, independent of the buffer size.",
  "every file content and buffer size", INF, U+"parser/PSStackParser/PSBaseParser.py:PSBaseParser.revreadlines")
p("Object syntax round trip",
  "Printing any nested PDF object (numbers, booleans, names, strings, arrays, dictionaries, null-free) in PDF syntax and parsing it yields the same object.",
  "every object of every nesting depth", "nesting depth and width are unbounded", U+"parser/PSStackParser/__init__.py:PSStackParser.nextobject",U+"parser/PSStackParser/PSBaseParser.py:PSBaseParser.nexttoken")
p("Dictionary semantics",
  "A parsed dictionary maps each key to the last non-null value given for it in the source and contains nothing else; an odd number of elements is rejected.",
  "every sequence of key/value elements", "sequences are unbounded", U+"parser/PSStackParser/__init__.py:PSStackParser.nextobject")
p("Stray closing brackets are harmless",
  "In lenient (default) mode an unmatched or mismatched ']' , '>>' or '}' changes nothing about the objects produced around it.",
  "every parser state and every following input", "parser states are unbounded", U+"parser/PSStackParser/__init__.py:PSStackParser.end_type",U+"parser/PSStackParser/__init__.py:PSStackParser.nextobject")
p("Cross-reference table",
  "Loading a well-formed xref table yields exactly the in-use ('n') entries: get_pos(id) returns the stated offset and generation for each of them and KeyError for all other ids, with later entries overriding earlier ones for the same id.",
  "every table: any number of subsections and entries", "tables are unbounded", U+"parser/PDFDocument/PDFXRef.py:PDFXRef.load",U+"parser/PDFDocument/PDFXRef.py:PDFXRef.get_pos")
p("Cross-reference stream",
  "For a cross-reference stream, get_pos(id) decodes the entry of id in its range (type 1: offset; type 2: stream and index; type 0 and ids outside: KeyError) and get_objids lists exactly the ids whose entries are in use.",
  "every Index array, field-width triple and entry data", "unbounded", U+"parser/PDFDocument/PDFXRef.py:PDFXRefStream.get_pos",U+"parser/PDFDocument/PDFXRef.py:PDFXRefStream.get_objids",U+"parser/PDFDocument/PDFXRef.py:PDFXRefStream.load")
p("Object cache transparency",
  "With caching on, every sequence of getobj calls returns the same objects and errors as with caching off.",
  "every document and every history of getobj calls", "histories are unbounded", U+"parser/PDFDocument/__init__.py:PDFDocument.getobj")
p("Newest cross-reference wins",
  "getobj returns the object from the first (newest) cross-reference section that lists the id and whose location parses, and raises PDFObjectNotFound only if no section yields it.",
  "every list of sections and every outcome of parsing at each location", "unbounded", U+"parser/PDFDocument/__init__.py:PDFDocument.getobj",U+"parser/PDFDocument/__init__.py:PDFDocument.read_xref_from")
p("Stream extraction",
  "For an indirect stream object, the parsed stream's raw data is exactly the bytes between the line after 'stream' and 'endstream' (of the stated Length when it is trusted), for any data, and parsing resumes after it.",
  "every dictionary, data and following content", INF, U+"parser/PDFParser.py:PDFParser.do_keyword")
p("Reference resolution",
  "resolve1 returns the first non-reference value along a chain of references, of any length, the default being substituted for a missing object; it terminates on every acyclic chain.",
  "every object graph and every chain length", "chains are unbounded", U+"parser/PDFStream/util.py:resolve1",U+"parser/PDFStream/PDFObjRef.py:PDFObjRef.resolve")
p("Finding the last startxref",
  "find_xref returns the number on the first non-blank line after the last line 'startxref' of the file (line ends LF, CR or CR LF; white space around the word is ignored; the first line of the file is not considered); without such a line the file is reported to have no cross-reference section.",
  "every file content", INF, U+"parser/PDFDocument/__init__.py:PDFDocument.find_xref")
p("Page order",
  "Pages are produced in document order: the preorder sequence of leaves of the page tree, each leaf exactly once, for every tree.",
  "every page tree of every depth and width", "trees are unbounded", U+"parser/PDFPage.py:PDFPage.create_pages")
p("Attribute inheritance",
  "A page's Resources, MediaBox, CropBox and Rotate are its own when present, else those of its nearest ancestor having them; no other attribute is inherited.",
  "every page tree and every placement of attributes", "trees are unbounded", U+"parser/PDFPage.py:PDFPage.create_pages",U+"parser/PDFPage.py:PDFPage.INHERITABLE_ATTRS")
p("Page selection",
  "get_pages(pagenos, maxpages) yields, in document order, the pages whose index is in pagenos (all if none given), restricted to the first maxpages pages of the document if maxpages is non-zero.",
  "every page count, page set and limit", "unbounded", U+"parser/PDFPage.py:PDFPage.get_pages")
p("Page coordinate system",
  "For every MediaBox and rotation in {0,90,180,270} the page's initial transformation maps the MediaBox onto a box with lower-left corner at the origin whose sides are the MediaBox's width/height (swapped for 90/270); /Rotate is normalised to [0,360).",
  "every media box and every integer rotation", "real-valued coordinates", U+"interpreter/PageInterpreter.py:PageInterpreter",U+"parser/PDFPage.py:PDFPage.__init__")
p("Save/restore of graphics state",
  "q ... Q restores the entire graphics state (matrix, colours, line parameters, text parameters) to what it was at the q, for any balanced operators in between; unbalanced Q is a no-op.",
  "every state and every balanced sequence of operators", "operator sequences are unbounded", U+"interpreter/commands/commands.py:restore_state",U+"interpreter/commands/commands.py:save_state")
p("Operand handling",
  "Each operator is called with exactly the operands that immediately precede it, in order; unknown operators and operand-less calls never disturb later operators; too few operands is reported, not mis-assigned.",
  "every token sequence of a content stream", "sequences are unbounded", U+"interpreter/commands/__init__.py:process_command_stream")
p("Matrix algebra",
  "mult_matrix is composition: applying mult_matrix(m1,m0) to a point equals applying m1 then m0; it is associative with identity (1,0,0,1,0,0); translate_matrix adds the transformed vector; apply_matrix_norm is translation-free application; chains of cm operators accumulate in order.",
  "all matrices, points, and sequences of cm", "real-valued inputs", U+"utils/matrix.py:mult_matrix",U+"utils/matrix.py:apply_matrix_pt",U+"utils/matrix.py:translate_matrix",U+"utils/matrix.py:apply_matrix_norm")
p("Colour operators",
  "g/rg/k/sc/scn set only the fill colour, G/RG/K/SC/SCN only the stroke colour; components are stored in order and colour-space selection fixes how many operands are consumed.",
  "every state and operand values", "states are unbounded", U+"interpreter/commands/commands.py:set_nonstroke_gray",U+"interpreter/commands/commands.py:set_nonstroke_cmyk",U+"interpreter/commands/commands.py:set_stroke_colorspace_custom")
p("Text positioning",
  "Td, TD, Tm, T*, ' and \" move the text line origin as the PDF specification says: Td offsets accumulate relative to the line matrix, Tm replaces it, TD also sets leading, ' and \" advance a line before showing.",
  "every sequence of text operators", "sequences are unbounded", U+"interpreter/commands/commands.py:move_text_x",U+"interpreter/commands/commands.py:move_text_y",U+"interpreter/commands/commands.py:add_dbquoted_char_blocks",U+"interpreter/commands/commands.py:nextline")
p("Glyph advance",
  "Between consecutively shown glyphs of a string the pen advances by glyph width*size*scaling + character spacing (+ word spacing for code 32) and numbers in TJ move it by -n/1000*size*scaling; glyphs come out in string order and none is dropped.",
  "every text sequence and font metrics", "sequences are unbounded", U+"interpreter/commands/state/layout/utils/textdecoder.py:decode_text_seq",U+"interpreter/commands/state/layout/LTCharBlock.py:LTCharBlock")
p("Bounding boxes enclose",
  "The bounding box of a character block, text block or curve contains the box of every member (every point), and is the smallest such box.",
  "every non-empty collection", "collections are unbounded", U+"utils/types.py:Bbox.from_points",U+"interpreter/commands/state/layout/LTCharBlock.py:LTCharBlock",U+"interpreter/commands/state/layout/LTTextBlock.py:LTTextBlock")
p("Path classification",
  "A painted path consisting of one segment becomes a line, an axis-aligned closed quadrilateral becomes a rectangle with exactly those corners (transformed by the current matrix), anything else a curve; no painted path is dropped.",
  "every path and matrix", "paths are unbounded", U+"interpreter/commands/state/layout/__init__.py:make_curve")
p("Box relations",
  "For any two layout boxes, horizontal/vertical distance and overlap are symmetric, distance is 0 iff they overlap (or touch) and overlap is the length of the intersection of their projections.",
  "all pairs of boxes", "real-valued coordinates", U+"interpreter/commands/state/layout/_base.py:LTComponent")
p("Encoding differences",
  "get_encoding(name, diff) maps each code to the glyph from the last Differences entry covering it, otherwise to the base encoding, and never alters the shared base tables.",
  "every differences array, every history of calls", "unbounded", U+"parser/EncodingDB.py:EncodingDB.get_encoding")
p("CID width arrays",
  "get_widths maps every CID to the width the W array assigns it (list form and range form, later entries override), for arbitrary well-formed arrays.",
  "every W array", "unbounded", U+"interpreter/commands/state/PDFTextState/PDFFont/util.py:get_widths",U+"interpreter/commands/state/PDFTextState/PDFFont/util.py:get_widths2")
p("Character code decoding",
  "CMap.decode splits a string into codes by longest-available prefix structure and yields the CID of each complete code in order; IdentityCMap yields the big-endian 16-bit units; any code table given as prefix-free codes decodes unambiguously.",
  "every prefix-free code table and every concatenation of codes", "unbounded", U+"parser/cmapdb/__init__.py:CMap.decode",U+"parser/cmapdb/__init__.py:IdentityCMap.decode")
p("ToUnicode maps",
  "bfchar/bfrange entries give get_unichr(code) the text of the last entry covering the code; codes not covered raise KeyError.",
  "every sequence of bfchar/bfrange sections", "unbounded", U+"parser/cmapdb/__init__.py:CMapParser.do_keyword",U+"parser/cmapdb/__init__.py:FileUnicodeMap")
p("Glyph to text precedence",
  "For a simple font to_unichr uses the ToUnicode map when it has the code, otherwise the encoding (differences over the base encoding, or the encoding of the font program), otherwise it reports an undefined character; a CID font uses its ToUnicode map if it has one, otherwise its character collection. The text state turns an undefined character into an empty string iff bad characters are ignored.",
  "every font, code and setting", "unbounded", U+"interpreter/commands/state/PDFTextState/PDFFont/fonts.py:PDFSimpleFont.to_unichr",U+"interpreter/commands/state/PDFTextState/__init__.py:PDFTextState")
p("Font cache",
  "get_font returns for each object id the font built from the first spec requested with that id; a font without id is never cached; caching never changes which font is returned for consistent requests.",
  "every history of get_font calls", "histories are unbounded", U+"interpreter/commands/state/PDFTextState/PDFFont/__init__.py:get_font")
p("JSON output well-formed",
  "The JSON writer emits syntactically valid JSON for every tree of writer calls and a JSON reader recovers the tree written, for any text content.",
  "every call tree and every text", "trees and texts are unbounded", U+"converters/writers/json.py:JSONMakerObject",U+"converters/writers/json.py:JSONMakerArray",U+"converters/json.py")
p("XML output well-formed",
  "The XML writer emits balanced, properly nested elements for every tree of calls, and escaped text never introduces markup.",
  "every call tree and every text", "unbounded", U+"converters/writers/xml.py:XMLMaker",U+"converters/xml.py")
p("Markup escaping",
  "enc(s) contains no raw '<', '>' or '\"', every '&' starts an entity, output is ASCII, and un-escaping returns s: no two texts collide.",
  "every Unicode string", "infinitely many strings", U+"utils/text.py:enc")
p("Output path safety",
  "convert_file never writes to its input path, always writes a file whose suffix is the output type, and rejects unknown output types.",
  "every input path, output path and type", "infinitely many paths", U+"converters/__init__.py:convert_file")
p("RC4 is an involution",
  "Decrypting with the RC4 handler what was encrypted under the same key returns the plaintext for every key and message, the length is preserved, and distinct messages stay distinct.",
  "every non-empty key and every message", INF, U+"parser/PDFDocument/PDFSecurityHandler.py:PDFStandardSecurityHandler.decrypt_rc4")
p("Permission bits",
  "is_printable/is_modifiable/is_extractable report exactly bits 3, 4 and 5 of /P interpreted as a signed 32-bit two's complement integer.",
  "every integer P", "2^32 values", U+"parser/PDFDocument/PDFSecurityHandler.py:PDFStandardSecurityHandler.is_printable")
p("Spatial index",
  "Plane.find(box) returns exactly the added-and-not-removed objects that overlap the box, each once, for every history of add/remove inside the plane's bounds.",
  "every history of add/remove and every query box", "histories are unbounded", U+"utils/generic.py:Plane")
p("List utilities",
  "uniq keeps the first occurrence of each item in order; choplist(n, s) yields the consecutive n-tuples of s in order and drops only an incomplete tail; pick returns the first item of maximal score; csort of distinct items is a stable sort by key.",
  "every list", "unbounded", U+"utils/generic.py:uniq",U+"utils/generic.py:choplist",U+"utils/generic.py:pick",U+"utils/generic.py:csort")
p("Symbol interning",
  "Interning the same name twice, with any interning in between, returns the same object; different names return different objects; an object keeps its name.",
  "every history of intern calls", "histories are unbounded", U+"parser/PSStackParser/types.py:PSSymbolTable.intern")
p("BMP output",
  "BMPWriter files have a size field equal to the file length, rows padded to 32-bit multiples, and row y stored bottom-up at its place, never overlapping another row.",
  "every width, height, depth and sequence of rows", "unbounded", U+"BMPWriter/__init__.py:BMPWriter",U+"BMPWriter/__init__.py:align32")
p("Text string decoding",
  "decode_text decodes UTF-16BE strings with byte-order mark to the encoded text and any other bytes through PDFDocEncoding one character per byte; ASCII is preserved.",
  "every byte string", INF, U+"utils/text.py:decode_text",U+"utils/text.py:PDFDocEncoding")
p("Inline images",
  "The data between ID and EI of an inline image is returned exactly, and content parsing resumes right after EI, for all data not containing a white-space delimited EI.",
  "every image data and following content", INF, U+"parser/PDFContentParser.py:PDFContentParser.get_inline_data",U+"parser/PDFContentParser.py:PDFContentParser.do_keyword")
p("Content stream concatenation",
  "A page's content streams are processed as if concatenated with a white-space separator: splitting content between tokens into several streams does not change the operators seen.",
  "every list of content streams", "unbounded", U+"parser/PDFContentParser.py:PDFContentParser.fillbuf",U+"parser/PDFContentParser.py:PDFContentParser.fillfp")
p("Named destinations and name trees",
  "lookup_name/get_dest return the value stored under the name in a (nested) name tree with consistent Limits (none at the root) and non-empty values, and raise KeyError/PDFDestinationNotFound if there is none.",
  "every name tree", "trees are unbounded", U+"parser/PDFDocument/__init__.py:PDFDocument.lookup_name",U+"parser/PDFDocument/__init__.py:PDFDocument.get_dest")
p("Outline traversal",
  "get_outlines yields every outline entry that has a title and a destination or action, once, in preorder, with its nesting level; a document without outlines raises PDFNoOutlines.",
  "every outline tree", "trees are unbounded", U+"parser/PDFDocument/__init__.py:PDFDocument.get_outlines")
p("Repeatable page iteration",
  "Iterating a loaded document twice yields the same pages, numbered consecutively from the first page, in the same order.",
  "every interleaving of next()/iteration calls", "histories are unbounded", U+"interpreter/__init__.py:PDFInterpreter")
p("Reading an object terminates",
  "Reading the object at any offset of any file ends after finitely many steps: it returns an object or raises, it never loops.",
  "every file, offset and object number", "termination must hold for every input; a hang cannot be observed by a finite test", U+"parser/PDFDocument/__init__.py:PDFDocument._getobj_parse",U+"parser/PDFParser.py:PDFParser.do_keyword",U+"parser/PSStackParser/__init__.py:PSStackParser.nextobject")
p("Objects in object streams",
  "Asking for an object that the cross-reference data places in an object stream returns the object with that index among those stored in the stream, whatever else is stored there and however the objects are written.",
  "every object stream (count, header, objects, spelling) and index", INF, U+"parser/PDFDocument/__init__.py:PDFDocument._getobj_objstm",U+"parser/PDFDocument/__init__.py:PDFDocument._get_objects")
p("Decryption of strings",
  "In an encrypted document every string of an object, at any nesting depth, is deciphered with the object and generation number of its cross-reference entry; the data of streams is left to stream decoding and objects from object streams are not deciphered again.",
  "every object, every decipher function, every history of lookups", INF, U+"parser/PDFStream/util.py:decipher_all",U+"parser/PDFDocument/__init__.py:PDFDocument.getobj")
p("Incremental updates",
  "The cross-reference sections of a document are those reachable from the last startxref through XRefStm and Prev, newest first (a section, then what its XRefStm leads to, then what its Prev leads to), whether they are tables or streams; an object is the one the newest section with an entry for it points at.",
  "every chain of sections of any length, every table and stream in it", "chains are unbounded", U+"parser/PDFDocument/__init__.py:PDFDocument.read_xref_from",U+"parser/PDFDocument/__init__.py:PDFDocument.__init__",U+"parser/PDFDocument/__init__.py:PDFDocument.getobj")
p("Catalog and info dictionaries",
  "The catalog of a document is the Root of the newest trailer that has one, info holds the Info dictionaries of the trailers up to that one in order, and a document without any Root is rejected with PDFSyntaxError.",
  "every list of trailers", "unbounded", U+"parser/PDFDocument/__init__.py:PDFDocument.__init__")
p("Recovery of damaged files",
  "When a file is scanned for objects (no usable cross-reference data), every object 'n g obj ... endobj' that starts on a line is found at its offset, the last one of a number winning, and the trailer dictionary is the one after the first line that starts with 'trailer'.",
  "every file made of objects, streams and other lines", INF, U+"parser/PDFDocument/PDFXRef.py:PDFXRefFallback.load")
p("Form XObjects",
  "Do on a form yields one item that contains exactly what the content of the form yields, in order, placed by the form's matrix; interpreting the form does not change the state of the page.",
  "every form, content and state", "contents are unbounded", U+"interpreter/commands/commands.py:insert_xobject",U+"interpreter/commands/__init__.py:process_command_stream")
p("Repeatable page contents",
  "Iterating over a page again yields the same items as the first time.",
  "every page content", "contents are unbounded", U+"interpreter/PageInterpreter.py:PageInterpreter.__iter__")
p("Passwords",
  "A document encrypted with the standard handler (revisions 2, 3, 4) opens with its user password and with its owner password, and both give the file key it was encrypted with; no other key is ever accepted: a key is returned only if it reproduces the U entry of the document.",
  "every pair of passwords, document identifier, permissions value, key length and revision", "passwords and documents are unbounded", U+"parser/PDFDocument/PDFSecurityHandler.py:PDFStandardSecurityHandler.authenticate",U+"parser/PDFDocument/PDFSecurityHandler.py:PDFStandardSecurityHandler.compute_encryption_key",U+"parser/PDFDocument/PDFSecurityHandler.py:PDFStandardSecurityHandler.compute_u")
p("AES decryption",
  "The AES handlers (versions 4 and 5) return the plaintext of every string and stream encrypted in CBC mode under the key of the object or the file; metadata declared unencrypted and data of the Identity filter are returned unchanged.",
  "every key, initialization vector, plaintext and object", INF, U+"parser/PDFDocument/PDFSecurityHandler.py:PDFStandardSecurityHandlerV4.decrypt",U+"parser/PDFDocument/PDFSecurityHandler.py:PDFStandardSecurityHandlerV4.decrypt_aes128",U+"parser/PDFDocument/PDFSecurityHandler.py:PDFStandardSecurityHandlerV5.decrypt_aes256")
p("Passwords of AES-256 documents",
  "A document of encryption version 5 opens with its user password and with its owner password (up to 127 bytes each), and both give the file key; a password that matches neither hash gives no key.",
  "every pair of passwords, salts and file key", "passwords are unbounded", U+"parser/PDFDocument/PDFSecurityHandler.py:PDFStandardSecurityHandlerV5.authenticate")
p("Text conversion",
  "The text file has, for every page in order, the line with the number of the page, then exactly the characters shown on the page in the order they are shown, also those inside of nested form XObjects, and a line end.",
  "every list of pages and items, at any depth of nesting", "layout trees are unbounded", U+"converters/text.py:convert_to_text")
p("JSON conversion",
  "The JSON file is a JSON document with one object per page, in order, holding the number and size of the page and one object per item with its class, box, colours, font descriptor and text; the texts in it, in order, are the text shown on the page.",
  "every list of pages and items, at any depth of nesting", "layout trees are unbounded", U+"converters/json.py:render_page",U+"converters/json.py:render",U+"converters/json.py:place_char_block",U+"converters/json.py:place_curve",U+"converters/json.py:place_text_block")
p("XML conversion",
  "The XML file is well-formed and has one element per page, item, char-block, character, path and point, in order, with numbers, boxes, colours and font descriptors as attributes; the text of its char elements, in order, is the text shown on the pages.",
  "every list of pages and items, at any depth of nesting", "layout trees are unbounded", U+"converters/xml.py:render_page",U+"converters/xml.py:place_char_block",U+"converters/xml.py:place_char",U+"converters/xml.py:place_curve")
p("Built-in encodings",
  "Without differences, get_encoding returns for StandardEncoding, MacRomanEncoding, WinAnsiEncoding and PDFDocEncoding the character tables of the PDF standard, and for any other name StandardEncoding.",
  "every code of every encoding, every name", "tables of 256 codes; every name", U+"parser/EncodingDB.py:EncodingDB",U+"utils/encoding/__init__.py:name2unicode",U+"utils/encoding/latin_enc.py:LATIN_ENCODING")
p("Encodings in font programs",
  "For a Type 1 font without an Encoding entry, the encoding is that of the clear-text part of the embedded font program: each code has the character of the last name put at it.",
  "every font program", "font programs are unbounded", FN+"Type1FontHeaderParser.py:Type1FontHeaderParser",FN+"fonts.py:PDFType1Font")
p("Glyph widths",
  "char_width of a code is, in thousandths of text space, the element of Widths for it, and MissingWidth if there is none; for a standard font without widths the built-in width of its character; for a CID font the width that W (or W2) assigns it, and DW (or DW2) if there is none; the widths of a Type 3 font are scaled by the font matrix.",
  "every font dictionary and code", "width arrays are unbounded", FN+"PDFFont.py:PDFFont.char_width",FN+"fonts.py:PDFType1Font",FN+"fonts.py:PDFType3Font",FN+"fonts.py:PDFCIDFont")
p("Reading content terminates", "For every list of content streams, whatever their bytes, reading operands and operators to exhaustion ends after finitely many steps: finitely many objects are returned, then the end of the content or an error is reported; inline images cannot make the parser jump back and loop.",
  "every list of byte strings", "the domain is all byte strings, including malformed ones", U+"parser/PDFContentParser.py:PDFContentParser", U+"parser/PSStackParser/__init__.py:PSStackParser.nextobject")
p("Damaged CCITT data", "For Group 4 parameters with a positive number of columns, ccittfaxdecode returns for every byte string either a whole number of rows or raises InvalidData; no other exception escapes, and the decoder stops.",
  "every byte string, every width", "the domain is all byte strings, including malformed ones", U+"parser/PDFStream/ccitt.py:CCITTG4Parser", U+"parser/PDFStream/ccitt.py:ccittfaxdecode")
p("YAML output recovers what was written", "The YAML writer emits, for every tree of writer calls, a YAML document, and a YAML reader recovers the tree written: nested objects and arrays, keys and scalars.",
  "every tree of calls, any depth", "trees of calls are unbounded", U+"converters/writers/yaml.py:YAMLMakerObject", U+"converters/writers/yaml.py:YAMLMakerArray")
p("YAML conversion", "The YAML file is a YAML document with one mapping per page, in order, holding the number and size of the page and one mapping per item with its class, box, colours, paths with their points, font descriptor and text.",
  "every list of pages and items", "pages, items and texts are unbounded", U+"converters/yaml.py:convert_to_yaml", U+"converters/yaml.py:render")

p("HTML conversion", "The HTML file is well-formed and has one element per page, item, char-block and character, in order, with places, sizes, fonts, colours and pictures of paths as attributes; the text shown in it is the text shown on the pages; and convert_to_html succeeds for every document whose pages can be interpreted.",
  "every list of pages and items, at any depth of nesting", "layout trees are unbounded", U+"converters/html.py:convert_to_html", U+"converters/html.py:render_page", U+"converters/html.py:get_color")
p("Pictures of curves", "In the HTML file a curve becomes an SVG picture with one path of the same steps, in order, that is similar to the curve and inside of the view box of the picture.",
  "every curve, every box", "paths are unbounded and coordinates any numbers", U+"converters/html.py:render_curve", U+"converters/html.py:create_svg_path")

p("Text extraction from content", "If the interpreter gets through the content of a page, the page shows exactly the text that its content shows, in order: for every text object the texts of its Tj, TJ, ' and double-quote strings, read with the font that Tf selected from the resources (as saved and restored by q and Q), for every Do of a form the text of the form with its own resources or those around it; nothing else that is drawn, moved or set changes it.",
  "every content stream, resources and environment, any depth of forms", "content streams and nested forms are unbounded", U+"interpreter/commands/__init__.py:process_command_stream", U+"interpreter/commands/PDFCommands.py:PDFCommands", U+"interpreter/commands/utils.py:init_resources")
p("Well-formed content is interpreted in full", "A page with usable resources whose operators have the operands that they need, and whose texts are shown with a selected font that knows their characters, is interpreted to its end without an exception, and shows its whole text.",
  "every such page, any depth of forms", "content streams and nested forms are unbounded", U+"interpreter/commands/__init__.py:process_command_stream", U+"interpreter/commands/PDFCommands.py:PDFCommands", U+"interpreter/commands/utils.py:init_resources")

p("From file to text", "For every PDF file that is not encrypted, intact, incrementally updated or with a lost or broken cross-reference table, whose page tree leads to pages with well-formed content, convert_to_text writes, for each page asked for (pagenos, maxpages) in the order of the page tree, a line with its number and exactly the text that the content of the page shows, read with the fonts of its resources; no exception is raised.",
  "every such file, every layout of its objects (in the file, in object streams, in any number of updates), every choice of pages, with and without caching", "files, page trees and contents are unbounded; the property spans all layers of the program", U+"converters/text.py:convert_to_text", U+"parser/PDFDocument/__init__.py:PDFDocument", U+"parser/PDFPage.py:PDFPage.get_pages", U+"interpreter/__init__.py:PDFInterpreter", U+"interpreter/PageInterpreter.py:PageInterpreter")
p("Written files are read back", "A file that is written in the plain way (objects one after another, cross-reference table, trailer) is opened, and getobj returns for each number the object that was written with it, streams with their data, and raises PDFObjectNotFound for every other number; the same if the cross-reference table and all that follows the trailer dictionary is lost.",
  "every list of objects, every trailer, with and without caching", "objects and files are unbounded", U+"parser/PDFDocument/__init__.py:PDFDocument", U+"parser/PDFDocument/__init__.py:PDFDocument.getobj", U+"parser/PDFParser.py:PDFParser.do_keyword", U+"parser/PDFDocument/PDFXRef.py:PDFXRef.load", U+"parser/PDFDocument/PDFXRef.py:PDFXRefFallback.load")
p("Text that is written is extracted", "A document with lines of text in Helvetica with WinAnsiEncoding on any number of pages is converted to exactly the text: for each page the line with its number and its characters in order.",
  "every number of pages and lines, every text", "texts and files are unbounded; the property spans all layers of the program", U+"converters/text.py:convert_to_text", U+"parser/PDFPage.py:PDFPage.get_pages", U+"interpreter/__init__.py:PDFInterpreter", FN+"fonts.py:PDFType1Font")

p("Encrypted documents", "For every document encrypted with the standard security handler (RC4 or AES, versions 1, 2, 4 and 5) whose page tree leads to pages with well-formed content, convert_to_text with the user or the owner password writes exactly what it would write for the same document without encryption; if the permissions do not allow the extraction of text it raises PDFTextExtractionNotAllowed and writes nothing, unless check_extractable is False; with a wrong password it raises an exception and writes nothing; a document with the empty user password needs no password.",
  "every such file, every password, all permissions, with and without caching", "passwords, files and page trees are unbounded; the property spans all layers of the program", U+"converters/text.py:convert_to_text", U+"parser/PDFDocument/__init__.py:PDFDocument._initialize_password", U+"parser/PDFDocument/PDFSecurityHandler.py:PDFStandardSecurityHandler", U+"parser/PDFDocument/PDFSecurityHandler.py:PDFStandardSecurityHandlerV4", U+"parser/PDFDocument/PDFSecurityHandler.py:PDFStandardSecurityHandlerV5", U+"parser/PDFPage.py:PDFPage.get_pages")
p("Written encrypted files are read back", "A file that is written encrypted in the plain way (RC4, keys of 40 to 128 bits) is opened with the user or the owner password, and getobj returns for each number the object as it was before the encryption; the text of such a file is extracted; with another password nothing is written.",
  "every list of objects, all passwords, all permissions, every identifier, with and without caching", "objects and files are unbounded", U+"parser/PDFDocument/__init__.py:PDFDocument", U+"parser/PDFDocument/__init__.py:PDFDocument.getobj", U+"parser/PDFDocument/PDFSecurityHandler.py:PDFStandardSecurityHandler", U+"parser/PDFStream/__init__.py:PDFStream.decode")
p("Unicode text that is written is extracted", "A document with lines of any Unicode characters in a composite font with the encoding Identity-H and a ToUnicode map, on any number of pages, is converted to exactly the text: for each page the line with its number and its characters in order, also characters outside the basic plane and codes that stand for several characters.",
  "every number of pages and lines, every text of up to 65536 different characters or character sequences", "texts, alphabets and files are unbounded; the property spans all layers of the program", U+"converters/text.py:convert_to_text", FN+"fonts.py:PDFCIDFont", FN+"__init__.py:get_font", U+"parser/cmapdb/__init__.py:IdentityCMap", U+"interpreter/__init__.py:PDFInterpreter")

p("All converters get the same pages", "For every document as in C90 or C93, whatever the converter, the interpreter delivers the same pages: those asked for, in the order of the page tree, numbered 0, 1, 2, ... in the order of delivery, with the width and height of their MediaBox and the text that their contents show; so the text, JSON, XML, YAML and HTML files of a document have the same pages with the same text, and no exception is raised.",
  "every such file, encrypted or not, every choice of pages, with and without caching", "files, page trees and contents are unbounded; the property spans all layers of the program", U+"interpreter/__init__.py:PDFInterpreter", U+"interpreter/PageInterpreter.py:PageInterpreter", U+"converters/text.py:convert_to_text", U+"converters/json.py:convert_to_json", U+"converters/xml.py:convert_to_xml", U+"converters/yaml.py:convert_to_yaml", U+"converters/html.py:convert_to_html")

p("Nothing is made up", "Whatever the file, and also if an exception ends the conversion: every char-block on a delivered or begun page has at least one character, its font is made from a font dictionary in the resources of its content, and its characters are those of strings in that content, decoded with that font, in order; every image is an inline image of the content or an image XObject of its resources, every form is a form XObject of its resources with items from its own content and resources; a text block without char-blocks, and only such a one, has no box; the page is that of the document in the same place.",
  "every file (well-formed or not), every set of options, every end of the conversion, any depth of forms", "files, contents and forms are unbounded", U+"interpreter/__init__.py:PDFInterpreter", U+"interpreter/commands/__init__.py:process_command_stream", U+"interpreter/commands/utils.py:init_resources", U+"interpreter/commands/PDFCommands.py:PDFCommands", U+"interpreter/commands/state/layout/LTCharBlock.py:LTCharBlock")
p("Written lines in every format", "A document with lines of text (in Helvetica, or in any characters in a composite font) is converted to JSON, YAML, XML, HTML and text without an exception; on every page asked for, each line is one char-block, in order and with exactly the text of the line, in the font of the document and the size that was set, in one text block: in JSON and YAML as the text of an object in char_blocks, in XML as one char-block element, its characters in char elements.",
  "every number of pages and lines, every text, every choice of pages", "texts and files are unbounded; the property spans all layers of the program", U+"converters/json.py:convert_to_json", U+"converters/yaml.py:convert_to_yaml", U+"converters/xml.py:convert_to_xml", U+"converters/html.py:convert_to_html", U+"converters/text.py:convert_to_text", U+"interpreter/commands/PDFCommands.py:PDFCommands")

p("A failed conversion", "If a conversion ends with an exception, whatever the file and wherever the exception comes, the output holds the pages delivered before it, complete and numbered 0, 1, 2, ..., and the items of the page in which it came, up to it: the text file has their text, the JSON and YAML files are still complete documents with these pages and items, and the XML file lacks only the end tags of the elements that were open, so that it is not well-formed; without an exception no page is unfinished; if the document cannot be opened, or its text may not be extracted, the text file is empty.",
  "every file, every option, every place of the exception", "exceptions can come at any place of unbounded files", U+"converters/text.py:convert_to_text", U+"converters/json.py:convert_to_json", U+"converters/yaml.py:convert_to_yaml", U+"converters/xml.py:convert_to_xml", U+"converters/writers/json.py:JSONMakerObject", U+"converters/writers/xml.py:XMLMaker", U+"interpreter/__init__.py:PDFInterpreter")
p("What a conversion to HTML leaves", "Whatever the file and wherever an exception comes, from the interpreter or from the converter itself, the HTML file is the document for the pages delivered before it, in order, and for the items of the page in which it came up to it - of an xobject the children up to the bad one, of a text block the char-blocks up to the bad one, of a bad curve nothing - without the end tags of the elements that were open; with these end tags, the last ones of which are those of body and html, it is well-formed, has exactly the tags of these pages and items and shows exactly their characters; without them it is not well-formed. There is an exception of the converter exactly if there is an item that it cannot write (C86), and none of the end tags is missing if there is no exception.",
  "every file, every option, every place of the exception, any depth of xobjects", "exceptions can come at any place of unbounded files and nested items", U+"converters/html.py:convert_to_html", U+"converters/html.py:render_page", U+"converters/html.py:render_curve", U+"converters/writers/html.py:HTMLMaker")

p("Compact fonts: numbers, dictionaries, indexes", "In every compact font, every number of a dictionary is read with the value that was written, whichever of the forms of integers and reals is used; a dictionary gives each operator, of one byte or two, the last operands written for it; an index has as many objects as were written, each of them exactly the bytes written, IndexError beyond the last one, and reading goes on right after it.",
  "every number, dictionary and index of the format, at any place of any file", "numbers, dictionaries and indexes are unbounded", FN+"CFFFont.py:getdict", FN+"CFFFont.py:CFFFont")
p("Compact fonts: glyphs", "Reading a compact font gives its names, strings, subroutines and glyphs as they were written, and the first dictionary; gid2name gives each glyph but the first the name that the charset says, a standard string or one of the font, and name2gid gives a glyph with that name; code2gid gives each code the glyph that the encoding says.",
  "every compact font with one dictionary, every format of charsets and encodings", "fonts are unbounded", FN+"CFFFont.py:CFFFont")

p("TrueType files: tables", "For every TrueType file, tables has for each tag the offset and the length that the directory says for it, for files that are cut the entries before the cut, and no exception is raised; create_unicode_map finds the table cmap if the file has one, and raises CMapNotFound only if it has none.",
  "every file, complete or cut at any place", "files and directories are unbounded", FN+"TrueTypeFont.py:TrueTypeFont")

p("convert_file from files to files", "convert_file changes no file except its output file, whatever happens, and none at all if it refuses the type or the name. If the input is a file other than the output, then after the call the output file has the UTF-8 form of what the converter of the type writes for the document in the input, and the call ends as that conversion does; this depends on no other file, a second call changes nothing, and calls for different files may be made in any order. Without an output path, a.pdf becomes a.type and is kept. If the output is the input, the document is lost; if the input is missing, an old output file is lost too; a character that UTF-8 has no form for makes the call fail.",
  "all files before the call, every input path, output path, type, option and document, every order of calls", "the files, the documents and the histories of calls are unbounded", U+"converters/__init__.py:convert_file", U+"converters/text.py:convert_to_text", U+"interpreter/__init__.py:PDFInterpreter")

p("Saving images", "save_image writes exactly one file, in the given directory, under the given name or that of the image, and returns its path; no other file changes, and saving again changes nothing. An image coded by DCTDecode alone becomes a .jpg with the bytes of the stream; a one-bit image becomes a bitmap with its width, height and rows; an image of eight bits in DeviceRGB or DeviceGray becomes a bitmap too; any other image becomes a file with its decoded samples, with bits, width and height in its name. This does not depend on what was done with the image before.",
  "every image, every chain of filters, every box, every directory and name, every state of the files and every history of the stream", "images, files and histories are unbounded", U+"interpreter/commands/state/layout/LTImage.py:LTImage", U+"BMPWriter/__init__.py:BMPWriter", U+"parser/PDFStream/__init__.py:PDFStream")

p("Maps kept in files", "CMapDB.get_cmap and get_unicode_map give, for a name, what the file of that name (for unicode maps to-unicode- and the name) in the first of the two directories holds, in the direction asked for, and CMapNotFound if there is no such file. Once found, the same map is given for ever, whatever else is asked and however the files change; a failed request is not remembered; without changes of the files the caches cannot be noticed. Only files in the two directories are read, whatever the name is.",
  "every sequence of requests and changes of files, every name, every environment", "histories, names and files are unbounded", U+"parser/cmapdb/__init__.py:CMapDB", U+"parser/cmapdb/__init__.py:PyCMap", U+"parser/cmapdb/__init__.py:PyUnicodeMap")

p("Written drawings are delivered", "A document written with pages of rectangles, polygonal lines, images and strings is delivered with one item for each, in the order in which they were written, on pages of the sizes that were written. A rectangle has the smallest box with its corners, a line of two points is vertical, horizontal or a line as its points say and a line of more points a curve, each with the points as written, the line width and the colours set before it, the components rounded to 0..255; an image has its dictionary, its data as stored and the smallest box with its four transformed corners; a string has its text, font, size and colour, and its characters stand one after another, each as wide as it is in the font. The converters write these pages.",
  "all pages with any sizes and any sequences of these marks with any numbers, all images, all fonts that can be built, all choices of pages", "pages, marks, images and strings are unbounded", U+"interpreter/__init__.py:PDFInterpreter", U+"interpreter/PageInterpreter.py:PageInterpreter", U+"interpreter/commands/PDFCommands.py", U+"interpreter/commands/state/layout/LTCurves.py", U+"parser/PDFDocument/__init__.py:PDFDocument")

p("Command line", "pdfconvert with one file converts it as convert_file does: the file beside it with the extension of the type is written and no other, --pagenos LIST with numbers separated by commas selects the pages with these numbers counted from one, --maxpages, --password and --disable-caching are passed on, and the status is 0 exactly if the conversion ends without an exception. The type is that of --output-type and the output goes to --output-file if they are given. With several files nothing happens and the status is 1; with a list that has something else than numbers no file is opened.",
  "all arguments, all files, all documents", "arguments, files and documents are unbounded", "tools/pdfconvert.py:main", U+"converters/__init__.py:convert_file")

p("Distance of boxes", "vecBetweenBoxes gives, for two boxes that do not overlap, the shortest distances, across and up, of their points, and for two boxes that overlap the vector between their middles. Exchanging the boxes keeps the first and turns round the second; moving both boxes changes nothing.",
  "all pairs of boxes", "boxes have arbitrary coordinates", U+"utils/text.py:vecBetweenBoxes")

p("Complete resolution", "resolve_all gives the object with everything resolved: there are no references left in it, at any depth, each is replaced by the object it names, and resolving again changes nothing.",
  "all objects and all documents, whatever their depth", "objects are nested to any depth", U+"parser/PDFStream/util.py:resolve_all")

p("Names of attributes", "In the XML document, the name of the attribute for an item of a font descriptor has the words of the key, in small letters and with hyphens between them: a word begins at a capital after a small letter or a digit, and at a capital before a small letter. For a key of letters and digits this is a legal name, and two different keys made of capitalised words never get the same name.",
  "all keys", "keys come from the PDF file and have any length and any characters", U+"converters/xml.py:convert_capcase_to_snakecase")

p("Colours and paths in the documents", "A colour in the JSON document is an object with the name of the colour space and the texts of its values, whatever characters the names from the PDF file have, and can be read back: different colours have different texts. A path is an object with the name of its method and the points in their order, x and y. In the XML document the attributes give the name and the values with commas between them, and in the YAML document the name and the values.",
  "all colours and all paths", "names and values come from the PDF file, paths have any number of points", U+"converters/json.py:normalize_color_values", U+"converters/json.py:place_curve", U+"converters/xml.py:get_color", U+"converters/yaml.py:normalize_color_values", U+"converters/writers/json.py:JSONWriter")

p("Only the objects count", "What the program delivers for a document, page by page and item by item, with the exception if there is one, and the files that all five converters write depend only on the objects of the document and its catalogue: two files with the same objects and a page tree with at least one page give the same, however the objects are stored. So encrypting a document changes nothing for somebody who has one of its passwords, and losing the cross-reference table with the end of the file changes nothing.",
  "all files, all pages whatever is on them, all passwords, all ways of storing the objects", "files and documents are unbounded", U+"parser/PDFDocument/__init__.py:PDFDocument", U+"interpreter/__init__.py:PDFInterpreter", U+"parser/PDFPage.py:PDFPage.create_pages")

p("PDF 1.5 files", "A document stored as PDF 1.5 allows, with everything but the streams in an object stream and with a cross-reference stream instead of table and trailer, both compressed or not, is read as it is: every object under its number, the catalogue, and the text and the drawings of its pages are those that were written, with every converter.",
  "all documents that can be written, all pages with text or drawings, all ways of coding the two streams that the program can undo", "documents are unbounded, and the offsets depend on all the objects before", U+"parser/PDFDocument/__init__.py:PDFDocument", U+"parser/PDFDocument/PDFXRef.py:PDFXRefStream", U+"interpreter/__init__.py:PDFInterpreter")

p("Incremental updates", "A file that was changed by incremental updates, each adding objects, a table of them and a trailer with Prev at the end of the file, gives what a file gives that is written anew with the objects as the updates have left them: for every object the last update that mentions it counts, objects that no update mentions are those of the first file, and deleted objects are gone. This holds for the pages, items and exceptions and for the output of all converters.",
  "all documents, any number of updates, any objects changed or added by each", "the number of updates and of changed objects is unbounded, and each table leads to the one before", U+"parser/PDFDocument/__init__.py:PDFDocument", U+"parser/PDFDocument/PDFXRef.py:PDFXRef", U+"interpreter/__init__.py:PDFInterpreter")

p("The images that were put in a document come out of it",
  "Write a document whose pages draw images (JPEG streams, data with any chain of supported filters, one-bit images in boxes of integer size), shapes and text, and run the program of the image test on it: for every page, for every item that is an LTImage, call save_image with a name made of the page number and the item number. The program ends without an exception. Every image of the pages that are asked for is in its own file: a JPEG image (not CMYK) byte for byte, other data exactly as they were before they were encoded, one-bit data as a bitmap with those rows; the extension tells the bits and the size of the box. This holds however often an image is drawn, whether or not the stream objects are shared. No two images get the same file, and no other file changes.",
  "All lists of pages, marks, images and filter chains, all matrices, all choices of pages, all folders and base names, all ways of sharing stream objects, all files before.",
  "Combines parsing, interpretation, decoding and saving with state shared between calls (stream objects drop their raw data once decoded); tests save the images of two sample files.",
  U+"interpreter/commands/state/layout/LTImage.py:LTImage.save_image", U+"parser/PDFStream/__init__.py:PDFStream.get_data", U+"interpreter/__init__.py:PDFInterpreter", "tests/test_image_writer.py:ImageTester.test_image_extract")


p("A font has the name, descent and height that its descriptor gives",
  "Whenever get_font returns a font: its fontname is FontName of the descriptor ('unknown' if there is none); get_descent() is Descent in thousandths; get_height() is the height of FontBBox in thousandths, or, if the box has no height or is missing, the ascent minus the descent. For Type 3 fonts both are those of FontBBox, scaled by a matrix that only scales. The descriptor is the one in the dictionary, for the standard fonts the built-in one, and for composite fonts the one of the descendant. get_width() is the width of the box, or, if the box has none, minus the default width.",
  "All font dictionaries of all kinds for which a font is built, all descriptors with any of the entries missing, direct or by reference.",
  "The boxes of all characters are made from these numbers; they range over all dictionaries, and the tests look at one sample file each.",
  U+"interpreter/commands/state/PDFTextState/PDFFont/PDFFont.py:PDFFont.get_height", U+"interpreter/commands/state/PDFTextState/PDFFont/PDFFont.py:PDFFont.get_descent", U+"interpreter/commands/state/PDFTextState/PDFFont/PDFFont.py:PDFFont.get_width", U+"interpreter/commands/state/PDFTextState/PDFFont/fonts.py:PDFType3Font")


p("Written drawings in JSON",
  "Write a document whose pages have shapes, lines, images and strings in printable ASCII without backslashes, and convert it to JSON: no exception, and the file is valid JSON, an object with 'pages', an array with one object per page that is asked for, in order. Each has the number and the size of the page, and 'children' has one object per visible mark, in the order of drawing: a rectangle, a line with its ends, a curve with all its points, an image with its name, each in the smallest box around it; a string as a text block with one char-block that has exactly the string, and the descriptor of the font, the smallest box around the characters placed one after another in the widths of the font, and as size the height of that box. Shapes and strings have the colours that the last rg and RG said, as whole numbers of 255ths, and no colour if nothing was said.",
  "All lists of pages, marks, numbers and images, all choices of pages, all ways of writing numbers and descriptors that are JSON.",
  "Ranges over all documents; composes reading, interpretation, and the writer, and says what a reader of the JSON file gets.",
  U+"converters/json.py:convert_to_json", U+"interpreter/__init__.py:PDFInterpreter", U+"interpreter/commands/state/layout")


p("Written drawings in XML",
  "Write a document whose pages have shapes, lines, images and strings in printable ASCII, and convert it to XML: no exception, and after its first line the file is well-formed XML that can be read in one way only. Its start tags are, in order: pages; and for every page that is asked for, page with its number and size, and for every visible mark in the order of drawing rect, line, or curve with a path and a point for every point, img with the name of the image, or text-block with one char-block and one char for every character of the string. Coordinates are those of the smallest box around the mark; the text-block and the char-block have the smallest box around the characters, and the size of the char-block is its height; each char has the box of its character, as wide as the character is in the font and beginning where the one before it ends. Shapes and strings have the colours that the last rg and RG said, as whole numbers of 255ths with commas between them, and no colour attribute if nothing was said. The text inside the char elements is the strings.",
  "All lists of pages, marks, numbers and images, all choices of pages, all ways of writing numbers and descriptors that XML can carry.",
  "Ranges over all documents; composes reading, interpretation and the writer, and says what a reader of the XML file gets.",
  U+"converters/xml.py:convert_to_xml", U+"interpreter/__init__.py:PDFInterpreter", U+"interpreter/commands/state/layout")


p("Written drawings in YAML",
  "Write a document whose pages have shapes, lines, images and strings in printable ASCII that are empty or plain scalars of YAML, and convert it to YAML: no exception, and the file is a YAML document: a mapping with 'pages', a sequence with one mapping per page that is asked for, in order (null if there is none). Each has the number and the size of the page, and 'children' has one mapping per visible mark, in the order of drawing: a rectangle, a line with its ends, a curve with all its points, an image with its name, each in the smallest box around it; a string as a text block with one char-block that has the smallest box around the characters, its height as size, the descriptor of the font and, as its last member, the string. Shapes and strings have the colours that the last rg and RG said, as whole numbers of 255ths, and no colour if nothing was said.",
  "All lists of pages, marks, numbers and images, all choices of pages, all ways of writing numbers and descriptors that YAML can carry.",
  "Ranges over all documents; composes reading, interpretation and the writer, and says what a reader of the YAML file gets.",
  U+"converters/yaml.py:convert_to_yaml", U+"interpreter/__init__.py:PDFInterpreter", U+"interpreter/commands/state/layout")


p("Written drawings in HTML",
  "Write a document whose pages have shapes, lines, images and strings in printable ASCII without markup, and convert it to HTML: no exception, and the file is a well-formed document that can be read in one way only. What is seen is the style sheet and the strings, in order. After the head, the start tags are, in order, for every page that is asked for: div with its number and size; and for every visible mark in the order of drawing, svg at the place of the smallest box around the shape with one path, which goes through exactly its points in the coordinates of the box and back to the first point if the shape is a rectangle; img with the name of the image and the size of the box; or span for the block, span at the smallest box around the characters with the font and colour, and one span for every character of the string. Colours are rgb(...) of the integers nearest to 255 times the components written; without colour shapes have no attribute and strings are black.",
  "All lists of pages, marks, numbers and images, all choices of pages, all ways of writing numbers that HTML can carry.",
  "Ranges over all documents; composes reading, interpretation and the writer, and says what a reader of the HTML file gets.",
  U+"converters/html.py:convert_to_html", U+"interpreter/__init__.py:PDFInterpreter", U+"interpreter/commands/state/layout")


if __name__=="__main__":
    with open(os.path.join(os.path.dirname(__file__),"..","properties.jsonl"),"w") as f:
        for x in P: f.write(json.dumps(x)+"\n")
    print(len(P))
