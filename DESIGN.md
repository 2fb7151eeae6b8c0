# pdfmajor in Lean 4: design of the formal model

Source: `/repo` (asosnovsky/pdfmajor, pinned commit), Python. It is only read, never run.
The model lives in `lean/Verif`:

* `Verif/Model/*`  executable model, function by function; every definition cites file and lines.
* `Verif/Spec/*`   small specifications, independent of the model (encoders, reference semantics).
* `Verif/Proofs/*` helper lemmas.
* `Verif/Props/*`  the property theorems named in `MANIFEST.json`, with non-vacuity `example`s beside them.

## Trusted base

* Lean 4.33.0's kernel. Axioms: at most `propext`, `Classical.choice`, `Quot.sound` for every theorem
  (checked with `#print axioms`; `tools/axioms.sh` prints the list per theorem). No axioms are declared,
  no compiled evaluation is used.
* The reading of the Python source: nothing mechanically ties the model to the code. Each model
  definition cites its source lines so that it can be compared by eye.
* Modelling conventions
  * `bytes` = `List UInt8`; `str` = lists of code points; `int` = `Int`/`Nat`.
  * Python exceptions are values: `Except PyErr α`, with one constructor for every exception class that
    matters. A Python loop is structural recursion, or fuel recursion with a theorem that the fuel
    given is always sufficient.
  * `settings.STRICT` is `False` (its default) throughout, as in every entry point of the library.
  * Floating point: coordinates are exact rationals; the rounding of IEEE doubles is not modelled.
  * Generators are modelled by the list of what they yield (plus the error that ends them).
  * Regular expressions are modelled by hand-written functions with the same meaning (each cites the regex).
* Not modelled: zlib, Crypto (AES), hashlib (md5/sha are parameters where they occur), the file
  system except as a map from paths to contents (C104), the pickled CMap resources (parameters of the font model), the part of the TrueType reader that is
  never reached (a TrueType file never yields a unicode map, C103), chardet, logging, the parsing of the command line by argparse (what the command does
  with the parsed arguments is C108).

## Per property plan

* **C01 ASCII85 round trip** - Model ascii85decode as a byte-by-byte machine; spec encoder; round trip by induction over 4-byte groups, arithmetic base 85.
* **C02 ASCIIHex round trip** - Model both regexes as scanners; round trip by induction; docstring violations refuted with witnesses (partial).
* **C03 RunLength round trip** - Model rldecode; spec: list of runs; induction on the run list.
* **C04 LZW round trip** - Model bit reader and feed; spec encoder emitting codes with its own dictionary; simulation invariant between encoder table and decoder table; bit-level packing lemma.
* **C05 PNG predictor reversal** - Model row loop; spec filter per row; induction on rows. Average/Paeth/colors>1 refuted (partial).
* **C06 CCITT Group 4 decoding** - Model the decoder bit by bit with its tables; specification: T.6 coding as a relation between rows and bits, with the T.4 tables written down separately; per-row invariant.
* **C07 Big-endian unpacking** - Model nunpack; theorem against a positional value function.
* **C08 Filter pipeline** - Model get_filters/decode with the modelled codecs (deflate is a parameter); specification: chains of encodings; state machine for the cache.
* **C09 Tokens independent of buffering** - Model the tokenizer state machine over buffers (BUFSIZ as parameter) exactly as the code does (regex search inside the current buffer); a second, buffer-free byte machine; simulation theorem; independence is a corollary.
* **C10 Tokenizer termination and progress** - Fuel recursion + measure; theorem that the fuel bound suffices for every input.
* **C11 Token positions** - Invariant on the byte machine: token start recorded in state.
* **C12 Literal string round trip** - Spec printer with per-byte escape choice; induction.
* **C13 Hexadecimal string round trip** - Same with hex digits.
* **C14 Name round trip** - Same for names.
* **C15 Integer round trip** - Decimal numerals; induction on digits.
* **C16 Comments are transparent** - Byte machine lemma: comment consumed returns to the main state.
* **C17 White space is transparent** - Byte machine lemma.
* **C18 Line reader** - Model nextline over buffers; equality with a spec line splitter.
* **C19 Reverse line reader** - Model revreadlines over buffer sizes; equality with a spec.
* **C20 Object syntax round trip** - Token level stack parser; printer to tokens, then to bytes; induction on object depth.
* **C21 Dictionary semantics** - Model the dict construction; lookup = last non-null.
* **C22 Stray closing brackets are harmless** - Stack parser: end_type failure leaves the state unchanged.
* **C23 Cross-reference table** - Model load on parsed lines; association-list spec.
* **C24 Cross-reference stream** - Model load/get_pos/get_objids on ranges; get_objids refuted for several ranges (partial).
* **C25 Object cache transparency** - State machine with cache; parse oracle as a parameter; induction over histories.
* **C26 Newest cross-reference wins** - Same model without cache.
* **C27 Stream extraction** - Model the stream branch of do_keyword on bytes.
* **C28 Reference resolution** - Fuel model of resolve1; acyclic rank argument.
* **C29 Finding the last startxref** - Model find_xref on the reversed line list.
* **C30 Page order** - Tree model; equality with a spec preorder.
* **C31 Attribute inheritance** - Same; spec: nearest ancestor.
* **C32 Page selection** - Model get_pages loop; refuted for maxpages combined with pagenos (partial).
* **C33 Page coordinate system** - Matrices over a commutative ring; rotation normalised.
* **C34 Save/restore of graphics state** - Interpreter state model; graphics state not restored in the code: refuted; partial theorem for what is restored.
* **C35 Operand handling** - Model process_command_stream; spec of operand windows.
* **C36 Matrix algebra** - Ring identities.
* **C37 Colour operators** - Interpreter state model; `k` refuted.
* **C38 Text positioning** - Interpreter state model; `"` refuted.
* **C39 Glyph advance** - Model decode_text_seq; induction on the sequence.
* **C40 Bounding boxes enclose** - Ordered field; induction.
* **C41 Path classification** - Model make_curve.
* **C42 Box relations** - Ordered field case analysis.
* **C43 Encoding differences** - Model name2unicode, EncodingDB on a heap of tables; inductive spec of Differences arrays; unknown names keep the base text (partial).
* **C44 CID width arrays** - Model get_widths and get_widths2; inductive spec of the arrays.
* **C45 Character code decoding** - Trie model of CMap.decode and add_code2cid, IdentityCMap; prefix-free tables decode every concatenation of codes.
* **C46 ToUnicode maps** - Model CMapParser on tokens with FileUnicodeMap; inductive spec of character map programs.
* **C47 Glyph to text precedence** - Model the font classes from the font dictionary on; relate to_unichr to the relational specifications of ToUnicode maps, encodings and font programs.
* **C48 Font cache** - Model get_font with its cache as a state machine over histories of calls; invariant: the cache holds the first font built for each number.
* **C49 JSON output well-formed** - Model writers; tiny JSON reader spec; unescaped characters refuted (partial).
* **C50 XML output well-formed** - Model elm; balanced-tag spec.
* **C51 Markup escaping** - Model enc; decoder spec.
* **C52 Output path safety** - Model path computation; overwriting refuted (partial).
* **C53 RC4 is an involution** - Concrete RC4 (the algorithm behind Crypto's ARC4) and xor involution.
* **C54 Permission bits** - Integer bit test.
* **C55 Spatial index** - Model Plane grid; history invariant.
* **C56 List utilities** - List functions.
* **C57 Symbol interning** - State machine.
* **C58 BMP output** - Model BMPWriter offsets.
* **C59 Text string decoding** - Table model.
* **C60 Inline images** - Model get_inline_data and do_keyword over the buffered content parser; grammar of written content with inline images; separators other than line ends, EI inside words, EI at the end refuted (partial).
* **C61 Content stream concatenation** - Model fillfp/fillbuf/seek of the content parser; simulation between several streams and their concatenation; token merging and a cut after ID refuted (partial).
* **C62 Named destinations and name trees** - Name tree model.
* **C63 Outline traversal** - Outline tree model.
* **C64 Repeatable page iteration** - State machine of the page iterator.
* **C65 Reading an object terminates** - Fuel model; measure = bytes after the current token; negative Length refuted by a concrete looping file.
* **C66 Objects in object streams** - Same document model; token-level print/parse theorem for the content of the stream.
* **C67 Decryption of strings** - decipherAll on objects against an inductive relation; end to end through getobj.
* **C68 Incremental updates** - Model read_xref_from, PDFXRef.load, PDFXRefStream.load on the file; inductive spec of section chains.
* **C69 Catalog and info dictionaries** - Loop over trailers.
* **C70 Recovery of damaged files** - Model PDFXRefFallback.load on lines and objects; inductive spec of file bodies.
* **C71 Form XObjects** - Interpreter model with nested runs; the form's matrix is not applied (refuted, partial).
* **C72 Repeatable page contents** - The state is kept between iterations: characterised, refuted by a witness (partial).
* **C73 Passwords** - Model compute_encryption_key, compute_u, the authenticate methods with MD5 as a parameter; spec of the entries O and U from the encrypting side; inversion of the RC4 rounds.
* **C74 AES decryption** - CBC over an abstract block cipher with its inverse; the padding is never removed (partial).
* **C75 Passwords of AES-256 documents** - Model authenticate of version 5 with SHA-256 and AES as parameters.
* **C76 Text conversion** - Model convert_to_text on the items of the interpreter model; inductive relation of the text shown.
* **C77 JSON conversion** - The calls made by the converter, written by the JSON writer model and read back with the grammar; empty text blocks and clashing descriptor keys refuted (partial).
* **C78 XML conversion** - The calls made by the converter, written by the XML writer model and read back with the grammar; the first line and raw descriptor values refuted (partial).
* **C79 Built-in encodings** - The tables of the code generated into the model, compared with the tables of the standard written independently; glyph list as a parameter with the Adobe names.
* **C80 Encodings in font programs** - Model Type1FontHeaderParser over the tokenizer model; grammar of programs with `code name put`; StandardEncoding by name refuted (partial).
* **C81 Glyph widths** - Model char_width and the font classes, exact numbers; standard fonts with own widths, DW 0 and skewed matrices refuted (partial).
* **C82 Reading content terminates** - Same model; the bytes left decrease at every inline image.
* **C83 Damaged CCITT data** - Same model; an invariant of the decoder over arbitrary bits.
* **C84 YAML output recovers what was written** - Model the writer as a function of the tree of calls (Model/YamlWriter.lean); YAML block grammar over lines in Spec/Yaml.lean, shown unambiguous; plain scalars only (partial).
* **C85 YAML conversion** - Model the converter (Model/ConvYaml.lean) over the items of the interpreter; exact tree of the document; unquoted texts refuted (partial).
* **C86 HTML conversion** - Model convert_to_html over the items of the interpreter (Model/ConvHtml.lean, on the model of the markup writer); exact condition of refusal, exact tags and visible text; unescaped texts refuted (partial).
* **C87 Pictures of curves** - Same model; grammar of SVG path data in Spec/ConvHtml.lean, shown unambiguous; map of points as a similarity; v and y steps and transformed boxes refuted (partial).
* **C88 Text extraction from content** - Specification that reads the text off the operators with a pen of current font, saved fonts and text since BT (Spec/Extract.lean); simulation with the interpreter (Model/Interp.lean), by induction on the specification; operators without influence on text proved quiet one by one.
* **C89 Well-formed content is interpreted in full** - Grammar of well-formed content (Spec/WellFormed.lean); progress proof: invariant on graphics state, resources and fonts; every operator succeeds under it.
* **C90 From file to text** - The whole program from bytes to text put together from the models of its parts (Model/Pipeline.lean); specification of what a file says (Spec/Pipeline.lean: sections, objects, page tree, texts); composition of the theorems on sections, objects, pages, content and text, with fuel large enough.
* **C91 Written files are read back** - A writer of files (Spec/Write.lean) and proof that what it writes satisfies the specification of sections and objects, by induction on the list of objects; then the theorem on opening.
* **C92 Text that is written is extracted** - A writer of documents with text (Spec/TextFile.lean); what it writes is a document in the sense of C90; C90 does the rest.
* **C93 Encrypted documents** - The construction of the security handler from the encryption dictionary (Model/Handler.lean) and its use in the pipeline; specification of stored strings, streams and objects and of the passwords that open a document (Spec/EncryptedFile.lean); the handler deciphers what is stored (C53, C54, C73 to C75), hence the document has the same objects as the plain one and C90's composition applies.
* **C94 Written encrypted files are read back** - A writer of encrypted files (Spec/LockedWrite.lean: every object sealed with its key, encryption dictionary in the trailer); what it writes satisfies the specification of C93.
* **C95 Unicode text that is written is extracted** - A writer of documents with a composite font, a CID font and a `ToUnicode` program (Spec/UniFile.lean); C46 and C47 give the font, C90 does the rest.
* **C96 All converters get the same pages** - `deliver` (Model/Outputs.lean) is the loop over `PDFInterpreter` on the bytes of a file; the converters are functions of what it delivers. Proved from the lemmas of C90 and C93 with a description of a page by its text and size (Spec/Outputs.lean), and from C77, C78, C85, C86 for the files.
* **C97 Nothing is made up** - An invariant of the interpreter's state (Props/Provenance.lean): fonts and XObjects are those of the resources, operands are objects of the content, finished char-blocks and items are as Spec/Provenance.lean says; by induction over the content and the nesting of forms, for every content and every end of the run.
* **C98 Written lines in every format** - The items of a page with lines are computed step by step (Props/WrittenLines.lean); C77, C78, C85 and C86 give the files.
* **C99 A failed conversion** - The converters as functions of what is delivered, with the page that was begun (Model/Outputs.lean); the XML file and the missing end tags make the file of C78, and the text of a well-formed document is read in one way only (C50), so the cut file is not one.
* **C100 What a conversion to HTML leaves** - A second model of the converter, as a writer that stops at an exception without end tags (Model/HtmlCut.lean, used by `convertHtml`); by induction over items and pages its text and the missing end tags are the file of C86 for the part that is shown (Spec/HtmlCut.lean); that part is determined by the document.
* **C101 Compact fonts: numbers, dictionaries, indexes** - Model/Cff.lean is the reader on the bytes of the file; Spec/Cff.lean says how Technical Note 5176 writes numbers, dictionaries and indexes. By induction over the written objects, at any position of any file; what the code gets wrong is refuted by instances.
* **C102 Compact fonts: glyphs** - From C101, with the maps of the charset as folds over the names.
* **C103 TrueType files: tables** - Model/TrueType.lean is the reader of the directory, with keys that are `str` or `bytes`; by induction over the entries. What create_unicode_map does after it has found the table is a parameter, since it is proved to be unreachable.
* **C104 convert_file from files to files** - Model/ConvertFile.lean composes the choice of the paths (C52), the interpreter, the five converters and UTF-8 into a function from the files before a call to the files after it. The output file is opened, and so made empty, before the input is read. Frame, locality, repetition and order follow by cases on the choice of the path; the contents from the equality with the models of the converters; UTF-8 against the relation of RFC 3629 in Spec/EncryptedFile.lean, which is proved to be unambiguous and total on scalar values.
* **C105 saving images** - Model/SaveImage.lean: `LTImage` and `save_image`, with numbers that are `int` or `float`, the stream with its cached data (C08), the bitmap writer with the file it leaves when it fails (C58), and the files of C104. The choice of the branch follows from the list of filters (C08); the contents from C58 and C08; the rest by cases. Where the code does not do what the property says there are theorems on what it does, or counterexamples. Pillow is a parameter.
* **C106 maps kept in files** - Model/CmapDb.lean: the directories, the file names, the two caches of `CMapDB`. The answers to any sequence of requests and changes of files refine an abstract machine that remembers one map per name (simulation, by induction on the sequence); stability and transparency follow from invariants of the caches. What `pickle.loads` makes of a file is a parameter. Counterexamples for names that are paths.
* **C107 written drawings are delivered** - Spec/Drawing.lean has a writer of whole files (pages with rectangles, lines, images, strings) and a relation between marks and items. From bytes to pages: the file is a document (C92's writer), the content stream is tokenized to the operators, every operator has its operands (so that nothing fails, C89), and an invariant of the interpreter state between two marks (identity matrix, colours, line width, empty stacks, resources in place) gives the items of each mark; induction over the marks, then over the pages.
* **C108 command line** - Model/Cli.lean: `main` of tools/pdfconvert.py from the parsed arguments on, over C104. The grammar of page lists in Spec/Cli.lean; end to end with C92, C98. Output type and output file refuted (partial).
* **C109 distance of boxes** - Model/Utilities.lean: `vecBetweenBoxes` over exact numbers, against overlap and distance of points.
* **C110 complete resolution** - Model/Utilities.lean: `resolve_all` with fuel over a resolver, against an inductive relation; dictionaries and cycles refuted (partial).
* **C111 names of attributes** - Model/AttrNames.lean: the two substitutions and `lower`, against a definition of the words of a key by where they begin (Spec/AttrNames.lean); the words exist and are unique. Keys that differ in capitals only are refuted (partial).
* **C112 colours and paths in the documents** - Model/Dumps.lean: `json.dumps`, `normalize_color_values`, `get_color` and the dictionaries of colours and paths, so that the environment of the converters is a function of the texts of floats and of fonts. Against the grammar of JSON (C77), attribute values of XML (C78) and YAML scalars (C85).
* **C113 only the objects count** - Spec/SameObjects.lean: the objects and the catalogue of a plain or encrypted file, in terms of its sections (C90, C93). Opening gives the same resolver and the same catalogue; with a page in the page tree the numbers of the objects are not used (`pages_tree_only`), so the rest of the program is the same function of the same arguments. Corollaries for written, encrypted and cut-off files.
* **C114 PDF 1.5 files** - Spec/PackedWrite.lean: a writer with an object stream (7.5.7) and a cross-reference stream (7.5.8), with a coding of each that the filters undo. The sections and the objects of the written file are found as C90 needs them; then the theorems about text and drawings apply as to plain files (C113). The hypotheses are shown for uncoded and for deflated streams.
* **C115 incremental updates** - Spec/Updates.lean: a writer of updates and the objects after them. By induction over the updates, from the oldest on: the chain of sections (C68), and the invariant that every object is at an offset known to the newest section that knows it. The scan of the file ends at the first trailer. Then C113. Deletions are refuted (partial): the entry of a deleted object is skipped, so the one in an older table counts.
* **C116 images come out of documents** - Model/SaveAll.lean is the loop of tests/test_image_writer.py over the delivered pages (C107), with `save_image` (C105), the files, and the stream objects, which may be shared between items (any sharing that identifies only equal images). Spec/SaveAll.lean: which item is which image, and what its file is to be. Invariant over the items: the images before are in their files, every stream object is fresh or keeps its decoded data (and JPEG streams are fresh), all changed files have names of images; names of different items differ (digits end where they end).
* **C117 name, descent and height of fonts** - Spec/FontExtent.lean says what a descriptor gives; Props/FontExtent.lean shows it for all four kinds of fonts (composite ones by `composite_font`, which makes them fonts of the descendant).
* **C118 drawings in JSON** - Spec/DrawingJson.lean says which object each mark becomes, in terms of the JSON document only; Props/DrawingJson.lean composes C107 (delivered marks), C77 (JSON document) and C112 (colours and paths), by induction over the marks with the colours as the invariant.
* **C119 drawings in XML** - Spec/DrawingXml.lean says which start tags each mark becomes; Props/DrawingXml.lean composes C107, C78 (XML document) and C112 in the same way; reading the attributes back is `ReadsTag` of C78.
* **C120 drawings in YAML** - Spec/DrawingYaml.lean says which mapping each mark becomes; Props/DrawingYaml.lean composes C107, the YAML document (C85) and C112 in the same way.
* **C121 drawings in HTML** - Spec/DrawingHtml.lean says which tags each mark becomes, with its path in the coordinates of its box; Props/DrawingHtml.lean composes C107 with the HTML document (C86) in the same way.
