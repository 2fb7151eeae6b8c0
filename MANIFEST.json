{
 "claims": [
  {
   "property": "C01",
   "status": "proved",
   "theorems": [
    "ascii85_roundtrip",
    "ascii85_roundtrip_encode",
    "ascii85_prefix_not_supported"
   ],
   "note": "full statement; also shows that the optional <~ prefix is not supported"
  },
  {
   "property": "C02",
   "status": "partial",
   "theorems": [
    "asciihex_roundtrip_partial",
    "asciihex_split_pair_counterexample",
    "asciihex_after_eod_counterexample"
   ],
   "note": "the code violates the documented behaviour for white space inside a pair and for data after '>'; both refuted by witnesses"
  },
  {
   "property": "C03",
   "status": "proved",
   "theorems": [
    "runlength_roundtrip",
    "runlength_complete",
    "runlength_truncated"
   ],
   "note": ""
  },
  {
   "property": "C04",
   "status": "proved",
   "theorems": [
    "lzw_roundtrip",
    "lzw_roundtrip_encode",
    "lzwEncode_spec",
    "lzw_fuel_sufficient",
    "lzw_after_eod_counterexample"
   ],
   "note": "holds for every conforming encoder output; the counterexample documents that bytes after end-of-data are decoded too"
  },
  {
   "property": "C05",
   "status": "partial",
   "theorems": [
    "png_predictor_partial",
    "png_unsupported_rejected",
    "png_average_counterexample",
    "png_sub_rgb_counterexample",
    "png_up_rgb_counterexample"
   ],
   "note": "Average, Sub with several colours and a first Up row with several colours are wrong in the code"
  },
  {
   "property": "C06",
   "status": "proved",
   "theorems": [
    "ccitt_recovers_image",
    "every_image_has_group4_data",
    "group4_data_determines_image",
    "ccitt_default_columns_fails",
    "ccitt_group3_refused"
   ],
   "note": "for K = -1 and a given Columns; the default of Columns (1728) is not applied and Group 3 is refused (both proved as limits); uncompressed mode, which is not part of PDF, is modelled but not claimed"
  },
  {
   "property": "C07",
   "status": "proved",
   "theorems": [
    "nunpack_value",
    "nunpack_bound"
   ],
   "note": ""
  },
  {
   "property": "C08",
   "status": "partial",
   "theorems": [
    "stream_data_partial",
    "stream_history",
    "bad_flate_is_empty",
    "indirect_filter_counterexample",
    "indirect_filters_counterexample",
    "indirect_params_counterexample",
    "short_params_counterexample",
    "tiff_predictor_counterexample"
   ],
   "note": "chains of any filters with parameters given directly; deflate is a parameter of the model; indirect filters or parameters, parameter arrays that are too short and the TIFF predictor are refuted; history of calls proved in full"
  },
  {
   "property": "C09",
   "status": "proved",
   "theorems": [
    "tokens_independent_of_buffer",
    "tokens_from_seek_point"
   ],
   "note": ""
  },
  {
   "property": "C10",
   "status": "proved",
   "theorems": [
    "tokenizer_terminates",
    "nexttoken_never_stuck"
   ],
   "note": ""
  },
  {
   "property": "C100",
   "status": "proved",
   "theorems": [
    "html_conversion",
    "htmlShown_unique",
    "html_cut_counterexample",
    "htmlRun_closed"
   ],
   "note": "texts without markup and environments whose texts HTML can carry (C86); which exception the converter raises is not modelled"
  },
  {
   "property": "C101",
   "status": "partial",
   "theorems": [
    "cff_number",
    "cff_dict_partial",
    "cff_index_partial",
    "cff_operator_counterexample",
    "cff_index_counterexample",
    "cff_index_end_counterexample"
   ],
   "note": "proved for dictionaries without operators of two bytes and for indexes that have objects or are followed by a zero byte; the rest is false of the code: an operator of two bytes is taken for two operators and an empty index is read with a third byte (the counterexamples); floats are exact"
  },
  {
   "property": "C102",
   "status": "partial",
   "theorems": [
    "cff_font_partial",
    "sampleCff_names",
    "cff_encoding_counterexample",
    "cff_ranges_counterexample"
   ],
   "note": "names for charsets of format 0 and dictionaries as in C101; the rest is false of the code: encodings exchange codes and glyphs, ranges of names are not read, format 2 is an AssertionError; the table of standard strings is taken from the code"
  },
  {
   "property": "C103",
   "status": "partial",
   "theorems": [
    "tables_read",
    "tables_short",
    "unicode_map_never",
    "unicode_map_counterexample"
   ],
   "note": "the first part is proved; the last one is false of the code: the tags are bytes and the str 'cmap' is looked up, so every file raises CMapNotFound (unicode_map_never)"
  },
  {
   "property": "C104",
   "status": "proved",
   "theorems": [
    "convert_file_writes",
    "convert_file_refused",
    "convert_file_frame",
    "convert_file_local",
    "convert_file_repeat",
    "convert_file_order",
    "convert_file_keeps",
    "convert_file_missing",
    "convert_file_destroys",
    "convert_file_unicode",
    "surrogate_counterexample",
    "encode_utf8",
    "encode_fails",
    "utf8_unique"
   ],
   "note": "codec utf-8; two paths are the same file only if they are the same string; nothing else changes files during the call; the bytes left after a UnicodeEncodeError are not modelled; what the converters write is C92 to C100"
  },
  {
   "property": "C105",
   "status": "partial",
   "theorems": [
    "save_jpeg",
    "save_bitmap",
    "save_raw",
    "save_coded",
    "save_frame",
    "save_undecodable",
    "save_never",
    "save_again",
    "save_stream",
    "save_float",
    "save_scaled_counterexample",
    "save_locked_counterexample",
    "save_asked_counterexample",
    "save_cmyk_counterexample",
    "save_unknown_counterexample"
   ],
   "note": "false of the code, with theorems: bitmaps have the size of the box on the page and not that of the image, and boxes of floats fail (save_float); images of eight bits are never bitmaps (save_raw); JPEG images of encrypted documents are saved enciphered, and cannot be saved after get_data; those in DeviceCMYK need PIL loaded by the caller (Pillow is a parameter)"
  },
  {
   "property": "C106",
   "status": "partial",
   "theorems": [
    "cmapdb_answers",
    "cmap_stable",
    "umap_stable",
    "cmapdb_transparent",
    "cmapdb_confined",
    "font_cmap",
    "module_unique",
    "cmap_path_counterexample",
    "cmap_parent_counterexample",
    "cmap_kind_counterexample"
   ],
   "note": "proved for names without slashes and NUL characters (stability and transparency for all names); false of the code for other names: a name from the PDF file is used as a path, so any file may be read and unpickled; unpickling is a parameter"
  },
  {
   "property": "C107",
   "status": "proved",
   "theorems": [
    "drawing_file",
    "written_drawing",
    "mark_run",
    "marks_run",
    "draw_trees",
    "string_block",
    "renderCids_placed",
    "rgb_bytes",
    "leaf_content",
    "drawObjs_table"
   ],
   "note": "rectangles are closed and painted with f, lines open and painted with S; strings with Tj after Td in one font F1; char positions for fonts that are not vertical; boxes of lines of three or more points and of images within the range of 32-bit integers (see C40 for the limit)"
  },
  {
   "property": "C108",
   "status": "partial",
   "theorems": [
    "cli_converts",
    "cli_lines",
    "cli_many",
    "cli_pages_refused",
    "cli_frame",
    "asks_pages",
    "chosen_asked",
    "cli_type_counterexample",
    "cli_output_counterexample"
   ],
   "note": "false of the code, with theorems: --output-type is ignored, and HTML is always written (cli_type_counterexample); with --output-file no conversion ever happens, the file is emptied and TypeError raised (cli_output_counterexample). Not modelled: the parsing of the command line by argparse, and codecs other than the default"
  },
  {
   "property": "C109",
   "status": "proved",
   "theorems": [
    "vec_apart",
    "vec_overlap",
    "vec_exchange",
    "vec_move"
   ],
   "note": "exact numbers; boxes that only touch do not overlap"
  },
  {
   "property": "C11",
   "status": "proved",
   "theorems": [
    "token_positions",
    "tokenize_text"
   ],
   "note": ""
  },
  {
   "property": "C110",
   "status": "partial",
   "theorems": [
    "resolve_all_partial",
    "resolve_all_noRefs",
    "resolve_all_again",
    "resolve_all_dict_counterexample",
    "resolve_all_iteritems",
    "resolve_all_cycle_counterexample"
   ],
   "note": "false of the code, with theorems: wherever a dictionary is reached, even an empty one, AttributeError is raised (iteritems); arrays that contain themselves make an endless recursion. Streams are not entered"
  },
  {
   "property": "C111",
   "status": "partial",
   "theorems": [
    "words_exist",
    "words_unique",
    "snake_words",
    "snake_keyWords",
    "snake_name",
    "snake_distinct",
    "block_attributes",
    "snake_distinct_counterexample"
   ],
   "note": "distinct names for keys made of words with one capital each; keys that differ only in capitals, as fontName and FontName, get one name (counterexample), and then one attribute is lost. str.lower is modelled for ASCII only"
  },
  {
   "property": "C112",
   "status": "proved",
   "theorems": [
    "color_texts",
    "intText_inj",
    "color_json",
    "color_read",
    "color_distinct",
    "path_json",
    "color_field",
    "paths_field",
    "conv_json",
    "dumps_means",
    "color_xml",
    "values_xml",
    "printable_xml",
    "colors_yaml",
    "color_printable",
    "path_printable"
   ],
   "note": "the texts of floats, and the texts of values that are neither numbers nor ASCII names, are parameters; XML for printable ASCII, YAML for values of letters, digits, dots and signs; json.dumps of the standard library is modelled with its defaults"
  },
  {
   "property": "C113",
   "status": "proved",
   "theorems": [
    "same_objects",
    "same_output",
    "locked_transparent",
    "recovery_transparent",
    "plain_written",
    "locked_written",
    "rest_written"
   ],
   "note": "if no page is found in the page tree the program looks at all objects in the order of the sections, which this does not cover"
  },
  {
   "property": "C114",
   "status": "proved",
   "theorems": [
    "packed_text",
    "packed_drawing",
    "packed_plain",
    "packed_sections",
    "packed_objects",
    "packable_uncoded",
    "packable_flated"
   ],
   "note": "the coded data must not contain endstream, there are fewer than 65536 objects and offsets are below 2^32; the file has two more objects than the document, the two streams; the compressor is a parameter that the inflate of zlib undoes"
  },
  {
   "property": "C115",
   "status": "partial",
   "theorems": [
    "update_transparent",
    "update_transparent_partial",
    "edits_transparent",
    "updated_sections",
    "updated_objects",
    "updated_plain",
    "deleted_counterexample"
   ],
   "note": "updates that delete nothing; a deleted object is found as it was before, in the program (deleted_counterexample), and update_transparent says that deletions are ignored throughout. Generation numbers are 0; updates with tables, not with cross-reference streams; HasPage as in C113"
  },
  {
   "property": "C116",
   "status": "proved",
   "theorems": [
    "images_saved",
    "ascii_images_saved",
    "images_until",
    "packed_images_saved",
    "same_images"
   ],
   "note": "The loop of tests/test_image_writer.py over the pages of a written document. CMYK JPEG images and one-bit images in boxes of float size are not covered: see C105 for what happens to them."
  },
  {
   "property": "C117",
   "status": "proved",
   "theorems": [
    "simple_font_extents",
    "type3_font_extents",
    "cid_font_extents",
    "composite_font"
   ],
   "note": "fonts that buildFont builds; default widths of CID fonts are not 0 (cid_default_zero_counterexample); the negative width of fonts without a box is what the code does"
  },
  {
   "property": "C118",
   "status": "proved",
   "theorems": [
    "drawing_json"
   ],
   "note": "documents as in C107, in Helvetica; the texts of numbers (JSON numbers), descriptors and image names are parameters; boxes of curves and images within the range of 32-bit integers (C40)"
  },
  {
   "property": "C119",
   "status": "proved",
   "theorems": [
    "drawing_xml"
   ],
   "note": "documents as in C107, in Helvetica; the first line (`<?xml version=\"1.0.0\" encoding=... ?>` of the writer) is not XML and is not part of the body: see C78; texts of numbers, descriptors and image names are parameters; boxes of curves and images within the range of 32-bit integers (C40)"
  },
  {
   "property": "C12",
   "status": "proved",
   "theorems": [
    "string_roundtrip",
    "string_has_spelling",
    "unknown_escape_drops_byte",
    "octal_overflow_fails"
   ],
   "note": "all spellings of the statement and more; the last two theorems record what the code does with other escapes"
  },
  {
   "property": "C120",
   "status": "proved",
   "theorems": [
    "drawing_yaml"
   ],
   "note": "documents as in C107, in Helvetica; the strings are empty or plain scalars, because the writer does not quote them (witnesses: C85); texts of numbers, descriptors and image names are parameters; boxes of curves and images within the range of 32-bit integers (C40)"
  },
  {
   "property": "C121",
   "status": "proved",
   "theorems": [
    "drawing_html"
   ],
   "note": "documents as in C107, in Helvetica; the strings have no markup, because the writer does not escape it (witness: C86), and shapes and paths are more than one point, because the writer divides by zero for others (witness: C86); texts of numbers, integers in colours, fonts and image names are parameters; paths of three points or more and images within the range of 32-bit integers (C40)"
  },
  {
   "property": "C13",
   "status": "partial",
   "theorems": [
    "hexstring_roundtrip_partial",
    "hex_odd_digit_wrong"
   ],
   "note": "the odd-digit clause is false of the code (refuted by a witness)"
  },
  {
   "property": "C14",
   "status": "proved",
   "theorems": [
    "name_roundtrip",
    "name_has_spelling"
   ],
   "note": "interning is C57"
  },
  {
   "property": "C15",
   "status": "proved",
   "theorems": [
    "integer_numeral",
    "integer_roundtrip",
    "last_token_needs_delimiter"
   ],
   "note": ""
  },
  {
   "property": "C16",
   "status": "proved",
   "theorems": [
    "gap_transparent",
    "comments_and_white_transparent",
    "tokenize_text_prefix"
   ],
   "note": ""
  },
  {
   "property": "C17",
   "status": "proved",
   "theorems": [
    "gap_transparent",
    "comments_and_white_transparent",
    "tokenize_text"
   ],
   "note": ""
  },
  {
   "property": "C18",
   "status": "proved",
   "theorems": [
    "nextline_lines",
    "lines_concat"
   ],
   "note": ""
  },
  {
   "property": "C19",
   "status": "proved",
   "theorems": [
    "revreadlines_suffix",
    "revreadlines_independent",
    "pieces_unique"
   ],
   "note": ""
  },
  {
   "property": "C20",
   "status": "proved",
   "theorems": [
    "objstm_objects",
    "content_objects",
    "indirect_object",
    "print_parse",
    "print_parse_indirect",
    "objstm_reference_fails"
   ],
   "note": "for every spelling of the tokens; a bare reference at the top level of an object stream is refuted (witness)"
  },
  {
   "property": "C21",
   "status": "proved",
   "theorems": [
    "dictionary_semantics",
    "odd_dictionary_rejected"
   ],
   "note": ""
  },
  {
   "property": "C22",
   "status": "proved",
   "theorems": [
    "stray_bracket_ignored"
   ],
   "note": "for all three token-driven parsers"
  },
  {
   "property": "C23",
   "status": "proved",
   "theorems": [
    "table_section"
   ],
   "note": "for every layout of the table that the code accepts, any buffer size; a malformed table raises NameError because PDFNoValidXRef is not imported in PDFXRef.py"
  },
  {
   "property": "C24",
   "status": "partial",
   "theorems": [
    "xstream_pos",
    "xstream_absent",
    "stream_section",
    "rows_pos",
    "xstream_objids_partial",
    "xstream_objids_counterexample"
   ],
   "note": "get_pos proved for all ranges and widths 0-4 and 8; get_objids proved for one range and refuted (witness) for two"
  },
  {
   "property": "C25",
   "status": "proved",
   "theorems": [
    "cache_transparency",
    "answer_unique",
    "asking_twice"
   ],
   "note": "the decryption function is fixed during the history, as it is once a document has been opened; objects cached while the Encrypt dictionary itself is being read are outside the statement"
  },
  {
   "property": "C26",
   "status": "partial",
   "theorems": [
    "newest_wins",
    "found_object",
    "missing_object",
    "missing_only_partial",
    "newest_object",
    "newest_object_printed",
    "missing_stream_hides_older"
   ],
   "note": "proved for the first cross-reference section that yields the object; refuted (witness) where a newer entry names an object stream that does not exist"
  },
  {
   "property": "C27",
   "status": "proved",
   "theorems": [
    "stream_payload",
    "stream_fallback",
    "stream_object",
    "stream_roundtrip",
    "fallback_truncates",
    "short_length"
   ],
   "note": "for every spelling of the dictionary, every payload and buffer size; in fallback mode the data ends at the first endstream (witness that this truncates a payload)"
  },
  {
   "property": "C28",
   "status": "proved",
   "theorems": [
    "resolve_chain",
    "refers_not_ref",
    "refers_unique",
    "cycle_diverges"
   ],
   "note": "for every chain length; a reference cycle makes resolve1 loop for ever (cycle_diverges)"
  },
  {
   "property": "C29",
   "status": "proved",
   "theorems": [
    "find_last_startxref",
    "no_startxref",
    "startxref_first_line",
    "startxref_without_number"
   ],
   "note": "a file that ends with startxref makes find_xref raise TypeError (witness)"
  },
  {
   "property": "C30",
   "status": "proved",
   "theorems": [
    "pages_of_tree",
    "pages_without_tree"
   ],
   "note": "every page tree whose nodes are references; the recursion limit of Python is not modelled"
  },
  {
   "property": "C31",
   "status": "proved",
   "theorems": [
    "pages_of_tree"
   ],
   "note": "the catalog counts as the outermost ancestor"
  },
  {
   "property": "C32",
   "status": "partial",
   "theorems": [
    "select_partial",
    "select_exact",
    "select_first",
    "select_error",
    "select_counterexample"
   ],
   "note": "proved unless a page number beyond maxpages is asked for and maxpages-1 is not; refuted (witness) then; select_exact says what is yielded in all cases"
  },
  {
   "property": "C33",
   "status": "proved",
   "theorems": [
    "page_coordinates",
    "initial_turns",
    "rotation_normalised"
   ],
   "note": "numbers are exact rationals: the rounding of floats is not modelled"
  },
  {
   "property": "C34",
   "status": "partial",
   "theorems": [
    "save_restore_partial",
    "restore_graphics",
    "restore_empty",
    "restore_counterexample"
   ],
   "note": "matrix and text parameters are restored for all balanced programs; colours and line parameters are not (witness): Q assigns them to an attribute that nothing reads"
  },
  {
   "property": "C35",
   "status": "partial",
   "theorems": [
    "operands_exact",
    "unknown_operator",
    "too_few",
    "leftovers_harmless",
    "too_few_counterexample"
   ],
   "note": "operators with operands before them get exactly those, for all programs; an operator without operands takes those left by an unknown operator (witness)"
  },
  {
   "property": "C36",
   "status": "proved",
   "theorems": [
    "mult_apply",
    "mult_assoc",
    "mult_id",
    "apply_id",
    "apply_injective",
    "translate_apply",
    "norm_apply",
    "cm_chain"
   ],
   "note": "numbers are exact rationals"
  },
  {
   "property": "C37",
   "status": "partial",
   "theorems": [
    "gray_cmyk_partial",
    "rgb",
    "custom_colour",
    "select_space",
    "cmyk_counterexample"
   ],
   "note": "all operators but k, which sets the stroke colour (witness)"
  },
  {
   "property": "C38",
   "status": "partial",
   "theorems": [
    "line_operator",
    "text_lines_partial",
    "line_start",
    "quote_is",
    "double_quote_counterexample"
   ],
   "note": "all operators but \", which does not advance a line (proved)"
  },
  {
   "property": "C39",
   "status": "partial",
   "theorems": [
    "show_text_partial",
    "show_string",
    "show_needs",
    "adjustment_counterexample",
    "spacing_counterexample"
   ],
   "note": "exact positions of all glyphs for every array; an adjustment before the first glyph also adds the character spacing (witness)"
  },
  {
   "property": "C40",
   "status": "partial",
   "theorems": [
    "from_points",
    "text_boxes",
    "paint_segment",
    "paint_rectangle",
    "paint_curve_partial",
    "from_points_counterexample",
    "curve_counterexample"
   ],
   "note": "text blocks, character blocks, lines and rectangles; other curves have the box of their end points before the transformation (witness)"
  },
  {
   "property": "C41",
   "status": "partial",
   "theorems": [
    "paint_segment",
    "paint_rectangle",
    "paint_re",
    "paint_curve_partial",
    "paint_once",
    "paint_rotated",
    "rotated_counterexample"
   ],
   "note": "a closed quadrilateral that is not parallel to the axes is dropped (witness)"
  },
  {
   "property": "C42",
   "status": "partial",
   "theorems": [
    "distances",
    "relations_symmetric",
    "distance_zero",
    "overlaps_partial",
    "overlap_counterexample",
    "overlap_or_distance"
   ],
   "note": "hoverlap/voverlap is the smaller difference of opposite corners, which exceeds the intersection when one projection contains the other (witness); proved equal otherwise"
  },
  {
   "property": "C43",
   "status": "partial",
   "theorems": [
    "encoding_differences_partial",
    "applyDiff_text",
    "textOf_unique",
    "encoding_example",
    "encoding_unknown_glyph_counterexample",
    "encoding_uni_name_counterexample"
   ],
   "note": "every differences array and call history; names like uni0041 stand for the wrong character and an entry whose name stands for no character keeps the text of the base encoding (witness)"
  },
  {
   "property": "C44",
   "status": "proved",
   "theorems": [
    "widths_array",
    "widths2_array",
    "widthOf_unique",
    "widths_total"
   ],
   "note": "references inside of W are skipped (widths_reference_counterexample): not a well-formed array for this function"
  },
  {
   "property": "C45",
   "status": "proved",
   "theorems": [
    "cmap_decode_splits",
    "cmap_decode_codes",
    "cmap_table_decodes",
    "identity_decode",
    "identity_decode_total"
   ],
   "note": "CMap objects; the files of predefined CMaps are not modelled"
  },
  {
   "property": "C46",
   "status": "proved",
   "theorems": [
    "tounicode_map",
    "tounicode_char",
    "tounicode_range",
    "textOfCode_total",
    "tounicode_example"
   ],
   "note": "programs of Spec.CMapText: codes of one to four bytes, ranges that do not overflow"
  },
  {
   "property": "C47",
   "status": "proved",
   "theorems": [
    "simple_font_text",
    "type1_font_text",
    "cid_font_text",
    "composite_font",
    "composite_tounicode",
    "text_state_char",
    "sampleSimple_run"
   ],
   "note": "fonts that get_font builds; the entries of the dictionaries as in Spec.Fonts (texts of ToUnicode maps in UTF-16, base encoding given directly); cid_no_fallback_counterexample: a CID font with a ToUnicode map never asks the character collection"
  },
  {
   "property": "C48",
   "status": "proved",
   "theorems": [
    "font_cache",
    "font_cache_transparent",
    "firstBuilt_unique"
   ],
   "note": "object number 0, which no object has, counts as no number"
  },
  {
   "property": "C49",
   "status": "partial",
   "theorems": [
    "json_writer_partial",
    "json_unique",
    "json_recovered_partial",
    "json_backslash_counterexample",
    "json_control_counterexample"
   ],
   "note": "every tree of calls whose texts have no backslash and no control character; those are not escaped (witnesses)"
  },
  {
   "property": "C50",
   "status": "partial",
   "theorems": [
    "xml_writer_partial",
    "xml_unique",
    "xml_recovered_partial",
    "xml_escaped_text",
    "xml_text_element",
    "xml_header_counterexample",
    "html_text_counterexample",
    "xml_raw_counterexample"
   ],
   "note": "every tree of calls whose texts and attribute values are well-formed, as escaped text is; the first line is not an XML declaration, and raw text, which the HTML converter writes, is not escaped (witnesses)"
  },
  {
   "property": "C51",
   "status": "proved",
   "theorems": [
    "enc_reads",
    "enc_safe",
    "enc_injective",
    "reads_unique"
   ],
   "note": "for every string of code points, with the default codec"
  },
  {
   "property": "C52",
   "status": "partial",
   "theorems": [
    "default_output",
    "output_fresh_partial",
    "output_type",
    "output_refused",
    "overwrite_counterexample"
   ],
   "note": "an input whose extension is the output type, or an explicit output equal to the input, is overwritten (witness)"
  },
  {
   "property": "C53",
   "status": "proved",
   "theorems": [
    "rc4_involution",
    "rc4_injective",
    "decrypt_rc4_encrypted"
   ],
   "note": "RC4 itself is modelled, MD5 is a parameter (any function with 16-byte results); keys of 5 to 256 bytes as the library requires; object and generation numbers below 2^32"
  },
  {
   "property": "C54",
   "status": "proved",
   "theorems": [
    "permissions"
   ],
   "note": "for every integer P"
  },
  {
   "property": "C55",
   "status": "partial",
   "theorems": [
    "find_exact",
    "find_inside",
    "plane_members",
    "plane_iter",
    "find_misses",
    "find_stale"
   ],
   "note": "every history in which an object is added only while it is not in the plane, with bounds at non-negative coordinates or all coordinates integers; fractional negative coordinates and double insertion fail (witnesses)"
  },
  {
   "property": "C56",
   "status": "proved",
   "theorems": [
    "uniq_firsts",
    "uniq_items",
    "choplist_groups",
    "choplist_exact",
    "choplist_nonpos",
    "pick_first_max",
    "pick_empty",
    "csort_stable",
    "stable_unique",
    "csort_repeated"
   ],
   "note": "csort with repeated items is not stable (witness)"
  },
  {
   "property": "C57",
   "status": "proved",
   "theorems": [
    "intern_identity",
    "intern_names"
   ],
   "note": "for every sequence of calls"
  },
  {
   "property": "C58",
   "status": "partial",
   "theorems": [
    "bmp_rows",
    "bmp_size_partial",
    "bmp_greys",
    "bmp_write_all",
    "bmp_all_depths"
   ],
   "note": "the padding of the top row is missing at the end of the file, so the size field is up to 3 too large; write_all always writes 1 bit per pixel (witness)"
  },
  {
   "property": "C59",
   "status": "proved",
   "theorems": [
    "decode_utf16",
    "decode_docencoding",
    "decode_ascii",
    "decode_injective"
   ],
   "note": "every text in UTF-16BE; every byte string in PDFDocEncoding"
  },
  {
   "property": "C60",
   "status": "partial",
   "theorems": [
    "content_read",
    "image_separator_counterexample",
    "image_word_counterexample",
    "image_end_counterexample",
    "image_odd_counterexample"
   ],
   "note": "exact for data followed by CR, CR LF, LF (if the data does not end with CR or LF) or directly by EI; a space before EI stays in the data, EI followed by white space inside a word ends it, EEI is missed, EI at the very end of the content loses the image (witnesses)"
  },
  {
   "property": "C61",
   "status": "partial",
   "theorems": [
    "streams_cut",
    "content_read",
    "streams_separated",
    "streams_merge_counterexample",
    "streams_id_counterexample"
   ],
   "note": "read as the direct concatenation wherever it is cut, except right after I or ID; no separator is inserted, so tokens merge (witness); streams that end with white space are read one after another"
  },
  {
   "property": "C62",
   "status": "proved",
   "theorems": [
    "lookup_names",
    "destinations",
    "old_destinations",
    "no_destinations",
    "names_counterexample",
    "root_limits_counterexample"
   ],
   "note": "names given as bytes; empty values below a node with children are lost, and limits at the root turn a missing name into None (both proved)"
  },
  {
   "property": "C63",
   "status": "proved",
   "theorems": [
    "outlines",
    "no_outlines",
    "outline_bad_title",
    "outlines_counterexample"
   ],
   "note": "the items directly below the root are at level 1; the recursion limit of Python is not modelled"
  },
  {
   "property": "C64",
   "status": "partial",
   "theorems": [
    "iterations_repeat",
    "first_iteration",
    "empty_document",
    "abandoned_iteration",
    "iterations_consecutive_partial"
   ],
   "note": "complete iterations are identical; after an abandoned first iteration the next one gives only the pages that were loaded (proved)"
  },
  {
   "property": "C65",
   "status": "partial",
   "theorems": [
    "object_reading_terminates_partial",
    "negative_length_diverges"
   ],
   "note": "holds if no Length is negative (in particular always in fallback mode); refuted for a negative Length by a 39 byte file on which the parser loops forever"
  },
  {
   "property": "C66",
   "status": "proved",
   "theorems": [
    "objstm_object",
    "objstm_object_printed",
    "getObjects_complete"
   ],
   "note": ""
  },
  {
   "property": "C67",
   "status": "proved",
   "theorems": [
    "decipherAll_ok",
    "encrypted_object",
    "stream_lookup"
   ],
   "note": "strings inside the dictionary of a stream are not deciphered by the code"
  },
  {
   "property": "C68",
   "status": "proved",
   "theorems": [
    "chain_sections",
    "open_sections",
    "updated_object",
    "broken_chain",
    "open_broken"
   ],
   "note": "references in Prev/XRefStm are taken to be direct integers in the chain specification"
  },
  {
   "property": "C69",
   "status": "proved",
   "theorems": [
    "catalog_of_newest",
    "no_catalog"
   ],
   "note": "documents without encryption"
  },
  {
   "property": "C70",
   "status": "proved",
   "theorems": [
    "recover"
   ],
   "note": "documents of objects, streams and object streams that begin lines; an object whose text is not well formed is outside the specification"
  },
  {
   "property": "C71",
   "status": "partial",
   "theorems": [
    "form_partial",
    "form_counterexample",
    "run_yields"
   ],
   "note": "the matrix of the form is not applied to its content (witness)"
  },
  {
   "property": "C72",
   "status": "partial",
   "theorems": [
    "page_again",
    "page_again_partial",
    "page_again_counterexample",
    "run_parts"
   ],
   "note": "the state is kept between iterations: the second iteration yields what repeated content would yield (proved), which can differ (witness)"
  },
  {
   "property": "C73",
   "status": "proved",
   "theorems": [
    "user_password",
    "owner_password",
    "key_checked",
    "wrong_password",
    "unsigned_permissions"
   ],
   "note": "MD5 is a parameter; P in the signed 32-bit range (written unsigned it is refused: unsigned_permissions); passwords in Latin-1; the owner password gives the user's key unless it is itself accepted as a user password"
  },
  {
   "property": "C74",
   "status": "partial",
   "theorems": [
    "decrypt_aes_partial",
    "identity_passes",
    "aes_short"
   ],
   "note": "the block cipher and MD5 are parameters; the padding of 1 to 16 bytes is never removed from the plaintext, and an empty encrypted string is refused"
  },
  {
   "property": "C75",
   "status": "proved",
   "theorems": [
    "version5_passwords",
    "version5_wrong"
   ],
   "note": "SHA-256 and AES are parameters; the user password gives the key unless it collides with the owner's hash"
  },
  {
   "property": "C76",
   "status": "proved",
   "theorems": [
    "page_text_total",
    "text_file"
   ],
   "note": "the items of the interpreter model; the encoding with the codec is not modelled"
  },
  {
   "property": "C77",
   "status": "partial",
   "theorems": [
    "json_document_partial",
    "json_empty_block_counterexample",
    "json_hidden_text_counterexample"
   ],
   "note": "texts without backslashes and control characters, text blocks with a character, font descriptors whose keys are not those of the converter; an empty text block makes invalid JSON and a descriptor key text hides the text (witnesses); json.dumps and str of floats are parameters"
  },
  {
   "property": "C78",
   "status": "partial",
   "theorems": [
    "xml_document_partial",
    "xml_header_counterexample",
    "xml_hidden_size_counterexample"
   ],
   "note": "descriptor values without markup and with attribute names that are not those of the converter (witness); the first line is not an XML declaration; str of floats and convert_capcase_to_snakecase are parameters"
  },
  {
   "property": "C79",
   "status": "proved",
   "theorems": [
    "builtin_encodings",
    "builtin_tables",
    "adobeLatin_example"
   ],
   "note": "the glyph list is a parameter that knows the Adobe Latin names"
  },
  {
   "property": "C80",
   "status": "partial",
   "theorems": [
    "type1_encoding",
    "lastNamed_unique",
    "type1_font_text",
    "type1_example",
    "type1_run_example",
    "type1_standard_counterexample"
   ],
   "note": "font programs that put names at codes; a program that names StandardEncoding gives no characters at all (witness)"
  },
  {
   "property": "C81",
   "status": "partial",
   "theorems": [
    "simple_font_widths",
    "standard_font_widths",
    "type3_font_widths",
    "cid_font_widths",
    "cid_font_vertical",
    "standard_widths_counterexample",
    "cid_default_zero_counterexample",
    "type3_skew_counterexample"
   ],
   "note": "a standard font ignores its own Widths; DW 0 is replaced by MissingWidth; a skewed font matrix gives wrong widths (witnesses)"
  },
  {
   "property": "C82",
   "status": "proved",
   "theorems": [
    "content_terminates"
   ],
   "note": ""
  },
  {
   "property": "C83",
   "status": "proved",
   "theorems": [
    "ccitt_whole_rows_or_invalid",
    "ccitt_no_columns"
   ],
   "note": "with Columns 0 an IndexError escapes (proved as a limit)"
  },
  {
   "property": "C84",
   "status": "partial",
   "theorems": [
    "yaml_writer_partial",
    "yaml_recovered_partial",
    "yaml_unique",
    "yaml_nested_object_counterexample"
   ],
   "note": "for scalars that are plain (or lists on one line) and keys that are words; scalars are not quoted, so other texts are not recovered; an object as first child of a nested object is written beside it (refuted); scalars are compared by their text"
  },
  {
   "property": "C85",
   "status": "partial",
   "theorems": [
    "yaml_document_partial",
    "yaml_forged_page_counterexample",
    "yaml_trailing_space_counterexample",
    "yaml_hidden_text_counterexample",
    "yaml_no_children_counterexample"
   ],
   "note": "for texts that are empty or plain scalars; other texts are refuted (a text can make the file of a document with one more page; spaces at the end are lost); a page without items has null for children"
  },
  {
   "property": "C86",
   "status": "partial",
   "theorems": [
    "html_document_partial",
    "html_refused",
    "html_dot_counterexample",
    "html_color_counterexample",
    "html_markup_counterexample"
   ],
   "note": "exact condition of failure proved; texts with markup characters are written without escape and colours without components or painted points make the conversion fail (all refuted)"
  },
  {
   "property": "C87",
   "status": "partial",
   "theorems": [
    "svg_picture_partial",
    "svg_data_unique",
    "svg_view",
    "svg_matrix_counterexample",
    "html_operator_v_counterexample"
   ],
   "note": "curves with a height and at least the width 1/100; steps made by v and y are left out, and the box is transformed by the matrix but the points are not (both refuted)"
  },
  {
   "property": "C88",
   "status": "partial",
   "theorems": [
    "text_extracted",
    "extract_page",
    "empty_string_counterexample",
    "form_ignore_counterexample",
    "underscore_counterexample"
   ],
   "note": "the specification reads the text off the operators, with operands directly before each text operator; operators with an underscore, which are taken for others, are excluded (refuted); bad characters in forms are not ignored (refuted)"
  },
  {
   "property": "C89",
   "status": "proved",
   "theorems": [
    "well_formed_page",
    "extract_wellFormed",
    "empty_string_counterexample"
   ],
   "note": "strings without characters make the interpreter fail (proved as a limit); an operator d, ri or a colour operator may have any operands"
  },
  {
   "property": "C90",
   "status": "proved",
   "theorems": [
    "file_text",
    "helvetica_document",
    "no_contents_counterexample"
   ],
   "note": "files that are not encrypted (see C93 for the others); filters of object streams and cross-reference streams given directly; a page without Contents ends the conversion with PSEOF (proved as a limit); well-formed as in C89; the encoding of the text with the codec is not modelled"
  },
  {
   "property": "C91",
   "status": "proved",
   "theorems": [
    "written_file",
    "recovered_file"
   ],
   "note": "documents that are not encrypted, without Prev and XRefStm; numbers from 1 on, streams whose data do not contain endstream"
  },
  {
   "property": "C92",
   "status": "proved",
   "theorems": [
    "helvetica_document",
    "written_text",
    "written_ascii",
    "sample_furnished"
   ],
   "note": "lines that are not empty; the glyph list and the metrics of Helvetica are parameters that have to meet Spec.Furnished"
  },
  {
   "property": "C93",
   "status": "partial",
   "theorems": [
    "encrypted_text",
    "extraction_refused",
    "password_refused",
    "no_password_counterexample"
   ],
   "note": "the last part of the claim is false of the code (no_password_counterexample: the password None raises AttributeError, also for the empty user password); MD5, SHA-256 and AES are parameters; with AES the padding of the data is read as part of them (C74); strings in the dictionaries of streams are taken as stored, since the code does not decrypt them; a wrong password is a NameError, as PDFPasswordIncorrect is not imported"
  },
  {
   "property": "C94",
   "status": "proved",
   "theorems": [
    "locked_file",
    "locked_text",
    "locked_refused"
   ],
   "note": "RC4, revisions 2 and 3; streams whose encrypted data do not contain endstream; dictionaries of streams are written as they are; the owner password unless it is itself accepted as a user password"
  },
  {
   "property": "C95",
   "status": "proved",
   "theorems": [
    "unicode_document",
    "codes_text",
    "unicode_text"
   ],
   "note": "lines that are not empty; the ToUnicode map is written in hexadecimal (ASCIIHexDecode), the contents as they are"
  },
  {
   "property": "C96",
   "status": "proved",
   "theorems": [
    "file_pages",
    "encrypted_pages",
    "written_pages",
    "unicode_written_pages"
   ],
   "note": "JSON, YAML, XML and HTML for items that these formats can carry in the code (see C77, C78, C85, C86); that YAML has the same text is C85"
  },
  {
   "property": "C97",
   "status": "proved",
   "theorems": [
    "items_from",
    "delivered_from",
    "no_strings_no_text",
    "no_xobjects_no_forms"
   ],
   "note": "all inputs; with a form in which an exception comes nothing of the form is delivered, as in the code"
  },
  {
   "property": "C98",
   "status": "proved",
   "theorems": [
    "written_lines",
    "unicode_written_lines",
    "lines_converted"
   ],
   "note": "lines that are not empty; JSON for pages with at least one line (the box of an empty text block is None, C77), for lines without backslashes and control characters, and for fonts whose descriptors can be written; YAML for lines that are plain scalars, XML and HTML for characters of XML, HTML without markup (see C77, C78, C85, C86)"
  },
  {
   "property": "C99",
   "status": "proved",
   "theorems": [
    "failed_conversion",
    "finished_conversion",
    "unopened_conversion",
    "xml_cut_counterexample"
   ],
   "note": "exceptions of the parser and the interpreter; JSON, YAML and XML for items that these formats can carry (C77, C78, C85); for HTML see C100; failures of the file system are not modelled"
  }
 ]
}