{
 "claims": [
  {
   "property": "C01",
   "status": "proved",
   "theorems": [
    "Jpy.C01_verdict"
   ],
   "note": "Verdict in the report is true exactly when no test in the report failed."
  },
  {
   "property": "C02",
   "status": "proved",
   "theorems": [
    "Jpy.C02_failure",
    "Jpy.C02_consistent"
   ],
   "note": "The report is consistent whenever the analysis fails internally; success and verdict agree otherwise."
  },
  {
   "property": "C03",
   "status": "proved",
   "theorems": [
    "Jpy.C03_verbose"
   ],
   "note": "Verbose and plain runs agree on the verdict, properties, warnings and failed tests."
  },
  {
   "property": "C04",
   "status": "proved",
   "theorems": [
    "Jpy.C04_failed_tests"
   ],
   "note": "Without verbose, exactly the failed tests are listed."
  },
  {
   "property": "C05",
   "status": "proved",
   "theorems": [
    "Jpy.C05_nullxml"
   ],
   "note": "--nullxml does not change the verdict."
  },
  {
   "property": "C06",
   "status": "proved",
   "theorems": [
    "Jpy.C06_packetmarkers"
   ],
   "note": "--packetmarkers only adds packet marker properties."
  },
  {
   "property": "C07",
   "status": "proved",
   "theorems": [
    "Jpy.C07_mix"
   ],
   "note": "MIX output occurs only for valid files and only when requested."
  },
  {
   "property": "C08",
   "status": "proved",
   "theorems": [
    "Jpy.C08_boxes",
    "Jpy.C08_segments"
   ],
   "note": "Every test of every box and segment reached reaches the report."
  },
  {
   "property": "C09",
   "status": "proved",
   "theorems": [
    "Jpy.C09_walk",
    "Jpy.C09_depth",
    "Jpy.C09_report"
   ],
   "note": "The box walk of the code agrees with the declarative description of the box sequence, at all nesting depths, and the report shows exactly those boxes."
  },
  {
   "property": "C10",
   "status": "proved",
   "theorems": [
    "Jpy.C10_roundtrip"
   ],
   "note": "Files written from a box list are read back as that list."
  },
  {
   "property": "C11",
   "status": "partial",
   "theorems": [
    "Jpy.C11_bound",
    "Jpy.C11_exact",
    "Jpy.C11_codestreams",
    "Jpy.C11_partial",
    "Jpy.C11_false"
   ],
   "note": "C11_false: the property as stated is false, PLT or PLM data ending with a continuation byte loop for ever. C11_exact: exactly which contents never end (NeverEnds), C11_bound: all others end within 2 * bytes + 6 rounds of every loop over boxes, marker segments, tile-parts and packet lengths. C11_partial: a simpler sufficient condition."
  },
  {
   "property": "C12",
   "status": "partial",
   "theorems": [
    "Jpy.C12_others_partial",
    "Jpy.C12_plt_partial",
    "Jpy.C12_plm_partial",
    "Jpy.C12_hypothesis",
    "Jpy.C12_false"
   ],
   "note": "Ends for all segments other than PLT/PLM, and for PLT/PLM under the stated condition. C12_false proves the negation of the full statement."
  },
  {
   "property": "C13",
   "status": "partial",
   "theorems": [
    "Jpy.C13_plt_values",
    "Jpy.C13_plm_values",
    "Jpy.C13_plt_partial",
    "Jpy.C13_plm_partial",
    "Jpy.C13_false"
   ],
   "note": "Exact for lengths of at most 14 bits. C13_false: longer packet lengths are decoded modulo 2^14."
  },
  {
   "property": "C14",
   "status": "partial",
   "theorems": [
    "Jpy.C14_exact",
    "Jpy.C14_cycle",
    "Jpy.C14_partial",
    "Jpy.C14_false"
   ],
   "note": "C14_partial: the chain advances where SOT segments are complete. C14_false: a SOT segment without tile-part length makes it jump backwards for ever. C14_cycle: only these do; C14_exact: exactly which codestreams are followed for ever."
  },
  {
   "property": "C15",
   "status": "proved",
   "theorems": [
    "Jpy.C15_unsigned",
    "Jpy.C15_sentinel",
    "Jpy.C15_range",
    "Jpy.C15_signed",
    "Jpy.C15_integer"
   ],
   "note": "Byte conversions are exact on complete fields and give the sentinel otherwise."
  },
  {
   "property": "C16",
   "status": "proved",
   "theorems": [
    "Jpy.C16_signature",
    "Jpy.C16_ftyp",
    "Jpy.C16_file"
   ],
   "note": "Signature and file type boxes, box level and file level."
  },
  {
   "property": "C17",
   "status": "proved",
   "theorems": [
    "Jpy.C17_layout",
    "Jpy.C17_order"
   ],
   "note": "Required boxes and their order."
  },
  {
   "property": "C18",
   "status": "proved",
   "theorems": [
    "Jpy.C18_file",
    "Jpy.C18_header"
   ],
   "note": "JP2 header superbox contents, box level and file level."
  },
  {
   "property": "C19",
   "status": "partial",
   "theorems": [
    "Jpy.C19_ihdr_accepted",
    "Jpy.C19_ihdr_partial",
    "Jpy.C19_ihdr_false",
    "Jpy.C19_file"
   ],
   "note": "Every accepted image header is characterised; C19_ihdr_false: the depth test of the image header never fails; C19_file: for whole valid files the depth is within range because it is compared with SIZ."
  },
  {
   "property": "C20",
   "status": "proved",
   "theorems": [
    "Jpy.C20_same_image",
    "Jpy.C20_dimensions"
   ],
   "note": "Image header and SIZ describe the same image in valid files."
  },
  {
   "property": "C21",
   "status": "proved",
   "theorems": [
    "Jpy.C21_bpcc",
    "Jpy.C21_components"
   ],
   "note": "Component numbers and depths are consistent in valid files."
  },
  {
   "property": "C22",
   "status": "proved",
   "theorems": [
    "Jpy.C22_ipr"
   ],
   "note": "IPR flag and intellectual property box agree in valid files."
  },
  {
   "property": "C23",
   "status": "proved",
   "theorems": [
    "Jpy.C23_codestream",
    "Jpy.C23_framing",
    "Jpy.C23_no_tileparts",
    "Jpy.C23_file",
    "Jpy.C23_reported"
   ],
   "note": "Codestream framing. C23_no_tileparts records that a codestream without tile-parts is accepted."
  },
  {
   "property": "C24",
   "status": "partial",
   "theorems": [
    "Jpy.C24_tiles_partial",
    "Jpy.C24_count",
    "Jpy.C24_false"
   ],
   "note": "Number of distinct tiles is checked; C24_false: tile indices beyond the image are accepted when the number of tiles matches."
  },
  {
   "property": "C25",
   "status": "partial",
   "theorems": [
    "Jpy.C25_tileparts_partial",
    "Jpy.C25_chain_partial",
    "Jpy.C25_main",
    "Jpy.C25_false"
   ],
   "note": "Tile-part rules that are checked are proved; C25_false: rules that are not enforced."
  },
  {
   "property": "C26",
   "status": "partial",
   "theorems": [
    "Jpy.C26_siz_partial",
    "Jpy.C26_siz_crash",
    "Jpy.C26_tiles"
   ],
   "note": "SIZ acceptance is characterised; reachable internal error for undefined Rsiz is proved (C26_siz_crash); the image offset is not compared with the image size."
  },
  {
   "property": "C27",
   "status": "proved",
   "theorems": [
    "Jpy.C27_cod",
    "Jpy.C27_coc",
    "Jpy.C27_cod_precincts",
    "Jpy.C27_coc_precincts"
   ],
   "note": "COD and COC acceptance and precinct sizes."
  },
  {
   "property": "C28",
   "status": "partial",
   "theorems": [
    "Jpy.C28_qcd_values_partial",
    "Jpy.C28_qcc_values",
    "Jpy.C28_qcc_values_false",
    "Jpy.C28_qcd",
    "Jpy.C28_qcc"
   ],
   "note": "QCD/QCC acceptance is exact; C28_qcc_values_false: QCC step sizes are read one byte early; QCD reports a prefix of the steps."
  },
  {
   "property": "C29",
   "status": "proved",
   "theorems": [
    "Jpy.C29_rgn",
    "Jpy.C29_crg",
    "Jpy.C29_poc"
   ],
   "note": "RGN, CRG, POC acceptance."
  },
  {
   "property": "C30",
   "status": "proved",
   "theorems": [
    "Jpy.C30_com",
    "Jpy.C30_comment_value"
   ],
   "note": "COM acceptance and comment text."
  },
  {
   "property": "C31",
   "status": "partial",
   "theorems": [
    "Jpy.C31_cap_exact",
    "Jpy.C31_cap_partial",
    "Jpy.C31_cap_truncated",
    "Jpy.C31_cap_values"
   ],
   "note": "CAP acceptance for complete segments; C31_cap_truncated: truncated segments can be accepted; C31_cap_exact: exactly which segments are accepted."
  },
  {
   "property": "C32",
   "status": "partial",
   "theorems": [
    "Jpy.C32_prf_number_exact",
    "Jpy.C32_cpf_number_exact",
    "Jpy.C32_cpf_accepted",
    "Jpy.C32_prf_accepted",
    "Jpy.C32_prf_number_partial",
    "Jpy.C32_cpf_number_partial",
    "Jpy.C32_prf_false",
    "Jpy.C32_cpf_false"
   ],
   "note": "PRF/CPF acceptance; numbers are right for one-word profiles, C32_prf_false and C32_cpf_false give counterexamples; C32_prf_number_exact, C32_cpf_number_exact: the number reported for any number of words, and when it is right."
  },
  {
   "property": "C33",
   "status": "proved",
   "theorems": [
    "Jpy.C33_sot"
   ],
   "note": "SOT acceptance and values."
  },
  {
   "property": "C34",
   "status": "partial",
   "theorems": [
    "Jpy.C34_res",
    "Jpy.C34_res_values",
    "Jpy.C34_res_crash",
    "Jpy.C34_superbox"
   ],
   "note": "Resolution values are exact; C34_res_crash: a zero denominator is an internal error instead of a failed test."
  },
  {
   "property": "C35",
   "status": "partial",
   "theorems": [
    "Jpy.C35_colr_accepted",
    "Jpy.C35_colr_partial",
    "Jpy.C35_colr_false"
   ],
   "note": "Accepted colour specification boxes are characterised; C35_colr_false: tags after the 4096th are not examined."
  },
  {
   "property": "C36",
   "status": "partial",
   "theorems": [
    "Jpy.C36_palette",
    "Jpy.C36_cmap",
    "Jpy.C36_cdef",
    "Jpy.C36_palette_values_exact",
    "Jpy.C36_palette_values",
    "Jpy.C36_palette_values_false"
   ],
   "note": "Palette, mapping and channel definition acceptance; palette values for columns of equal width; C36_palette_values_false otherwise; C36_palette_values_exact: the values reported for columns of any widths."
  },
  {
   "property": "C37",
   "status": "partial",
   "theorems": [
    "Jpy.C37_uinf",
    "Jpy.C37_uuid",
    "Jpy.C37_uuid_value",
    "Jpy.C37_uuid_crash",
    "Jpy.C37_ulst",
    "Jpy.C37_ulst_values"
   ],
   "note": "UUID acceptance and values; C37_uuid_crash: payloads below 16 bytes are internal errors."
  },
  {
   "property": "C38",
   "status": "proved",
   "theorems": [
    "Jpy.C38_url",
    "Jpy.C38_url_value"
   ],
   "note": "URL box acceptance and value."
  },
  {
   "property": "C39",
   "status": "partial",
   "theorems": [
    "Jpy.C39_jp2",
    "Jpy.C39_codestream_partial",
    "Jpy.C39_false",
    "Jpy.C39_jp2_exact",
    "Jpy.C39_codestream_exact"
   ],
   "note": "Ratio is exact for JP2/JPH files and for codestreams with equal offsets; C39_false: bare codestreams use the wrong offset. C39_jp2_exact, C39_codestream_exact: the ratio of every successfully analysed file."
  },
  {
   "property": "C40",
   "status": "proved",
   "theorems": [
    "Jpy.C40_printable",
    "Jpy.C40_stable",
    "Jpy.C40_properties",
    "Jpy.C40_tests",
    "Jpy.C40_descriptions_unique",
    "Jpy.C40_elsewhere",
    "Jpy.C40_elsewhere_false"
   ],
   "note": "The values are the texts of elements, C40_printable and C40_properties. Attributes and texts between elements, which only embedded XML has, are not processed: C40_elsewhere, with a witness in C40_elsewhere_false."
  },
  {
   "property": "C41",
   "status": "partial",
   "theorems": [
    "Jpy.C41_partial",
    "Jpy.C41_false",
    "Jpy.C41_exact"
   ],
   "note": "Exact classification of the contents that end in an internal error (C41_partial); C41_false: such contents exist. C41_exact: exactly which files get a report of a successful analysis."
  },
  {
   "property": "C42",
   "status": "proved",
   "theorems": [
    "Jpy.C42_unknown",
    "Jpy.C42_file",
    "Jpy.C42_report",
    "Jpy.C42_insert",
    "Jpy.C42_positions"
   ],
   "note": "C42_unknown: the box itself. C42_file and C42_report: whole files and reports with unknown boxes added at any allowed place; C42_insert: the same for an insertion of bytes. C42_positions: the excluded positions do matter."
  },
  {
   "property": "C43",
   "status": "proved",
   "theorems": [
    "Jpy.C43_plain",
    "Jpy.C43_wildcard",
    "Jpy.C43_tree",
    "Jpy.C43_arguments"
   ],
   "note": "File selection: plain names, patterns, recursion."
  },
  {
   "property": "C44",
   "status": "partial",
   "theorems": [
    "Jpy.C44_history",
    "Jpy.C44_first_partial",
    "Jpy.C44_false",
    "Jpy.C44_main_once"
   ],
   "note": "First call; C44_false: later calls repeat the files of earlier calls. C44_history gives the exact behaviour. C44_main_once: in one process only the first call of main works, all later ones raise, because the options are declared again."
  },
  {
   "property": "C45",
   "status": "proved",
   "theorems": [
    "Jpy.C45_format",
    "Jpy.C45_empty",
    "Jpy.C45_mix"
   ],
   "note": "Command line arguments and exit codes."
  },
  {
   "property": "C46",
   "status": "partial",
   "theorems": [
    "Jpy.C46_report_exact",
    "Jpy.C46_command_exact",
    "Jpy.C46_report",
    "Jpy.C46_document_partial",
    "Jpy.C46_stop",
    "Jpy.C46_done",
    "Jpy.C46_false",
    "Jpy.C46_reports",
    "Jpy.C46_exact"
   ],
   "note": "Document structure; C46_false: a control character in a file name stops the run; C46_exact, C46_report_exact, C46_command_exact: exactly which files can be reported on and which commands write the complete document."
  },
  {
   "property": "C47",
   "status": "proved",
   "theorems": [
    "Jpy.C47_strip",
    "Jpy.C47_encodable",
    "Jpy.C47_untouched"
   ],
   "note": "Surrogate handling in names."
  },
  {
   "property": "C48",
   "status": "partial",
   "theorems": [
    "Jpy.C48_exact",
    "Jpy.C48_codestreams",
    "Jpy.C48_partial",
    "Jpy.C48_jp2_partial",
    "Jpy.C48_false",
    "Jpy.C48_false_rdf"
   ],
   "note": "Sufficient conditions for MIX to succeed; C48_exact: the exact condition, and AttributeError otherwise; C48_codestreams: on codestreams MIX always raises (the command line switches it off). C48_false and C48_false_rdf: valid files for which it raises."
  },
  {
   "property": "C49",
   "status": "proved",
   "theorems": [
    "Jpy.C49_contiguous"
   ],
   "note": "Contiguity check is exact."
  },
  {
   "property": "C50",
   "status": "proved",
   "theorems": [
    "Jpy.C50_codestream",
    "Jpy.C50_file",
    "Jpy.C50_reported",
    "Jpy.C50_images"
   ],
   "note": "Files from the generator are accepted for every parameter choice."
  },
  {
   "property": "C51",
   "status": "partial",
   "theorems": [
    "Jpy.C51_pretty_partial",
    "Jpy.C51_legal",
    "Jpy.C51_compact_partial",
    "Jpy.C51_verdicts_pretty",
    "Jpy.C51_verdicts_compact",
    "Jpy.C51_false",
    "Jpy.C51_utf8",
    "Jpy.C51_bytes",
    "Jpy.C51_compact_exact"
   ],
   "note": "C51_pretty_partial, C51_compact_partial: a reader finds exactly the reports. C51_legal: only characters of XML are written. C51_verdicts_pretty, C51_verdicts_compact: looking up the verdicts. C51_utf8, C51_bytes: the same of the bytes written. C51_false: with --nopretty a control character in a file name makes the document unreadable, so compact output needs legal file names, and that is the exact condition (C51_compact_exact). Text between the elements of embedded XML is included. Missing: when pretty-printing, white space in attributes of embedded XML becomes spaces, and embedded elements without a namespace are read in the namespace of the report."
  },
  {
   "property": "C52",
   "status": "proved",
   "theorems": [
    "Jpy.C52_codestream",
    "Jpy.C52_file",
    "Jpy.C52_reported",
    "Jpy.C52_conforming",
    "Jpy.C52_undeclared"
   ],
   "note": "C52_codestream, C52_file: no cut passes. C52_reported: reports. C52_conforming: all conforming files. C52_undeclared: a valid file with a tile-part of undeclared length and an EOC code in its data stays valid when cut there, so the condition is needed."
  },
  {
   "property": "C53",
   "status": "partial",
   "theorems": [
    "Jpy.C53_ihdr",
    "Jpy.C53_ftyp",
    "Jpy.C53_bpcc",
    "Jpy.C53_cmap",
    "Jpy.C53_cdef",
    "Jpy.C53_pclr",
    "Jpy.C53_resc",
    "Jpy.C53_resd",
    "Jpy.C53_url",
    "Jpy.C53_sot",
    "Jpy.C53_qcd",
    "Jpy.C53_qcc",
    "Jpy.C53_cod",
    "Jpy.C53_coc",
    "Jpy.C53_rgn",
    "Jpy.C53_poc",
    "Jpy.C53_crg",
    "Jpy.C53_com",
    "Jpy.C53_cap",
    "Jpy.C53_plm",
    "Jpy.C53_plt",
    "Jpy.C53_siz",
    "Jpy.C53_capability",
    "Jpy.C53_colr",
    "Jpy.C53_icc_text",
    "Jpy.C53_icc_flags_false",
    "Jpy.C53_prf",
    "Jpy.C53_cpf"
   ],
   "note": "All fixed-position numeric, bit, identifier and text fields of every modelled box and segment; C53_icc_flags_false: flag bits of ICC profiles are read from the wrong end of the field (C53_colr says which bits are shown). C53_capability: capabilities in words. Coding-style steps, comments, palette and packet values are in C13, C27, C28, C30, C36."
  },
  {
   "property": "C54",
   "status": "proved",
   "theorems": [
    "Jpy.C54_codestream",
    "Jpy.C54_box",
    "Jpy.C54_file",
    "Jpy.C54_bare"
   ],
   "note": "Codestream, box, whole JP2/JPH file and whole bare codestream; the values include precinct and step sizes, comments, capabilities, palettes, resolutions, UUIDs, locations and embedded XML. Step sizes of QCC, mixed-width palettes, profile numbers of several words and packet lengths from 2^14 are left open: they are reported wrongly (C28, C36, C32, C13)."
  },
  {
   "property": "C55",
   "status": "proved",
   "theorems": [
    "Jpy.C55_capture",
    "Jpy.C55_capture_report",
    "Jpy.C55_capture_file",
    "Jpy.C55_table",
    "Jpy.C55_report",
    "Jpy.C55_file"
   ],
   "note": "C55_table: every value generated from any properties; C55_report: of every valid report; C55_file: the stored numbers. C55_capture, C55_capture_report, C55_capture_file: the capture values copied from embedded XMP, of any properties, of every valid report, and of the XML and UUID boxes of the file."
  },
  {
   "property": "C56",
   "status": "proved",
   "theorems": [
    "Jpy.C56_codestream",
    "Jpy.C56_box",
    "Jpy.C56_segment",
    "Jpy.C56_tree",
    "Jpy.C56_file",
    "Jpy.C56_report",
    "Jpy.C56_bare_report",
    "Jpy.C56_tilePart"
   ],
   "note": "C56_box and C56_segment: each box that is not a superbox and each marker segment; C56_tilePart, C56_codestream, C56_tree: tile-parts, codestreams, superboxes; C56_file, C56_report, C56_bare_report: whole files and reports."
  },
  {
   "property": "C57",
   "status": "partial",
   "theorems": [
    "Jpy.C57_relaxed_partial",
    "Jpy.C57_valid_partial",
    "Jpy.C57_failed",
    "Jpy.C57_document_partial",
    "Jpy.C57_false",
    "Jpy.C57_false_lists",
    "Jpy.C57_false_type",
    "Jpy.C57_false_resolution",
    "Jpy.C57_false_invalid",
    "Jpy.C57_false_components"
   ],
   "note": "C57_relaxed_partial: every report follows the schema up to five listed relaxations; C57_valid_partial: as published for valid images meeting listed restrictions; C57_failed: failed analyses; C57_document_partial: whole documents. C57_false and following: reports on valid images (and one invalid) that do not follow the published schema, one for each restriction."
  },
  {
   "property": "C58",
   "status": "proved",
   "theorems": [
    "Jpy.C58_codestream",
    "Jpy.C58_extract",
    "Jpy.C58_wrap",
    "Jpy.C58_wrappable",
    "Jpy.C58_report",
    "Jpy.C58_empty_image"
   ],
   "note": "C58_codestream: box passes iff the payload is a valid codestream file. C58_extract: codestreams of valid files. C58_report: the two reports list the same tests and properties. C58_wrap, C58_wrappable: files around codestreams. C58_empty_image: a codestream with an empty image area is called valid by itself, so the condition on the area is needed."
  },
  {
   "property": "C59",
   "status": "proved",
   "theorems": [
    "Jpy.C59_codestream",
    "Jpy.C59_packets",
    "Jpy.C59_file",
    "Jpy.C59_report",
    "Jpy.C59_conforming",
    "Jpy.C59_encoded",
    "Jpy.C59_conforming_report",
    "Jpy.C59_images"
   ],
   "note": "C59_codestream, C59_file, C59_report: equality of the whole outcome when only bytes outside headers and markers differ. C59_packets: the same in terms of packet data. C59_conforming, C59_encoded, C59_conforming_report, C59_images: conforming codestreams and images of all sizes with any other packet data."
  },
  {
   "property": "C60",
   "status": "proved",
   "theorems": [
    "Jpy.C60_contents",
    "Jpy.C60_unreadable"
   ],
   "note": "C60_contents: non-empty contents. C60_unreadable: empty and unreadable files."
  },
  {
   "property": "C61",
   "status": "proved",
   "theorems": [
    "Jpy.C61_command_line",
    "Jpy.C61_runs",
    "Jpy.C61_stops",
    "Jpy.C61_position",
    "Jpy.C61_order",
    "Jpy.C61_help",
    "Jpy.C61_version",
    "Jpy.C61_one_place"
   ],
   "note": "C61_command_line: accepted command lines and what they ask for; C61_runs, C61_stops: what the program does; C61_position, C61_order, C61_one_place, C61_help, C61_version: consequences."
  },
  {
   "property": "C62",
   "status": "proved",
   "theorems": [
    "Jpy.C62_boxes",
    "Jpy.C62_silent",
    "Jpy.C62_empty",
    "Jpy.C62_codestream",
    "Jpy.C62_cut_header"
   ],
   "note": "C62_boxes: exactly one warning per unknown box, in order; C62_silent: no warnings iff all types are known; C62_empty, C62_codestream: the other cases; C62_cut_header: what counts as unknown when a header is cut off."
  },
  {
   "property": "C63",
   "status": "partial",
   "theorems": [
    "Jpy.C63_partial",
    "Jpy.C63_trailing",
    "Jpy.C63_overlong",
    "Jpy.C63_false"
   ],
   "note": "C63_false: trailing bytes, over-long last boxes and cut-off headers are accepted. C63_partial: mandatory boxes that are not last are complete. C63_trailing, C63_overlong: exactly how far the last bytes of any file are not looked at."
  },
  {
   "property": "C64",
   "status": "proved",
   "theorems": [
    "Jpy.C64_contents",
    "Jpy.C64_reported"
   ],
   "note": "C64_contents: of contents; C64_reported: of reports on a file. Each format has a valid file."
  },
  {
   "property": "C65",
   "status": "proved",
   "theorems": [
    "Jpy.C65_boxes",
    "Jpy.C65_insert",
    "Jpy.C65_exchange",
    "Jpy.C65_xml_box",
    "Jpy.C65_xml",
    "Jpy.C65_uuid",
    "Jpy.C65_header",
    "Jpy.C65_positions"
   ],
   "note": "C65_boxes: files with the same image boxes; C65_insert, C65_xml, C65_xml_box, C65_uuid: adding a box; C65_exchange: moving one; C65_header: order in the JP2 header; C65_positions: image boxes may not be moved."
  },
  {
   "property": "C66",
   "status": "proved",
   "theorems": [
    "Jpy.C66_segments",
    "Jpy.C66_order",
    "Jpy.C66_insert",
    "Jpy.C66_comment",
    "Jpy.C66_unknown"
   ],
   "note": "C66_segments: the verdict depends only on the collection of COD, COC, QCD, QCC and CAP segments and on whether each segment passes; C66_order, C66_insert, C66_comment, C66_unknown: consequences."
  },
  {
   "property": "C67",
   "status": "proved",
   "theorems": [
    "Jpy.C67_exact",
    "Jpy.C67_order",
    "Jpy.C67_file"
   ],
   "note": "C67_exact: validity decided by position-free rules, in both directions; C67_order: interleaving of tiles; C67_file: replacing the codestream of a file."
  },
  {
   "property": "C68",
   "status": "partial",
   "theorems": [
    "Jpy.C68_same_partial",
    "Jpy.C68_unlimited",
    "Jpy.C68_fails",
    "Jpy.C68_short",
    "Jpy.C68_false"
   ],
   "note": "C68_same_partial: the same report unless a followed codestream has a PRF or CPF number that is too long; C68_fails: what is reported then; C68_false: such a file."
  },
  {
   "property": "C69",
   "status": "partial",
   "theorems": [
    "Jpy.C69_mix_partial",
    "Jpy.C69_partial",
    "Jpy.C69_shared",
    "Jpy.C69_false",
    "Jpy.C69_palette"
   ],
   "note": "C69_partial: at most 2^26 (n+1)^2 + 13 elements for n bytes, without --mix; C69_mix_partial: at most 2^27 (n+1)^2 + 72 with any options; C69_false: no bound proportional to n, even for valid files; C69_palette: entries announced in three bytes."
  },
  {
   "property": "C70",
   "status": "partial",
   "theorems": [
    "Jpy.C70_boxes_partial",
    "Jpy.C70_depth",
    "Jpy.C70_run_partial",
    "Jpy.C70_fails",
    "Jpy.C70_false",
    "Jpy.C70_crash"
   ],
   "note": "C70_boxes_partial, C70_depth, C70_run_partial: files nested in few enough levels are reported as without limit; C70_fails: what is reported otherwise; C70_false, C70_crash: valid files that are reported as not valid, or end the run, for every limit."
  },
  {
   "property": "C71",
   "status": "partial",
   "theorems": [
    "Jpy.C71_same_program",
    "Jpy.C71_boxes",
    "Jpy.C71_codestream",
    "Jpy.C71_report_partial",
    "Jpy.C71_empty",
    "Jpy.C71_exact",
    "Jpy.C71_run",
    "Jpy.C71_silence",
    "Jpy.C71_false",
    "Jpy.C71_lost"
   ],
   "note": "C71_boxes, C71_codestream, C71_empty: exactly what is printed about a file; C71_report_partial, C71_exact: when it is what the report says; C71_false, C71_lost: messages that the report does not have; C71_run, C71_silence: whole runs."
  },
  {
   "property": "C72",
   "status": "partial",
   "theorems": [
    "Jpy.C72_exact",
    "Jpy.C72_concat",
    "Jpy.C72_report",
    "Jpy.C72_inside",
    "Jpy.C72_files_partial",
    "Jpy.C72_boxes",
    "Jpy.C72_shown",
    "Jpy.C72_conforming",
    "Jpy.C72_false"
   ],
   "note": "C72_exact, C72_concat, C72_conforming, C72_inside, C72_report: data after the end of a codestream are accepted and not mentioned if they end with EOC; C72_boxes, C72_shown, C72_files_partial: what follows a JP2 or JPH file of complete boxes is noticed; C72_false: witnesses."
  },
  {
   "property": "C73",
   "status": "partial",
   "theorems": [
    "Jpy.C73_compare",
    "Jpy.C73_ceil",
    "Jpy.C73_int",
    "Jpy.C73_model_pos",
    "Jpy.C73_model",
    "Jpy.C73_tiles",
    "Jpy.C73_lengths",
    "Jpy.C73_ratio",
    "Jpy.C73_illuminant",
    "Jpy.C73_resolution",
    "Jpy.C73_resolution_error",
    "Jpy.C73_false",
    "Jpy.C73_ties"
   ],
   "note": "C73_compare, C73_ceil, C73_int, C73_model, C73_tiles, C73_lengths: quotients, counts and tests are exact; C73_ratio, C73_illuminant, C73_resolution: correctly rounded decimals, for images up to 2^48 bits and exponents up to 8; C73_resolution_error: all exponents; C73_false: wrong last decimal with exponent 9."
  },
  {
   "property": "C74",
   "status": "partial",
   "theorems": [
    "Jpy.C74_ratio",
    "Jpy.C74_resolution_partial",
    "Jpy.C74_false"
   ],
   "note": "C74_ratio: the compression ratio is right in MIX 1.0 and 2.0; C74_resolution_partial: the sampling frequencies are right or too small by one in the numerator; C74_false: a valid file of 60 pixels per inch for which they are too small."
  },
  {
   "property": "C75",
   "status": "partial",
   "theorems": [
    "Jpy.C75_text",
    "Jpy.C75_unique",
    "Jpy.C75_exists",
    "Jpy.C75_rounded",
    "Jpy.C75_ratio",
    "Jpy.C75_illuminant",
    "Jpy.C75_resolution_partial",
    "Jpy.C75_report",
    "Jpy.C75_mix",
    "Jpy.C75_false",
    "Jpy.C75_resolution_report_partial",
    "Jpy.C75_illuminant_report"
   ],
   "note": "C75_text, C75_exists, C75_unique: the one text of a float nearest to a number of up to 15 digits and four decimals is that number; C75_ratio (up to 8 TiB), C75_illuminant, C75_resolution_partial (exponents up to 8), C75_report and C75_mix; C75_illuminant_report and C75_resolution_report_partial (illuminants and resolutions of a whole report); C75_false: large exponents are shown as 1e+20. Missing: resolutions with larger exponents that are not shown with an exponent."
  },
  {
   "property": "C76",
   "status": "proved",
   "theorems": [
    "Jpy.C76_codestream",
    "Jpy.C76_box",
    "Jpy.C76_file",
    "Jpy.C76_report",
    "Jpy.C76_verdict",
    "Jpy.C76_depends"
   ],
   "note": "C76_file, C76_codestream, C76_box: the contents accepted are exactly those of Spec/Valid.lean; C76_verdict, C76_report: so are the verdicts of reports; C76_depends: nothing else matters."
  },
  {
   "property": "C77",
   "status": "proved",
   "theorems": [
    "Jpy.C77_codestream",
    "Jpy.C77_boxes",
    "Jpy.C77_start",
    "Jpy.C77_noticed",
    "Jpy.C77_report",
    "Jpy.C77_false"
   ],
   "note": "C77_noticed covers all kinds of damage of Spec/Damage.lean; C77_codestream and C77_boxes are its two halves, C77_start gives the two byte strings with which valid JP2 and JPH files start, C77_report is the claim on reports. C77_false delimits the claim: a changed UnkC field or tile width, and in a codestream file a changed image offset, stay unnoticed."
  },
  {
   "property": "C78",
   "status": "proved",
   "theorems": [
    "Jpy.C78_complete",
    "Jpy.C78_kept"
   ],
   "note": "C78_complete is the exact condition under which what is left can be read; C78_kept says what is kept at every crash point."
  },
  {
   "property": "C79",
   "status": "proved",
   "theorems": [
    "Jpy.C79_file",
    "Jpy.C79_bare",
    "Jpy.C79_image",
    "Jpy.C79_codestream",
    "Jpy.C79_reserved"
   ],
   "note": "C79_file and C79_bare for all files whose analysis succeeds, C79_image and C79_codestream for valid files; C79_reserved shows what is not determined."
  },
  {
   "property": "C80",
   "status": "proved",
   "theorems": [
    "Jpy.C80_report",
    "Jpy.C80_lengths",
    "Jpy.C80_valid"
   ],
   "note": "C80_report for files of the same length, C80_lengths for any two files, C80_valid for the verdict."
  },
  {
   "property": "C81",
   "status": "proved",
   "theorems": [
    "Jpy.C81_context",
    "Jpy.C81_same",
    "Jpy.C81_fault",
    "Jpy.C81_segments"
   ],
   "note": "C81_context for files and superboxes, C81_same for the same box in two files, C81_fault for boxes of valid files, C81_segments for main header segments and tile-parts."
  },
  {
   "property": "C82",
   "status": "proved",
   "theorems": [
    "Jpy.C82_properties",
    "Jpy.C82_outcome",
    "Jpy.C82_values",
    "Jpy.C82_tests",
    "Jpy.C82_failures"
   ],
   "note": "C82_properties for the reports, C82_values for the texts at paths, C82_outcome for the outcome, C82_tests for the results of tests, C82_failures for files that are valid in one format."
  }
 ]
}