{"id": "C01", "title": "The verdict is the conjunction of the reported tests", "statement": "When checkOneFile succeeds, the isValid it reports is True exactly when no element at any depth of the returned tests tree has the value False.", "quantifier": "every byte string, every validation format and every option combination", "why_tests_cant": "Verdict and tests tree are built by ~35 mutually calling validators over arbitrary nesting; a sample corpus cannot show that no path forgets to attach or to look at a test.", "anchors": ["jpylyzer/boxvalidator.py:BoxValidator._isValid", "jpylyzer/boxvalidator.py:BoxValidator.testFor", "jpylyzer/boxvalidator.py:BoxValidator.validate_JP2", "jpylyzer/boxvalidator.py:BoxValidator.validate_contiguousCodestreamBox", "jpylyzer/jpylyzer.py:checkOneFile"]}
{"id": "C02", "title": "Internal errors are never reported as valid", "statement": "If analysing the contents raises any exception, checkOneFile still returns a report with success=False, isValid=False, empty tests and properties, and exactly one warning equal to the failure message; success=False never occurs together with isValid=True, and success=True never with a failureMessage.", "quantifier": "every file content and every exception the validators can raise", "why_tests_cant": "The exceptional paths are only reachable through unusual corruptions; tests exercise a handful of them.", "anchors": ["jpylyzer/jpylyzer.py:checkOneFile"]}
{"id": "C03", "title": "Verbose output does not influence the analysis", "statement": "For the same file and the same other options, running with and without --verbose gives the same success, isValid, properties and warnings.", "quantifier": "every byte string and option combination", "why_tests_cant": "It is a statement about pairs of runs on every input.", "anchors": ["jpylyzer/boxvalidator.py:BoxValidator.testFor", "jpylyzer/boxvalidator.py:BoxValidator._isValid"]}
{"id": "C04", "title": "Non-verbose tests are exactly the failed tests", "statement": "The tests tree of the default run is the tests tree of the --verbose run with every passed test removed and then every container that became empty removed; order and nesting of the failures are preserved.", "quantifier": "every byte string and option combination", "why_tests_cant": "Relates two runs on every input; a lost or reordered failure at one nesting level would not show on a sample.", "anchors": ["jpylyzer/boxvalidator.py:BoxValidator.testFor", "jpylyzer/etpatch.py:Element.appendIfNotEmpty"]}
{"id": "C05", "title": "--nullxml does not affect validation", "statement": "Switching nullxml on or off never changes success, isValid, tests or warnings; and if the file is valid the complete output is identical.", "quantifier": "every byte string, every XML parser behaviour, every other option", "why_tests_cant": "Documented promise of the CLI help; quantifies over pairs of runs and over every XML payload.", "anchors": ["jpylyzer/boxvalidator.py:BoxValidator.validate_xmlBox", "jpylyzer/boxvalidator.py:BoxValidator.validate_uuidBox", "jpylyzer/jpylyzer.py:parseCommandLine"]}
{"id": "C06", "title": "--packetmarkers only adds packet marker properties", "statement": "Switching packetmarkers on or off never changes success, isValid, tests or warnings; the properties without it are those with it minus the plm, ppm, plt and ppt elements of the codestream.", "quantifier": "every byte string and option combination", "why_tests_cant": "Pairs of runs over every marker sequence of every tile-part.", "anchors": ["jpylyzer/boxvalidator.py:BoxValidator.validate_contiguousCodestreamBox", "jpylyzer/boxvalidator.py:BoxValidator.validate_tilePart"]}
{"id": "C07", "title": "--mix only adds an extension", "statement": "When MIX generation completes, the mix option changes nothing in statusInfo, isValid, tests, properties or warnings; it only adds a propertiesExtension element, filled exactly when the file is valid and the format is jp2 or jph.", "quantifier": "every byte string and every mix flag", "why_tests_cant": "Pairs of runs over every input.", "anchors": ["jpylyzer/jpylyzer.py:checkOneFile", "jpylyzer/mix.py:Mix.generateMix"]}
{"id": "C08", "title": "A failure anywhere makes the file invalid", "statement": "If any box or marker segment visited at any nesting depth fails one of its own tests, the whole file is reported invalid.", "quantifier": "every byte string, every nesting depth, every position of the failing box or segment", "why_tests_cant": "Needs induction over nesting and over the sequence of boxes, marker segments and tile-parts.", "anchors": ["jpylyzer/boxvalidator.py:BoxValidator.validate_JP2", "jpylyzer/boxvalidator.py:BoxValidator.validate_jp2HeaderBox", "jpylyzer/boxvalidator.py:BoxValidator.validate_resolutionBox", "jpylyzer/boxvalidator.py:BoxValidator.validate_uuidInfoBox", "jpylyzer/boxvalidator.py:BoxValidator.validate_contiguousCodestreamBox", "jpylyzer/boxvalidator.py:BoxValidator.validate_tilePart"]}
{"id": "C09", "title": "The box walk tiles its parent and always ends", "statement": "Walking the boxes of a file or superbox visits boxes at strictly increasing offsets, each starting where the previous one ended, never takes more steps than there are bytes, and hands every sub-box a payload strictly shorter than its parent, so nesting depth is bounded by the size.", "quantifier": "every byte string, including corrupt, truncated, zero, one and 64-bit box lengths", "why_tests_cant": "Termination and progress for every possible length field; a corpus samples a few.", "anchors": ["jpylyzer/boxvalidator.py:BoxValidator._getBox", "jpylyzer/boxvalidator.py:BoxValidator.validate_JP2", "jpylyzer/boxvalidator.py:BoxValidator.validate_jp2HeaderBox"]}
{"id": "C10", "title": "Box serialisation round-trips", "statement": "If a byte string is the concatenation of ISO 15444-1 I.4 encodings of boxes (32-bit length, 64-bit length, or length 0 for the last one), the walk recovers exactly those types and payloads in order.", "quantifier": "every finite list of 4-byte types and payloads and every permitted choice of length encoding", "why_tests_cant": "Unbounded lists and payload sizes (including more than 4 GiB payloads through the 64-bit length).", "anchors": ["jpylyzer/boxvalidator.py:BoxValidator._getBox"]}
{"id": "C11", "title": "Analysis terminates on every file", "statement": "checkOneFile returns for every file.", "quantifier": "every byte string and option combination", "why_tests_cant": "Non-termination on one input out of infinitely many is invisible to a finite suite.", "anchors": ["jpylyzer/boxvalidator.py:BoxValidator._parse_ipl", "jpylyzer/boxvalidator.py:BoxValidator.validate_tilePart", "jpylyzer/boxvalidator.py:BoxValidator.validate_contiguousCodestreamBox"]}
{"id": "C12", "title": "Packet length lists are parsed in bounded time", "statement": "Parsing the packet lengths of a PLT or PLM segment terminates for every segment content.", "quantifier": "every segment content", "why_tests_cant": "Quantifies over all byte strings; the failing shape (continuation bit set in the last byte) is not in the corpus.", "anchors": ["jpylyzer/boxvalidator.py:BoxValidator._parse_ipl", "jpylyzer/boxvalidator.py:BoxValidator.validate_plt", "jpylyzer/boxvalidator.py:BoxValidator.validate_plm"]}
{"id": "C13", "title": "Packet lengths are decoded correctly", "statement": "The reported iplt/iplm values are the packet lengths encoded by the segment in the base-128 big-endian format of ISO 15444-1 table A.36.", "quantifier": "every list of packet lengths and every encoding of it", "why_tests_cant": "Quantifies over all lists of values of every magnitude.", "anchors": ["jpylyzer/boxvalidator.py:BoxValidator._parse_ipl"]}
{"id": "C14", "title": "The tile-part chain always advances", "statement": "Following Psot from tile-part to tile-part visits strictly increasing offsets and therefore ends.", "quantifier": "every codestream", "why_tests_cant": "Needs an induction over chains of unbounded length; the back-jump needs a special layout.", "anchors": ["jpylyzer/boxvalidator.py:BoxValidator.validate_contiguousCodestreamBox", "jpylyzer/boxvalidator.py:BoxValidator.validate_tilePart", "jpylyzer/boxvalidator.py:BoxValidator.validate_sot"]}
{"id": "C15", "title": "Integer fields decode to their big-endian value or to a recognisable sentinel", "statement": "Every fixed-width field conversion returns the big-endian value when the field has exactly the right width and -9999 otherwise; the sentinel can never be confused with a decoded value; the arbitrary width conversion returns the big-endian value of any non-empty string.", "quantifier": "every byte string of every length", "why_tests_cant": "All 2^64 values and all wrong widths.", "anchors": ["jpylyzer/byteconv.py:bytesToULongLong", "jpylyzer/byteconv.py:bytesToUInt", "jpylyzer/byteconv.py:bytesToUShortInt", "jpylyzer/byteconv.py:bytesToUnsignedChar", "jpylyzer/byteconv.py:bytesToSignedChar", "jpylyzer/byteconv.py:bytesToInteger"]}
{"id": "C16", "title": "A valid JP2/JPH starts with the mandated signature and file type boxes", "statement": "If a file is reported valid as jp2 (jph), its first box is a signature box with payload 0D0A870A and its second box is a file type box with brand 'jp2 ' ('jph '), minor version 0 and a compatibility list containing that brand.", "quantifier": "every byte string reported valid", "why_tests_cant": "Soundness of acceptance over all inputs; tests only show some bad files are rejected.", "anchors": ["jpylyzer/boxvalidator.py:BoxValidator.validate_JP2", "jpylyzer/boxvalidator.py:BoxValidator.validate_signatureBox", "jpylyzer/boxvalidator.py:BoxValidator.validate_fileTypeBox"]}
{"id": "C17", "title": "A valid JP2/JPH has the mandated top-level boxes in the mandated order", "statement": "If a file is reported valid it has exactly one signature, file type and JP2 header box and at least one codestream box, and the JP2 header box comes after the first two boxes and before the first codestream box.", "quantifier": "every byte string reported valid", "why_tests_cant": "Soundness of acceptance over all inputs.", "anchors": ["jpylyzer/boxvalidator.py:BoxValidator.validate_JP2"]}
{"id": "C18", "title": "A valid file has a well-formed JP2 header superbox", "statement": "If a file is reported valid, its JP2 header box starts with its only image header box, has at most one bpcc, pclr, cmap, cdef and res box, contains pclr if and only if it contains cmap, its colour specification boxes are contiguous, and as jp2 it has at least one of them (as jph when unkC is 0, and otherwise no cTyp of 0 if there is none).", "quantifier": "every byte string reported valid", "why_tests_cant": "Soundness of acceptance over all inputs.", "anchors": ["jpylyzer/boxvalidator.py:BoxValidator.validate_jp2HeaderBox", "jpylyzer/shared.py:listOccurrencesAreContiguous"]}
{"id": "C19", "title": "A valid file has a conforming image header box", "statement": "The image header box tests all pass exactly when the box has 14 bytes, height and width at least 1, 1..16384 components, compression type 7, unkC and iPR 0 or 1, and a bits-per-component byte encoding depth 1..38 or the value 255.", "quantifier": "every byte string as image header payload", "why_tests_cant": "2^112 payloads plus all wrong lengths.", "anchors": ["jpylyzer/boxvalidator.py:BoxValidator.validate_imageHeaderBox"]}
{"id": "C20", "title": "Image dimensions agree with the codestream", "statement": "If a file is reported valid as jp2 or jph, the height and width of its first image header equal Ysiz-YOsiz and Xsiz-XOsiz of the codestream, so the image area is not empty.", "quantifier": "every byte string reported valid", "why_tests_cant": "Cross-box relation over all inputs.", "anchors": ["jpylyzer/boxvalidator.py:BoxValidator.validate_JP2"]}
{"id": "C21", "title": "Component count and bit depths agree with the codestream", "statement": "If a file is reported valid as jp2 or jph, the component count of the image header equals Csiz, the sign and depth declared in the header (or, for bPC=255, in the bits per component box) equal Ssiz for every component, and every depth is within 1..38.", "quantifier": "every byte string reported valid and every component", "why_tests_cant": "Unbounded component lists and cross-box relation.", "anchors": ["jpylyzer/boxvalidator.py:BoxValidator.validate_JP2", "jpylyzer/boxvalidator.py:BoxValidator.validate_siz", "jpylyzer/boxvalidator.py:BoxValidator.validate_bitsPerComponentBox"]}
{"id": "C22", "title": "Declared intellectual property requires the IPR box", "statement": "If a file is reported valid and its first image header has iPR=1 then a top-level jp2i box exists.", "quantifier": "every byte string reported valid", "why_tests_cant": "Conditional rule across boxes.", "anchors": ["jpylyzer/boxvalidator.py:BoxValidator.validate_JP2"]}
{"id": "C23", "title": "A valid codestream is framed and has its required headers", "statement": "If a codestream is reported valid it starts with SOC followed by SIZ, its main header contains a COD and a QCD segment before the first SOT, it contains a CAP segment when Rsiz requires it, and its last two bytes are EOC.", "quantifier": "every byte string reported valid (as j2c or jhc, or as the codestream box of a valid file)", "why_tests_cant": "Soundness over all marker sequences.", "anchors": ["jpylyzer/boxvalidator.py:BoxValidator.validate_contiguousCodestreamBox"]}
{"id": "C24", "title": "Tiles and tile-parts are fully accounted for", "statement": "If a codestream is reported valid, the set of tile indices seen in its tile-parts is exactly 0..N-1 for the N computed from SIZ, and if any tile-part declares TNsot then every tile's last declared TNsot equals the number of its tile-parts found.", "quantifier": "every byte string reported valid, every number of tiles and tile-parts", "why_tests_cant": "Counting argument over unbounded chains.", "anchors": ["jpylyzer/boxvalidator.py:BoxValidator.validate_contiguousCodestreamBox"]}
{"id": "C25", "title": "Tile-part header restrictions are enforced", "statement": "In a codestream reported valid, every tile-part reaches an SOD marker, is followed by SOT or EOC at the position given by Psot, carries COD, COC, QCD, QCC or RGN only when it is the first tile-part of its tile, and has at most one COC and one QCC per component; likewise for the main header.", "quantifier": "every tile-part of every codestream reported valid", "why_tests_cant": "Soundness over all marker sequences.", "anchors": ["jpylyzer/boxvalidator.py:BoxValidator.validate_tilePart", "jpylyzer/boxvalidator.py:BoxValidator.validate_contiguousCodestreamBox"]}
{"id": "C26", "title": "SIZ validation matches the standard's field ranges", "statement": "A SIZ segment passes all its tests exactly when its fields are within the ranges of ISO 15444-1 table A.9 (15444-15 A.2 for HT), its length is consistent with Csiz and all component entries are in range; the tile count reported is ceil((Xsiz-XTOsiz)/XTsiz)*ceil((Ysiz-YTOsiz)/YTsiz).", "quantifier": "every segment content and format", "why_tests_cant": "All field combinations and up to 16384 components.", "anchors": ["jpylyzer/boxvalidator.py:BoxValidator.validate_siz"]}
{"id": "C27", "title": "COD and COC validation match the standard's field ranges", "statement": "A COD (COC) segment passes all its tests exactly when length, progression order, layers, transformation, levels, code-block exponents and precinct sizes satisfy ISO 15444-1 A.6.1 (A.6.2), and one precinct size pair is reported per resolution level.", "quantifier": "every segment content and component count", "why_tests_cant": "All field combinations.", "anchors": ["jpylyzer/boxvalidator.py:BoxValidator.validate_cod", "jpylyzer/boxvalidator.py:BoxValidator.validate_coc"]}
{"id": "C28", "title": "Quantization parameters are reported from the right bytes", "statement": "QCD and QCC segments pass exactly when length and style are in range, and the reported exponents and mantissas are those of the step-size bytes following the style byte.", "quantifier": "every segment content and component count", "why_tests_cant": "All field combinations; tests never compare reported values.", "anchors": ["jpylyzer/boxvalidator.py:BoxValidator.validate_qcd", "jpylyzer/boxvalidator.py:BoxValidator.validate_qcc"]}
{"id": "C29", "title": "POC, RGN and CRG validation match the standard's field ranges", "statement": "These segments pass all their tests exactly when every entry is within its range, with one- or two-byte component indices depending on Csiz.", "quantifier": "every segment content and component count", "why_tests_cant": "Unbounded numbers of entries.", "anchors": ["jpylyzer/boxvalidator.py:BoxValidator.validate_poc", "jpylyzer/boxvalidator.py:BoxValidator.validate_rgn", "jpylyzer/boxvalidator.py:BoxValidator.validate_crg"]}
{"id": "C30", "title": "Codestream comments are validated and reported faithfully", "statement": "A COM segment passes exactly when its length is at least 5, Rcom is 0 or 1 and, for Latin text, no character other than tab, newline and return is a control character; a binary comment is reported as its lower-case hex and a Latin comment unchanged; nothing is reported otherwise.", "quantifier": "every segment content and every Unicode category table", "why_tests_cant": "All byte contents.", "anchors": ["jpylyzer/boxvalidator.py:BoxValidator.validate_com", "jpylyzer/byteconv.py:removeControlCharacters", "jpylyzer/byteconv.py:bytesToHex"]}
{"id": "C31", "title": "CAP validation matches the capability bits", "statement": "The reported parts are exactly the set bits of Pcap, the length test passes exactly when there is one Ccap per set bit, HT formats additionally require part 15, and the HT parameters are decoded from the Ccap entry of part 15.", "quantifier": "every segment content and format", "why_tests_cant": "2^32 bit patterns.", "anchors": ["jpylyzer/boxvalidator.py:BoxValidator.validate_cap"]}
{"id": "C32", "title": "Profile numbers are computed per the standard", "statement": "The PRF (CPF) segment's reported number is 4095 + sum Pprf_i * 2^(16 i) (-1 + sum Pcpf_i * 2^(16 i)) and a zero last entry is reported as a failure.", "quantifier": "every segment content", "why_tests_cant": "Unbounded number of entries; the corpus only has one-entry segments.", "anchors": ["jpylyzer/boxvalidator.py:BoxValidator.validate_prf", "jpylyzer/boxvalidator.py:BoxValidator.validate_cpf"]}
{"id": "C33", "title": "SOT validation matches the standard", "statement": "An SOT segment passes all its tests exactly when Lsot=10, Isot<=65534, Psot is 0 or at least 14 and TPsot<=254.", "quantifier": "every segment content", "why_tests_cant": "All field combinations and truncations.", "anchors": ["jpylyzer/boxvalidator.py:BoxValidator.validate_sot"]}
{"id": "C34", "title": "Resolution boxes are validated and computed correctly, without failing", "statement": "A capture/display resolution box passes exactly when it has 10 bytes and all numerators and denominators are non-zero; the resolution reported is N/D*10^E pixels per metre; and no payload makes the analysis fail internally.", "quantifier": "every box payload", "why_tests_cant": "All payloads; zero denominators are not in the corpus.", "anchors": ["jpylyzer/boxvalidator.py:BoxValidator.validate_captureResolutionBox", "jpylyzer/boxvalidator.py:BoxValidator.validate_displayResolutionBox", "jpylyzer/boxvalidator.py:BoxValidator.validate_resolutionBox"]}
{"id": "C35", "title": "Colour specification boxes are validated per format", "statement": "A colour specification box passes exactly when precedence and approximation are 0 and the method is allowed for the format with a legal enumerated colour space, a restricted ICC profile of the right size, class and without AToB0, or legal parameterised values.", "quantifier": "every box payload and format", "why_tests_cant": "All payloads, including ICC profiles with any tag table.", "anchors": ["jpylyzer/boxvalidator.py:BoxValidator.validate_colourSpecificationBox", "jpylyzer/boxvalidator.py:BoxValidator.validate_icc"]}
{"id": "C36", "title": "Palette, component mapping and channel definition boxes are validated per entry", "statement": "These boxes pass exactly when every entry is in range; the palette values reported are the table's entries in file order when all columns have the same width.", "quantifier": "every box payload and format, every number of entries", "why_tests_cant": "Unbounded tables.", "anchors": ["jpylyzer/boxvalidator.py:BoxValidator.validate_paletteBox", "jpylyzer/boxvalidator.py:BoxValidator.validate_componentMappingBox", "jpylyzer/boxvalidator.py:BoxValidator.validate_channelDefinitionBox"]}
{"id": "C37", "title": "UUID boxes are reported faithfully and never fail internally", "statement": "A UUID box of more than 16 bytes passes; the reported UUID is the canonical 8-4-4-4-12 form of its first 16 bytes; list boxes report their UUIDs in order; info boxes require exactly one list and one URL box; short payloads are reported as test failures rather than internal errors.", "quantifier": "every payload", "why_tests_cant": "All payload lengths; truncation inside a UUID is rare in corpora.", "anchors": ["jpylyzer/boxvalidator.py:BoxValidator.validate_uuidBox", "jpylyzer/boxvalidator.py:BoxValidator.validate_uuidListBox", "jpylyzer/boxvalidator.py:BoxValidator.validate_uuidInfoBox"]}
{"id": "C38", "title": "URL boxes must hold null-terminated UTF-8", "statement": "A URL box passes exactly when version and flags are 0 and the location ends in NUL and, without trailing NULs, is well-formed UTF-8.", "quantifier": "every payload", "why_tests_cant": "All byte strings against the UTF-8 grammar.", "anchors": ["jpylyzer/boxvalidator.py:BoxValidator.validate_urlBox", "jpylyzer/byteconv.py:removeNullTerminator"]}
{"id": "C39", "title": "The compression ratio is uncompressed size over compressed size", "statement": "The compression ratio reported is (sum of bit depths)/8 * height * width / size, where height and width are the image dimensions.", "quantifier": "every analysed file", "why_tests_cant": "All geometries; the corpus has zero offsets.", "anchors": ["jpylyzer/boxvalidator.py:BoxValidator._calculateCompressionRatio", "jpylyzer/boxvalidator.py:BoxValidator.validate_contiguousCodestreamBox", "jpylyzer/boxvalidator.py:BoxValidator.validate_JP2"]}
{"id": "C40", "title": "Reported values are printable and stable", "statement": "After post-processing, every value (the text of an element) in tests, properties and warnings is a string without control characters (other than tab, newline and return) and post-processing again changes nothing; enumerated values are replaced by exactly their documented description and all other values are preserved.", "quantifier": "every element tree", "why_tests_cant": "All trees and all values, including binary garbage.", "anchors": ["jpylyzer/etpatch.py:Element.makeHumanReadable", "jpylyzer/byteconv.py:bytesToText", "jpylyzer/byteconv.py:removeControlCharacters", "jpylyzer/jpylyzer.py:generatePropertiesRemapTable"]}
{"id": "C41", "title": "No file content causes an internal error", "statement": "checkOneFile reports success=True for every file content.", "quantifier": "every byte string and format", "why_tests_cant": "The suite checks this only on its corpus.", "anchors": ["jpylyzer/boxvalidator.py:BoxValidator", "jpylyzer/jpylyzer.py:checkOneFile"]}
{"id": "C42", "title": "Unknown boxes are ignored with a warning", "statement": "A box whose type is not known adds a boxType property and one warning and adds no test. Adding such boxes to a JP2 or JPH file anywhere after its second box, inside the JP2 header after its first box and not between colour specification boxes, or anywhere in a resolution or UUID info box, changes no test, not the verdict and not the status or failure message; the reported properties differ only by the unknown boxes and the value of the compression ratio.", "quantifier": "every type and payload, every file, any number of added boxes at any of these positions, every length form, any fuel", "why_tests_cant": "All 2^32 types, all files and all positions.", "anchors": ["jpylyzer/boxvalidator.py:BoxValidator.validate_unknownBox", "jpylyzer/boxvalidator.py:BoxValidator.validate"]}
{"id": "C43", "title": "File selection covers exactly the named files", "statement": "Without recursion and wildcards the files analysed are exactly the given paths that are existing files, in order, each once; paths that do not exist produce a warning and do not stop the others; with recursion on a directory every file below it is analysed exactly once.", "quantifier": "every file system and every argument list", "why_tests_cant": "All trees and argument lists.", "anchors": ["jpylyzer/jpylyzer.py:findFiles", "jpylyzer/jpylyzer.py:getFiles", "jpylyzer/jpylyzer.py:getFilesFromTree", "jpylyzer/jpylyzer.py:getFilesWithPatternFromTree"]}
{"id": "C44", "title": "Each invocation analyses only its own inputs", "statement": "Calling checkFiles several times in one process analyses, in each call, exactly the files selected by that call; and calling main several times does in each call what its command line asks for.", "quantifier": "every history of calls", "why_tests_cant": "A history property; module state is shared between calls.", "anchors": ["jpylyzer/jpylyzer.py:EXISTING_FILES", "jpylyzer/jpylyzer.py:checkFiles", "jpylyzer/jpylyzer.py:findFiles", "jpylyzer/jpylyzer.py:PARSER", "jpylyzer/jpylyzer.py:parseCommandLine"]}
{"id": "C45", "title": "Unsupported formats and empty input stop the program before any output", "statement": "For a format other than jp2, jph, j2c, jhc (case-insensitive) nothing is analysed or written to stdout; if no input file exists nothing is written to stdout and the exit code is -7; MIX output is never produced for j2c/jhc.", "quantifier": "every command line", "why_tests_cant": "All argument combinations.", "anchors": ["jpylyzer/jpylyzer.py:main", "jpylyzer/jpylyzer.py:checkNoInput", "jpylyzer/jpylyzer.py:checkFiles", "jpylyzer/shared.py:errorExit"]}
{"id": "C46", "title": "One report per file, in order, in one closed document", "statement": "The output is the header, the tool information, exactly one file element per selected file in selection order, and the closing tag; each file element has fileInfo, statusInfo, isValid, tests, properties, optional propertiesExtension and warnings in that order.", "quantifier": "every list of files", "why_tests_cant": "All lists of files and outcomes.", "anchors": ["jpylyzer/jpylyzer.py:checkFiles", "jpylyzer/jpylyzer.py:checkOneFile"]}
{"id": "C47", "title": "Names with undecodable characters are made encodable", "statement": "File names containing surrogates are reported with each surrogate replaced so that the result can be encoded, all other characters are unchanged, and names without surrogates are untouched.", "quantifier": "every Unicode string", "why_tests_cant": "All strings.", "anchors": ["jpylyzer/jpylyzer.py:stripSurrogatePairs"]}
{"id": "C48", "title": "MIX output never breaks the analysis of a valid file", "statement": "If a file is reported valid, requesting MIX output succeeds for it.", "quantifier": "every byte string reported valid as jp2 or jph", "why_tests_cant": "All valid files; the corpus contains few metadata layouts.", "anchors": ["jpylyzer/mix.py:Mix.generateMix", "jpylyzer/mix.py:Mix.findValueInRDF", "jpylyzer/jpylyzer.py:checkOneFile"]}
{"id": "C49", "title": "Contiguity of colour boxes is decided correctly", "statement": "The contiguity check is True exactly when the occurrences of the value form one uninterrupted run (or there are none).", "quantifier": "every list and value", "why_tests_cant": "All lists.", "anchors": ["jpylyzer/shared.py:consecutive", "jpylyzer/shared.py:listOccurrencesAreContiguous"]}
{"id": "C50", "title": "Well-formed files are accepted", "statement": "A JP2 file assembled from conforming boxes and a conforming codestream, for every image size, component count, bit depth and number of tiles within limits, is reported valid.", "quantifier": "every parameter choice of the generator", "why_tests_cant": "Unbounded family of files; the corpus has a few dozen valid files.", "anchors": ["jpylyzer/boxvalidator.py:BoxValidator.validate_JP2", "jpylyzer/boxvalidator.py:BoxValidator.validate_contiguousCodestreamBox", "jpylyzer/jpylyzer.py:checkOneFile"]}
{"id": "C51", "title": "The output is one XML document that says exactly what the reports say", "statement": "Whatever the names of the files and the comments, URLs and embedded XML documents of the images contain, a run that ends normally writes one well-formed XML document. A namespace-aware XML reader finds in it the tool information and the report of each selected file, in order, with the same elements, texts, attributes and namespaces (apart from layout white space when pretty-printing), and nothing else; so looking up the verdicts of the document gives those of the reports, and no contents of a file can forge or hide one.", "quantifier": "every file content, file name, list of files, format and option set, with and without pretty-printing", "why_tests_cant": "Escaping, namespace prefixes and line ends have to be right for every string and every tree of embedded XML; a test shows that some particular contents survive.", "anchors": ["jpylyzer/jpylyzer.py:writeElement", "jpylyzer/jpylyzer.py:checkFiles", "jpylyzer/jpylyzer.py:checkOneFile", "jpylyzer/etpatch.py:tostring", "jpylyzer/mix.py:Mix.generateMix"]}
{"id": "C52", "title": "A file cut off in its image data is never reported valid", "statement": "If a file is cut off at any byte before the end of its codestream (a codestream file) or of its first codestream box (a JP2 or JPH file), the part that is left is never reported valid. The codestream is any one whose tile-parts have the indices of its tiles and which has nothing after the EOC marker that follows the last tile-part; a last tile-part that does not declare its length must have no EOC code in its packet data (packet data never have one in a conforming file). In particular this holds for every conforming file.", "quantifier": "every codestream of this kind, every box structure before it and every form of box lengths, every cut point, all options and formats", "why_tests_cant": "Truncation tests try a few cut points of a few files; the claim is about every cut point of every file, including cuts that happen to leave an end marker at the end, that fall on the border of two tile-parts or inside a box header, or that leave a header that still parses.", "anchors": ["jpylyzer/boxvalidator.py:validate_contiguousCodestreamBox", "jpylyzer/boxvalidator.py:validate_tilePart", "jpylyzer/boxvalidator.py:_getBox", "jpylyzer/boxvalidator.py:_getMarkerSegment", "jpylyzer/jpylyzer.py:checkOneFile"]}
{"id": "C53", "title": "Reported property values are the values stored in the file", "statement": "Every numeric, bit-flag, identifier and text property reported for a box or marker segment equals the field that the standard places at that position of the payload: image header, bits per component, colour specification (with an embedded ICC profile), palette, component mapping, channel definition, resolution, URL, and the codestream segments SIZ, COD, COC, QCD, QCC, RGN, POC, CRG, COM, CAP, PRF, CPF, PLM, PLT, SOT. Repeated fields are reported once per entry, in file order. A field that is cut off is reported as -9999. The capabilities in words agree with the Rsiz field. (False for the flag and attribute bits of ICC profiles.)", "quantifier": "every box payload and marker segment, of every length, every option", "why_tests_cant": "Each field ranges over all its values and each list over all its lengths; a test fixes one value of each.", "anchors": ["jpylyzer/boxvalidator.py:BoxValidator.validate_imageHeaderBox", "jpylyzer/boxvalidator.py:BoxValidator.validate_icc", "jpylyzer/boxvalidator.py:BoxValidator.validate_siz", "jpylyzer/boxvalidator.py:BoxValidator.validate_cod", "jpylyzer/byteconv.py"]}
{"id": "C54", "title": "The report mirrors the file in order and content", "statement": "When the analysis of a file ends normally, the properties in the report are, in file order: one element for each box, with the boxes inside superboxes as children; for each codestream that starts with SOC and SIZ the SIZ segment, one element for each recognised main header segment, the counts of packet segments, and one element for each tile-part visited, with its own SOT fields, header segments and counts. Each element shows the values stored in that box, segment or tile-part (as listed in C53, with precinct and step sizes, comments, capabilities, profile numbers, packet lengths, palettes, resolutions, UUIDs and locations), and embedded XML documents as parsed, made printable. Packet segments are shown only on request.", "quantifier": "every file, every option, every analysis that ends", "why_tests_cant": "The number, order, nesting and contents of boxes, segments and tile-parts are unbounded.", "anchors": ["jpylyzer/boxvalidator.py:BoxValidator.validate_contiguousCodestreamBox", "jpylyzer/boxvalidator.py:BoxValidator.validate_tilePart", "jpylyzer/boxvalidator.py:BoxValidator.validate_JP2", "jpylyzer/jpylyzer.py:checkOneFile"]}
{"id": "C55", "title": "MIX output repeats the reported and stored values", "statement": "For every valid JP2 or JPH file analysed with MIX output, there is exactly one MIX element, in the namespace of the version requested, and each of its values is the corresponding property of the same report: format name, compression kind and ratio, width, height, colour space and profile name, codec, tile size, layers, levels, samples per pixel, bit depths and sampling frequencies (these and the ratio are computed from the texts of the report; C74 says how exactly). The sizes, component count, depths, tile sizes, layers, levels and compression kind are the numbers stored in the file. The capture values (creation date, producer, scanner make, model and serial number, software) come from the XMP documents embedded in the file, those in XML boxes before those in UUID boxes: each is the value stored under its XMP name, and is absent when no such document holds it.", "quantifier": "every valid JP2/JPH file, both MIX versions, every behaviour of float parsing and of string stripping, every number and order of embedded XMP documents", "why_tests_cant": "the values come from lookups by path in the report, which may pick another element when boxes or segments are repeated, missing or oddly ordered; tests only compare a few files", "anchors": ["jpylyzer/mix.py:Mix.generateMix", "jpylyzer/mix.py:generateMixBasicDigitalObjectInformation", "jpylyzer/mix.py:generateMixBasicImageInformation", "jpylyzer/mix.py:generateMixImageAssessmentMetadata", "jpylyzer/jpylyzer.py:checkOneFile", "jpylyzer/mix.py:generateMixImageCaptureMetadata", "jpylyzer/mix.py:findValueInRDF"]}
{"id": "C56", "title": "Each failed test names the rule that is violated", "statement": "In the tests of a report, a test is shown as failed exactly when the rule it stands for is violated at that place of the file: by the bytes of the box or marker segment under which it is listed, by the sequence of boxes in a superbox or in the file, by the segments of a tile-part header, or by the codestream as a whole. Tests of boxes, segments and tile-parts are listed under the element of the box, segment or tile-part, in file order, and one without failed tests is left out (unless verbose). No test with another name is ever shown as failed. Where the SIZ segment ends before its number of components, or the SOT segment of a visited tile-part before its last field, the claim covers the main header of the codestream only.", "quantifier": "every box payload, marker segment, tile-part, codestream and file whose validation ends, every option", "why_tests_cant": "Each rule has to be matched with its test for all field values and all combinations of other violations; a test fixes one violation at a time.", "anchors": ["jpylyzer/boxvalidator.py:BoxValidator.testFor", "jpylyzer/boxvalidator.py:BoxValidator.validate_jp2HeaderBox", "jpylyzer/boxvalidator.py:BoxValidator.validate_contiguousCodestreamBox", "jpylyzer/boxvalidator.py:BoxValidator.validate_tilePart", "jpylyzer/boxvalidator.py:BoxValidator.validate_JP2", "jpylyzer/etpatch.py:Element.appendIfNotEmpty"]}
{"id": "C57", "title": "Reports follow the published schema", "statement": "Every report is valid for the XML schema (version 2.2) that its root element names: the elements, their order and number, and the data types of their texts, for valid and invalid images and for failed analyses; a run that ends normally writes a document that is valid for it.", "quantifier": "every file content, format, option and set of files", "why_tests_cant": "Validating sample reports covers the element combinations of the samples; the schema has to be followed for every sequence of boxes and segments, every field value and every truncation.", "anchors": ["jpylyzer/jpylyzer.py:checkOneFile", "jpylyzer/jpylyzer.py:checkFiles", "jpylyzer/boxvalidator.py:BoxValidator.addCharacteristic", "jpylyzer/etpatch.py:Element.makeHumanReadable", "xsd/jpylyzer-v-2-2.xsd"]}
{"id": "C58", "title": "A codestream means the same in a file and by itself", "statement": "A codestream box of a JP2 (JPH) file passes exactly when its contents, stored as a file and analysed with the format j2c (jhc), are reported valid: every codestream extracted from a valid file is a valid codestream file, with the same tests and properties in the report, and every valid codestream file with a non-empty image area becomes a valid JP2 (JPH) file when the boxes that describe it are put around it.", "quantifier": "every codestream, every file containing it, every option set and both container formats", "why_tests_cant": "The two ways of analysing share most but not all of their code paths; comparing them on samples says nothing about other codestreams, and wrapping has to work for every size, offset and set of components.", "anchors": ["jpylyzer/boxvalidator.py:BoxValidator.validate_contiguousCodestreamBox", "jpylyzer/boxvalidator.py:BoxValidator.validate_JP2", "jpylyzer/boxvalidator.py:BoxValidator.validate", "jpylyzer/jpylyzer.py:checkOneFile"]}
{"id": "C59", "title": "Packet data have no influence on the report", "statement": "The compressed image data between the headers of a codestream are not examined: if they are replaced by any other bytes of the same length, leaving headers and markers as they are, the report is exactly the same, with its verdict, tests, properties and warnings; in particular a marker code that occurs by chance in the data is never taken for a marker.", "quantifier": "every codestream with main header and tile-part chain (valid or not), every replacement of its packet data, every file around it, every format and option", "why_tests_cant": "Fuzzing replaces finitely many bytes of finitely many files; that no byte of the data is ever looked at is a statement about all data, including data full of marker codes.", "anchors": ["jpylyzer/boxvalidator.py:BoxValidator.validate_contiguousCodestreamBox", "jpylyzer/boxvalidator.py:BoxValidator.validate_tilePart", "jpylyzer/boxvalidator.py:BoxValidator._getMarkerSegment", "jpylyzer/jpylyzer.py:checkOneFile"]}
{"id": "C60", "title": "The report depends on a file only through its contents", "statement": "Two files with the same contents get the same report apart from the file information, whatever their names, places, dates and the other files present; for empty or unreadable files the texts of warnings may differ too.", "quantifier": "every two file systems and paths with the same contents, every option", "why_tests_cant": "Copies of a few files under a few names cannot show that no name, date or neighbouring file ever plays a role.", "anchors": ["jpylyzer/jpylyzer.py:checkOneFile", "jpylyzer/jpylyzer.py:fileToMemoryMap", "jpylyzer/jpylyzer.py:generatePropertiesRemapTable"]}
{"id": "C61", "title": "The command line means what it says, wherever the options stand", "statement": "A command line is accepted exactly if it consists of options, each named in full or by an unambiguous abbreviation, with a value separate or attached where one is needed, and of one uninterrupted sequence of one or more paths; the program then works with those paths and with the settings the options ask for: a later value of the same option replaces an earlier one, flags may be repeated and clustered, and the position and order of options make no difference otherwise. With any other command line the program stops before it looks at a file or writes a report; --help and --version do nothing but print their text.", "quantifier": "every sequence of words on the command line, every file system", "why_tests_cant": "The combinations of abbreviations, clusters, attached values, '--' and positions are unbounded; a test tries a few.", "anchors": ["jpylyzer/jpylyzer.py:parseCommandLine", "jpylyzer/jpylyzer.py:main", "jpylyzer/jpylyzer.py:PARSER"]}
{"id": "C62", "title": "The warnings are exactly the unknown boxes", "statement": "A report on a successfully analysed JP2 or JPH file with contents has exactly one warning for each box of unknown type, at any depth, in the order of the file, naming the type; a report on a codestream has none; a report on an empty file, or one too large to be mapped, has one warning that says so.", "quantifier": "every file contents, every option, every file name", "why_tests_cant": "Whether some combination of nested boxes loses, repeats or invents a warning cannot be seen from sample files.", "anchors": ["jpylyzer/boxvalidator.py:validate_unknownBox", "jpylyzer/boxvalidator.py:addWarning", "jpylyzer/boxvalidator.py:validate_superbox", "jpylyzer/jpylyzer.py:checkOneFile", "jpylyzer/jpylyzer.py:fileToMemoryMap"]}
{"id": "C63", "title": "A valid file is a sequence of complete boxes", "statement": "A JP2 or JPH file that is reported valid consists of complete boxes: each has a full header and as many bytes as it declares (or extends to the end of the file), and no byte is left over.", "quantifier": "every file contents, every option", "why_tests_cant": "Every possible remainder and every declared length would have to be tried at every place in a file.", "anchors": ["jpylyzer/boxvalidator.py:_getBox", "jpylyzer/boxvalidator.py:validate_jp2", "jpylyzer/boxvalidator.py:validate_unknownBox"]}
{"id": "C64", "title": "A file is valid in at most one format", "statement": "No file is reported valid under two of the four format options jp2, jph, j2c and jhc, whatever the other options: if it is valid as one of them it is invalid as the others.", "quantifier": "every file contents, every pair of option settings, every fuel and environment", "why_tests_cant": "The claim is about all files at once; a test shows it of the files tried.", "anchors": ["jpylyzer/boxvalidator.py:validate_fileTypeBox", "jpylyzer/boxvalidator.py:validate_siz", "jpylyzer/boxvalidator.py:validate_jp2", "jpylyzer/boxvalidator.py:validate_contiguousCodestreamBox"]}
{"id": "C65", "title": "Metadata does not affect the validity of the image", "statement": "Adding a box that is not part of the image (XML, UUID, UUID info, unknown) anywhere after the file type box of a JP2 or JPH file leaves the file valid exactly if the box itself passes: for XML, if it is well-formed; for UUID, if there are data and, for XMP, they are well-formed XML. Such boxes may be moved past any other box without changing the verdict, and the boxes of the JP2 header may come in any order as long as the image header is first and colour specifications stand together.", "quantifier": "every file contents, every box and every place for it", "why_tests_cant": "The boxes that can be added and the places where they can stand are unbounded.", "anchors": ["jpylyzer/boxvalidator.py:validate_jp2", "jpylyzer/boxvalidator.py:validate_jp2HeaderBox", "jpylyzer/boxvalidator.py:validate_xmlBox", "jpylyzer/boxvalidator.py:validate_uuidBox"]}
{"id": "C66", "title": "The order of main header segments and added comments do not matter", "statement": "The marker segments after SIZ in the main header of a codestream may come in any order without changing the verdict; adding a comment leaves a codestream valid exactly if the comment conforms; segments with an unknown marker make it neither valid nor invalid.", "quantifier": "every codestream, every order of its segments, every comment and every place for it", "why_tests_cant": "There are factorially many orders, and a dependence of one segment on an earlier one shows only in some.", "anchors": ["jpylyzer/boxvalidator.py:validate_contiguousCodestreamBox", "jpylyzer/boxvalidator.py:_getMarkerSegment", "jpylyzer/boxvalidator.py:validate_com"]}
{"id": "C67", "title": "Tile-parts may be interleaved and codestreams exchanged", "statement": "For a codestream made of complete marker segments and tile-parts the verdict depends only on the segments and, for each tile separately, on the sequence of its tile-parts: tile-parts of different tiles may follow each other in any order. A codestream in a valid JP2 or JPH file may be replaced by any valid codestream with the same SIZ segment.", "quantifier": "every codestream of complete segments and tile-parts (valid or not), every interleaving, every file around it", "why_tests_cant": "The number of interleavings grows factorially; state carried from one tile-part to the next shows only in some of them.", "anchors": ["jpylyzer/boxvalidator.py:validate_contiguousCodestreamBox", "jpylyzer/boxvalidator.py:validate_tilePart", "jpylyzer/boxvalidator.py:validate_jp2"]}
{"id": "C68", "title": "The report does not depend on Python's limit on the digits of integers", "statement": "What is reported about a file is the same whatever limit the Python interpreter has on the number of digits of an integer that it converts to text.", "quantifier": "every file, format, option setting and every limit an interpreter can have (at least 640 digits, or none)", "why_tests_cant": "The limit matters only for files with hand-made PRF or CPF segments of almost two thousand bytes or more, and the suite runs under a single limit.", "anchors": ["jpylyzer/etpatch.py:makeHumanReadable", "jpylyzer/boxvalidator.py:validate_prf", "jpylyzer/boxvalidator.py:validate_cpf", "jpylyzer/jpylyzer.py:checkOneFile"]}
{"id": "C69", "title": "The size of a report is proportional to the size of the file", "statement": "The number of elements in the report for a file is at most a constant times the number of bytes of the file, so that a service that validates uploads can bound the memory it needs.", "quantifier": "every file, format, option setting, file system and XML parser whose documents have at most one element for each byte", "why_tests_cant": "The worst files are hand-made; a suite of ordinary files has reports of a few hundred elements and says nothing about the growth.", "anchors": ["jpylyzer/boxvalidator.py:validate_contiguousCodestreamBox", "jpylyzer/boxvalidator.py:validate_tilePart", "jpylyzer/boxvalidator.py:validate_paletteBox", "jpylyzer/jpylyzer.py:checkOneFile"]}
{"id": "C70", "title": "The result of a run does not depend on Python's limit on nested calls", "statement": "The report for a file, and that a run ends normally with a report for every file, do not depend on how deeply Python allows calls to be nested: however deeply boxes and metadata are nested in a file, it is analysed and reported as it would be without a limit.", "quantifier": "every limit, list of files, format, option setting, file system and XML parser", "why_tests_cant": "Ordinary files nest boxes in three levels; the effect needs hundreds of levels and depends on a limit that is not part of the input.", "anchors": ["jpylyzer/boxvalidator.py:BoxValidator.validate", "jpylyzer/boxvalidator.py:validate_uuidInfoBox", "jpylyzer/jpylyzer.py:writeElement", "jpylyzer/jpylyzer.py:checkFiles"]}
{"id": "C71", "title": "The report records every message printed about a file", "statement": "What is printed on standard error while a file is analysed and what its report says are the same: every message is a warning of the report, in the same order, and every warning is printed. A run that prints nothing found every path, could open every file and has reports without warnings.", "quantifier": "every file, list of paths, format, option setting, file system and XML parser", "why_tests_cant": "The messages come from many places and may be followed by a failure that replaces the report; tests look at the report or at the printed messages of a few files.", "anchors": ["jpylyzer/shared.py:printWarning", "jpylyzer/boxvalidator.py:BoxValidator.validate", "jpylyzer/jpylyzer.py:checkOneFile", "jpylyzer/jpylyzer.py:fileToMemoryMap", "jpylyzer/jpylyzer.py:findFiles", "jpylyzer/jpylyzer.py:checkNoInput"]}
{"id": "C72", "title": "Data after the end of an image are noticed", "statement": "If other data follow the end of the image (the EOC marker of a codestream, the last box of a JP2 or JPH file), whether a second image or anything else, then the file is not reported valid or the report mentions them.", "quantifier": "every codestream and file, everything that may follow, format, option setting, file system and XML parser", "why_tests_cant": "The data that follow may be anything; a test shows what happens with a few of them.", "anchors": ["jpylyzer/boxvalidator.py:validate_contiguousCodestreamBox", "jpylyzer/boxvalidator.py:validate_JP2"]}
{"id": "C73", "title": "Floating-point arithmetic does not change a verdict, a count or a printed decimal", "statement": "All tests and counts that the code computes by floating-point division (numbers of tiles, list entries, levels, compatibility fields) have the values of exact arithmetic. The compression ratio, the resolutions and the illuminants are the exact values, correctly rounded to the number of decimals in the report.", "quantifier": "every value of the fields and every length of a box or segment below 2^53 bytes", "why_tests_cant": "Whether a rounding error crosses an integer or a decimal tie depends on all bits of the operands; the cases are far too many to try and the bad ones are rare.", "anchors": ["jpylyzer/boxvalidator.py:_calculateCompressionRatio", "jpylyzer/boxvalidator.py:validate_siz", "jpylyzer/boxvalidator.py:validate_captureResolutionBox", "jpylyzer/boxvalidator.py:validate_displayResolutionBox", "jpylyzer/boxvalidator.py:validate_fileTypeBox"]}
{"id": "C74", "title": "The ratio and the resolution in MIX output are the numbers of the report", "statement": "For every valid JP2 or JPH file analysed with MIX output, the fraction given as compression ratio (MIX 2.0) and the fractions given as sampling frequencies are equal to the compression ratio and the resolutions in pixels per metre (over 100) of the same report; the compression ratio in MIX 1.0 is the nearest integer.", "quantifier": "every valid file, every ratio and resolution with two decimals up to 10^13, both MIX versions", "why_tests_cant": "The numbers are computed from decimal texts with binary floating-point arithmetic; whether the result is right depends on the value, and most values are right.", "anchors": ["jpylyzer/mix.py:Mix.generateMixBasicDigitalObjectInformation", "jpylyzer/mix.py:Mix.generateMixImageAssessmentMetadata"]}
{"id": "C75", "title": "The decimal numbers of a report are the exact ones, rounded, in decimal notation", "statement": "Every compression ratio, illuminant and resolution of a report is a text of digits, a point and at least one digit, without superfluous zeros or an exponent, that denotes the decimal number with two decimals (four for illuminants) nearest to the exact value; the same number always has the same text, and the compression ratio of MIX 2.0 output is this number too.", "quantifier": "every file size and image size, every box content, every exponent", "why_tests_cant": "The text is the shortest decimal number that reads back as the float; whether it is the rounded number depends on the spacing of floats at each magnitude.", "anchors": ["jpylyzer/etpatch.py:makeHumanReadable", "jpylyzer/boxvalidator.py:BoxValidator._calculateCompressionRatio", "jpylyzer/boxvalidator.py:BoxValidator.validate_captureResolutionBox", "jpylyzer/mix.py:Mix.generateMixBasicDigitalObjectInformation"]}
{"id": "C76", "title": "One definition of a valid file", "statement": "There is a definition of a valid file that refers only to the bytes of the file, to which byte strings are well-formed XML, to which characters are control characters and to the format, and a report says that a file is valid if and only if the file could be read and its contents are valid by this definition; so the verdict depends on nothing else: not on the other options, not on MIX output, not on the name, size or date of the file.", "quantifier": "all formats, all file contents, all options, all XML parsers and Unicode tables", "why_tests_cant": "The definition covers all files, with nested boxes of any depth and codestreams of any length; tests compare verdicts on single files.", "anchors": ["jpylyzer/jpylyzer.py:checkOneFile", "jpylyzer/boxvalidator.py:BoxValidator.validate", "jpylyzer/boxvalidator.py:BoxValidator.validate_JP2", "jpylyzer/boxvalidator.py:BoxValidator.validate_contiguousCodestreamBox"]}
{"id": "C77", "title": "Damage to the frame of an image is noticed", "statement": "If a file that is reported as valid is changed in one byte of its frame, the changed file is not reported as valid. The frame of a JP2 or JPH file are its first twelve bytes, the types of the signature, file type, JP2 header and image header boxes and of the only codestream box, the signature, brand and minor version, the height, width, number of components and compression type in the image header, the frame of each codestream, and the image size, image offset and component depths in its first codestream. The frame of a codestream are its SOC, SIZ and EOC markers, the lengths of its SIZ segment and of the SOT segments, and the number of components.", "quantifier": "every valid file, every byte of its frame and every other value of that byte; for box types and header fields, every other value of the field", "why_tests_cant": "a test damages a few bytes of a few files; which bytes are protected in all files depends on all other contents and on where the walk over boxes and segments goes after the damage", "anchors": ["jpylyzer/boxvalidator.py:validate_signatureBox", "jpylyzer/boxvalidator.py:validate_fileTypeBox", "jpylyzer/boxvalidator.py:validate_imageHeaderBox", "jpylyzer/boxvalidator.py:validate_contiguousCodestreamBox", "jpylyzer/boxvalidator.py:validate_JP2", "jpylyzer/boxvalidator.py:validate_siz", "jpylyzer/boxvalidator.py:validate_sot"]}
{"id": "C78", "title": "An interrupted run loses only unfinished reports and cannot be mistaken for a complete one", "statement": "Wherever a run is cut off, whether it is killed, crashes, is kept busy for ever by a file or loses the end of its output, what is left on standard output is less than the opening of the document, or the opening followed by the complete reports of the first selected files, in their order, and the beginning of what follows. With the closing tag after the complete reports it is exactly the document that a run on these files only writes. What is left can be read as a document only if the run ended normally and everything was written, except perhaps the line end after the closing tag.", "quantifier": "every run, every number of bytes of its output that are left, every content of the files and every set of options; without layout, file names with characters of XML only", "why_tests_cant": "a test can stop a run at a few moments only; whether some initial part of the output reads as a complete document depends on the text of every report, file name and embedded document", "anchors": ["jpylyzer/jpylyzer.py:checkFiles", "jpylyzer/jpylyzer.py:writeElement"]}
{"id": "C79", "title": "The report identifies the parameters of an image", "statement": "If the analysis of two files succeeds and the properties in their reports are the same, then the two files have the same boxes in the same order (of the same type, if it is a known one), the same reported marker segments in their main headers and tile-parts, the same tile-parts in the same order, and the same bits stored in every whole-number field that is reported. Names and texts (brands, ICC names, tags and descriptions, UUIDs, locations, comments) are the same if they are text without control characters. ICC versions and dates and packet lengths below 2^14 are the same. In particular no two different numbers are shown by the same text. Two files that are reported valid with the same properties have the same image header box and the same SIZ segment, byte for byte.", "quantifier": "every pair of files, with any contents, whose analysis succeeds with the same options; any MIX options, names and times", "why_tests_cant": "a test compares a few pairs of reports; that two different files never get the same properties although their parameters differ ranges over all pairs of values of all fields, descriptions and decimal texts together", "anchors": ["jpylyzer/jpylyzer.py:generatePropertiesRemapTable", "jpylyzer/etpatch.py:makeHumanReadable", "jpylyzer/boxvalidator.py:BoxValidator.validate", "jpylyzer/jpylyzer.py:checkOneFile"]}
{"id": "C80", "title": "Uninterpreted data have no influence on the report", "statement": "The contents of boxes of unknown type and of intellectual property boxes, what follows the identifier in a UUID box that is not XMP, everything in a codestream that is not a header or a marker, the contents of TLM, PPM and PPT segments, and marker segments that are not among those validated (which may be present or absent) have no influence on the report, at the top level of a file and inside superboxes: two files that differ only in these data, in any number of places at once, get the same verdict, the same tests, and the same properties but for the compression ratio, which depends on the length of the file; if they have the same length, everything after the file information is the same. The form in which the lengths of boxes are stored (short, extended, or up to the end) has no influence either.", "quantifier": "every pair of files related in this way, every format and option, any MIX options, names and times", "why_tests_cant": "a test replaces a few bytes in a few files; that no replacement whatever is noticed, in any combination of places and at any depth, ranges over all files and all contents", "anchors": ["jpylyzer/boxvalidator.py:BoxValidator.validate", "jpylyzer/boxvalidator.py:BoxValidator.validate_unknownBox", "jpylyzer/boxvalidator.py:BoxValidator.typeMap", "jpylyzer/boxvalidator.py:BoxValidator.validate_uuidBox", "jpylyzer/jpylyzer.py:checkOneFile"]}
{"id": "C81", "title": "The report on a box or segment depends on it alone", "statement": "With given options, what a report says about a box - its properties, its tests and its warnings - is a function of the type and contents of that box: it does not depend on the other boxes, on where the box is, or on the size of the file. The report of a file is the list of these contributions in the order of the boxes, followed by at most the compression ratio and the tests and warnings about the file as a whole; the report on a superbox is made up of the boxes in it by the same function. So the same box in two files gets the same properties, and if each box of a file also occurs in a valid file, only tests about the file as a whole can fail. Likewise, what is reported for a segment of the main header of a codestream is a function of its marker, its contents and the number of components, and what is reported for a tile-part is a function of the segments of its header and the number of components.", "quantifier": "every option set, every pair of JP2/JPH files or codestreams whose analysis succeeds, every box and segment in them, any nesting", "why_tests_cant": "a test compares the reports on one box in a few files; that no surroundings whatever change them ranges over all files that contain the box", "anchors": ["jpylyzer/boxvalidator.py:BoxValidator.validate_JP2", "jpylyzer/boxvalidator.py:BoxValidator.validate_jp2HeaderBox", "jpylyzer/boxvalidator.py:BoxValidator.validate_resolutionBox", "jpylyzer/boxvalidator.py:BoxValidator.validate_uuidInfoBox", "jpylyzer/boxvalidator.py:BoxValidator.validate_contiguousCodestreamBox", "jpylyzer/boxvalidator.py:BoxValidator._getBox"]}
{"id": "C82", "title": "The named format selects rules, not values", "statement": "When one and the same file is analysed as JP2 and as JPH, or as a codestream in the two codestream formats, the reports have the same file information, the same status, the same warnings and the same properties, with two exceptions: the properties of extended capabilities that are defined by part 15 are reported in its formats only, and three properties of the code-block style may be left out there. Every property at any other path has the same texts in both reports. The analysis ends with a report in one format if and only if it does so in the other, when no MIX metadata are asked for. The results of tests at any path agree as well, with the exception of the named tests whose rules depend on the format; so a file that is valid in one format fails in the other only by such tests.", "quantifier": "every file, every option set, both pairs of formats, every path into the properties and the tests", "why_tests_cant": "a test compares the two reports of a few files; that no branch on the format changes a value, a warning or the outcome ranges over all files, including damaged ones", "anchors": ["jpylyzer/boxvalidator.py:BoxValidator.validate_JP2", "jpylyzer/boxvalidator.py:BoxValidator.validate_cod", "jpylyzer/boxvalidator.py:BoxValidator.validate_coc", "jpylyzer/boxvalidator.py:BoxValidator.validate_cap", "jpylyzer/boxvalidator.py:BoxValidator.validate_contiguousCodestreamBox", "jpylyzer/jpylyzer.py:checkOneFile"]}
