# Formal model of jpylyzer (Lean 4)

## Approach

`/verif/lean/Verif/` holds an executable, total, function-by-function model of
`jpylyzer/byteconv.py`, `shared.py`, `etpatch.py`, `boxvalidator.py`, `mix.py` and the logic of
`jpylyzer.py`, and theorems about it. Every definition cites the lines it models.

* Bytes are `List UInt8`; Python slices keep Python's clamping and negative-index semantics.
* Python integers are `Int`; `&` with a mask and `>>` are floor division and modulus (two's
  complement semantics on negative numbers, which the code does reach through the -9999 sentinel).
* Element text is a `PyVal` (None, bool, int, bytes, str, float). Floats are exact rationals plus the
  number of digits they are rounded to; the roundings of IEEE 754 are modelled separately (`Model/Float.lean`, C73).
* Exceptions are values. A loop that Python may run forever takes a fuel argument and returns
  `timeout` when it runs out; every theorem quantifies over all fuel, and separate theorems say when
  some fuel is enough.
* Leaf validators are modelled as the list of `testFor` / `addCharacteristic` / `addWarning` /
  `append` calls they make, in order; `Node.run` replays them on the element trees.
* Externals are parameters of the model (`Env`): expat (`ET.fromstring`), `unicodedata.category`,
  `str(float)`. Theorems hold for every value of the parameters.

## Plan per property

- **C01 The verdict is the conjunction of the reported tests** — theorem over `validateRoot`/`checkOneFile`: isValid ↔ no `False` leaf in the tests tree (recursive predicate on element trees).
- **C02 Internal errors are never reported as valid** — case analysis of the `checkOneFile` model on the three outcomes ok / raise / no result.
- **C03 Verbose output does not influence the analysis** — relational induction (verbose run vs. default run) over all loops and recursive calls.
- **C04 Non-verbose tests are exactly the failed tests** — same relation, with `prune` on element trees as independent specification.
- **C05 --nullxml does not affect validation** — relational induction, nullxml on/off, for an arbitrary XML parser.
- **C06 --packetmarkers only adds packet marker properties** — relational induction, packetmarkers on/off, with `dropPacket` on element trees as specification.
- **C07 --mix only adds an extension** — case analysis of `checkOneFile` on the mix flag.
- **C08 A failure anywhere makes the file invalid** — structural: a `Visited` relation (box reached by the walk) and induction that a failing visited node makes the root invalid.
- **C09 The box walk tiles its parent and always ends** — induction on the box loop; independent relational spec of the walk.
- **C10 Box serialisation round-trips** — round-trip with an independent encoder of box lists.
- **C11 Analysis terminates on every file** — false of the code: prove the negation with two explicit files, and termination under hypotheses that are easy to check (`_partial`). `Spec/Endless.lean` then says from the byte layout which contents never end (`NeverEnds`), including positions before the start of the data that the tool comes to after a cut off tile-part length; `C11_exact` proves that the analysis ends if and only if the contents are none of these, and `C11_bound` bounds the number of steps. Header loops by the bytes left, the tile-part loop by the pigeonhole principle on the positions visited.
- **C12 Packet length lists are parsed in bounded time** — false of the code: iff characterisation of termination.
- **C13 Packet lengths are decoded correctly** — false for lengths needing 3+ bytes: prove correctness for all lists of lengths < 2^14, negation with witness.
- **C14 The tile-part chain always advances** — false of the code (missing Psot jumps 9999 bytes back): prove for chains whose SOT segments have a Psot, negation with a cycle witness. `C14_exact`: a codestream is followed to an end exactly if it is not `Endless` (or fails at SIZ); `C14_cycle`: a cycle of tile-parts always has one without Psot.
- **C15 Integer fields decode to their big-endian value or to a recognisable sentinel** — round-trip against a base-256 specification.
- **C16 A valid JP2/JPH starts with the mandated signature and file type boxes** — soundness theorem from the verdict, over the walk specification.
- **C17 A valid JP2/JPH has the mandated top-level boxes in the mandated order** — ditto.
- **C18 A valid file has a well-formed JP2 header superbox** — ditto.
- **C19 A valid file has a conforming image header box** — iff theorem; the depth clause is false of the code (bPC 1..255 all accepted): `_partial` plus negation.
- **C20 Image dimensions agree with the codestream** — soundness theorem.
- **C21 Component count and bit depths agree with the codestream** — soundness theorem.
- **C22 Declared intellectual property requires the IPR box** — soundness theorem.
- **C23 A valid codestream is framed and has its required headers** — soundness theorem over the marker walk.
- **C24 Tiles and tile-parts are fully accounted for** — counting induction over the tile-part loop.
- **C25 Tile-part header restrictions are enforced** — induction over the tile-part loop and tile-part header loop.
- **C26 SIZ validation matches the standard's field ranges** — iff theorem between 'all tests pass' and a predicate on bytes.
- **C27 COD and COC validation match the standard's field ranges** — ditto.
- **C28 Quantization parameters are reported from the right bytes** — QCD: iff + reported values; QCC: false (step sizes are read one byte early): negation + what is true.
- **C29 POC, RGN and CRG validation match the standard's field ranges** — iff theorems.
- **C30 Codestream comments are validated and reported faithfully** — iff theorem, Unicode category table a parameter.
- **C31 CAP validation matches the capability bits** — iff theorem + decoding; `C31_cap_exact` gives the exact condition, truncated segments included.
- **C32 Profile numbers are computed per the standard** — false for more than one entry; prove for one entry + negation; `C32_prf_number_exact` and `C32_cpf_number_exact` say which number is reported for any number of entries, and when it is the right one.
- **C33 SOT validation matches the standard** — iff; false when Psot is missing only (accepted): exact characterisation.
- **C34 Resolution boxes are validated and computed correctly, without failing** — iff; 'never fails' is false (ZeroDivisionError): exact characterisation of the failure.
- **C35 Colour specification boxes are validated per format** — iff theorem.
- **C36 Palette, component mapping and channel definition boxes are validated per entry** — iff theorems + sequence theorem for palettes with equal column width; negation for mixed widths; `C36_palette_values_exact` says which values are reported for any widths.
- **C37 UUID boxes are reported faithfully and never fail internally** — iff; 'never fails' false (ValueError below 16 bytes): exact characterisation.
- **C38 URL boxes must hold null-terminated UTF-8** — iff against a UTF-8 specification by encoding.
- **C39 The compression ratio is uncompressed size over compressed size** — true for jp2/jph; false for j2c/jhc (YOsiz read from xOsiz): partial + negation. Exact rationals (C73 is about the floats). `C39_jp2_exact` and `C39_codestream_exact` give the ratio for every file, valid or not, that is analysed successfully.
- **C40 Reported values are printable and stable** — structural induction on element trees; Unicode category table and float formatting are parameters.
- **C41 No file content causes an internal error** — false: exact classification of exceptions, partial theorem for inputs without them, negation witnesses. `C41_exact` joins it with C11: exactly which files get a report of a successful analysis.
- **C42 Unknown boxes are ignored with a warning** — dispatch theorem; then two runs, on a file and on the file with more unknown boxes, are related step by step (`Spec/Unknown.lean`: `MoreFile` on files, `MoreElems` on reports). The warnings are C62. `C42_positions` shows that the excluded positions are tested.
- **C43 File selection covers exactly the named files** — file system as a parameter (isfile, isdir, glob, walk); theorems over argument lists.
- **C44 Each invocation analyses only its own inputs** — false: negation over two calls + what is true (accumulation law).
- **C45 Unsupported formats and empty input stop the program before any output** — case analysis of `main`.
- **C46 One report per file, in order, in one closed document** — induction over the file list. `C46_exact`: exactly which runs write the whole document; `C46_report_exact` and `C46_command_exact` state it in terms of the files alone (`Spec/Reportable.lean`).
- **C47 Names with undecodable characters are made encodable** — induction over code point lists.
- **C48 MIX output never breaks the analysis of a valid file** — false: negation witnesses; partial theorem; `C48_exact` gives the condition that is both necessary and sufficient, and `C48_codestreams` shows that calling `checkOneFile` with MIX output on a valid codestream always raises.
- **C49 Contiguity of colour boxes is decided correctly** — iff theorem.
- **C50 Well-formed files are accepted** — constructive completeness theorem for a parametrised generator.
- **C51 The output is one XML document that says exactly what the reports say** — `Model/Write.lean` models the characters written by ElementTree and minidom; `Spec/Xml.lean` is an independent reader of XML with namespaces, and `Spec/Output.lean` the document it should find. Proved by induction over trees: the reader undoes the writer. Every element a report can contain has an XML name (`Lemmas/ReportNames.lean`, an invariant of whole runs). False for control characters in file names with `--nopretty`: negation witness, and `C51_compact_exact`: the reader accepts the document if and only if all names, paths and dates have legal characters.
- **C52 A file cut off in its image data is never reported valid** — `Spec/Truncate.lean` says which codestreams (`Framed`). A header, tile-part or box that is complete in the beginning of the data is the same in the whole (`segsTo_take`, `at_take`, `boxAt_cut`); with the characterisation of valid codestreams (C23) the tile-parts visited in the part that is left are the tile-parts of the whole up to the EOC marker, by induction over the visit, so nothing is missing. Boxes: induction over the encoding of the file (`encodes_cut`). `gen_framed`: every conforming codestream (C50) is of this kind. `C52_undeclared` shows that the condition on undeclared lengths is needed.
- **C53 Reported property values are the values stored in the file** — table of fields per box and segment (`Spec/Fields.lean`), one theorem per table; ICC flag bits are false of the code: negation.
- **C54 The report mirrors the file in order and content** — relations between the boxes, segments and tile-parts of a file and elements (`Spec/Shows.lean`), proved by induction over the walks, using C53 for the values and C40 for the text. Where the program misreads a list (step sizes of QCC, profile numbers of several words, palettes of mixed widths, long packet lengths), the relation gives the values that are reported, by the exact theorems for C28, C32, C36 and C13.
- **C55 MIX output repeats the reported and stored values** — a table of MIX paths and property paths (`Spec/MixValues.lean`), proved by evaluating the generator on arbitrary properties; the stored values follow through C54 along the first element at each step of a path. The capture values are a relation between the embedded XMP documents and the MIX element (`Spec/MixCapture.lean`).
- **C56 Each failed test names the rule that is violated** — a table of test names and rules for each box, segment, superbox, tile-part, codestream and file (`Spec/Rules.lean`, `Spec/Diagnosis.lean`), one iff per test, composed by induction over the walks.
- **C57 Reports follow the published schema** — the schema is transcribed (`Spec/Schema.lean`) with validity as an inductive relation; one lemma per validator, composed by induction over the walks. False in seven points: negation witnesses, a theorem for a relaxed schema without restriction, and a theorem for the schema as published under restrictions.
- **C58 A codestream means the same in a file and by itself** — the two analyses are related step by step (`codestream_bare`); the box and the file then have the same tests. Wrapping is shown with the characterisation of valid files (C17, C18) and the roundtrip of box encodings (C10).
- **C59 Packet data have no influence on the report** — `Spec/PacketData.lean` says which bytes are headers and markers and which are packet data. If headers and markers agree, every segment read and every marker test gives the same (`segAt_congr`); by induction over the headers and the tile-part chain the loops do the same steps (`tpLoop_data`, `mainLoop_data`, `tileLoop_data`), so the outcomes are equal, for every bound on the number of steps. Packet data are outside headers and markers (`sameHeaders_of_packets`); `packets_gen`: all conforming codestreams (C50) are of this kind.
- **C60 The report depends on a file only through its contents** — the analysis reads only the contents, and more steps do not change a completed analysis (`analyse_le`).
- **C61 The command line means what it says** — a grammar of command lines (`Spec/CommandLine.lean`): which words name options (also abbreviated, clustered, with an attached value), which are arguments, and what is asked for. `argparse` is modelled for the features that the declarations use; soundness by induction over its consuming loop (`argLoop_sound`), completeness by induction over the grammar (`commandLine_complete`).
- **C62 The warnings are exactly the unknown boxes** — `Spec/Warnings.lean` defines the expected warnings as a relation on the boxes of the file; every node of a codestream has no warnings (`codestream_calm`), and the only caller of `addWarning` is the validator of unknown boxes. By induction over nested boxes. A box header cut off after two bytes that look like a marker gets no warning (`C62_cut_header`).
- **C63 A valid file is a sequence of complete boxes** — false (`C63_false`): bytes after the last box, a last box that declares more than there is and a cut-off header are accepted. Partial: the mandatory boxes, if not last, are complete. `C63_trailing` and `C63_overlong` prove the disagreement for every file. `allComplete_iff` checks the specification against the encoding of boxes in I.4.
- **C64 A file is valid in at most one format** — from the exact characterisations C16/C17 (brand of the file type box), C23 and C26 (Rsiz): signature box against SOC marker separates files from bare codestreams, brand separates JP2 from JPH, Rsiz separates the two codestream formats.
- **C65 Metadata does not affect the validity of the image** — `Spec/Metadata.lean` says which boxes make up the image. From C17 and C18: the conditions on a file look only at these and at each box separately. Insertion and exchange are on bytes, with either form of the length. `C65_positions` shows that the excluded boxes matter.
- **C66 The order of main header segments and added comments do not matter** — from C23: two codestreams that differ only in segments before the first tile-part have the same structure after it, shifted. Segments read outside the replaced part are the same by the shift lemmas.
- **C67 Tile-parts may be interleaved and codestreams exchanged** — `Spec/TileOrder.lean` states the rules for codestreams made of complete segments and tile-parts, without positions; `C67_exact` proves that they decide validity exactly (in both directions, by C23 and uniqueness of the walk), and the rest follows. Tile indices must be those of tiles: C24_false and C25_false show what happens otherwise.
- **C68 The report does not depend on Python's limit on the digits of integers** — `Model/Digits.lean` is `checkOneFile` with the limit of CPython (4300 digits by default, at least 640, 0 for none). False (`C68_false`): a codestream with a PRF segment of 2002 bytes is reported valid without the limit and as a failed analysis with it. `C68_same_partial`: the reports are the same unless a followed codestream has a PRF or CPF number that is too long (for files below 10^639 bytes and XML parsers that return text); `C68_fails`: what is reported otherwise; `C68_short`: with the default limit, length fields up to 1787 are safe; `C68_unlimited`: with no limit the two models agree, which links all other theorems to this one. Proved by showing that every other integer in a report is bounded, along the walk of boxes and segments.
- **C69 The size of a report is proportional to the size of the file** — False (`C69_false`): tile-parts may share a header, because the end of a tile-part header is looked for without regard to the length of the tile-part, so a valid codestream of `85 + 16 k + 7 m` bytes has a report of more than `(k + 1) m` elements (`C69_shared`). `C69_partial`: the number of elements is at most `2^26 (n + 1)^2 + 13` for `n` bytes, without `--mix`; by counting what each statement adds and by the bound on the steps of the loops (C14). `C69_palette`: a palette box reports as many entries as its first three bytes announce, up to 16711425, even if it has no other bytes. `C69_mix_partial`: with `--mix` at most `2^27 (n + 1)^2 + 72`, because MIX output repeats at most a part of the report.
- **C70 The result of a run does not depend on Python's limit on nested calls** — `Model/Recursion.lean` is `checkFiles` with a limit for each of the three recursions that follow the input: boxes inside boxes, and elements inside elements in the two serialisers. What happens when there is no room for a box is a parameter, because `RecursionError` may also be raised and caught deeper inside. False (`C70_false`, `C70_crash`): whatever the limit, a valid file with enough UUID info boxes inside each other (31 bytes each) is reported as not valid, and a valid file with an XML box of enough elements inside each other (7 bytes each) ends the run with an exception, so that neither it nor the files after it are reported, because the report is written outside of the `try`. `C70_boxes_partial`, `C70_depth`, `C70_run_partial`: files whose boxes and documents are nested in at most `n` and `m` levels are reported as without limit if there is room for `n` boxes and `max (n + max 4 m + 2) 9` elements. `C70_fails`: what is reported if there is no room for a box.
- **C71 The report records every message printed about a file** — `Model/Stderr.lean` is the same functions, with the messages they print; `C71_same_program` proves that the reports are those of the main model. `Spec/Stderr.lean` says which boxes are mentioned (`Told`). False: the message about an intellectual property box is printed but is not in the report (`C71_false`), and the warnings printed before a failure are lost (`C71_lost`). `C71_boxes`, `C71_codestream`, `C71_empty`: exactly what is printed about a file. `C71_report_partial`: the warnings of a successful report are the messages without those about intellectual property boxes, in the same order. `C71_exact`: all messages are in the report if and only if there is no such box. `C71_run`, `C71_silence`: the messages of a run, and what silence means.
- **C72 Data after the end of an image are noticed** — `Spec/Trailing.lean` says which codestreams tell where they end (`SelfDelimiting`; every conforming one does, `gen_selfDelimiting`). False: `C72_exact` proves that a valid codestream of this kind, followed by anything, is valid exactly if the last two bytes are EOC, so a second codestream or any text and an EOC marker are accepted (`C72_concat`, `C72_conforming`), also inside the codestream box of a JP2 or JPH file (`C72_inside`), and `C72_report` that the report is the same but for the compression ratio. After a JP2 or JPH file that consists of complete boxes, data are accepted exactly if they are boxes that pass, none of them a signature, file type or JP2 header box (`C72_boxes`), and each of them is in the report (`C72_shown`), so that two files one after the other are not a valid file (`C72_files_partial`); `C72_false` has a valid concatenation when its last box extends to the end.
- **C73 Floating-point arithmetic does not change a verdict, a count or a printed decimal** — `Spec/Float.lean` defines doubles and correct rounding without reference to an algorithm; `Model/Float.lean` has the computations of the code with rounding to nearest, ties to even, after each operation (`fl_nearest`: it is a nearest double). `C73_compare`: comparing a rounded quotient of numbers below 2^53 with an integer is exact; `C73_ceil`, `C73_int`, `C73_model`, `C73_tiles`, `C73_lengths`: so are the counts and tests. Decimals: if the relative error is below the distance to the nearest tie, rounding is correct (`rounded_of_close`), which gives `C73_ratio` (images up to 2^48 bits), `C73_illuminant` (all) and `C73_resolution` (exponents up to 8). `C73_resolution_error`: the relative error is at most 2^-49 for all exponents. False for exponent 9 (`C73_false`), so the bound 8 is the best one.
- **C74 The ratio and the resolution in MIX output are the numbers of the report** — `Model/MixFloat.lean` has the three computations of `mix.py` with the roundings of doubles, in place of the parameters of `Model/Mix.lean`; what `float` makes of a text remains a parameter. `C74_ratio`: the ratio is right in both versions. The resolutions are false: they are cut off instead of rounded, so that 60 pixels per inch, in the report as 2362.2 pixels per metre, become 236219/10000 pixels per centimetre (`C74_false`). `C74_resolution_partial`: they are at most one hundredth of a pixel per metre too small, and right for multiples of a quarter of a pixel per metre, such as whole numbers.
- **C75 The decimal numbers of a report are the exact ones, rounded, in decimal notation** — `Model/Repr.lean` says what `str` makes of a float: the shortest decimal number that is read as the same float, and its layout. `Spec/Repr.lean` says what decimal notation is. `C75_text`: two decimal numbers of up to 15 digits are read as different floats, so the text of the float nearest to such a number is the number itself (`C75_exists`, `C75_unique`: it has exactly one text). With C73 this gives the texts of the ratios up to 8 TiB, the illuminants and the resolutions up to exponent 8 (`C75_ratio`, `C75_illuminant`, `C75_resolution_partial`), the ratio of a whole report (`C75_report`) and of MIX output (`C75_mix`). It is false for large exponents: 10^20 pixels per metre are shown as `1e+20` (`C75_false`) `C75_resolution_report_partial`: the texts of the resolutions of a capture or display resolution box in a whole report, found by the positions of the box and of the boxes around it. `C75_illuminant_report`: so for the illuminants of embedded ICC profiles.
- **C76 One definition of a valid file** — `Spec/Valid.lean` puts the definition together: `ValidFile` over `BoxValid`, an inductive definition that follows the superboxes, and `CodestreamValid`, with all fields of boxes and marker segments. `C76_file` shows that it is exactly what the model accepts, by induction on the length of the payload with the characterisations of C16-C38 for the leaves, C18, C34 and C37 for the superboxes and C23 for codestreams; new are PLT and PLM segments and box types cut off by the end of the file that look like markers. `C76_verdict` is the same for the verdict of every report, with every fuel and MIX version, `C76_report` says that a report is made, `C76_depends` is the independence of all else.
- **C77 Damage to the frame of an image is noticed** — Spec/Damage.lean defines a changed byte, the bytes of the frame and damage to a file, on bytes and lists of boxes alone. The theorems follow from the definition of valid files (C76): two valid files that agree everywhere else agree in these bytes. For the SOT segments it is shown that a tile-part reached in the one codestream is reached in the other. A concrete witness shows that other bytes are not protected.
- **C78 An interrupted run loses only unfinished reports and cannot be mistaken for a complete one** — Standard output is written from front to back, so a crash point is an initial part of the bytes of the output (Spec/Interrupted.lean). Lemmas/Cut.lean shows that the reader of Spec/Xml.lean, once the root element is over, accepts no markup, and that an initial part of UTF-8 encodes an initial part of the text. The theorems combine this with the readability of the reports so far (C51), each followed by the closing tag.
- **C79 The report identifies the parameters of an image** — Spec/Determines.lean says what it means that two files have the same numbers and names in their headers: fields by the tables of Spec/Fields.lean, repeated entries, segments one after the other, tile-parts by their SOT fields, boxes recursively. The proof starts from C54 for both reports (Lemmas/Same.lean): the descriptions of a field are different and none of them is a decimal number, decimal texts are different for different numbers, and the names of elements tell boxes and segments apart. For valid files the fields of the image header box and of the SIZ segment cover all their bytes. Names and texts are compared if they are UTF-8 without control characters, because others are shown as nothing or in part (Lemmas/SameText.lean); binary comments, UUIDs and profile identifiers are compared always. The version and date of ICC profiles and packet lengths below 2^14 are read off from their texts (Lemmas/SameWords.lean); longer packet lengths are reported modulo 2^14 (C13). Where only a part of a list is reported, this part is compared: the first step sizes of QCD and, with the style byte, of QCC (C28), the first word of a profile number (C32), the palette entries at the places that are read (C36). Numbers with a fraction, embedded documents and the contents of boxes of unknown type are not compared. C79_reserved shows that reserved bits of a COD segment are not reported, so the header as a whole is not determined.
- **C80 Uninterpreted data have no influence on the report** — Spec/Unseen.lean relates two files box by box: equal boxes, boxes whose contents are not examined, codestreams with the same headers (Spec/PacketData.lean), codestreams whose headers have the same validated segments but for the contents of TLM, PPM and PPT (at any positions, with other segments added or removed), and superboxes with related boxes. The proof is by mutual induction on the relation: related boxes have equal outcomes with enough fuel, so the loops over boxes give the same results. It is the counterpart of C79, which says what the report does determine. The contents of a UUID box with the XMP identifier and of XML boxes are excluded: they are part of the report (C54).
- **C81 The report on a box or segment depends on it alone** — Spec/Context.lean says what it means for properties, tests and warnings to be collected from the contributions of boxes. The theorems put the existence of the contribution function before the quantification over files. Proof: the result of the analysis of a box does not depend on the fuel once it ends, and the loops over boxes and segments append what each gives. Tile-parts are covered for codestreams whose SIZ segment gives tiles with an extent.
- **C82 The named format selects rules, not values** — Spec/FormatOnly.lean relates the properties of two reports: equal elements, but for the listed names in COD, COC and CAP segments at any depth. Proof: a relational walk through the whole validator (Lemmas/FormatRel.lean) in which the values that steer loops, tests or exceptions are shown to be equal. Tests are compared by the results found at each path, leaving out the listed tests whose rules depend on the format.

## Trusted base

* **Lean's kernel** (Lean 4.33.0). No `sorry`, `admit`, `axiom`, `native_decide`, `bv_decide`,
  `implemented_by` or `unsafe` occurs in the project. Concrete witnesses are evaluated with
  `decide` / `decide +kernel` / `rfl`, which the kernel checks. No Mathlib module is imported; the
  only library import is `Std.Data.String.ToNat` (injectivity of decimal numerals).
* **Axioms**: every theorem depends on a subset of `propext`, `Classical.choice`, `Quot.sound`.
  `AXIOMS.txt` lists them theorem by theorem (output of `#print axioms`).
* **The reading of the Python source**: the model was written by hand from `/repo`. Every definition cites
  the lines it models; nothing connects the Lean text to the Python text mechanically.
* **The specifications** in `lean/Verif/Spec/`. They do not mention the model (except `Spec/Basic`,
  which defines the byte type, and the element type of reports); the property theorems in
  `lean/Verif/Props/` relate the model to them.

### Parameters of the model

Everything below is an argument of the model, so the theorems hold for every behaviour of it.

| Parameter | Stands for |
|---|---|
| `Env.parseXml` | `ET.fromstring` (expat): any function from bytes to a tree or a failure |
| `Env.catC` | `unicodedata.category(c)[0] == 'C'`: any predicate |
| `Env.floatStr` | `str(float)`: any function; described in `Model/Repr.lean` (C75) |
| `MixEnv` | `int(round(float(s)*k,0))`, `int(float(s)*k)`, `str.strip`; the first two are given with floats in `Model/MixFloat.lean` (C74) |
| `FS` | `os.path.*`, `os.walk`, `glob.glob`, `open`/`mmap`, `os.path.getsize`, `getmtime`/`ctime` |
| `fuel` | number of iterations a loop may make before the model gives up (`timeout`) |
| `ArgEnv` | `int(s)` for the value of `--mix`, and the regular expression by which `argparse` recognises negative numbers |
| `scriptName`, `lower` | `sys.argv[0]`-derived tool name, `str.lower` |

A theorem with a hypothesis about a parameter (for instance "`floatStr` yields a string that `float`
accepts") says so in its statement.

## What is modelled

| Python | Lean (`lean/Verif/Model/`) |
|---|---|
| slices, `>>`, `&`, `//`, `range`, `math.ceil` of a quotient | `Py` |
| `byteconv.py`: `_doConv`, `bytesToULongLong`, `bytesToUInt`, `bytesToUShortInt`, `bytesToUnsignedChar`, `bytesToSignedChar`, `bytesToInteger`, `isctrl`, `bytesToHex`, `containsControlCharacters`, `removeControlCharacters`, `removeNullTerminator`, `bytesToText`, and the UTF-8 and ISO-8859-15 decoders they call | `ByteConv` |
| `shared.py`: `consecutive`, `listOccurrencesAreContiguous`, `errorExit` (as an exit status) | `Shared`, `CheckFile` |
| `etpatch.py`: `Element.iter`, `find`, `findall` with `a/b` paths, `findElementText`, `findAllText`, `appendChildTagWithText`, `appendIfNotEmpty`, `SubElement` | `Elem` |
| `etpatch.py`: `makeHumanReadable`; `jpylyzer.py`: `generatePropertiesRemapTable` | `Readable` |
| `boxvalidator.py`: `testFor`, `addCharacteristic`, `addWarning`, `_isValid`, `_getBitValue` | `Node` |
| `boxvalidator.py`: `validate_unknownBox`, `_signatureBox`, `_fileTypeBox`, `_imageHeaderBox`, `_bitsPerComponentBox`, `_colourSpecificationBox`, `_icc`, `_paletteBox`, `_componentMappingBox`, `_channelDefinitionBox`, `_captureResolutionBox`, `_displayResolutionBox`, `_xmlBox`, `_uuidBox`, `_uuidListBox`, `_urlBox` | `Boxes` |
| `boxvalidator.py`: `validate_siz`, `_cap`, `_cod`, `_coc`, `_rgn`, `_qcd`, `_qcc`, `_poc`, `_crg`, `_com`, `_prf`, `_cpf`, `_sot`, `_plm`, `_plt`, `_parse_ipl` and the markers that are only reported (`_tlm`, `_ppm`, `_ppt`, `_eph`, ...) | `Markers`, `Codestream` |
| `boxvalidator.py`: `__init__` (choice of the validator from the four-byte type), `typeMap`, `_getMarkerSegment`, `validate_tilePart`, `validate_contiguousCodestreamBox`, `_calculateCompressionRatio` | `Codestream` |
| `boxvalidator.py`: `validate`, `_getBox`, `validate_jp2HeaderBox`, `_resolutionBox`, `_uuidInfoBox`, `validate_JP2` | `Validate` |
| `mix.py`: all functions | `Mix` |
| `jpylyzer.py`: `fileToMemoryMap`, `checkOneFile`, `checkNoInput`, `stripSurrogatePairs`, `getFiles`, `getFilesWithPatternFromTree`, `getFilesFromTree`, `findFiles`, `writeElement`, `checkFiles`, `main` after argument parsing | `CheckFile` |
| the divisions, `round`, `int` and `math.ceil` of `boxvalidator.py`, with the roundings of doubles; those of `mix.py`; `str` of a float | `Float`, `MixFloat`, `Repr` |
| the messages of `printWarning`, in order | `Stderr` |
| Python's limit on nested calls | `Recursion` |
| `jpylyzer.py`: `parseCommandLine` and the part of `argparse` it uses; repeated calls of `main` | `Args` |
| `jpylyzer.py`: the characters and bytes written by `writeElement` and `checkFiles` (`ElementTree.tostring`, `minidom.toprettyxml`) | `Write` |

## What is not modelled

* The texts that `argparse` prints for usage errors, `--help` and `--version`: the model says only which of the
  three ends the program. `argparse` is that of CPython 3.11 (library code, read from an installation), with the features that the declarations of
  `parseCommandLine` use. A lone surrogate in the value of `--format` becomes U+FFFD in the model; either way the value names no format.
  `checkNullArgs` and `fileToBytes` are never called. `printHelpAndExit` is unreachable.
* Library code behind the output. Outside `Model/Write.lean` output is a list of chunks
  (head, element, tail); what `writeElement` can raise is modelled (non-string text; characters that expat
  refuses). `Model/Write.lean` gives the characters and their UTF-8 bytes, with ElementTree and minidom as in CPython 3.11; they are
  library code read from an installation, not part of `/repo`. The reader of `Spec/Xml.lean` covers the part of XML that
  serialisers write (elements, attributes, character data, character and predefined entity references, namespaces,
  the XML declaration): it knows no comments, processing instructions, CDATA sections or document types, and does not check that the reserved
  prefixes `xml` and `xmlns` are bound only as the standard allows.
* Standard error, except the messages of `printWarning`, which `Model/Stderr.lean` gives in order (C71). Not modelled: tracebacks,
  the texts of argparse, the messages of `errorExit`, and the words `User warning: ` before each message.
  Lone surrogates in names are left out of the messages of the model; Python prints them as escapes.
* IEEE rounding in the main model: a float is an exact rational together with the number of digits it is rounded to, and
  `Env.floatStr` turns it into text. `Model/Float.lean` has the same computations with every rounding of IEEE 754
  doubles, and C73 compares the two. Overflow, infinities, NaN and signed zeros are not represented there, and the C
  function `pow` is a parameter with an error of at most one unit in the last place. That the text is a function of the exact
  number is a simplification for resolutions in the middle between two decimals: `C73_ties` has two boxes with the same
  exact resolution that Python shows as 0.04 and 0.03.
* Memory exhaustion, signals, and changes of the file system while a run is in progress.
* Python's limit on nested calls, except in `Model/Recursion.lean` (C70). C70 proves that it matters only for
  deeply nested boxes and metadata.
* Python's limit on the digits of integers that are converted to text, except in `Model/Digits.lean` (C68).
  C68 proves that it matters only for the numbers of PRF and CPF segments.
* Python 2 and the code paths that only it reaches.

## Evidence that the model matches the code

The code cannot be run here. The model can (`lake env lean --run`): on the example images of the repository
it gives the verdicts their names announce (`balloon.jp2` is valid, the truncated variants fail in the
expected tests), and all properties of the recorded report `xsd/test_jp2_v-2-0.xml` agree with those the
model gives for the same image, except where version 2.0, which wrote that report, differs from the pinned
version. The model of `argparse` was compared with the library itself, given the same declarations, on 60000 random
command lines: no disagreement.

## Disagreements between properties and code

For these properties the code does not do what its users rely on. The negation is proved with a concrete
witness, and the theorem that does hold is marked `_partial`.

| Property | What happens | Theorem |
|---|---|---|
| C11, C12 | a PLT or PLM segment whose last byte has its high bit set sends `_parse_ipl` into an endless loop | `C11_false`, `C12_false` |
| C13 | packet lengths of three or more bytes are reported modulo 2^14 | `C13_false` |
| C14 | a truncated SOT segment makes the tile-part length -9999, and the tile-part loop jumps backwards for ever | `C14_false` |
| C19 | the test of the image header's component depth is true for every byte (the file-level comparison with SIZ catches it) | `C19_ihdr_false`, `C19_file` |
| C23 | a codestream that announces no tiles passes without a single tile-part | `C23_no_tileparts` |
| C24 | tile-parts of tiles that do not exist pass | `C24_false` |
| C25 | a tile-part without SOD passes after a tile-part with an index out of range | `C25_false` |
| C28 | QCC step sizes are read one byte early | `C28_qcc_values_false` |
| C32 | every PRF entry is read from the offset of the first; a CPF segment whose last entry is zero passes | `C32_prf_false`, `C32_cpf_false` |
| C35 | only the first 4096 ICC tags are examined | `C35_colr_false` |
| C36 | palette entries of a palette whose columns have different byte widths are read at the wrong offsets | `C36_palette_values_false` |
| C39 | compression ratio of bare codestreams: the vertical offset is taken from the horizontal one | `C39_false` |
| C63 | up to three bytes after the last box, a cut-off box header and a last box declaring more bytes than there are do not make a file invalid | `C63_false`, `C63_trailing`, `C63_overlong` |
| C62 | a box header cut off after two type bytes equal to a marker code is taken for a marker segment: no warning | `C62_cut_header` |
| C68 | a PRF or CPF segment with a number of more than 4300 digits makes the analysis fail under current versions of Python, because `makeHumanReadable` converts it to text | `C68_false`, `C68_fails` |
| C69 | tile-parts that share a header make reports grow with the square of the size of a valid file; a palette box of eleven bytes makes a report of sixteen million elements | `C69_false`, `C69_shared`, `C69_palette` |
| C70 | a valid file with an XML box whose elements are nested about a thousand levels deep ends the whole run with an uncaught exception; one with boxes nested about five hundred levels deep is reported as not valid | `C70_crash`, `C70_false`, `C70_fails` |
| C71 | the message about an intellectual property box is printed on standard error but is not a warning of the report; warnings printed before the analysis fails are missing from the report | `C71_false`, `C71_exact`, `C71_lost` |
| C72 | anything may follow the end of a codestream, even a second image, if the last two bytes are EOC; the report does not mention it | `C72_exact`, `C72_concat`, `C72_report`, `C72_false` |
| C73 | resolutions with a decimal exponent of 9 or more can be off in the last decimal | `C73_false` |
| C74 | the sampling frequencies of MIX are cut off, not rounded, so that some resolutions (60, 105, 106, 114 pixels per inch, ...) are too small by 0.01 pixels per metre | `C74_false` |
| C75 | resolutions of 10^16 pixels per metre or more, which the exponent of a resolution box can express, are shown with an exponent (`1e+20`) | `C75_false` |
| C40 | attributes of embedded XML and texts between its elements are not cleaned of control characters, as the texts of elements are | `C40_elsewhere`, `C40_elsewhere_false` |
| C41 | zero denominators in resolution boxes, short UUID boxes and two-byte box types raise exceptions | `C41_false` |
| C44 | the list of files found survives from one `checkFiles` call to the next | `C44_history`, `C44_false` |
| C44 | `parseCommandLine` declares the options of a module-wide parser, so that every call of `main` after the first raises `ArgumentError` | `C44_main_once` |
| C46 | a file name with a control character ends the whole run | `C46_false` |
| C48 | with MIX output, valid files can end the run with an exception | `C48_false`, `C48_false_rdf`, `C48_exact`, `C48_codestreams` |
| C51 | with `--nopretty`, a control character in a file name is written as it is and no XML reader accepts the document | `C51_false` |
| C53 | ICC flags are read from the wrong end of the four-byte field | `C53_icc_flags_false` |
| C57 | Parameterised colour space of a JPH file: `vidFRng` is `yes`/`no`, the schema wants an integer | `C57_false` |
| C57 | Empty UUID list, component mapping or bits per component: the schema wants at least one entry | `C57_false_lists` |
| C57 | A file ending within a box header can be reported with a `plt` or `ppt` element where the schema has only boxes | `C57_false_type` |
| C57 | Resolutions of 10^16 or more are printed in scientific notation, the schema wants `xs:decimal` (the README mentions the risk) | `C57_false_resolution` |
| C57 | With more than 256 components a POC segment of length 9 is accepted and reported without any progression order change | `C57_false_components` |
| C57 | Code block sizes of a truncated COD or COC segment are printed as `0.0`, the schema wants an integer | `C57_false_invalid` |
| C26, C58 | A SIZ segment whose image offset is not less than the image size (table A.9 and B.2 require it) is accepted; alone the codestream is reported valid, in a JP2 file it cannot be | `C58_empty_image` |
