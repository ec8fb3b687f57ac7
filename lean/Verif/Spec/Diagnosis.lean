import Verif.Spec.Rules
import Verif.Spec.Shows
/-!
# Specification of the tests in a report

`Spec/Rules.lean` lists the tests of single boxes and segments. Here are the tests of superboxes, tile-parts,
codestreams and files, and the way the tests of the parts are listed under the whole: in file order, each
part under its own name, parts without any test left out.

As in `Spec/Rules.lean` the rules say what the tests stand for as the program performs them.
-/

namespace Jpy.Spec

/-- The tests of a part as listed in the tests of the whole. -/
def entry (tag : String) : List Elem → List Elem
  | [] => []
  | t :: ts => [.node tag (t :: ts)]

/-- The value shown for a numeric field: -9999 if it is missing. -/
def shownNum : Option Nat → Int
  | some n => n
  | none => -9999

/-- Sign bit of a bit depth byte as shown. -/
def shownSign : Option Nat → Int
  | some v => (v / 128 : Nat)
  | none => 1

/-- Depth of a bit depth byte as shown. -/
def shownDepth : Option Nat → Int
  | some v => (v % 128 + 1 : Nat)
  | none => 114

/-! ## Superboxes -/

/-- JP2 header box with the boxes `bs`. -/
def headerRules (fmt : Format) (bs : List FoundBox) : List Rule :=
  [ ("containsImageHeaderBox", Has bs "ihdr"),
    ("containsColourSpecificationBox",
      (fmt = .jp2 → Has bs "colr") ∧
      (fmt = .jph → ∀ ih, FirstBox bs "ihdr" ih → FieldIs ih.payload 12 1 (· = 0) → Has bs "colr")),
    ("noZeroCTypesIfNoColourBox", fmt = .jph → ¬ Has bs "colr" →
      ∀ x ∈ bs, x.type = ascii "cdef" → ∀ n i, uint x.payload 0 2 = some n → i < n →
        uint x.payload (2 + 6 * i + 2) 2 ≠ some 0),
    ("containsBitsPerComponentBox",
      ∀ ih, FirstBox bs "ihdr" ih → FieldIs ih.payload 10 1 (· = 255) → Has bs "bpcc"),
    ("firstJP2HeaderBoxIsImageHeaderBox", ∃ ih rest, bs = ih :: rest ∧ ih.type = ascii "ihdr"),
    ("noMoreThanOneImageHeaderBox", number bs "ihdr" ≤ 1),
    ("noMoreThanOneBitsPerComponentBox", number bs "bpcc" ≤ 1),
    ("noMoreThanOnePaletteBox", number bs "pclr" ≤ 1),
    ("noMoreThanOneComponentMappingBox", number bs "cmap" ≤ 1),
    ("noMoreThanOneChannelDefinitionBox", number bs "cdef" ≤ 1),
    ("noMoreThanOneResolutionBox", number bs "res " ≤ 1),
    ("colourSpecificationBoxesAreContiguous", Together bs "colr"),
    ("paletteAndComponentMappingBoxesOnlyTogether", Has bs "pclr" ↔ Has bs "cmap") ]

/-- Resolution box with the boxes `bs`. -/
def resolutionRules (bs : List FoundBox) : List Rule :=
  [ ("containsCaptureOrDisplayResolutionBox", Has bs "resc" ∨ Has bs "resd"),
    ("noMoreThanOneCaptureResolutionBox", number bs "resc" ≤ 1),
    ("noMoreThanOneDisplayResolutionBox", number bs "resd" ≤ 1) ]

/-- UUID info box with the boxes `bs`. -/
def uuidInfoRules (bs : List FoundBox) : List Rule :=
  [ ("containsOneListBox", number bs "ulst" = 1),
    ("containsOneURLBox", number bs "url " = 1) ]

/-- The rules on the sequence of boxes in a superbox of type `t`. -/
def superRules (fmt : Format) (t : Bytes) (bs : List FoundBox) : List Rule :=
  if t = ascii "jp2h" then headerRules fmt bs
  else if t = ascii "res " then resolutionRules bs
  else if t = ascii "uinf" then uuidInfoRules bs
  else []

/-! ## Codestreams -/

/-- The tests of the segments of a header, each under the name of the segment. Segments whose marker is
not in `handled` have no tests. -/
inductive DiagnosesSegs (catC : Char → Bool) (fmt : Format) (csiz : Int) (handled : List Bytes) :
    List FoundSeg → List Elem → Prop
  | nil : DiagnosesSegs catC fmt csiz handled [] []
  | skip {x ss es} : x.marker ∉ handled → DiagnosesSegs catC fmt csiz handled ss es →
      DiagnosesSegs catC fmt csiz handled (x :: ss) es
  | seg {x ss name ts es} : x.marker ∈ handled → (x.marker, name) ∈ segNames →
      Diagnosed ts (segRules catC fmt csiz x.marker x.contents) →
      DiagnosesSegs catC fmt csiz handled ss es →
      DiagnosesSegs catC fmt csiz handled (x :: ss) (entry name ts ++ es)

/-- The rules on a tile-part that starts at `start` with the SOT segment `sot` and has the header segments
`ss`, up to a SOD marker at `sod`. -/
def tilePartRules (csiz : Nat) (b : Bytes) (start : Nat) (sot : Bytes) (ss : List FoundSeg)
    (sod : Option Nat) : List Rule :=
  [ ("foundSODMarker", ∃ k, sod = some k),
    ("CODAllowed", HasSeg ss COD → FieldIs sot 8 1 (· = 0)),
    ("COCAllowed", HasSeg ss COC → FieldIs sot 8 1 (· = 0)),
    ("QCDAllowed", HasSeg ss QCD → FieldIs sot 8 1 (· = 0)),
    ("QCCAllowed", HasSeg ss QCC → FieldIs sot 8 1 (· = 0)),
    ("RGNAllowed", HasSeg ss RGN → FieldIs sot 8 1 (· = 0)),
    ("maxOneCcocPerComponentTP", OnePerComponent csiz ss COC),
    ("maxOneCqccPerComponentTP", OnePerComponent csiz ss QCC),
    ("foundNextTilePartOrEOC", ∀ l, uint sot 4 4 = some l → l ≠ 0 →
      sub b (start + l) 2 = SOT ∨ sub b (start + l) 2 = EOC) ]

/-- The tests of a tile-part: those of its SOT segment, of its header segments, and of the tile-part. `next`
is where the header continues after the SOT segment. -/
inductive DiagnosesTilePart (catC : Char → Bool) (fmt : Format) (csiz : Nat) (b : Bytes) (start : Nat)
    (sot : Bytes) (next : Nat) : List Elem → Prop
  | mk {ts ss sod segs own} : Diagnosed ts (sotRules sot) → SegsTo b SOD next ss sod →
      DiagnosesSegs catC fmt csiz tilePartSegments ss segs →
      Diagnosed own (tilePartRules csiz b start sot ss sod) →
      DiagnosesTilePart catC fmt csiz b start sot next (entry "sot" ts ++ segs ++ own)

/-- A tile-part with the contents of its SOT segment and the offset after that segment. -/
structure SeenPart extends TilePartInfo where
  sot : Bytes
  next : Nat

/-- There is a SOT segment with these fields; its length may be wrong. -/
structure SeenPart.At (b : Bytes) (t : SeenPart) : Prop where
  seg : SegAt b t.start SOT t.sot (some t.next)
  index : uint t.sot 2 2 = some t.index
  length : uint t.sot 4 4 = some t.length
  part : uint t.sot 8 1 = some t.part
  parts : uint t.sot 9 1 = some t.parts

/-- The tile-parts visited from `off` when `n` tiles are expected: each one starts where the previous one
ends. The visit ends where there is no SOT marker, after a tile-part of length zero and after a tile-part
whose index is not that of a tile. -/
inductive Seen (b : Bytes) (n : Int) : Nat → List SeenPart → Prop
  | done {off} : sub b off 2 ≠ SOT → Seen b n off []
  | last {t} : t.At b → n ≤ (t.index : Int) ∨ t.length = 0 → Seen b n t.start [t]
  | step {t ts} : t.At b → (t.index : Int) < n → t.length ≠ 0 → Seen b n (t.start + t.length) ts →
      Seen b n t.start (t :: ts)

/-- The tests of tile-parts, in order. -/
inductive DiagnosesTileParts (catC : Char → Bool) (fmt : Format) (csiz : Nat) (b : Bytes) :
    List SeenPart → List Elem → Prop
  | nil : DiagnosesTileParts catC fmt csiz b [] []
  | cons {t ts e es} :
      DiagnosesTilePart catC fmt csiz b t.start t.sot t.next e →
      DiagnosesTileParts catC fmt csiz b ts es →
      DiagnosesTileParts catC fmt csiz b (t :: ts) (entry "tilePart" e ++ es)

/-- `siz` is the SIZ segment of a codestream: the second marker segment, whatever the first one is. -/
def SecondIsSiz (b siz : Bytes) (next : Option Nat) : Prop :=
  ∃ m c k, SegAt b 0 m c (some k) ∧ SegAt b k SIZ siz next

/-- The rules on the start of a codestream. -/
def startRules (b : Bytes) : List Rule :=
  [ ("codestreamStartsWithSOCMarker", sub b 0 2 = SOC),
    ("foundSIZMarker", ∃ siz next, SecondIsSiz b siz next) ]

/-- The rules on the segments of the main header and on the set of tile-parts; `n` is the number of tiles
expected. -/
def mainRules (siz : Bytes) (main : List FoundSeg) (n : Int) (ts : List TilePartInfo) : List Rule :=
  [ ("foundCODMarker", HasSeg main COD),
    ("foundQCDMarker", HasSeg main QCD),
    ("foundCAPMarker", FieldIs siz 2 2 (fun r => bit 14 r = 1 ∧ bit 15 r = 0) → HasSeg main CAP),
    ("foundExpectedNumberOfTiles", ∃ l : List Nat, l.Nodup ∧ (∀ i, i ∈ l ↔ ∃ t ∈ ts, t.index = i) ∧
      (l.length : Int) = n),
    ("foundExpectedNumberOfTileParts", (∃ t ∈ ts, t.parts ≠ 0) →
      (∀ i : Nat, (i : Int) < n → declared ts i = some (partCount ts i)) ∧
      ∀ t ∈ ts, t.parts ≠ 0 → (t.index : Int) < n) ]

/-- The rules checked at the end of a codestream. -/
def endRules (csiz : Nat) (b : Bytes) (main : List FoundSeg) : List Rule :=
  [ ("maxOneCcocPerComponentMain", OnePerComponent csiz main COC),
    ("maxOneCqccPerComponentMain", OnePerComponent csiz main QCC),
    ("foundEOCMarker", 2 ≤ b.length ∧ sub b (b.length - 2) 2 = EOC) ]

/-- The number of tiles expected: the product of A.5.1 if the tiles have an extent, otherwise none; never
more than 65535. -/
inductive ExpectedTiles (siz : Bytes) : Int → Prop
  | tiles {n} : FieldIs siz 20 4 (1 ≤ ·) → FieldIs siz 24 4 (1 ≤ ·) → TileCount siz n →
      ExpectedTiles siz (min n 65535)
  | none : ¬ (FieldIs siz 20 4 (1 ≤ ·) ∧ FieldIs siz 24 4 (1 ≤ ·)) → ExpectedTiles siz 0

/-- The tests of a codestream with the given main header, from whose SOT marker the tile-parts `ts` are
visited: those of the start, of the SIZ segment, of the other segments, of the main header, of the
tile-parts, and of the end. -/
inductive DiagnosesParts (catC : Char → Bool) (fmt : Format) (b siz : Bytes) (csiz : Nat)
    (main : List FoundSeg) (n : Int) (ts : List SeenPart) : List Elem → Prop
  | mk {start sizTests segs own tps last} : Diagnosed start (startRules b) →
      Diagnosed sizTests (segRules catC fmt csiz SIZ siz) →
      DiagnosesSegs catC fmt csiz mainSegments main segs →
      Diagnosed own (mainRules siz main n (ts.map (·.toTilePartInfo))) →
      DiagnosesTileParts catC fmt csiz b ts tps →
      Diagnosed last (endRules csiz b main) →
      DiagnosesParts catC fmt b siz csiz main n ts
        (start ++ entry "siz" sizTests ++ segs ++ own ++ entry "tileParts" tps ++ last)

/-- The tests `es` of a codestream. Without a SIZ segment there are only the tests of the start. With one,
those of the segments of the main header follow; nothing is said about the others if the SIZ segment ends
before its number of components, or if the SOT segment of a tile-part ends before its last field. -/
structure DiagnosesCodestream (catC : Char → Bool) (fmt : Format) (b : Bytes) (es : List Elem) : Prop where
  noSiz : (¬ ∃ siz next, SecondIsSiz b siz next) → Diagnosed es (startRules b)
  header : ∀ siz first main sot, SecondIsSiz b siz (some first) → SegsTo b SOT first main sot →
    ∃ start sizTests segs rest, es = start ++ entry "siz" sizTests ++ segs ++ rest ∧
      Diagnosed start (startRules b) ∧
      Diagnosed sizTests (segRules catC fmt (shownNum (uint siz 36 2)) SIZ siz) ∧
      DiagnosesSegs catC fmt (shownNum (uint siz 36 2)) mainSegments main segs
  siz : ∀ siz first csiz main sot n ts, SecondIsSiz b siz (some first) → uint siz 36 2 = some csiz →
    SegsTo b SOT first main sot → ExpectedTiles siz n →
    (match sot with | some k => Seen b n k ts | none => ts = []) →
    DiagnosesParts catC fmt b siz csiz main n ts es

/-! ## Boxes and files -/

/- The tests of boxes. -/
mutual
/-- The tests `es` of a box of type `t`. Nothing is said about a type cut off by the end of the file. -/
inductive DiagnosesBox (wf : Bytes → Prop) (catC : Char → Bool) (fmt : Format) : Bytes → Bytes → List Elem → Prop
  | cut {t p es} : t.length ≠ 4 → DiagnosesBox wf catC fmt t p es
  | leaf {t p es} : t ∉ superboxTypes → t ≠ ascii "jp2c" → Diagnosed es (boxRules wf fmt t p) →
      DiagnosesBox wf catC fmt t p es
  | codestream {t p es} : t = ascii "jp2c" → DiagnosesCodestream catC fmt p es →
      DiagnosesBox wf catC fmt t p es
  | super {t p bs kids own} : t ∈ superboxTypes → Boxes p bs → DiagnosesBoxes wf catC fmt bs kids →
      Diagnosed own (superRules fmt t bs) → DiagnosesBox wf catC fmt t p (kids ++ own)
/-- The tests of a sequence of boxes, each under the name of the box. -/
inductive DiagnosesBoxes (wf : Bytes → Prop) (catC : Char → Bool) (fmt : Format) : List FoundBox → List Elem → Prop
  | nil : DiagnosesBoxes wf catC fmt [] []
  | cons {x name ts bs es} : (x.type.length = 4 → name = boxName x.type) →
      DiagnosesBox wf catC fmt x.type x.payload ts → DiagnosesBoxes wf catC fmt bs es →
      DiagnosesBoxes wf catC fmt (x :: bs) (entry name ts ++ es)
end

/-- `hs` are the boxes inside the JP2 header boxes among `bs` (normally there is one), in order. -/
inductive HeaderContents : List FoundBox → List FoundBox → Prop
  | nil : HeaderContents [] []
  | skip {x bs hs} : x.type ≠ ascii "jp2h" → HeaderContents bs hs → HeaderContents (x :: bs) hs
  | header {x bs inner hs} : x.type = ascii "jp2h" → Boxes x.payload inner → HeaderContents bs hs →
      HeaderContents (x :: bs) (inner ++ hs)

/-- `siz` is the SIZ segment of the first codestream among `bs` that has one. -/
def FirstSiz (bs : List FoundBox) (siz : Bytes) : Prop :=
  ∃ a x z, bs = a ++ x :: z ∧ x.type = ascii "jp2c" ∧ (∃ next, SecondIsSiz x.payload siz next) ∧
    ∀ y ∈ a, y.type = ascii "jp2c" → ¬ ∃ s next, SecondIsSiz y.payload s next

/-- The rules on the sequence of boxes of a file; `hs` are the boxes inside the JP2 header. -/
def fileRules (bs hs : List FoundBox) : List Rule :=
  [ ("containsSignatureBox", Has bs "jP  "),
    ("containsFileTypeBox", Has bs "ftyp"),
    ("containsJP2HeaderBox", Has bs "jp2h"),
    ("containsContiguousCodestreamBox", Has bs "jp2c"),
    ("containsIntellectualPropertyBox",
      ∀ ih, FirstBox hs "ihdr" ih → FieldIs ih.payload 13 1 (· = 1) → Has bs "jp2i"),
    ("firstBoxIsSignatureBox", ∃ x z, bs = x :: z ∧ x.type = ascii "jP  "),
    ("secondBoxIsFileTypeBox", ∃ w x z, bs = w :: x :: z ∧ x.type = ascii "ftyp"),
    ("locationJP2HeaderBoxIsValid", ∃ a hd m cs z, bs = a ++ hd :: (m ++ cs :: z) ∧ 2 ≤ a.length ∧
      hd.type = ascii "jp2h" ∧ cs.type = ascii "jp2c" ∧
      ¬ Has a "jp2h" ∧ ¬ Has a "jp2c" ∧ ¬ Has m "jp2c"),
    ("noMoreThanOneSignatureBox", number bs "jP  " ≤ 1),
    ("noMoreThanOneFileTypeBox", number bs "ftyp" ≤ 1),
    ("noMoreThanOneJP2HeaderBox", number bs "jp2h" ≤ 1) ]

/-- The bit depth bytes that the boxes `hs` of the JP2 header give for the components: those of the first
bits per component box if the image header `ih` says 255, otherwise the byte of the image header for each of
its components. -/
inductive ComponentBytes (hs : List FoundBox) (ih : Bytes) : List (Option Nat) → Prop
  | same : uint ih 10 1 ≠ some 255 →
      ComponentBytes hs ih (List.replicate (shownNum (uint ih 8 2)).toNat (uint ih 10 1))
  | listed {x} : uint ih 10 1 = some 255 → FirstBox hs "bpcc" x →
      ComponentBytes hs ih ((List.range x.payload.length).map fun i => uint x.payload i 1)
  | none : uint ih 10 1 = some 255 → ¬ Has hs "bpcc" → ComponentBytes hs ih []

/-- The bit depth bytes in a SIZ segment. -/
def sizBytes (siz : Bytes) : List (Option Nat) :=
  (List.range (shownNum (uint siz 36 2)).toNat).map fun i => uint siz (38 + 3 * i) 1

/-- The rules on the agreement of an image header `ih` with a SIZ segment; `comps` are the bit depth bytes
for the components according to the JP2 header. -/
def imageRules (ih siz : Bytes) (comps : List (Option Nat)) : List Rule :=
  [ ("heightConsistentWithSIZ",
      shownNum (uint ih 0 4) = shownNum (uint siz 8 4) - shownNum (uint siz 16 4)),
    ("widthConsistentWithSIZ",
      shownNum (uint ih 4 4) = shownNum (uint siz 4 4) - shownNum (uint siz 12 4)),
    ("nCConsistentWithSIZ", shownNum (uint ih 8 2) = shownNum (uint siz 36 2)),
    ("bPCSignConsistentWithSIZ", comps.map shownSign = (sizBytes siz).map shownSign),
    ("bPCDepthConsistentWithSIZ", comps.map shownDepth = (sizBytes siz).map shownDepth) ]

/-- The tests of a JP2 or JPH file: those of its boxes, of their sequence, and of the agreement of the first
image header with the first SIZ segment, if there are both. -/
inductive DiagnosesFile (wf : Bytes → Prop) (catC : Char → Bool) (fmt : Format) (b : Bytes) : List Elem → Prop
  | mk {bs hs kids own image} : Boxes b bs → DiagnosesBoxes wf catC fmt bs kids → HeaderContents bs hs →
      Diagnosed own (fileRules bs hs) →
      (∀ ih siz comps, FirstBox hs "ihdr" ih → FirstSiz bs siz → ComponentBytes hs ih.payload comps →
        Diagnosed image (imageRules ih.payload siz comps)) →
      (¬ Has hs "ihdr" ∨ (¬ ∃ siz, FirstSiz bs siz) → image = []) →
      DiagnosesFile wf catC fmt b (kids ++ own ++ image)

/-- The tests `raw` as they stand in a report: the same elements with printable values. -/
def RenderedTests (env : Env) (raw out : List Elem) : Prop :=
  raw.length = out.length ∧ ∀ i (h : i < raw.length) (h' : i < out.length), Rendered env [] raw[i] out[i]

end Jpy.Spec
