import Verif.Model.Codestream
import Verif.Model.Shared
/-! # Box structure: `_getBox`, superboxes and `validate_JP2` of `jpylyzer/boxvalidator.py` -/

namespace Jpy

/-- Result of `_getBox`. -/
structure Box where
  length : Int
  type : Bytes
  byteEnd : Int
  contents : Bytes

/-- `_getBox(byteStart, noBytes)` with `noBytes = len(self.boxContents)`, as every caller passes
(`boxvalidator.py:137-169`). -/
def getBox (b : Bytes) (byteStart : Int) : Box :=
  let l0 := bytesToUInt (slice b byteStart (byteStart + 4))
  let type := slice b (byteStart + 4) (byteStart + 8)
  let l1 := if l0 = 1 then bytesToULongLong (slice b (byteStart + 8) (byteStart + 16)) else l0
  let contentsStart : Int := if l0 = 1 then 16 else 8
  let l2 := if l1 = 0 then (b.length : Int) - byteStart else l1
  { length := l2
    type := type
    byteEnd := byteStart + l2
    contents := slice b (byteStart + contentsStart) (byteStart + l2) }

/-- The box loop, identical in `validate_jp2HeaderBox` (`boxvalidator.py:388-417`),
`validate_resolutionBox` (`1128-1159`), `validate_uuidInfoBox` (`3361-3392`) and `validate_JP2`
(`3475-3506`). `sub` is `BoxValidator(options, type, contents).validate()`. -/
def boxLoop (sub : Bytes → Bytes → Outcome BoxResult) (b : Bytes) :
    Nat → Int → Int → Node → List Bytes → Outcome (Node × List Bytes)
  | 0, _, _, _, _ => .timeout
  | fuel + 1, byteStart, boxLength, node, types =>
    if byteStart < b.length ∧ boxLength ≠ 0 ∧ boxLength ≠ -9999 then do
      let box := getBox b byteStart
      let r ← sub box.type box.contents
      boxLoop sub b fuel box.byteEnd box.length (node.absorb r) (types ++ [box.type])
    else .ok (node, types)

/-- The loop from its initial values: `byteStart = 0`, dummy length 10. -/
def walkBoxes (sub : Bytes → Bytes → Outcome BoxResult) (b : Bytes) (fuel : Nat) :
    Outcome (Node × List Bytes) :=
  boxLoop sub b fuel 0 10 {} []

/-- The tests of `validate_jp2HeaderBox` after its loop (`boxvalidator.py:419-493`). -/
def jp2HeaderFinish (o : Options) (node : Node) (types : List Bytes) : Node :=
  let v := o.verbose
  let hasColr := decide (tagColourSpecification ∈ types)
  let n := node.testFor v "containsImageHeaderBox" (decide (tagImageHeader ∈ types))
  let n := match o.format with
    | .jp2 => n.testFor v "containsColourSpecificationBox" hasColr
    | .jph =>
      let unkC := Elem.findElementText n.chars ["imageHeaderBox", "unkC"]
      let n := n.testIf v (decide (unkC = some (PyVal.int 0))) "containsColourSpecificationBox" hasColr
      let cTypes := Elem.findAllText n.chars ["channelDefinitionBox", "cTyp"]
      n.testIf v (!hasColr) "noZeroCTypesIfNoColourBox" (decide (PyVal.int 0 ∉ cTypes))
    | _ => n
  let sign := Elem.findElementText n.chars ["imageHeaderBox", "bPCSign"]
  let depth := Elem.findElementText n.chars ["imageHeaderBox", "bPCDepth"]
  let n := n.testIf v (decide (sign = some (PyVal.int 1) ∧ depth = some (PyVal.int 128)))
    "containsBitsPerComponentBox" (decide (tagBitsPerComponent ∈ types))
  let n := n.testFor v "firstJP2HeaderBoxIsImageHeaderBox"
    (decide (types.head? = some tagImageHeader))
  let n := n.testFor v "noMoreThanOneImageHeaderBox" (decide (types.count tagImageHeader ≤ 1))
  let n := n.testFor v "noMoreThanOneBitsPerComponentBox"
    (decide (types.count tagBitsPerComponent ≤ 1))
  let n := n.testFor v "noMoreThanOnePaletteBox" (decide (types.count tagPalette ≤ 1))
  let n := n.testFor v "noMoreThanOneComponentMappingBox"
    (decide (types.count tagComponentMapping ≤ 1))
  let n := n.testFor v "noMoreThanOneChannelDefinitionBox"
    (decide (types.count tagChannelDefinition ≤ 1))
  let n := n.testFor v "noMoreThanOneResolutionBox" (decide (types.count tagResolution ≤ 1))
  let n := n.testFor v "colourSpecificationBoxesAreContiguous"
    (listOccurrencesAreContiguous types tagColourSpecification)
  n.testFor v "paletteAndComponentMappingBoxesOnlyTogether"
    (if (tagPalette ∈ types ∧ tagComponentMapping ∉ types)
        ∨ (tagComponentMapping ∈ types ∧ tagPalette ∉ types) then false else true)

/-- The tests of `validate_resolutionBox` after its loop (`boxvalidator.py:1161-1169`). -/
def resolutionFinish (v : Bool) (node : Node) (types : List Bytes) : Node :=
  let n := node.testFor v "containsCaptureOrDisplayResolutionBox"
    (decide (tagCaptureResolution ∈ types ∨ tagDisplayResolution ∈ types))
  let n := n.testFor v "noMoreThanOneCaptureResolutionBox"
    (decide (types.count tagCaptureResolution ≤ 1))
  n.testFor v "noMoreThanOneDisplayResolutionBox" (decide (types.count tagDisplayResolution ≤ 1))

/-- The tests of `validate_uuidInfoBox` after its loop (`boxvalidator.py:3394-3396`). -/
def uuidInfoFinish (v : Bool) (node : Node) (types : List Bytes) : Node :=
  let n := node.testFor v "containsOneListBox" (decide (types.count tagUuidList = 1))
  n.testFor v "containsOneURLBox" (decide (types.count tagUrl = 1))

/-- `BoxValidator(options, bType, contents).validate()` for a box found in a box loop
(`boxvalidator.py:76-128`). The fuel bounds nesting depth and the iterations of every loop. A
tile-part started this way has `startOffset = None`, so slicing raises `TypeError`
(`boxvalidator.py:3011-3020`). -/
def validateBox (env : Env) (o : Options) : Nat → Bytes → Bytes → Outcome BoxResult
  | 0, _, _ => .timeout
  | fuel + 1, bType, c =>
    match boxTypeOf bType with
    | .jp2HeaderBox => do
      let (n, types) ← walkBoxes (validateBox env o fuel) c fuel
      .ok { tag := "jp2HeaderBox", node := jp2HeaderFinish o n types }
    | .resolutionBox => do
      let (n, types) ← walkBoxes (validateBox env o fuel) c fuel
      .ok { tag := "resolutionBox", node := resolutionFinish o.verbose n types }
    | .uuidInfoBox => do
      let (n, types) ← walkBoxes (validateBox env o fuel) c fuel
      .ok { tag := "uuidInfoBox", node := uuidInfoFinish o.verbose n types }
    | .contiguousCodestreamBox => do
      let n ← codestream env o fuel c
      .ok { tag := "contiguousCodestreamBox", node := n }
    | .tilePart => .raised .typeError
    | _ => validateLeaf env o fuel none bType c

/-- `positionFirstContiguousCodestreamBox > positionJP2HeaderBox > 1`, false when either is missing
(`boxvalidator.py:3543-3555`). -/
def locationJP2HeaderBoxIsValid (types : List Bytes) : Bool :=
  decide (tagJp2Header ∈ types) && decide (tagCodestream ∈ types) &&
  decide (types.idxOf tagJp2Header < types.idxOf tagCodestream) &&
  decide (1 < types.idxOf tagJp2Header)

/-- The lists `bPCSignValues` and `bPCDepthValues` (`boxvalidator.py:3638-3674`): from the Bits Per
Component box when the image header says the depth varies, otherwise the header value repeated `nC`
times. -/
def bpcValues (chars : List Elem) (nC bPCSign bPCDepth : Option PyVal) :
    Outcome (List PyVal × List PyVal) :=
  if bPCSign = some (PyVal.int 1) ∧ bPCDepth = some (PyVal.int 128) then
    match Elem.find chars ["jp2HeaderBox", "bitsPerComponentBox"] with
    | some bpc =>
      .ok (Elem.findAllText bpc.children ["bPCSign"], Elem.findAllText bpc.children ["bPCDepth"])
    | none => .ok ([], [])
  else do
    let k ← needInt nC
    .ok (List.replicate (rangeLen k) (bPCSign.getD .none),
         List.replicate (rangeLen k) (bPCDepth.getD .none))

/-- Consistency of the image header with the codestream (`boxvalidator.py:3592-3702`): `ih` and `sz`
are the children of `jp2HeaderBox/imageHeaderBox` and `contiguousCodestreamBox/siz`. -/
def sizConsistency (o : Options) (noBytes : Int) (n : Node) (ih sz : List Elem) : Outcome Node := do
  let v := o.verbose
  let height := Elem.findElementText ih ["height"]
  let ysiz ← needInt (Elem.findElementText sz ["ysiz"])
  let yOsiz ← needInt (Elem.findElementText sz ["yOsiz"])
  let n := n.testFor v "heightConsistentWithSIZ" (decide (height = some (PyVal.int (ysiz - yOsiz))))
  let width := Elem.findElementText ih ["width"]
  let xsiz ← needInt (Elem.findElementText sz ["xsiz"])
  let xOsiz ← needInt (Elem.findElementText sz ["xOsiz"])
  let n := n.testFor v "widthConsistentWithSIZ" (decide (width = some (PyVal.int (xsiz - xOsiz))))
  let nC := Elem.findElementText ih ["nC"]
  let csiz := Elem.findElementText sz ["csiz"]
  let n := n.testFor v "nCConsistentWithSIZ" (decide (nC = csiz))
  let bPCSign := Elem.findElementText ih ["bPCSign"]
  let bPCDepth := Elem.findElementText ih ["bPCDepth"]
  let (signs, depths) ← bpcValues n.chars nC bPCSign bPCDepth
  let n := n.testFor v "bPCSignConsistentWithSIZ" (decide (signs = Elem.findAllText sz ["ssizSign"]))
  let n := n.testFor v "bPCDepthConsistentWithSIZ"
    (decide (depths = Elem.findAllText sz ["ssizDepth"]))
  if o.format = .jp2 ∨ o.format = .jph then do
    let ds ← needInts depths
    let h ← needInt height
    let w ← needInt width
    .ok (n.addChar "compressionRatio" (compressionRatio noBytes ds h w))
  else .ok n

/-- The tests of `validate_JP2` after its loop (`boxvalidator.py:3508-3702`). -/
def jp2Finish (o : Options) (noBytes : Int) (node : Node) (types : List Bytes) : Outcome Node :=
  let v := o.verbose
  let n := node.testFor v "containsSignatureBox" (decide (tagSignature ∈ types))
  let n := n.testFor v "containsFileTypeBox" (decide (tagFileType ∈ types))
  let n := n.testFor v "containsJP2HeaderBox" (decide (tagJp2Header ∈ types))
  let n := n.testFor v "containsContiguousCodestreamBox" (decide (tagCodestream ∈ types))
  let iPR := Elem.findElementText n.chars ["jp2HeaderBox", "imageHeaderBox", "iPR"]
  let n := n.testIf v (decide (iPR = some (PyVal.int 1))) "containsIntellectualPropertyBox"
    (decide (tagIntellectualProperty ∈ types))
  let n := n.testFor v "firstBoxIsSignatureBox" (decide (types[0]? = some tagSignature))
  let n := n.testFor v "secondBoxIsFileTypeBox" (decide (types[1]? = some tagFileType))
  let n := n.testFor v "locationJP2HeaderBoxIsValid" (locationJP2HeaderBoxIsValid types)
  let n := n.testFor v "noMoreThanOneSignatureBox" (decide (types.count tagSignature ≤ 1))
  let n := n.testFor v "noMoreThanOneFileTypeBox" (decide (types.count tagFileType ≤ 1))
  let n := n.testFor v "noMoreThanOneJP2HeaderBox" (decide (types.count tagJp2Header ≤ 1))
  match Elem.find n.chars ["jp2HeaderBox", "imageHeaderBox"],
        Elem.find n.chars ["contiguousCodestreamBox", "siz"] with
  | some ih, some sz => sizConsistency o noBytes n ih.children sz.children
  | _, _ => .ok n

/-- `validate_JP2` (`boxvalidator.py:3457-3705`). -/
def validateJP2 (env : Env) (o : Options) (fuel : Nat) (b : Bytes) : Outcome Node := do
  let (n, types) ← walkBoxes (validateBox env o fuel) b fuel
  jp2Finish o b.length n types

/-- `_isValid` (`boxvalidator.py:130-135`): no element of the tests tree has the text `False`. The
root itself has no text. -/
def Node.isValid (n : Node) : Bool :=
  (Elem.iterL n.tests).all fun e => decide (e.text ≠ .bool false)

end Jpy
