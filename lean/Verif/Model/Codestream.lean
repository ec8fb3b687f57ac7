import Verif.Model.Markers
/-! # Codestream parsing in `jpylyzer/boxvalidator.py`: marker dispatch, tile-parts, main header -/

namespace Jpy

/-- The values of `typeMap` plus the names used without a byte key (`boxvalidator.py:31-71, 84-97`). -/
inductive BoxType where
  | intellectualPropertyBox | xmlBox | uuidBox | uuidInfoBox | signatureBox | fileTypeBox
  | jp2HeaderBox | imageHeaderBox | bitsPerComponentBox | colourSpecificationBox | paletteBox
  | componentMappingBox | channelDefinitionBox | resolutionBox | contiguousCodestreamBox
  | captureResolutionBox | displayResolutionBox | uuidListBox | urlBox
  | cap | siz | prf | cod | qcd | com | coc | rgn | qcc | poc | tlm | plm | plt | cpf | ppm | ppt
  | crg | tilePart | unknownBox
  deriving DecidableEq, Repr

/-- The name of a box type, which is the tag of its elements (`boxvalidator.py:31-71`). -/
def BoxType.name : BoxType → String
  | intellectualPropertyBox => "intellectualPropertyBox"
  | xmlBox => "xmlBox"
  | uuidBox => "uuidBox"
  | uuidInfoBox => "uuidInfoBox"
  | signatureBox => "signatureBox"
  | fileTypeBox => "fileTypeBox"
  | jp2HeaderBox => "jp2HeaderBox"
  | imageHeaderBox => "imageHeaderBox"
  | bitsPerComponentBox => "bitsPerComponentBox"
  | colourSpecificationBox => "colourSpecificationBox"
  | paletteBox => "paletteBox"
  | componentMappingBox => "componentMappingBox"
  | channelDefinitionBox => "channelDefinitionBox"
  | resolutionBox => "resolutionBox"
  | contiguousCodestreamBox => "contiguousCodestreamBox"
  | captureResolutionBox => "captureResolutionBox"
  | displayResolutionBox => "displayResolutionBox"
  | uuidListBox => "uuidListBox"
  | urlBox => "urlBox"
  | cap => "cap" | siz => "siz" | prf => "prf" | cod => "cod" | qcd => "qcd" | com => "com"
  | coc => "coc" | rgn => "rgn" | qcc => "qcc" | poc => "poc" | tlm => "tlm" | plm => "plm"
  | plt => "plt" | cpf => "cpf" | ppm => "ppm" | ppt => "ppt" | crg => "crg"
  | tilePart => "tilePart"
  | unknownBox => "unknownBox"

/-- Byte tags of the boxes (`boxvalidator.py:32-50`). -/
def tagIntellectualProperty : Bytes := [0x6a, 0x70, 0x32, 0x69]
def tagXml : Bytes := [0x78, 0x6d, 0x6c, 0x20]
def tagUuid : Bytes := [0x75, 0x75, 0x69, 0x64]
def tagUuidInfo : Bytes := [0x75, 0x69, 0x6e, 0x66]
def tagSignature : Bytes := [0x6a, 0x50, 0x20, 0x20]
def tagFileType : Bytes := [0x66, 0x74, 0x79, 0x70]
def tagJp2Header : Bytes := [0x6a, 0x70, 0x32, 0x68]
def tagImageHeader : Bytes := [0x69, 0x68, 0x64, 0x72]
def tagBitsPerComponent : Bytes := [0x62, 0x70, 0x63, 0x63]
def tagColourSpecification : Bytes := [0x63, 0x6f, 0x6c, 0x72]
def tagPalette : Bytes := [0x70, 0x63, 0x6c, 0x72]
def tagComponentMapping : Bytes := [0x63, 0x6d, 0x61, 0x70]
def tagChannelDefinition : Bytes := [0x63, 0x64, 0x65, 0x66]
def tagResolution : Bytes := [0x72, 0x65, 0x73, 0x20]
def tagCodestream : Bytes := [0x6a, 0x70, 0x32, 0x63]
def tagCaptureResolution : Bytes := [0x72, 0x65, 0x73, 0x63]
def tagDisplayResolution : Bytes := [0x72, 0x65, 0x73, 0x64]
def tagUuidList : Bytes := [0x75, 0x6c, 0x73, 0x74]
def tagUrl : Bytes := [0x75, 0x72, 0x6c, 0x20]

/-- Marker codes (`boxvalidator.py:51-68` and the literals in the loops). -/
def mSOC : Bytes := [0xff, 0x4f]
def mCAP : Bytes := [0xff, 0x50]
def mSIZ : Bytes := [0xff, 0x51]
def mCOD : Bytes := [0xff, 0x52]
def mCOC : Bytes := [0xff, 0x53]
def mTLM : Bytes := [0xff, 0x55]
def mPRF : Bytes := [0xff, 0x56]
def mPLM : Bytes := [0xff, 0x57]
def mPLT : Bytes := [0xff, 0x58]
def mCPF : Bytes := [0xff, 0x59]
def mQCD : Bytes := [0xff, 0x5c]
def mQCC : Bytes := [0xff, 0x5d]
def mRGN : Bytes := [0xff, 0x5e]
def mPOC : Bytes := [0xff, 0x5f]
def mPPM : Bytes := [0xff, 0x60]
def mPPT : Bytes := [0xff, 0x61]
def mCRG : Bytes := [0xff, 0x63]
def mCOM : Bytes := [0xff, 0x64]
def mSOT : Bytes := [0xff, 0x90]
def mEPH : Bytes := [0xff, 0x92]
def mSOD : Bytes := [0xff, 0x93]
def mEOC : Bytes := [0xff, 0xd9]

/-- `typeMap` (`boxvalidator.py:31-71`), without its two non-byte keys. -/
def typeMap : List (Bytes × BoxType) :=
  [ (tagIntellectualProperty, .intellectualPropertyBox), (tagXml, .xmlBox), (tagUuid, .uuidBox),
    (tagUuidInfo, .uuidInfoBox), (tagSignature, .signatureBox), (tagFileType, .fileTypeBox),
    (tagJp2Header, .jp2HeaderBox), (tagImageHeader, .imageHeaderBox),
    (tagBitsPerComponent, .bitsPerComponentBox), (tagColourSpecification, .colourSpecificationBox),
    (tagPalette, .paletteBox), (tagComponentMapping, .componentMappingBox),
    (tagChannelDefinition, .channelDefinitionBox), (tagResolution, .resolutionBox),
    (tagCodestream, .contiguousCodestreamBox), (tagCaptureResolution, .captureResolutionBox),
    (tagDisplayResolution, .displayResolutionBox), (tagUuidList, .uuidListBox), (tagUrl, .urlBox),
    (mCAP, .cap), (mSIZ, .siz), (mPRF, .prf), (mCOD, .cod), (mQCD, .qcd), (mCOM, .com),
    (mCOC, .coc), (mRGN, .rgn), (mQCC, .qcc), (mPOC, .poc), (mTLM, .tlm), (mPLM, .plm),
    (mPLT, .plt), (mCPF, .cpf), (mPPM, .ppm), (mPPT, .ppt), (mCRG, .crg), (mSOT, .tilePart) ]

/-- Choice of the box type in `__init__` (`boxvalidator.py:84-97`). -/
def boxTypeOf (bType : Bytes) : BoxType := (typeMap.lookup bType).getD .unknownBox

/-- The leaf validator called for a box type (`boxvalidator.py:114-128`). There is no
`validate_intellectualPropertyBox`, so that type only prints a warning; `tlm`, `ppm` and `ppt` are
empty functions (`boxvalidator.py:2959-3004`). The superboxes, the codestream and tile-parts are not
leaves; they are handled by the callers and the value here is not used. -/
def leaf (env : Env) (o : Options) (fuel : Nat) (csiz : Option Int) (t : BoxType)
    (bType c : Bytes) : Outcome (List Step) :=
  match t with
  | .intellectualPropertyBox => .ok []
  | .xmlBox => .ok (Jpy.xmlBox env o.nullxml c)
  | .uuidBox => Jpy.uuidBox env o.nullxml c
  | .signatureBox => .ok (Jpy.signatureBox c)
  | .fileTypeBox => .ok (Jpy.fileTypeBox o.format c)
  | .imageHeaderBox => .ok (Jpy.imageHeaderBox c)
  | .bitsPerComponentBox => .ok (Jpy.bitsPerComponentBox c)
  | .colourSpecificationBox => .ok (Jpy.colourSpecificationBox o.format c)
  | .paletteBox => .ok (Jpy.paletteBox c)
  | .componentMappingBox => .ok (Jpy.componentMappingBox c)
  | .channelDefinitionBox => .ok (Jpy.channelDefinitionBox o.format c)
  | .captureResolutionBox => resolutionLeaf "c" c
  | .displayResolutionBox => resolutionLeaf "d" c
  | .uuidListBox => Jpy.uuidListBox c
  | .urlBox => .ok (Jpy.urlBox c)
  | .cap => .ok (Jpy.cap o.format c)
  | .siz => Jpy.siz o.format c
  | .prf => .ok (Jpy.prf c)
  | .cod => .ok (Jpy.cod o.format c)
  | .qcd => .ok (Jpy.qcd c)
  | .com => .ok (Jpy.com env c)
  | .coc => Jpy.coc o.format csiz c
  | .rgn => Jpy.rgn o.format csiz c
  | .qcc => Jpy.qcc csiz c
  | .poc => Jpy.poc csiz c
  | .tlm => .ok []
  | .plm => Jpy.plm fuel c
  | .plt => Jpy.plt fuel c
  | .cpf => .ok (Jpy.cpf o.format c)
  | .ppm => .ok []
  | .ppt => .ok []
  | .crg => Jpy.crg csiz c
  | .unknownBox => .ok (Jpy.unknownBox env bType)
  | .jp2HeaderBox | .resolutionBox | .uuidInfoBox | .contiguousCodestreamBox | .tilePart => .ok []

/-- `BoxValidator(options, bType, contents, components=csiz).validate()` for a leaf
(`boxvalidator.py:76-128`). -/
def validateLeaf (env : Env) (o : Options) (fuel : Nat) (csiz : Option Int) (bType c : Bytes) :
    Outcome BoxResult := do
  let ss ← leaf env o fuel csiz (boxTypeOf bType) bType c
  .ok { tag := (boxTypeOf bType).name, node := Node.run o.verbose {} ss }

/-- Result of `_getMarkerSegment`: marker, segment contents, offset of the next segment. -/
structure Seg where
  marker : Bytes
  contents : Bytes
  next : Int

/-- `_getMarkerSegment` (`boxvalidator.py:171-201`). -/
def getMarkerSegment (b : Bytes) (offset : Int) : Seg :=
  let marker := slice b offset (offset + 2)
  let length := if marker ∈ [mSOC, mSOD, mEOC, mEPH] then 0
    else bytesToUShortInt (slice b (offset + 2) (offset + 4))
  { marker := marker
    contents := slice b (offset + 2) (offset + 2 + length)
    next := if length = -9999 then -9999 else offset + length + 2 }

/-- Local variables of `validate_tilePart` during its loop (`boxvalidator.py:3011-3050`). -/
structure TPState where
  node : Node
  pltCount : Nat
  pptCount : Nat
  marker : Bytes
  offset : Int
  offsetNext : Int

/-- Body of the loop of `validate_tilePart` (`boxvalidator.py:3051-3203`). `seg` validates one
segment given its marker, contents and `components`. -/
def tpStep (seg : Bytes → Bytes → Option Int → Outcome BoxResult) (pm : Bool) (csiz : Option Int)
    (b : Bytes) (s0 : TPState) : Outcome TPState :=
  let m := getMarkerSegment b s0.offset
  let s := { s0 with marker := m.marker, offsetNext := m.next, offset := m.next }
  if m.marker = mCOD then do
    let r ← seg m.marker m.contents none
    .ok { s with node := s.node.absorb r }
  else if m.marker = mCOC then do
    let r ← seg m.marker m.contents csiz
    .ok { s with node := s.node.absorb r }
  else if m.marker = mQCD then do
    let r ← seg m.marker m.contents none
    .ok { s with node := s.node.absorb r }
  else if m.marker = mQCC then do
    let r ← seg m.marker m.contents csiz
    .ok { s with node := s.node.absorb r }
  else if m.marker = mRGN then do
    let r ← seg m.marker m.contents csiz
    .ok { s with node := s.node.absorb r }
  else if m.marker = mPOC then do
    let r ← seg m.marker m.contents csiz
    .ok { s with node := s.node.absorb r }
  else if m.marker = mCOM then do
    let r ← seg m.marker m.contents none
    .ok { s with node := s.node.absorb r }
  else if m.marker = mPLT then do
    let r ← seg m.marker m.contents none
    .ok { s with
      node := if pm then s.node.absorb r else s.node.absorbQuiet r, pltCount := s.pltCount + 1 }
  else if m.marker = mPPT then do
    let r ← seg m.marker m.contents none
    .ok { s with
      node := if pm then s.node.absorb r else s.node.absorbQuiet r, pptCount := s.pptCount + 1 }
  else .ok s

/-- Loop of `validate_tilePart` (`boxvalidator.py:3050-3203`). -/
def tpLoop (seg : Bytes → Bytes → Option Int → Outcome BoxResult) (pm : Bool) (csiz : Option Int)
    (b : Bytes) : Nat → TPState → Outcome TPState
  | 0, _ => .timeout
  | fuel + 1, s =>
    if s.marker ≠ mSOD ∧ s.offsetNext ≠ -9999 then do
      let s' ← tpStep seg pm csiz b s
      tpLoop seg pm csiz b fuel s'
    else .ok s

/-- `testFor` under a condition. -/
def Node.testIf (verbose : Bool) (n : Node) (cond : Bool) (name : String) (r : Bool) : Node :=
  if cond then n.testFor verbose name r else n

/-- The statements of `validate_tilePart` after its loop (`boxvalidator.py:3205-3265`), except the
last test. -/
def tpFinish (verbose : Bool) (s : TPState) : Node :=
  let n := s.node.testFor verbose "foundSODMarker" (decide (s.marker = mSOD))
  let n := n.addChar "pltCount" (.int s.pltCount)
  let n := n.addChar "pptCount" (.int s.pptCount)
  let tpsot0 := decide (Elem.findElementText n.chars ["sot", "tpsot"] = some (.int 0))
  let has := fun t => !(Elem.findall n.chars [t]).isEmpty
  let ccoc := Elem.findAllText n.chars ["coc", "ccoc"]
  let cqcc := Elem.findAllText n.chars ["qcc", "cqcc"]
  let n := n.testIf verbose (has "cod") "CODAllowed" tpsot0
  let n := n.testIf verbose (has "coc") "COCAllowed" tpsot0
  let n := n.testIf verbose (has "qcd") "QCDAllowed" tpsot0
  let n := n.testIf verbose (has "qcc") "QCCAllowed" tpsot0
  let n := n.testIf verbose (has "rgn") "RGNAllowed" tpsot0
  let n := n.testIf verbose (!ccoc.isEmpty) "maxOneCcocPerComponentTP" (decide ccoc.Nodup)
  n.testIf verbose (!cqcc.isEmpty) "maxOneCqccPerComponentTP" (decide cqcc.Nodup)

/-- `validate_tilePart` (`boxvalidator.py:3006-3265`) with `self.startOffset = start`. `psot` is the
`tilePartLength` field set by `validate_sot` (`boxvalidator.py:2929, 2950`). -/
def tilePart (env : Env) (o : Options) (fuel : Nat) (csiz : Option Int) (start : Int)
    (b : Bytes) : Outcome BoxResult := do
  let m := getMarkerSegment b start
  let psot := bytesToUInt (slice m.contents 4 8)
  let node := ({} : Node).absorb { tag := "sot", node := Node.run o.verbose {} (sot m.contents) }
  let s ← tpLoop (fun mk c cs => validateLeaf env o fuel cs mk c) o.packetmarkers csiz b fuel
    { node := node, pltCount := 0, pptCount := 0, marker := m.marker, offset := m.next,
      offsetNext := m.next }
  let n := tpFinish o.verbose s
  let next := start + psot
  let n := n.testIf o.verbose (decide (psot ≠ 0)) "foundNextTilePartOrEOC"
    (decide (slice b next (next + 2) ∈ [mSOT, mEOC]))
  .ok { tag := "tilePart", node := n, returnOffset := some next }

/-- Local variables of the main header loop (`boxvalidator.py:1297-1348`). -/
structure MainState where
  node : Node
  foundCOD : Bool
  foundQCD : Bool
  foundCAP : Bool
  foundPRF : Bool
  foundCPF : Bool
  plmCount : Nat
  ppmCount : Nat
  marker : Bytes
  offset : Int
  offsetNext : Int

/-- Body of the main header loop (`boxvalidator.py:1349-1586`). -/
def mainStep (seg : Bytes → Bytes → Option Int → Outcome BoxResult) (pm : Bool) (csiz : Option Int)
    (b : Bytes) (s0 : MainState) : Outcome MainState :=
  let m := getMarkerSegment b s0.offset
  let s := { s0 with marker := m.marker, offsetNext := m.next }
  if m.marker = mCOD then do
    let r ← seg m.marker m.contents none
    .ok { s with foundCOD := true, node := s.node.absorb r, offset := m.next }
  else if m.marker = mCOC then do
    let r ← seg m.marker m.contents csiz
    .ok { s with node := s.node.absorb r, offset := m.next }
  else if m.marker = mQCD then do
    let r ← seg m.marker m.contents none
    .ok { s with foundQCD := true, node := s.node.absorb r, offset := m.next }
  else if m.marker = mQCC then do
    let r ← seg m.marker m.contents csiz
    .ok { s with node := s.node.absorb r, offset := m.next }
  else if m.marker = mRGN then do
    let r ← seg m.marker m.contents csiz
    .ok { s with node := s.node.absorb r, offset := m.next }
  else if m.marker = mPOC then do
    let r ← seg m.marker m.contents csiz
    .ok { s with node := s.node.absorb r, offset := m.next }
  else if m.marker = mCRG then do
    let r ← seg m.marker m.contents csiz
    .ok { s with node := s.node.absorb r, offset := m.next }
  else if m.marker = mCOM then do
    let r ← seg m.marker m.contents none
    .ok { s with node := s.node.absorb r, offset := m.next }
  else if m.marker = mCAP then do
    let r ← seg m.marker m.contents none
    .ok { s with foundCAP := true, node := s.node.absorb r, offset := m.next }
  else if m.marker = mPRF then do
    let r ← seg m.marker m.contents none
    .ok { s with foundPRF := true, node := s.node.absorb r, offset := m.next }
  else if m.marker = mCPF then do
    let r ← seg m.marker m.contents none
    .ok { s with foundCPF := true, node := s.node.absorb r, offset := m.next }
  else if m.marker = mSOT then .ok s
  else if m.marker = mTLM then do
    let r ← seg m.marker m.contents none
    .ok { s with node := s.node.absorb r, offset := m.next }
  else if m.marker = mPLM then do
    let r ← seg m.marker m.contents none
    .ok { s with
      node := if pm then s.node.absorb r else s.node.absorbQuiet r, plmCount := s.plmCount + 1,
      offset := m.next }
  else if m.marker = mPPM then do
    let r ← seg m.marker m.contents none
    .ok { s with
      node := if pm then s.node.absorb r else s.node.absorbQuiet r, ppmCount := s.ppmCount + 1,
      offset := m.next }
  else .ok { s with offset := m.next }

/-- Main header loop (`boxvalidator.py:1348-1586`). -/
def mainLoop (seg : Bytes → Bytes → Option Int → Outcome BoxResult) (pm : Bool) (csiz : Option Int)
    (b : Bytes) : Nat → MainState → Outcome MainState
  | 0, _ => .timeout
  | fuel + 1, s =>
    if s.marker ≠ mSOT ∧ s.offsetNext ≠ -9999 then do
      let s' ← mainStep seg pm csiz b s
      mainLoop seg pm csiz b fuel s'
    else .ok s

/-- `d[k] = v` on a dictionary represented by an association list without duplicate keys. -/
def dictSet (d : List (Int × Int)) (k v : Int) : List (Int × Int) :=
  if d.any (·.1 == k) then d.map (fun e => if e.1 = k then (k, v) else e) else d ++ [(k, v)]

/-- Local variables of the tile-part loop (`boxvalidator.py:1620-1639`). `found` is the dictionary
`tilePartsPerTileFound`: its keys are always `0..n-1`, so it is a list of values. `node` holds the
children of the three `tileParts` elements. -/
structure TileState where
  node : Node
  tileIndices : List Int
  expected : List (Int × Int)
  found : List Int
  marker : Bytes
  offset : Int

/-- Tile-part loop (`boxvalidator.py:1639-1682`). `tp` validates the tile-part at an offset. The
lookups of `sot/isot` and `sot/tnsot` always succeed (every tile-part has a `sot` element with
integer fields), so `needInt` never raises there. -/
def tileLoop (tp : Int → Outcome BoxResult) (b : Bytes) : Nat → TileState → Outcome TileState
  | 0, _ => .timeout
  | fuel + 1, s =>
    if s.marker = mSOT then
      let marker := slice b s.offset (s.offset + 2)
      if marker = mSOT then do
        let r ← tp s.offset
        let isot ← needInt (Elem.findElementText r.node.chars ["sot", "isot"])
        let tnsot ← needInt (Elem.findElementText r.node.chars ["sot", "tnsot"])
        let next := r.returnOffset.getD 0
        let s := { s with
          marker := marker
          node := s.node.absorb r
          tileIndices := if isot ∈ s.tileIndices then s.tileIndices else s.tileIndices ++ [isot]
          expected := if tnsot ≠ 0 then dictSet s.expected isot tnsot else s.expected }
        if 0 ≤ isot ∧ isot < s.found.length then
          let s := { s with found := s.found.modify isot.toNat (· + 1) }
          if next ≠ s.offset then tileLoop tp b fuel { s with offset := next }
          else .ok s
        else .ok s
      else .ok { s with marker := marker }
    else .ok s

/-- `tilePartsPerTileExpected == tilePartsPerTileFound`: same keys with the same values. -/
def dictEqFound (expected : List (Int × Int)) (found : List Int) : Bool :=
  decide (expected.length = found.length) &&
  expected.all fun e => decide (0 ≤ e.1) && decide (found[e.1.toNat]? = some e.2)

/-- `_calculateCompressionRatio` and the `round(.., 2)` of its callers (`boxvalidator.py:203-230,
1736-1738, 3699-3701`), exact. -/
def compressionRatio (noBytes : Int) (depths : List Int) (height width : Int) : PyVal :=
  if noBytes ≠ 0 then .flt ⟨depths.sum * height * width, 8 * noBytes, 2⟩ else .int (-9999)

/-- All values of a list used as integers. -/
def needInts : List PyVal → Outcome (List Int)
  | [] => .ok []
  | v :: vs => do
    let i ← needInt (some v)
    let is ← needInts vs
    .ok (i :: is)

/-- The part of `validate_contiguousCodestreamBox` after the tile-part loop
(`boxvalidator.py:1684-1739`). `sizChars` are the children of `characteristicsSIZ`. -/
def codestreamFinish (o : Options) (b : Bytes) (sizChars : List Elem) (nTiles : Int) (node : Node)
    (t : TileState) : Outcome Node := do
  let v := o.verbose
  let n := node.testFor v "foundExpectedNumberOfTiles" (decide ((t.tileIndices.length : Int) = nTiles))
  let n := n.testIf v (!t.expected.isEmpty) "foundExpectedNumberOfTileParts"
    (dictEqFound t.expected t.found)
  let n := n.absorb { tag := "tileParts", node := t.node }
  let ccoc := Elem.findAllText n.chars ["coc", "ccoc"]
  let n := n.testIf v (!ccoc.isEmpty) "maxOneCcocPerComponentMain" (decide ccoc.Nodup)
  let cqcc := Elem.findAllText n.chars ["qcc", "cqcc"]
  let n := n.testIf v (!cqcc.isEmpty) "maxOneCqccPerComponentMain" (decide cqcc.Nodup)
  let n := n.testFor v "foundEOCMarker"
    (decide (slice b ((b.length : Int) - 2) b.length = mEOC))
  if o.format = .j2c ∨ o.format = .jhc then do
    let depths ← needInts (Elem.findAllText sizChars ["ssizDepth"])
    let ysiz ← needInt (Elem.findElementText sizChars ["ysiz"])
    let yOsiz ← needInt (Elem.findElementText sizChars ["xOsiz"])
    let xsiz ← needInt (Elem.findElementText sizChars ["xsiz"])
    let xOsiz ← needInt (Elem.findElementText sizChars ["xOsiz"])
    .ok (n.addChar "compressionRatio"
      (compressionRatio b.length depths (ysiz - yOsiz) (xsiz - xOsiz)))
  else .ok n

/-- `validate_contiguousCodestreamBox` (`boxvalidator.py:1291-1743`). -/
def codestream (env : Env) (o : Options) (fuel : Nat) (b : Bytes) : Outcome Node := do
  let v := o.verbose
  let m0 := getMarkerSegment b 0
  let n := ({} : Node).testFor v "codestreamStartsWithSOCMarker" (decide (m0.marker = mSOC))
  let m1 := getMarkerSegment b m0.next
  let n := n.testFor v "foundSIZMarker" (decide (m1.marker = mSIZ))
  if m1.marker = mSIZ then do
    let rSiz ← validateLeaf env o fuel none m1.marker m1.contents
    let csiz ← needInt (Elem.findElementText rSiz.node.chars ["csiz"])
    let s ← mainLoop (fun mk c cs => validateLeaf env o fuel cs mk c) o.packetmarkers (some csiz) b
      fuel
      { node := n.absorb rSiz, foundCOD := false, foundQCD := false, foundCAP := false,
        foundPRF := false, foundCPF := false, plmCount := 0, ppmCount := 0, marker := m1.marker,
        offset := m1.next, offsetNext := m1.next }
    let n := s.node.addChar "ppmCount" (.int s.ppmCount)
    let n := n.addChar "plmCount" (.int s.plmCount)
    let n := n.testFor v "foundCODMarker" s.foundCOD
    let n := n.testFor v "foundQCDMarker" s.foundQCD
    let rsiz ← needInt (Elem.findElementText n.chars ["siz", "rsiz"])
    let n := n.testIf v (decide (low (shr rsiz 14) 4 = 1)) "foundCAPMarker" s.foundCAP
    let tiles ← needInt (Elem.findElementText n.chars ["siz", "numberOfTiles"])
    let nTiles := min tiles 65535
    let t ← tileLoop (fun off => tilePart env o fuel (some csiz) off b) b fuel
      { node := {}, tileIndices := [], expected := [], found := List.replicate (rangeLen nTiles) 0,
        marker := s.marker, offset := s.offset }
    codestreamFinish o b rSiz.node.chars nTiles n t
  else .ok n

end Jpy
