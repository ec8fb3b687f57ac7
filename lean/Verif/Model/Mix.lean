import Verif.Model.Readable
/-! # Model of `jpylyzer/mix.py` -/

namespace Jpy

/-- Externals of `mix.py`; theorems hold for all of them.
* `roundScaled s k` — `int(round(float(s) * k, 0))`, `none` when `float` raises;
* `truncScaled s k` — `int(float(s) * k)`;
* `strip` — `str.strip()`. -/
structure MixEnv where
  roundScaled : String → Int → Option Int
  truncScaled : String → Int → Option Int
  strip : String → String

/-- `elt.text` for `elt = properties.find(path)`: `AttributeError` when nothing was found. -/
def findText (props : List Elem) (path : List String) : Outcome PyVal :=
  match Elem.find props path with
  | some e => .ok e.text
  | none => .raised .attributeError

/-- A method call on a text that must be a string (`.strip()`): `AttributeError` on `None` and other
types. -/
def asStr : PyVal → Outcome String
  | .str s => .ok s
  | _ => .raised .attributeError

/-- Use of a text where `float`, `re.search`, string concatenation or `join` needs a string:
`TypeError` on `None`. -/
def asText : PyVal → Outcome String
  | .str s => .ok s
  | _ => .raised .typeError

/-- `float(...)` with `ValueError`. -/
def orValueError {α : Type} : Option α → Outcome α
  | some a => .ok a
  | none => .raised .valueError

/-- Python `str(x)` on a text: the string itself or `"None"` (other types cannot occur after
`makeHumanReadable`). -/
def strOf : PyVal → String
  | .str s => s
  | _ => "None"

/-- An element with a string text. -/
def sLeaf (tag : String) (s : String) : Elem := .leaf tag (.str s)

/-- `generateMixBasicDigitalObjectInformation` (`mix.py:28-79`). -/
def mixBdoi (me : MixEnv) (flag : Nat) (props : List Elem) : Outcome Elem := do
  let formatName ← match Elem.find props ["fileTypeBox", "br"] with
    | none => Outcome.ok "image/jp2"
    | some br => do
      let s ← asStr br.text
      Outcome.ok ("image/" ++ me.strip s)
  let compression ← findText props ["contiguousCodestreamBox", "cod", "transformation"]
  let scheme := if compression = .str "5-3 reversible" then "JPEG 2000 Lossless"
    else "JPEG 2000 Lossy"
  let ratioText ← findText props ["compressionRatio"]
  let ratio ← asText ratioText
  let ratioElem ←
    if flag = 1 then do
      let v ← orValueError (me.roundScaled ratio 1)
      Outcome.ok (sLeaf "mix:compressionRatio" (toString v))
    else do
      let v ← orValueError (me.roundScaled ratio 100)
      Outcome.ok (Elem.node "mix:compressionRatio"
        [sLeaf "mix:numerator" (toString v), sLeaf "mix:denominator" "100"])
  .ok (.node "mix:BasicDigitalObjectInformation"
    [ .node "mix:FormatDesignation" [sLeaf "mix:formatName" formatName],
      sLeaf "mix:byteOrder" (if flag = 1 then "big_endian" else "big endian"),
      .node "mix:Compression" [sLeaf "mix:compressionScheme" scheme, ratioElem] ])

/-- Is this a digit or a dot (`[0-9\.]`)? -/
def isVersionChar (c : Char) : Bool := ('0' ≤ c && c ≤ '9') || c == '.'

/-- Split at the last occurrence of `-v` in one line: text before and after. -/
def splitLastDashV : List Char → Option (List Char × List Char)
  | [] => none
  | c :: cs =>
    match splitLastDashV cs with
    | some (p, s) => some (c :: p, s)
    | none =>
      match c, cs with
      | '-', 'v' :: rest => some ([], rest)
      | _, _ => none

/-- First `some` of a function on the lines of a text. -/
def firstSome {α β : Type} (f : α → Option β) : List α → Option β
  | [] => none
  | x :: xs => match f x with | some y => some y | none => firstSome f xs

/-- `re.search(r'(.*)-v([0-9\.]*)', s)` (`mix.py:119`): `.` does not match a newline and `.*` is
greedy, so the match is in the first line containing `-v`, at its last `-v`; group 2 is the longest
run of digits and dots after it. -/
def matchCodec (s : String) : Option (String × String) :=
  (firstSome splitLastDashV ((s.toList.splitOn '\n'))).map fun (p, r) =>
    (String.ofList p, String.ofList (r.takeWhile isVersionChar))

/-- The photometric interpretation element (`mix.py:90-111`). -/
def mixPhotometric (me : MixEnv) (props : List Elem) : Outcome Elem :=
  match Elem.find props ["jp2HeaderBox", "colourSpecificationBox", "icc"] with
  | some (.mk _ _ _ (_ :: _) _) => do
    let cs ← findText props ["jp2HeaderBox", "colourSpecificationBox", "icc", "colourSpace"]
    let cs ← asStr cs
    let d ← findText props ["jp2HeaderBox", "colourSpecificationBox", "icc", "description"]
    .ok (.node "mix:PhotometricInterpretation"
      [ sLeaf "mix:colorSpace" (me.strip cs),
        .node "mix:ColorProfile" [.node "mix:IccProfile" [.leaf "mix:iccProfileName" d]] ])
  | _ => do
    let cs ← findText props ["jp2HeaderBox", "colourSpecificationBox", "enumCS"]
    let cs ← asStr cs
    .ok (.node "mix:PhotometricInterpretation" [sLeaf "mix:colorSpace" (me.strip cs)])

/-- The codec compliance element, if any (`mix.py:116-127`). -/
def mixCodec (props : List Elem) : Outcome (List Elem) :=
  match Elem.find props ["contiguousCodestreamBox", "com", "comment"] with
  | none => .ok []
  | some c => do
    let t ← asText c.text
    match matchCodec t with
    | some (g1, g2) => .ok [.node "mix:CodecCompliance"
        [sLeaf "mix:codec" g1, sLeaf "mix:codecVersion" g2]]
    | none => .ok []

/-- `generateMixBasicImageInformation` (`mix.py:81-152`). -/
def mixBio (me : MixEnv) (flag : Nat) (props : List Elem) : Outcome Elem := do
  let width ← findText props ["jp2HeaderBox", "imageHeaderBox", "width"]
  let height ← findText props ["jp2HeaderBox", "imageHeaderBox", "height"]
  let pi ← mixPhotometric me props
  let codec ← mixCodec props
  let tilesX ← findText props ["contiguousCodestreamBox", "siz", "xTsiz"]
  let tilesY ← findText props ["contiguousCodestreamBox", "siz", "yTsiz"]
  let layers ← findText props ["contiguousCodestreamBox", "cod", "layers"]
  let levels ← findText props ["contiguousCodestreamBox", "cod", "levels"]
  let tiles := if flag = 1 then sLeaf "mix:tiles" (strOf tilesX ++ "x" ++ strOf tilesY)
    else .node "mix:Tiles"
      [sLeaf "mix:tileWidth" (strOf tilesX), sLeaf "mix:tileHeight" (strOf tilesY)]
  let layersElem := if strOf layers ≠ "0" then [sLeaf "mix:qualityLayers" (strOf layers)] else []
  let levelsElem := if strOf levels ≠ "0" then [sLeaf "mix:resolutionLevels" (strOf levels)] else []
  .ok (.node "mix:BasicImageInformation"
    [ .node "mix:BasicImageCharacteristics"
        [ sLeaf "mix:imageWidth" (strOf width), sLeaf "mix:imageHeight" (strOf height), pi ],
      .node "mix:SpecialFormatCharacteristics"
        [ .node "mix:JPEG2000"
            (codec ++ [.node "mix:EncodingOptions" (tiles :: (layersElem ++ levelsElem))]) ] ])

/-- Namespaced tag names used by the capture metadata (`mix.py:183-231`). -/
def nsMeta : String := "{adobe:ns:meta/}xmpmeta"
def nsRDF : String := "{http://www.w3.org/1999/02/22-rdf-syntax-ns#}RDF"
def nsDescription : String := "{http://www.w3.org/1999/02/22-rdf-syntax-ns#}Description"
def nsXap : String := "{http://ns.adobe.com/xap/1.0/}"
def nsTiff : String := "{http://ns.adobe.com/tiff/1.0/}"
def nsAux : String := "{http://ns.adobe.com/exif/1.0/aux/}"

/-- `findValueInRDF` (`mix.py:154-165`): `none` for Python's `None`; `AttributeError` when the
description element does not exist. -/
def findValueInRDF (rdf : List Elem) (ns tag : String) : Outcome (Option PyVal) :=
  match Elem.find rdf [nsDescription, ns ++ tag] with
  | some e => .ok (if e.text = .none then none else some e.text)
  | none =>
    match Elem.find rdf [nsDescription] with
    | none => .raised .attributeError
    | some d =>
      match d.attrs.lookup (ns ++ tag) with
      | some v => .ok (if v = "" then none else some (.str v))
      | none => .ok none

/-- `addIfExist` (`mix.py:167-174`): the elements added to `destEl`. -/
def addIfExist (me : MixEnv) (rdf : List Elem) (ns tag dest : String) : Outcome (List Elem) := do
  let v ← findValueInRDF rdf ns tag
  match v with
  | some x => do
    let s ← asStr x
    .ok [sLeaf dest (me.strip s)]
  | none => .ok []

/-- Split at the last space of a text: text before and after. -/
def splitLastSpace : List Char → Option (List Char × List Char)
  | [] => none
  | c :: cs =>
    match splitLastSpace cs with
    | some (p, s) => some (c :: p, s)
    | none => if c = ' ' then some ([], cs) else none

/-- `re.search(r'^(.*) ([0-9\.]*)$', s)` (`mix.py:234`): `$` also matches before a final newline and
`.` does not match newlines, so after dropping one final newline there must be none left, and the
part after the last space must consist of digits and dots. -/
def matchTool (s : String) : Option (String × String) :=
  let cs := s.toList
  let cs := if cs.getLast? = some '\n' then cs.dropLast else cs
  if '\n' ∈ cs then none
  else match splitLastSpace cs with
    | some (p, r) => if r.all isVersionChar then some (String.ofList p, String.ofList r) else none
    | none => none

/-- The RDF element used by `generateMixImageCaptureMetadata` (`mix.py:183-189`): the children of the
first match with children; an element without children counts as missing. -/
def findRDF (props : List Elem) : Option (List Elem) :=
  match Elem.find props ["xmlBox", nsMeta, nsRDF] with
  | some (.mk _ _ _ (c :: cs) _) => some (c :: cs)
  | _ =>
    match Elem.find props ["uuidBox", nsMeta, nsRDF] with
    | some (.mk _ _ _ (c :: cs) _) => some (c :: cs)
    | _ => none

/-- `generateMixImageCaptureMetadata` (`mix.py:176-249`), `none` for Python's `None`. -/
def mixIcm (me : MixEnv) (props : List Elem) : Outcome (Option Elem) :=
  match findRDF props with
  | none => .ok none
  | some rdf => do
    let created ← addIfExist me rdf nsXap "CreateDate" "mix:dateTimeCreated"
    let artist ← addIfExist me rdf nsTiff "Artist" "mix:imageProducer"
    let make ← addIfExist me rdf nsTiff "Make" "mix:scannerManufacturer"
    let model ← addIfExist me rdf nsTiff "Model" "mix:scannerModelName"
    let serial ← addIfExist me rdf nsAux "SerialNumber" "mix:scannerModelSerialNo"
    let tool ← findValueInRDF rdf nsXap "CreatorTool"
    let software ← match tool with
      | none => Outcome.ok []
      | some v => do
        let s ← asText v
        match matchTool s with
        | some (g1, g2) => Outcome.ok [.node "mix:ScanningSystemSoftware"
            [sLeaf "mix:scanningSoftwareName" g1, sLeaf "mix:scanningSoftwareVersionNo" g2]]
        | none => Outcome.ok [.node "mix:ScanningSystemSoftware"
            [sLeaf "mix:scanningSoftwareName" s]]
    let modelElem := if (model ++ serial).isEmpty then []
      else [Elem.node "mix:ScannerModel" (model ++ serial)]
    let sc := make ++ modelElem ++ software
    .ok (some (.node "mix:ImageCaptureMetadata"
      (.node "mix:GeneralCaptureInformation" (created ++ artist)
        :: (if sc.isEmpty then [] else [.node "mix:ScannerCapture" sc]))))

/-- The spatial metrics element, if any (`mix.py:255-300`). -/
def mixSpatial (me : MixEnv) (flag : Nat) (props : List Elem) : Outcome (List Elem) :=
  let build := fun (x : String) (box : Elem) => do
    let h ← findText box.children ["hRes" ++ x ++ "InPixelsPerMeter"]
    let h ← asText h
    let numX ← orValueError (me.truncScaled h 100)
    let v ← findText box.children ["vRes" ++ x ++ "InPixelsPerMeter"]
    let v ← asText v
    let numY ← orValueError (me.truncScaled v 100)
    Outcome.ok [Elem.node "mix:SpatialMetrics"
      [ sLeaf "mix:samplingFrequencyUnit" (if flag = 1 then "3" else "cm"),
        .node "mix:xSamplingFrequency"
          [sLeaf "mix:numerator" (toString numX), sLeaf "mix:denominator" "10000"],
        .node "mix:ySamplingFrequency"
          [sLeaf "mix:numerator" (toString numY), sLeaf "mix:denominator" "10000"] ]]
  match Elem.find props ["jp2HeaderBox", "resolutionBox", "captureResolutionBox"] with
  | some box => build "c" box
  | none =>
    match Elem.find props ["jp2HeaderBox", "resolutionBox", "displayResolutionBox"] with
    | some box => build "d" box
    | none => .ok []

/-- All texts as strings, for `','.join` (`mix.py:308-309`). -/
def asTexts : List PyVal → Outcome (List String)
  | [] => .ok []
  | v :: vs => do
    let s ← asText v
    let r ← asTexts vs
    .ok (s :: r)

/-- `generateMixImageAssessmentMetadata` (`mix.py:251-322`). -/
def mixIam (me : MixEnv) (flag : Nat) (props : List Elem) : Outcome Elem := do
  let spatial ← mixSpatial me flag props
  let size ← match Elem.find props ["contiguousCodestreamBox", "siz"] with
    | some e => Outcome.ok e.children
    | none => .raised .attributeError
  let values := Elem.findAllText size ["ssizDepth"]
  let bps ←
    if flag = 1 then do
      let ss ← asTexts values
      Outcome.ok (Elem.node "mix:bitsPerSample"
        [ sLeaf "mix:bitsPerSampleValue" (String.intercalate "," ss),
          sLeaf "mix:bitsPerSampleUnit" "integer" ])
    else Outcome.ok (Elem.node "mix:BitsPerSample"
      (values.map (Elem.leaf "mix:bitsPerSampleValue") ++
        [sLeaf "mix:bitsPerSampleUnit" "integer"]))
  let num ← findText size ["csiz"]
  .ok (.node "mix:ImageAssessmentMetadata"
    (spatial ++ [.node "mix:ImageColorEncoding" [bps, .leaf "mix:samplesPerPixel" num]]))

/-- `generateMix` (`mix.py:324-351`). The capture element always has a child, so `if mixIcm` only
tests for `None`. -/
def generateMix (me : MixEnv) (flag : Nat) (props : List Elem) : Outcome Elem := do
  let bdoi ← mixBdoi me flag props
  let bio ← mixBio me flag props
  let icm ← mixIcm me props
  let iam ← mixIam me flag props
  let ns := if flag = 1 then "http://www.loc.gov/mix/v10" else "http://www.loc.gov/mix/v20"
  let loc := if flag = 1
    then "http://www.loc.gov/mix/v10 http://www.loc.gov/standards/mix/mix10/mix10.xsd"
    else "http://www.loc.gov/mix/v20 http://www.loc.gov/standards/mix/mix.xsd"
  .ok (.mk "mix:mix"
    [ ("xmlns:mix", ns), ("xmlns:xsi", "http://www.w3.org/2001/XMLSchema-instance"),
      ("xsi:schemaLocation", loc) ] .none
    ([bdoi, bio] ++ icm.toList ++ [iam]))

end Jpy
