import Verif.Spec.Shows
import Verif.Spec.Mix
/-!
# Specification of the values in MIX output

The MIX description (NISO Z39.87, https://www.loc.gov/standards/mix/) repeats properties of the report
under other names. `MixAgrees` is the table: which property each MIX element must repeat.
-/

namespace Jpy.Spec

/-- The elements at a path of tags below a list of elements, in order. -/
def elemsAt : List String → List Elem → List Elem
  | [], _ => []
  | [t], es => es.filter fun e => e.tag == t
  | t :: p, es => elemsAt p ((es.filter fun e => e.tag == t).flatMap (·.children))

/-- The texts at a path of tags. -/
def textsAt (p : List String) (es : List Elem) : List PyVal := (elemsAt p es).map (·.text)

/-- The property at a path of tags is the text `s`: it is the first of that name. -/
def PropertyIs (props : List Elem) (p : List String) (s : String) : Prop :=
  (textsAt p props).head? = some (.str s)

/-- Below `l` there is no `-v`. -/
def NoDashV (l : List Char) : Prop := ∀ a b, l ≠ a ++ '-' :: 'v' :: b

/-- A one-line comment that names a codec and its version, as in `Kakadu-v6.4`: the version is the longest
run of digits and dots after the last `-v`. -/
structure NamesCodec (s : String) (codec version : List Char) : Prop where
  oneLine : '\n' ∉ s.toList
  split : ∃ rest, s.toList = codec ++ '-' :: 'v' :: (version ++ rest) ∧ NoDashV (version ++ rest) ∧
    ∀ c l, rest = c :: l → ¬ (c.isDigit = true ∨ c = '.')
  digits : ∀ c ∈ version, c.isDigit = true ∨ c = '.'

/-- The sampling frequencies given in `m` are the numbers `x` and `y` (texts, in pixels per metre), times
100, over 10000: pixels per centimetre. -/
structure Sampling (me : MixEnv) (flag : Nat) (m : List Elem) (x y : String) : Prop where
  unit : textsAt ["mix:ImageAssessmentMetadata", "mix:SpatialMetrics", "mix:samplingFrequencyUnit"] m =
    [.str (if flag = 1 then "3" else "cm")]
  horizontal : ∃ v, me.truncScaled x 100 = some v ∧
    textsAt ["mix:ImageAssessmentMetadata", "mix:SpatialMetrics", "mix:xSamplingFrequency",
      "mix:numerator"] m = [.str (toString v)] ∧
    textsAt ["mix:ImageAssessmentMetadata", "mix:SpatialMetrics", "mix:xSamplingFrequency",
      "mix:denominator"] m = [.str "10000"]
  vertical : ∃ v, me.truncScaled y 100 = some v ∧
    textsAt ["mix:ImageAssessmentMetadata", "mix:SpatialMetrics", "mix:ySamplingFrequency",
      "mix:numerator"] m = [.str (toString v)] ∧
    textsAt ["mix:ImageAssessmentMetadata", "mix:SpatialMetrics", "mix:ySamplingFrequency",
      "mix:denominator"] m = [.str "10000"]

/-- The bit depths of the components of a codestream. -/
structure Depths (siz : Bytes) (csiz : Nat) (ds : List Nat) : Prop where
  number : ds.length = csiz
  each : ∀ i < csiz, ∃ x, uint siz (38 + 3 * i) 1 = some x ∧ ds[i]? = some (x % 128 + 1)

/-- The children `m` of the MIX element agree with the properties of the same report. `flag` is the MIX
version that was asked for (1, or anything else for 2). -/
structure MixAgrees (me : MixEnv) (flag : Nat) (props m : List Elem) : Prop where
  format : ∀ s, PropertyIs props ["fileTypeBox", "br"] s →
    textsAt ["mix:BasicDigitalObjectInformation", "mix:FormatDesignation", "mix:formatName"] m =
      [.str ("image/" ++ me.strip s)]
  byteOrder : textsAt ["mix:BasicDigitalObjectInformation", "mix:byteOrder"] m =
    [.str (if flag = 1 then "big_endian" else "big endian")]
  scheme : ∀ s, PropertyIs props ["contiguousCodestreamBox", "cod", "transformation"] s →
    textsAt ["mix:BasicDigitalObjectInformation", "mix:Compression", "mix:compressionScheme"] m =
      [.str (if s = "5-3 reversible" then "JPEG 2000 Lossless" else "JPEG 2000 Lossy")]
  ratio1 : flag = 1 → ∀ s, PropertyIs props ["compressionRatio"] s → ∃ v, me.roundScaled s 1 = some v ∧
    textsAt ["mix:BasicDigitalObjectInformation", "mix:Compression", "mix:compressionRatio"] m =
      [.str (toString v)]
  ratio2 : flag ≠ 1 → ∀ s, PropertyIs props ["compressionRatio"] s → ∃ v, me.roundScaled s 100 = some v ∧
    textsAt ["mix:BasicDigitalObjectInformation", "mix:Compression", "mix:compressionRatio",
      "mix:numerator"] m = [.str (toString v)] ∧
    textsAt ["mix:BasicDigitalObjectInformation", "mix:Compression", "mix:compressionRatio",
      "mix:denominator"] m = [.str "100"]
  width : ∀ s, PropertyIs props ["jp2HeaderBox", "imageHeaderBox", "width"] s →
    textsAt ["mix:BasicImageInformation", "mix:BasicImageCharacteristics", "mix:imageWidth"] m = [.str s]
  height : ∀ s, PropertyIs props ["jp2HeaderBox", "imageHeaderBox", "height"] s →
    textsAt ["mix:BasicImageInformation", "mix:BasicImageCharacteristics", "mix:imageHeight"] m = [.str s]
  /-- a colour space from the first ICC profile, if there is one -/
  colourIcc : ∀ s, PropertyIs props ["jp2HeaderBox", "colourSpecificationBox", "icc", "colourSpace"] s →
    (∀ e, (elemsAt ["jp2HeaderBox", "colourSpecificationBox", "icc"] props).head? = some e → e.children ≠ []) →
    textsAt ["mix:BasicImageInformation", "mix:BasicImageCharacteristics", "mix:PhotometricInterpretation",
      "mix:colorSpace"] m = [.str (me.strip s)]
  profile : ∀ s, PropertyIs props ["jp2HeaderBox", "colourSpecificationBox", "icc", "description"] s →
    (∀ e, (elemsAt ["jp2HeaderBox", "colourSpecificationBox", "icc"] props).head? = some e → e.children ≠ []) →
    textsAt ["mix:BasicImageInformation", "mix:BasicImageCharacteristics", "mix:PhotometricInterpretation",
      "mix:ColorProfile", "mix:IccProfile", "mix:iccProfileName"] m = [.str s]
  /-- otherwise the enumerated colour space -/
  colourEnum : elemsAt ["jp2HeaderBox", "colourSpecificationBox", "icc"] props = [] →
    ∀ s, PropertyIs props ["jp2HeaderBox", "colourSpecificationBox", "enumCS"] s →
    textsAt ["mix:BasicImageInformation", "mix:BasicImageCharacteristics", "mix:PhotometricInterpretation",
      "mix:colorSpace"] m = [.str (me.strip s)] ∧
    textsAt ["mix:BasicImageInformation", "mix:BasicImageCharacteristics", "mix:PhotometricInterpretation",
      "mix:ColorProfile", "mix:IccProfile", "mix:iccProfileName"] m = []
  codec : ∀ s codec version, PropertyIs props ["contiguousCodestreamBox", "com", "comment"] s →
    NamesCodec s codec version →
    textsAt ["mix:BasicImageInformation", "mix:SpecialFormatCharacteristics", "mix:JPEG2000",
      "mix:CodecCompliance", "mix:codec"] m = [.str (String.ofList codec)] ∧
    textsAt ["mix:BasicImageInformation", "mix:SpecialFormatCharacteristics", "mix:JPEG2000",
      "mix:CodecCompliance", "mix:codecVersion"] m = [.str (String.ofList version)]
  noCodec : (elemsAt ["contiguousCodestreamBox", "com", "comment"] props = [] ∨
      ∃ s, PropertyIs props ["contiguousCodestreamBox", "com", "comment"] s ∧ NoDashV s.toList) →
    elemsAt ["mix:BasicImageInformation", "mix:SpecialFormatCharacteristics", "mix:JPEG2000",
      "mix:CodecCompliance"] m = []
  tiles1 : flag = 1 → ∀ x y, PropertyIs props ["contiguousCodestreamBox", "siz", "xTsiz"] x →
    PropertyIs props ["contiguousCodestreamBox", "siz", "yTsiz"] y →
    textsAt ["mix:BasicImageInformation", "mix:SpecialFormatCharacteristics", "mix:JPEG2000",
      "mix:EncodingOptions", "mix:tiles"] m = [.str (x ++ "x" ++ y)]
  tiles2 : flag ≠ 1 → ∀ x y, PropertyIs props ["contiguousCodestreamBox", "siz", "xTsiz"] x →
    PropertyIs props ["contiguousCodestreamBox", "siz", "yTsiz"] y →
    textsAt ["mix:BasicImageInformation", "mix:SpecialFormatCharacteristics", "mix:JPEG2000",
      "mix:EncodingOptions", "mix:Tiles", "mix:tileWidth"] m = [.str x] ∧
    textsAt ["mix:BasicImageInformation", "mix:SpecialFormatCharacteristics", "mix:JPEG2000",
      "mix:EncodingOptions", "mix:Tiles", "mix:tileHeight"] m = [.str y]
  /-- the number zero is left out -/
  layers : ∀ s, PropertyIs props ["contiguousCodestreamBox", "cod", "layers"] s →
    textsAt ["mix:BasicImageInformation", "mix:SpecialFormatCharacteristics", "mix:JPEG2000",
      "mix:EncodingOptions", "mix:qualityLayers"] m = if s = "0" then [] else [.str s]
  levels : ∀ s, PropertyIs props ["contiguousCodestreamBox", "cod", "levels"] s →
    textsAt ["mix:BasicImageInformation", "mix:SpecialFormatCharacteristics", "mix:JPEG2000",
      "mix:EncodingOptions", "mix:resolutionLevels"] m = if s = "0" then [] else [.str s]
  samples : ∀ s, PropertyIs props ["contiguousCodestreamBox", "siz", "csiz"] s →
    textsAt ["mix:ImageAssessmentMetadata", "mix:ImageColorEncoding", "mix:samplesPerPixel"] m = [.str s]
  /-- one number for each component of the first codestream -/
  depths1 : flag = 1 → ∀ (siz : Elem) (ss : List String),
    (elemsAt ["contiguousCodestreamBox", "siz"] props).head? = some siz →
    valuesOf siz.children "ssizDepth" = ss.map PyVal.str →
    textsAt ["mix:ImageAssessmentMetadata", "mix:ImageColorEncoding", "mix:bitsPerSample",
      "mix:bitsPerSampleValue"] m = [.str (String.intercalate "," ss)]
  depths2 : flag ≠ 1 → ∀ (siz : Elem) (ss : List String),
    (elemsAt ["contiguousCodestreamBox", "siz"] props).head? = some siz →
    valuesOf siz.children "ssizDepth" = ss.map PyVal.str →
    textsAt ["mix:ImageAssessmentMetadata", "mix:ImageColorEncoding", "mix:BitsPerSample",
      "mix:bitsPerSampleValue"] m = ss.map PyVal.str
  /-- capture resolution, in pixels per metre times 100 over 10000, that is, pixels per centimetre -/
  capture : ∀ (e : Elem) (x y : String),
    (elemsAt ["jp2HeaderBox", "resolutionBox", "captureResolutionBox"] props).head? = some e →
    PropertyIs e.children ["hRescInPixelsPerMeter"] x → PropertyIs e.children ["vRescInPixelsPerMeter"] y →
    Sampling me flag m x y
  /-- otherwise display resolution -/
  display : elemsAt ["jp2HeaderBox", "resolutionBox", "captureResolutionBox"] props = [] →
    ∀ (e : Elem) (x y : String),
    (elemsAt ["jp2HeaderBox", "resolutionBox", "displayResolutionBox"] props).head? = some e →
    PropertyIs e.children ["hResdInPixelsPerMeter"] x → PropertyIs e.children ["vResdInPixelsPerMeter"] y →
    Sampling me flag m x y
  /-- otherwise none -/
  noResolution : elemsAt ["jp2HeaderBox", "resolutionBox", "captureResolutionBox"] props = [] →
    elemsAt ["jp2HeaderBox", "resolutionBox", "displayResolutionBox"] props = [] →
    elemsAt ["mix:ImageAssessmentMetadata", "mix:SpatialMetrics"] m = []

/-- The numbers in the children `m` of the MIX element are those stored in a file: `ih` is the image header
box payload, `siz` and `cod` the SIZ and COD segments and `csiz` the number of components. -/
structure MixStored (flag : Nat) (ih siz cod : Bytes) (csiz : Nat) (m : List Elem) : Prop where
  height : ∀ n, uint ih 0 4 = some n →
    textsAt ["mix:BasicImageInformation", "mix:BasicImageCharacteristics", "mix:imageHeight"] m =
      [.str (toString n)]
  width : ∀ n, uint ih 4 4 = some n →
    textsAt ["mix:BasicImageInformation", "mix:BasicImageCharacteristics", "mix:imageWidth"] m =
      [.str (toString n)]
  samples : textsAt ["mix:ImageAssessmentMetadata", "mix:ImageColorEncoding", "mix:samplesPerPixel"] m =
    [.str (toString csiz)]
  tiles1 : flag = 1 → ∀ x y, uint siz 20 4 = some x → uint siz 24 4 = some y →
    textsAt ["mix:BasicImageInformation", "mix:SpecialFormatCharacteristics", "mix:JPEG2000",
      "mix:EncodingOptions", "mix:tiles"] m = [.str (toString x ++ "x" ++ toString y)]
  tiles2 : flag ≠ 1 → ∀ x y, uint siz 20 4 = some x → uint siz 24 4 = some y →
    textsAt ["mix:BasicImageInformation", "mix:SpecialFormatCharacteristics", "mix:JPEG2000",
      "mix:EncodingOptions", "mix:Tiles", "mix:tileWidth"] m = [.str (toString x)] ∧
    textsAt ["mix:BasicImageInformation", "mix:SpecialFormatCharacteristics", "mix:JPEG2000",
      "mix:EncodingOptions", "mix:Tiles", "mix:tileHeight"] m = [.str (toString y)]
  /-- bit depths: the low seven bits of a byte, plus one -/
  depths1 : flag = 1 → ∀ ds : List Nat, Depths siz csiz ds →
    textsAt ["mix:ImageAssessmentMetadata", "mix:ImageColorEncoding", "mix:bitsPerSample",
      "mix:bitsPerSampleValue"] m = [.str (String.intercalate "," (ds.map toString))]
  depths2 : flag ≠ 1 → ∀ ds : List Nat, Depths siz csiz ds →
    textsAt ["mix:ImageAssessmentMetadata", "mix:ImageColorEncoding", "mix:BitsPerSample",
      "mix:bitsPerSampleValue"] m = ds.map fun d => .str (toString d)
  layers : ∀ n, uint cod 4 2 = some n →
    textsAt ["mix:BasicImageInformation", "mix:SpecialFormatCharacteristics", "mix:JPEG2000",
      "mix:EncodingOptions", "mix:qualityLayers"] m = if n = 0 then [] else [.str (toString n)]
  /-- the number of decomposition levels, not of resolution levels, which is one more -/
  levels : ∀ n, uint cod 7 1 = some n →
    textsAt ["mix:BasicImageInformation", "mix:SpecialFormatCharacteristics", "mix:JPEG2000",
      "mix:EncodingOptions", "mix:resolutionLevels"] m = if n = 0 then [] else [.str (toString n)]
  /-- transformation 1 is the reversible one -/
  lossless : uint cod 11 1 = some 1 →
    textsAt ["mix:BasicDigitalObjectInformation", "mix:Compression", "mix:compressionScheme"] m =
      [.str "JPEG 2000 Lossless"]
  lossy : uint cod 11 1 = some 0 →
    textsAt ["mix:BasicDigitalObjectInformation", "mix:Compression", "mix:compressionScheme"] m =
      [.str "JPEG 2000 Lossy"]

end Jpy.Spec
