import Verif.Model.Node
/-! # Leaf box validators of `jpylyzer/boxvalidator.py` -/

namespace Jpy

open Step

/-- `validate_unknownBox` (`boxvalidator.py:306-320`). -/
def unknownBox (env : Env) (bType : Bytes) : List Step :=
  [ char "boxType" (.bytes bType),
    warn ("ignoring unknown box '" ++ bytesToText env.catC bType ++ "'") ]

/-- `validate_signatureBox` (`boxvalidator.py:322-330`). -/
def signatureBox (c : Bytes) : List Step :=
  [ test "boxLengthIsValid" (decide (c.length = 4)),
    test "signatureIsValid" (decide (slice c 0 4 = [0x0d, 0x0a, 0x87, 0x0a])) ]

/-- The bytes `b'jp2 '`. -/
def brandJp2 : Bytes := [0x6a, 0x70, 0x32, 0x20]
/-- The bytes `b'jph '`. -/
def brandJph : Bytes := [0x6a, 0x70, 0x68, 0x20]

/-- `validate_fileTypeBox` (`boxvalidator.py:332-382`). `(len-8)/4 == int((len-8)/4)` is exact
divisibility. The running `offset` is written as `8 + 4*i`. -/
def fileTypeBox (fmt : Format) (c : Bytes) : List Step :=
  let br := slice c 0 4
  let minV := bytesToUInt (slice c 4 8)
  let cLList := (List.range (rangeLen (intDiv ((c.length : Int) - 8) 4))).map fun (i : Nat) =>
    slice c (8 + 4 * i) (8 + 4 * i + 4)
  [ test "boxLengthIsValid" (decide (((c.length : Int) - 8) % 4 = 0)),
    char "br" (.bytes br) ]
  ++ (match fmt with
      | .jp2 => [ test "brandIsValid" (decide (br = brandJp2)) ]
      | .jph => [ test "brandIsValid" (decide (br = brandJph)) ]
      | _ => [])
  ++ [ char "minV" (.int minV),
       test "minorVersionIsValid" (decide (minV = 0)) ]
  ++ cLList.map (fun cL => char "cL" (.bytes cL))
  ++ (match fmt with
      | .jp2 => [ test "compatibilityListIsValid" (decide (brandJp2 ∈ cLList)) ]
      | .jph => [ test "compatibilityListIsValid" (decide (brandJph ∈ cLList)) ]
      | _ => [])

/-- `validate_imageHeaderBox` (`boxvalidator.py:496-566`). -/
def imageHeaderBox (c : Bytes) : List Step :=
  let height := bytesToUInt (slice c 0 4)
  let width := bytesToUInt (slice c 4 8)
  let nC := bytesToUShortInt (slice c 8 10)
  let bPC := bytesToUnsignedChar (slice c 10 11)
  let bPCDepth := low bPC 7 + 1
  let cc := bytesToUnsignedChar (slice c 11 12)
  let unkC := bytesToUnsignedChar (slice c 12 13)
  let iPR := bytesToUnsignedChar (slice c 13 14)
  [ test "boxLengthIsValid" (decide (c.length = 14)),
    char "height" (.int height),
    char "width" (.int width),
    test "heightIsValid" (between 1 height (2 ^ 32 - 1)),
    test "widthIsValid" (between 1 width (2 ^ 32 - 1)),
    char "nC" (.int nC),
    test "nCIsValid" (between 1 nC 16384),
    char "bPCSign" (.int (getBitValue bPC 1)),
    char "bPCDepth" (.int bPCDepth),
    test "bPCIsValid" (between 1 bPCDepth 38 || between 1 bPC 255),
    char "c" (.int cc),
    test "cIsValid" (decide (cc = 7)),
    char "unkC" (.int unkC),
    test "unkCIsValid" (between 0 unkC 1),
    char "iPR" (.int iPR),
    test "iPRIsValid" (between 0 iPR 1) ]

/-- `validate_bitsPerComponentBox` (`boxvalidator.py:568-595`). -/
def bitsPerComponentBox (c : Bytes) : List Step :=
  (List.range c.length).flatMap fun (i : Nat) =>
    let bPC := bytesToUnsignedChar (slice c i (i + 1))
    let bPCDepth := low bPC 7 + 1
    [ char "bPCSign" (.int (getBitValue bPC 1)),
      char "bPCDepth" (.int bPCDepth),
      test "bPCIsValid" (between 1 bPCDepth 38) ]

/-- Python `%02d`. -/
def pad2 (i : Int) : String := if 0 ≤ i ∧ i < 10 then "0" ++ toString i else toString i

/-- ICC tag table read by `validate_icc` (`boxvalidator.py:891-923`): signature, offset, size. The
running `tagStart` is written as `132 + 12*i`. -/
def iccTags (c : Bytes) : List (Bytes × Int × Int) :=
  let tagCount := min (bytesToUInt (slice c 128 132)) 4096
  (List.range (rangeLen tagCount)).map fun (i : Nat) =>
    let s : Int := 132 + 12 * i
    (slice c s (s + 4), bytesToUInt (slice c (s + 4) (s + 8)), bytesToUInt (slice c (s + 8) (s + 12)))

/-- The bytes `b'desc'`. -/
def tagDesc : Bytes := [0x64, 0x65, 0x73, 0x63]

/-- The description looked up by `validate_icc` (`boxvalidator.py:930-946`); `""` when `index`
raises. -/
def iccDescription (c : Bytes) : PyVal :=
  match (iccTags c).find? (fun t => t.1 == tagDesc) with
  | some (_, off, size) =>
    let descTag := slice c off (off + size)
    let descriptionLength := bytesToUInt (slice descTag 8 12)
    .bytes (slice descTag 12 (12 + descriptionLength - 1))
  | none => .str ""

/-- `round(bytesToUInt(b) / 65536, 4)` (`boxvalidator.py:868-881`), kept as an exact rational. -/
def iccIlluminant (b : Bytes) : PyVal := .flt ⟨bytesToUInt b, 65536, 4⟩

/-- `validate_icc` (`boxvalidator.py:747-947`). It performs no tests. -/
def icc (c : Bytes) : List Step :=
  let minorByte := bytesToUnsignedChar (slice c 9 10)
  let profileFlags := bytesToUnsignedChar (slice c 44 45)
  let deviceAttributes := bytesToUnsignedChar (slice c 56 57)
  [ char "profileSize" (.int (bytesToUInt (slice c 0 4))),
    char "preferredCMMType" (.bytes (slice c 4 8)),
    char "profileVersion" (.str (toString (bytesToUnsignedChar (slice c 8 9)) ++ "."
      ++ toString (shr minorByte 4) ++ "." ++ toString (low minorByte 4))),
    char "profileClass" (.bytes (slice c 12 16)),
    char "colourSpace" (.bytes (slice c 16 20)),
    char "profileConnectionSpace" (.bytes (slice c 20 24)),
    char "dateTimeString" (.str (
      toString (bytesToUShortInt (slice c 24 26)) ++ "/"
      ++ pad2 (bytesToUnsignedChar (slice c 27 28)) ++ "/"
      ++ pad2 (bytesToUnsignedChar (slice c 29 30)) ++ ", "
      ++ pad2 (bytesToUnsignedChar (slice c 31 32)) ++ ":"
      ++ pad2 (bytesToUnsignedChar (slice c 33 34)) ++ ":"
      ++ pad2 (bytesToUnsignedChar (slice c 35 36)))),
    char "profileSignature" (.bytes (slice c 36 40)),
    char "primaryPlatform" (.bytes (slice c 40 44)),
    char "embeddedProfile" (.int (getBitValue profileFlags 1)),
    char "profileCannotBeUsedIndependently" (.int (getBitValue profileFlags 2)),
    char "deviceManufacturer" (.bytes (slice c 48 52)),
    char "deviceModel" (.bytes (slice c 52 56)),
    char "transparency" (.int (getBitValue deviceAttributes 1)),
    char "glossiness" (.int (getBitValue deviceAttributes 2)),
    char "polarity" (.int (getBitValue deviceAttributes 3)),
    char "colour" (.int (getBitValue deviceAttributes 4)),
    char "renderingIntent" (.int (bytesToUShortInt (slice c 66 68))),
    char "connectionSpaceIlluminantX" (iccIlluminant (slice c 68 72)),
    char "connectionSpaceIlluminantY" (iccIlluminant (slice c 72 76)),
    char "connectionSpaceIlluminantZ" (iccIlluminant (slice c 76 80)),
    char "profileCreator" (.bytes (slice c 80 84)),
    char "profileID" (.bytes (bytesToHex (slice c 84 100))) ]
  ++ (iccTags c).map (fun t => char "tag" (.bytes t.1))
  ++ [ char "description" (iccDescription c) ]

/-- The bytes `b'scnr'`. -/
def classScnr : Bytes := [0x73, 0x63, 0x6e, 0x72]
/-- The bytes `b'mntr'`. -/
def classMntr : Bytes := [0x6d, 0x6e, 0x74, 0x72]
/-- The bytes `b'A2B0'`. -/
def tagA2B0 : Bytes := [0x41, 0x32, 0x42, 0x30]

/-- The characteristics element of the ICC sub-validator (`boxvalidator.py:653-657`). It has no tests
and no warnings, so neither verbosity nor `appendIfNotEmpty(iccWarnings)` matters. -/
def iccElem (profile : Bytes) : Elem := .node "icc" (Node.run true {} (icc profile)).chars

/-- `validate_colourSpecificationBox` (`boxvalidator.py:597-745`). -/
def colourSpecificationBox (fmt : Format) (c : Bytes) : List Step :=
  let meth := bytesToUnsignedChar (slice c 0 1)
  let prec := bytesToUnsignedChar (slice c 1 2)
  let approx := bytesToUnsignedChar (slice c 2 3)
  [ char "meth" (.int meth) ]
  ++ (match fmt with
      | .jp2 => [ test "methIsValid" (decide (meth ∈ [1, 2])) ]
      | .jph => [ test "methIsValid" (decide (meth ∈ [1, 2, 3, 5])) ]
      | _ => [])
  ++ [ char "prec" (.int prec),
       test "precIsValid" (decide (prec = 0)),
       char "approx" (.int approx),
       test "approxIsValid" (decide (approx = 0)) ]
  ++ (if meth = 1 then
        let enumCS := bytesToUInt (slice c 3 c.length)
        [ char "enumCS" (.int enumCS),
          test "enumCSIsValid" (decide (enumCS ∈ [16, 17, 18])) ]
      else if meth = 2 then
        let profile := slice c 3 c.length
        let e := iccElem profile
        [ elem e,
          test "iccSizeIsValid"
            (decide (Elem.findElementText e.children ["profileSize"] = some (.int profile.length))),
          test "iccPermittedProfileClass"
            (decide (Elem.findElementText e.children ["profileClass"]
              ∈ [some (.bytes classScnr), some (.bytes classMntr)])),
          test "iccNoLUTBasedProfile"
            (decide (PyVal.bytes tagA2B0 ∉ Elem.findAllText e.children ["tag"])) ]
      else if meth = 3 then
        [ elem (iccElem (slice c 3 c.length)) ]
      else if meth = 5 then
        let colPrims := bytesToUShortInt (slice c 3 5)
        let transfC := bytesToUShortInt (slice c 5 7)
        let matCoeffs := bytesToUShortInt (slice c 7 9)
        let vidFRngByte := bytesToUnsignedChar (slice c 9 10)
        [ char "colPrims" (.int colPrims) ]
        ++ (if fmt = .jph then
              [ test "colPrimsIsValid"
                  (decide (colPrims ∈ [1, 2, 4, 5, 6, 7, 8, 9, 10, 11, 12, 22])) ]
            else [])
        ++ [ char "transfC" (.int transfC) ]
        ++ (if fmt = .jph then
              [ test "transfCIsValid"
                  (decide (transfC ∈ [1, 2, 4, 5, 6, 7, 8, 9, 10, 11, 12, 13, 14, 15, 16, 17, 18])) ]
            else [])
        ++ [ char "matCoeffs" (.int matCoeffs) ]
        ++ (if fmt = .jph then
              [ test "matCoeffsIsValid"
                  (decide (matCoeffs ∈ [0, 1, 2, 4, 5, 6, 7, 8, 9, 10, 11, 12, 13, 14])) ]
            else [])
        ++ [ char "vidFRng" (.int (getBitValue vidFRngByte 1)) ]
      else [])

/-- `validate_paletteBox` (`boxvalidator.py:949-1007`). `math.ceil(bDepth/8)*8/8` is written as a
ceiling division; the running `offset` as a start plus a multiple of the entry width. -/
def paletteBox (c : Bytes) : List Step :=
  let nE := bytesToUShortInt (slice c 0 2)
  let nPC := bytesToUnsignedChar (slice c 2 3)
  [ char "nE" (.int nE),
    test "nEIsValid" (between 1 nE 1024),
    char "nPC" (.int nPC),
    test "nPCIsValid" (between 1 nPC 255) ]
  ++ (List.range (rangeLen nPC)).flatMap fun (i : Nat) =>
      let b := bytesToUnsignedChar (slice c (3 + i) (4 + i))
      let bDepth := low b 7 + 1
      let bytesPadded := ceilDiv bDepth 8
      let offset := nPC + 3 + i * (nE * bytesPadded)
      [ char "bSign" (.int (getBitValue b 1)),
        char "bDepth" (.int bDepth),
        test "bDepthIsValid" (between 1 bDepth 38) ]
      ++ (List.range (rangeLen nE)).map fun (k : Nat) =>
          let o := offset + k * bytesPadded
          char "cP" (.int (bytesToInteger (slice c o (o + bytesPadded))))

/-- `validate_componentMappingBox` (`boxvalidator.py:1009-1051`). -/
def componentMappingBox (c : Bytes) : List Step :=
  (List.range (c.length / 4)).flatMap fun (i : Nat) =>
    let offset : Int := 4 * i
    let cMP := bytesToUShortInt (slice c offset (offset + 2))
    let mTyp := bytesToUnsignedChar (slice c (offset + 2) (offset + 3))
    let pCol := bytesToUnsignedChar (slice c (offset + 3) (offset + 4))
    [ char "cMP" (.int cMP),
      test "cMPIsValid" (between 0 cMP 16384),
      char "mTyp" (.int mTyp),
      test "mTypIsValid" (between 0 mTyp 1),
      char "pCol" (.int pCol),
      test "pColIsValid" (if mTyp = 0 then decide (pCol = 0) else true) ]

/-- `validate_channelDefinitionBox` (`boxvalidator.py:1053-1115`). `alphaChannels` holds the `cAssoc`
values of the channels with `cTyp` 1 or 2. The `cAssocIsValid` test reads `cTyp`, as in the code. -/
def channelDefinitionBox (fmt : Format) (c : Bytes) : List Step :=
  let n := bytesToUShortInt (slice c 0 2)
  let cTypAt := fun (i : Nat) => bytesToUShortInt (slice c (2 + 6 * i + 2) (2 + 6 * i + 4))
  let cAssocAt := fun (i : Nat) => bytesToUShortInt (slice c (2 + 6 * i + 4) (2 + 6 * i + 6))
  let alphaChannels := ((List.range (rangeLen n)).filter
    fun (i : Nat) => decide (cTypAt i ∈ [1, 2])).map cAssocAt
  [ char "n" (.int n),
    test "nIsValid" (between 1 n 65535),
    test "boxLengthIsValid" (decide ((c.length : Int) - 2 = n * 6)) ]
  ++ (List.range (rangeLen n)).flatMap (fun (i : Nat) =>
      let cN := bytesToUShortInt (slice c (2 + 6 * i) (2 + 6 * i + 2))
      let cTyp := cTypAt i
      [ char "cN" (.int cN),
        test "cNIsValid" (between 0 cN 65535),
        char "cTyp" (.int cTyp) ]
      ++ (match fmt with
          | .jp2 => [ test "cTypIsValid" (decide (cTyp ∈ [0, 1, 2, 65535])) ]
          | .jph => [ test "cTypIsValid" (decide (cTyp ∈ [0, 1, 2, 3, 65535])) ]
          | _ => [])
      ++ [ char "cAssoc" (.int (cAssocAt i)),
           test "cAssocIsValid" (between 0 cTyp 65535) ])
  ++ (if fmt = .jph then
        test "noMoreThanOneAlphaChannel" (decide (alphaChannels.length ≤ 1))
        :: alphaChannels.map (fun a => test "cAssocAlphaChannelIsZero" (decide (a = 0)))
      else [])

/-- `(n / d) * (10 ** e)` as an exact rational rounded to 2 decimals (`boxvalidator.py:1216`). -/
def resPerMeter (n d e : Int) : PyFloat :=
  if 0 ≤ e then ⟨n * 10 ^ e.toNat, d, 2⟩ else ⟨n, d * 10 ^ (-e).toNat, 2⟩

/-- `x * 25.4e-3` (`boxvalidator.py:1224`). -/
def resPerInch (f : PyFloat) : PyFloat := ⟨f.num * 254, f.den * 10000, 2⟩

/-- `validate_captureResolutionBox` (`boxvalidator.py:1173-1230`) and `validate_displayResolutionBox`
(`boxvalidator.py:1232-1289`): the same code with `x` = `"c"` or `"d"` in the tag names. The first
zero denominator raises `ZeroDivisionError`. -/
def resolutionLeaf (x : String) (c : Bytes) : Outcome (List Step) :=
  let vN := bytesToUShortInt (slice c 0 2)
  let vD := bytesToUShortInt (slice c 2 4)
  let hN := bytesToUShortInt (slice c 4 6)
  let hD := bytesToUShortInt (slice c 6 8)
  let vE := bytesToSignedChar (slice c 8 9)
  let hE := bytesToSignedChar (slice c 9 10)
  if vD = 0 then .raised .zeroDivision
  else if hD = 0 then .raised .zeroDivision
  else .ok
    [ test "boxLengthIsValid" (decide (c.length = 10)),
      char ("vR" ++ x ++ "N") (.int vN),
      test ("vR" ++ x ++ "NIsValid") (between 1 vN 65535),
      char ("vR" ++ x ++ "D") (.int vD),
      test ("vR" ++ x ++ "DIsValid") (between 1 vD 65535),
      char ("hR" ++ x ++ "N") (.int hN),
      test ("hR" ++ x ++ "NIsValid") (between 1 hN 65535),
      char ("hR" ++ x ++ "D") (.int hD),
      test ("hR" ++ x ++ "DIsValid") (between 1 hD 65535),
      char ("vR" ++ x ++ "E") (.int vE),
      test ("vR" ++ x ++ "EIsValid") (between (-128) vE 127),
      char ("hR" ++ x ++ "E") (.int hE),
      test ("hR" ++ x ++ "EIsValid") (between (-128) hE 127),
      char ("vRes" ++ x ++ "InPixelsPerMeter") (.flt (resPerMeter vN vD vE)),
      char ("hRes" ++ x ++ "InPixelsPerMeter") (.flt (resPerMeter hN hD hE)),
      char ("vRes" ++ x ++ "InPixelsPerInch") (.flt (resPerInch (resPerMeter vN vD vE))),
      char ("hRes" ++ x ++ "InPixelsPerInch") (.flt (resPerInch (resPerMeter hN hD hE))) ]

/-- The characteristic added for XML data that parses, and the test result, of the `try` blocks in
`validate_xmlBox` (`boxvalidator.py:3274-3295`) and `validate_uuidBox` (`boxvalidator.py:3321-3345`). -/
def xmlSteps (env : Env) (nullxml : Bool) (data : Bytes) : List Step :=
  match env.parseXml data with
  | some e => [ elem e, test "containsWellformedXML" true ]
  | none =>
    (if nullxml then
      match env.parseXml (removeNullTerminator data) with
      | some e => [ elem e ]
      | none => []
    else [])
    ++ [ test "containsWellformedXML" false ]

/-- `validate_xmlBox` (`boxvalidator.py:3267-3295`). -/
def xmlBox (env : Env) (nullxml : Bool) (c : Bytes) : List Step := xmlSteps env nullxml c

/-- One lower-case hexadecimal digit. -/
def hexChar (n : Nat) : Char := if n < 10 then Char.ofNat (48 + n) else Char.ofNat (87 + n)

/-- Lower-case hexadecimal digits of a byte string, as characters. -/
def hexChars (b : Bytes) : List Char := b.flatMap fun x => [hexChar (x.toNat / 16), hexChar (x.toNat % 16)]

/-- `str(uuid.UUID(bytes=b))`: `ValueError` unless 16 bytes, otherwise the 8-4-4-4-12 form. -/
def uuidStr (b : Bytes) : Outcome String :=
  if b.length = 16 then
    .ok (String.ofList (hexChars (b.take 4) ++ '-' :: hexChars ((b.drop 4).take 2)
      ++ '-' :: hexChars ((b.drop 6).take 2) ++ '-' :: hexChars ((b.drop 8).take 2)
      ++ '-' :: hexChars (b.drop 10)))
  else .raised .valueError

/-- `validate_uuidBox` (`boxvalidator.py:3297-3349`). -/
def uuidBox (env : Env) (nullxml : Bool) (c : Bytes) : Outcome (List Step) := do
  let boxUUID ← uuidStr (slice c 0 16)
  .ok (test "boxLengthIsValid" (decide (c.length > 16))
    :: (if boxUUID = "be7acfcb-97a9-42e8-9c71-999491e3afac" then
          xmlSteps env nullxml (slice c 16 c.length)
        else [ char "uuid" (.str boxUUID) ]))

/-- Loop over the UUIDs of `validate_uuidListBox` (`boxvalidator.py:3411-3416`). -/
def uuidListLoop (c : Bytes) : Nat → Int → Outcome (List Step)
  | 0, _ => .ok []
  | n + 1, offset => do
    let u ← uuidStr (slice c offset (offset + 16))
    let rest ← uuidListLoop c n (offset + 16)
    .ok (char "uuid" (.str u) :: rest)

/-- `validate_uuidListBox` (`boxvalidator.py:3398-3416`). -/
def uuidListBox (c : Bytes) : Outcome (List Step) := do
  let nU := bytesToUShortInt (slice c 0 2)
  let rest ← uuidListLoop c (rangeLen nU) 2
  .ok ([ char "nU" (.int nU),
         test "boxLengthIsValid" (decide ((c.length : Int) = nU * 16 + 2)) ] ++ rest)

/-- `validate_urlBox` (`boxvalidator.py:3418-3455`). -/
def urlBox (c : Bytes) : List Step :=
  let version := bytesToUnsignedChar (slice c 0 1)
  let flag := slice c 1 4
  let loc := slice c 4 c.length
  let locStripped := removeNullTerminator loc
  [ char "version" (.int version),
    test "versionIsValid" (decide (version = 0)),
    test "flagIsValid" (decide (flag = [0, 0, 0])),
    test "locHasNullTerminator" (loc.getLast? == some 0),
    test "locIsUTF8" (utf8Decode locStripped).isSome,
    char "loc" (.bytes locStripped) ]

end Jpy
