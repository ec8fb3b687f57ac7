import Verif.Model.Elem
import Verif.Model.Node
import Verif.Spec.Walk
import Verif.Spec.Boxes
/-!
# Specification of the published output schema

Transcription of `/repo/xsd/jpylyzer-v-2-2.xsd`, the schema named in the root element of every report
(`jpylyzer.py:69-72, 676-680`). `/repo/xsd/README.md` promises that the output follows it, for invalid images
too.

Simplifications: namespaces are ignored; lexical forms are those of the schema data types without
surrounding white space, which the reports never contain.

The flag `strict` distinguishes the schema as published (`true`) from a relaxed one (`false`) that
differs in exactly these points:
* a group that must occur at least once may be absent (`atLeastOnce`);
* `vidFRng` may be any text, instead of an integer;
* `codeBlockWidth` and `codeBlockHeight` may be any `xs:double`, instead of an integer;
* the eight resolutions may be any `xs:double`, instead of an `xs:decimal` (which does not allow
  scientific notation; the README mentions this one);
* `plt` and `ppt` may also occur where boxes occur.
-/

namespace Jpy.Spec
namespace Xsd

/-- The simple types used by the schema. -/
inductive Simple where
  | string | integer | decimal | double
  | enum (values : List String)
  deriving DecidableEq

/-- One or more decimal digits. -/
def Digits (cs : List Char) : Prop := cs ≠ [] ∧ ∀ c ∈ cs, c.isDigit = true

/-- An optional sign. -/
def Sign (cs : List Char) : Prop := cs = [] ∨ cs = ['+'] ∨ cs = ['-']

/-- Lexical form of `xs:integer`. -/
def IsInteger (s : String) : Prop := ∃ sg ds, s.toList = sg ++ ds ∧ Sign sg ∧ Digits ds

/-- Lexical form of `xs:decimal`: digits with an optional fraction (forms with no digit before or
after the point are not needed). -/
def IsDecimal (s : String) : Prop :=
  ∃ sg ds fr, s.toList = sg ++ ds ++ fr ∧ Sign sg ∧ Digits ds ∧
    (fr = [] ∨ ∃ f, fr = '.' :: f ∧ Digits f)

/-- Lexical form of `xs:double`: a decimal with an optional exponent, or a special value. -/
def IsDouble (s : String) : Prop :=
  s ∈ ["INF", "-INF", "NaN"] ∨
  ∃ m ex, s.toList = m ++ ex ∧ IsDecimal (String.ofList m) ∧
    (ex = [] ∨ ∃ e sg ds, ex = e :: sg ++ ds ∧ e ∈ ['e', 'E'] ∧ Sign sg ∧ Digits ds)

/-- Does an element text belong to a simple type? An element without text has the empty string as its
value. -/
def Simple.Holds : Simple → PyVal → Prop
  | .string, .str _ => True
  | .string, .none => True
  | .integer, .str s => IsInteger s
  | .decimal, .str s => IsDecimal s
  | .double, .str s => IsDouble s
  | .enum vs, .str s => s ∈ vs
  | _, _ => False

/-- Content models. -/
inductive Re where
  /-- nothing -/
  | empty
  /-- one element, declared elsewhere in the schema, with one of these names -/
  | oneOf (names : List String)
  /-- one arbitrary element (`xs:any processContents="skip"`) -/
  | any
  | seq (a b : Re)
  | alt (a b : Re)
  /-- any number of times -/
  | star (a : Re)
  deriving DecidableEq

/-- `<xs:element ref="n"/>` -/
def el (n : String) : Re := .oneOf [n]
/-- `<xs:sequence>` -/
def sequence (l : List Re) : Re := l.foldr .seq .empty
/-- `minOccurs="0"` -/
def opt (r : Re) : Re := .alt r .empty
/-- `maxOccurs="unbounded"` -/
def atLeastOnce (strict : Bool) (r : Re) : Re := if strict then .seq r (.star r) else .star r

/-- Element declarations: with a simple type, with a simple type and one required attribute, or with
a content model. -/
inductive Decl where
  | text (s : Simple)
  | textWith (s : Simple) (attr : String) (values : List String)
  | content (r : Re)
  deriving DecidableEq

/-- Complex type `allBoxes` (`jpylyzer-v-2-2.xsd:11-54`). -/
def allBoxNames (strict : Bool) : List String :=
  [ "intellectualPropertyBox", "xmlBox", "uuidBox", "uuidInfoBox", "signatureBox", "fileTypeBox",
    "jp2HeaderBox", "imageHeaderBox", "bitsPerComponentBox", "colourSpecificationBox", "paletteBox",
    "componentMappingBox", "channelDefinitionBox", "resolutionBox", "contiguousCodestreamBox",
    "captureResolutionBox", "displayResolutionBox", "uuidListBox", "urlBox", "unknownBox",
    "siz", "cap", "prf", "cpf", "cod", "qcd", "com", "coc", "rgn", "qcc", "poc", "tlm", "plm", "ppm",
    "crg", "tileParts", "ppmCount", "plmCount" ]
  ++ if strict then [] else ["plt", "ppt"]

/-- Complex type `allBoxes`. -/
def allBoxes (strict : Bool) : Re := .star (.oneOf (allBoxNames strict))

/-- The choice in `contiguousCodestreamBox` (`jpylyzer-v-2-2.xsd:520-543`). -/
def codestreamNames : List String :=
  [ "siz", "cap", "prf", "cpf", "ppmCount", "plmCount", "cod", "qcd", "com", "coc", "rgn", "qcc",
    "poc", "tlm", "plm", "ppm", "crg", "tileParts" ]

/-- The choice in `tilePart` (`jpylyzer-v-2-2.xsd:842-860`). -/
def tilePartNames : List String :=
  [ "sot", "cod", "qcd", "com", "coc", "rgn", "qcc", "poc", "plt", "ppt", "crg", "pltCount",
    "pptCount" ]

/-- `mu`/`epsilon` part of `qcd` and `qcc` (`jpylyzer-v-2-2.xsd:739-747, 765-773`). As in the schema, the first
branch needs an `epsilon`; the second may be empty. -/
def stepSizes : Re :=
  .alt (.seq (el "epsilon") (.star (el "epsilon"))) (.star (sequence [el "mu", el "epsilon"]))

/-- The part of `cod` and `coc` from `levels` on (`jpylyzer-v-2-2.xsd:652-666, 696-710`). -/
def codingStyle : List Re :=
  [ el "levels", el "codeBlockWidth", el "codeBlockHeight", el "codingBypass",
    opt (el "resetOnBoundaries"), el "termOnEachPass", el "vertCausalContext",
    opt (el "predTermination"), opt (el "segmentationSymbols"), el "transformation",
    .star (sequence [el "precinctSizeX", el "precinctSizeY"]) ]

/-- Elements with content (`jpylyzer-v-2-2.xsd`, in the order of the file). -/
def complexDecls (strict : Bool) : List (String × Decl) :=
  [ ("jpylyzer", .content (sequence [el "toolInfo", .seq (el "file") (.star (el "file"))])),
    ("toolInfo", .content (sequence [el "toolName", el "toolVersion"])),
    ("file", .content (sequence
      [ el "fileInfo", el "statusInfo", el "isValid", el "tests", el "properties",
        .star (el "propertiesExtension"), el "warnings" ])),
    ("fileInfo", .content (sequence
      [ el "fileName", el "filePath", el "fileSizeInBytes", el "fileLastModified" ])),
    ("statusInfo", .content (sequence [el "success", opt (el "failureMessage")])),
    ("isValid", .textWith (.enum ["True", "False"]) "format" ["jp2", "jph", "j2c", "jhc"]),
    ("tests", .content (.star .any)),
    ("warnings", .content (.star .any)),
    ("properties", .content (sequence [allBoxes strict, opt (el "compressionRatio")])),
    ("signatureBox", .content .empty),
    ("fileTypeBox", .content (sequence [el "br", el "minV", atLeastOnce strict (el "cL")])),
    ("jp2HeaderBox", .content (allBoxes strict)),
    ("imageHeaderBox", .content (sequence
      [ el "height", el "width", el "nC", el "bPCSign", el "bPCDepth", el "c", el "unkC",
        el "iPR" ])),
    ("bitsPerComponentBox", .content (atLeastOnce strict (sequence [el "bPCSign", el "bPCDepth"]))),
    ("colourSpecificationBox", .content (sequence
      [ el "meth", el "prec", el "approx", opt (el "enumCS"), opt (el "icc"), opt (el "colPrims"),
        opt (el "transfC"), opt (el "matCoeffs"), opt (el "vidFRng") ])),
    ("icc", .content (sequence
      [ el "profileSize", el "preferredCMMType", el "profileVersion", el "profileClass",
        el "colourSpace", el "profileConnectionSpace", el "dateTimeString", el "profileSignature",
        el "primaryPlatform", el "embeddedProfile", el "profileCannotBeUsedIndependently",
        el "deviceManufacturer", el "deviceModel", el "transparency", el "glossiness",
        el "polarity", el "colour", el "renderingIntent", el "connectionSpaceIlluminantX",
        el "connectionSpaceIlluminantY", el "connectionSpaceIlluminantZ", el "profileCreator",
        el "profileID", .star (el "tag"), el "description" ])),
    ("paletteBox", .content (sequence
      [ el "nE", el "nPC",
        atLeastOnce strict (sequence [el "bSign", el "bDepth", .star (el "cP")]) ])),
    ("componentMappingBox", .content (atLeastOnce strict (sequence [el "cMP", el "mTyp", el "pCol"]))),
    ("channelDefinitionBox", .content (sequence
      [ el "n", atLeastOnce strict (sequence [el "cN", el "cTyp", el "cAssoc"]) ])),
    ("resolutionBox", .content (allBoxes strict)),
    ("captureResolutionBox", .content (sequence
      [ el "vRcN", el "vRcD", el "hRcN", el "hRcD", el "vRcE", el "hRcE",
        el "vRescInPixelsPerMeter", el "hRescInPixelsPerMeter", el "vRescInPixelsPerInch",
        el "hRescInPixelsPerInch" ])),
    ("displayResolutionBox", .content (sequence
      [ el "vRdN", el "vRdD", el "hRdN", el "hRdD", el "vRdE", el "hRdE",
        el "vResdInPixelsPerMeter", el "hResdInPixelsPerMeter", el "vResdInPixelsPerInch",
        el "hResdInPixelsPerInch" ])),
    ("intellectualPropertyBox", .content (.star .any)),
    ("xmlBox", .content (opt .any)),
    ("uuidBox", .content (opt .any)),
    ("uuidInfoBox", .content (allBoxes strict)),
    ("uuidListBox", .content (sequence [el "nU", atLeastOnce strict (el "uuid")])),
    ("urlBox", .content (sequence [el "version", el "loc"])),
    ("unknownBox", .content (sequence [el "boxType"])),
    ("contiguousCodestreamBox", .content (.star (.oneOf codestreamNames))),
    ("siz", .content (sequence
      [ el "lsiz", el "rsiz", el "capability", el "xsiz", el "ysiz", el "xOsiz", el "yOsiz",
        el "xTsiz", el "yTsiz", el "xTOsiz", el "yTOsiz", el "numberOfTiles", el "csiz",
        atLeastOnce strict
          (sequence [el "ssizSign", el "ssizDepth", el "xRsiz", el "yRsiz"]) ])),
    ("cap", .content (sequence
      [ el "lcap", .star (el "pcapPart"), opt (el "htCodeBlocks"), opt (el "htSets"),
        opt (el "htRegion"), opt (el "htHomogeneous"), opt (el "htReversible"),
        opt (el "htB") ])),
    ("prf", .content (sequence [el "lprf", el "PRFnum"])),
    ("cpf", .content (sequence [el "lcpf", el "CPFnum"])),
    ("cod", .content (sequence
      ([ el "lcod", el "precincts", el "sop", el "eph", el "order", el "layers",
         el "multipleComponentTransformation" ] ++ codingStyle))),
    ("coc", .content (sequence ([ el "lcoc", el "ccoc", el "precincts" ] ++ codingStyle))),
    ("rgn", .content (sequence [el "lrgn", el "crgn", el "roiStyle", el "roiShift"])),
    ("qcd", .content (sequence [el "lqcd", el "qStyle", el "guardBits", stepSizes])),
    ("qcc", .content (sequence [el "lqcc", el "cqcc", el "qStyle", el "guardBits", stepSizes])),
    ("poc", .content (sequence
      [ el "lpoc", atLeastOnce strict (sequence
        [ el "rspoc", el "cspoc", el "lyepoc", el "repoc", el "cepoc", el "order" ]) ])),
    ("crg", .content (sequence [el "lcrg", atLeastOnce strict (sequence [el "xcrg", el "ycrg"])])),
    ("com", .content (sequence [el "lcom", el "rcom", opt (el "comment")])),
    ("tileParts", .content (.star (el "tilePart"))),
    ("tilePart", .content (.star (.oneOf tilePartNames))),
    ("sot", .content (sequence [el "lsot", el "isot", el "psot", el "tpsot", el "tnsot"])),
    ("plm", .content (sequence [el "lplm", el "zplm", el "nplm", el "iplm"])),
    ("plt", .content (sequence [el "lplt", el "zplt", el "iplt"])),
    ("tlm", .content (.star .any)),
    ("ppm", .content (.star .any)),
    ("ppt", .content (.star .any)),
    ("propertiesExtension", .content (.star .any)) ]

/-- Elements of type `xs:integer`. -/
def integerNames : List String :=
  [ "fileSizeInBytes", "minV", "height", "width", "nC", "bPCDepth", "prec", "approx", "colPrims",
    "transfC", "matCoeffs", "profileSize", "nE", "nPC", "bDepth", "cP", "cMP", "pCol", "n", "cN",
    "vRcN", "vRcD", "hRcN", "hRcD", "vRcE", "hRcE", "vRdN", "vRdD", "hRdN", "hRdD", "vRdE", "hRdE",
    "nU", "version", "ppmCount", "plmCount", "lsiz", "rsiz", "xsiz", "ysiz", "xOsiz", "yOsiz",
    "xTsiz", "yTsiz", "xTOsiz", "yTOsiz", "numberOfTiles", "csiz", "ssizDepth", "xRsiz", "yRsiz",
    "lcap", "pcapPart", "htB", "lprf", "PRFnum", "lcpf", "CPFnum", "lcod", "layers", "levels",
    "precinctSizeX", "precinctSizeY", "lcoc", "ccoc", "lrgn", "crgn", "roiShift", "lqcd",
    "guardBits", "mu", "epsilon", "lqcc", "cqcc", "lpoc", "rspoc", "cspoc", "lyepoc", "repoc",
    "cepoc", "lcrg", "xcrg", "ycrg", "lcom", "lsot", "isot", "psot", "tpsot", "tnsot", "lplm",
    "zplm", "nplm", "lplt", "zplt", "pltCount", "pptCount" ]

/-- Elements of type `xs:string`. -/
def stringNames : List String :=
  [ "toolName", "toolVersion", "fileName", "filePath", "fileLastModified", "failureMessage", "br",
    "cL", "bPCSign", "c", "unkC", "iPR", "meth", "enumCS", "preferredCMMType", "profileVersion",
    "profileClass", "colourSpace", "profileConnectionSpace", "dateTimeString", "profileSignature",
    "primaryPlatform", "embeddedProfile", "profileCannotBeUsedIndependently", "deviceManufacturer",
    "deviceModel", "transparency", "glossiness", "polarity", "colour", "renderingIntent",
    "profileCreator", "profileID", "tag", "description", "bSign", "mTyp", "cTyp", "cAssoc", "uuid",
    "loc", "boxType", "capability", "ssizSign", "htCodeBlocks", "htSets", "htRegion",
    "htHomogeneous", "htReversible", "precincts", "sop", "eph", "order",
    "multipleComponentTransformation", "codingBypass", "resetOnBoundaries", "termOnEachPass",
    "vertCausalContext", "predTermination", "segmentationSymbols", "transformation", "roiStyle",
    "qStyle", "rcom", "comment", "iplm", "iplt" ]

/-- Elements of type `xs:decimal` holding a resolution. -/
def resolutionNames : List String :=
  [ "vRescInPixelsPerMeter", "hRescInPixelsPerMeter", "vRescInPixelsPerInch",
    "hRescInPixelsPerInch", "vResdInPixelsPerMeter", "hResdInPixelsPerMeter",
    "vResdInPixelsPerInch", "hResdInPixelsPerInch" ]

/-- The other elements of type `xs:decimal`. -/
def illuminantNames : List String :=
  [ "connectionSpaceIlluminantX", "connectionSpaceIlluminantY", "connectionSpaceIlluminantZ" ]

/-- All declarations of the schema. -/
def schema (strict : Bool) : List (String × Decl) :=
  complexDecls strict
  ++ integerNames.map (fun n => (n, .text .integer))
  ++ stringNames.map (fun n => (n, .text .string))
  ++ illuminantNames.map (fun n => (n, .text .decimal))
  ++ resolutionNames.map (fun n => (n, .text (if strict then .decimal else .double)))
  ++ [ ("success", .text (.enum ["True", "False"])),
       ("vidFRng", .text (if strict then .integer else .string)),
       ("codeBlockWidth", .text (if strict then .integer else .double)),
       ("codeBlockHeight", .text (if strict then .integer else .double)),
       ("compressionRatio", .text .double) ]

/- Schema validity. -/
mutual
/-- An element is valid for its declaration. -/
inductive Conforms (strict : Bool) : Elem → Prop
  | text {n s x} : (schema strict).lookup n = some (.text s) → s.Holds x →
      Conforms strict (.mk n [] x [])
  | textWith {n s a vs v x} : (schema strict).lookup n = some (.textWith s a vs) → s.Holds x →
      v ∈ vs → Conforms strict (.mk n [(a, v)] x [])
  | content {n r cs} : (schema strict).lookup n = some (.content r) → Matches strict r cs →
      Conforms strict (.mk n [] .none cs)
/-- A list of elements is valid for a content model. -/
inductive Matches (strict : Bool) : Re → List Elem → Prop
  | empty : Matches strict .empty []
  | oneOf {ns e} : e.tag ∈ ns → Conforms strict e → Matches strict (.oneOf ns) [e]
  | any {e} : Matches strict .any [e]
  | seq {a b xs ys} : Matches strict a xs → Matches strict b ys → Matches strict (.seq a b) (xs ++ ys)
  | left {a b xs} : Matches strict a xs → Matches strict (.alt a b) xs
  | right {a b xs} : Matches strict b xs → Matches strict (.alt a b) xs
  | nil {a} : Matches strict (.star a) []
  | cons {a xs ys} : Matches strict a xs → Matches strict (.star a) ys →
      Matches strict (.star a) (xs ++ ys)
end

end Xsd

/-- What the reports need from `str()` of a float: the text is an `xs:double`, and an `xs:decimal` when
the value is smaller than `10^15` (Python switches to scientific notation from `10^16` on, a bound far enough
away for rounding not to matter; the values are rounded to at most four decimals, so they are never
small and non-zero). -/
structure FloatText (env : Env) : Prop where
  double : ∀ f, Xsd.IsDouble (env.floatStr f)
  decimal : ∀ f : PyFloat, f.num.natAbs < 10 ^ 15 * f.den.natAbs → Xsd.IsDecimal (env.floatStr f)

/-- A resolution `n/d * 10^e` pixels per metre below `10^15`. -/
def PlainResolution (n d : Nat) (e : Int) : Prop := n * 10 ^ e.toNat < 10 ^ 15 * (d * 10 ^ (-e).toNat)

/-- The number of components of a codestream, as declared by its SIZ segment. -/
def FewComponents (b : Bytes) : Prop := ∀ n, uint b 40 2 = some n → n < 257

/-- Restrictions under which the report on a valid image follows the schema as published: each rules out
one of the relaxations listed above. -/
structure PlainBox (t p : Bytes) : Prop where
  /-- the file does not end inside a box type whose first half is the code of a PLT or PPT marker -/
  type : t ≠ [0xff, 0x58] ∧ t ≠ [0xff, 0x61]
  /-- no empty lists -/
  bpcc : t = [0x62, 0x70, 0x63, 0x63] → p ≠ []
  cmap : t = [0x63, 0x6d, 0x61, 0x70] → 4 ≤ p.length
  ulst : t = [0x75, 0x6c, 0x73, 0x74] → uint p 0 2 ≠ some 0
  /-- no parameterised colour space -/
  colr : t = [0x63, 0x6f, 0x6c, 0x72] → uint p 0 1 ≠ some 5
  /-- no huge resolution -/
  resolution : t = [0x72, 0x65, 0x73, 0x63] ∨ t = [0x72, 0x65, 0x73, 0x64] →
    ∀ vn vd hn hd ve he, uint p 0 2 = some vn → uint p 2 2 = some vd → uint p 4 2 = some hn →
      uint p 6 2 = some hd → uint p 8 1 = some ve → uint p 9 1 = some he →
      PlainResolution vn vd (signedByte ve) ∧ PlainResolution hn hd (signedByte he)
  /-- less than 257 components, so that no progression order change can be too short for its
  segment -/
  jp2c : t = [0x6a, 0x70, 0x32, 0x63] → FewComponents p

end Jpy.Spec
