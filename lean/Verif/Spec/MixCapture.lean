import Verif.Spec.MixValues
/-!
# Specification of the capture metadata in MIX output

MIX output copies a few properties from XMP (ISO 16684-1) that is embedded in the file: an XML box, or a UUID
box, that holds an `x:xmpmeta` element with an `rdf:RDF` element. In RDF a simple property is either a child
element of `rdf:Description` or an attribute of it.
-/

namespace Jpy.Spec

/-- `x:xmpmeta` -/
def xmpMeta : String := "{adobe:ns:meta/}xmpmeta"
/-- `rdf:RDF` -/
def rdfRDF : String := "{http://www.w3.org/1999/02/22-rdf-syntax-ns#}RDF"
/-- `rdf:Description` -/
def rdfDescription : String := "{http://www.w3.org/1999/02/22-rdf-syntax-ns#}Description"

/-- Of the `rdf:RDF` elements of XMP documents the first one has the children `rdf`, of which there are some. -/
def XmpIn (docs rdf : List Elem) : Prop :=
  rdf ≠ [] ∧ (elemsAt [xmpMeta, rdfRDF] docs).head?.map (·.children) = some rdf

/-- There is no XMP among the documents, or the first one is empty. -/
def NoXmpIn (docs : List Elem) : Prop :=
  ∀ e, (elemsAt [xmpMeta, rdfRDF] docs).head? = some e → e.children = []

/-- The XMP of a file or report, given the documents in its XML boxes and those in its UUID boxes: the latter count
only if there is no XMP in the former. -/
def XmpOf (inXml inUuid rdf : List Elem) : Prop := XmpIn inXml rdf ∨ (NoXmpIn inXml ∧ XmpIn inUuid rdf)

/-- Everything reported inside boxes of a kind. -/
def insideOf (box : String) (props : List Elem) : List Elem :=
  (props.filter fun e => e.tag == box).flatMap (·.children)

/-- The documents stored in those boxes of a file that are of a kind: `doc x` are the bytes of the document in box
`x`, if it is of that kind. -/
inductive StoredDocs (env : Env) (o : Options) (doc : FoundBox → Option Bytes) : List FoundBox → List Elem → Prop
  | nil : StoredDocs env o doc [] []
  | other {x bs ds} : doc x = none → StoredDocs env o doc bs ds → StoredDocs env o doc (x :: bs) ds
  | here {x bs ds b es} : doc x = some b → ShowsXml env o b es → StoredDocs env o doc bs ds →
      StoredDocs env o doc (x :: bs) (es ++ ds)

/-- The document in an XML box. -/
def xmlDoc (x : FoundBox) : Option Bytes := if x.type = ascii "xml " then some x.payload else none

/-- The document in a UUID box for XMP, which follows the UUID. -/
def xmpDoc (x : FoundBox) : Option Bytes :=
  if x.type = ascii "uuid" ∧ x.payload.take 16 = xmpUuid then some (x.payload.drop 16) else none

/-- The value of an XMP property, if it has one that is not empty. `read` tells how texts of elements are read. -/
inductive XmpValue (read : String → String) (rdf : List Elem) (name : String) : Option String → Prop
  /-- given by an element -/
  | element (s : String) : (textsAt [rdfDescription, name] rdf).head? = some (.str s) →
      XmpValue read rdf name (some (read s))
  /-- given by an element without text -/
  | emptyElement : (textsAt [rdfDescription, name] rdf).head? = some .none → XmpValue read rdf name none
  /-- given by an attribute of the first description -/
  | fromAttribute (d : Elem) (s : String) : elemsAt [rdfDescription, name] rdf = [] →
      (elemsAt [rdfDescription] rdf).head? = some d → d.attrs.lookup name = some s →
      XmpValue read rdf name (if s = "" then none else some s)
  /-- not given -/
  | absent (d : Elem) : elemsAt [rdfDescription, name] rdf = [] →
      (elemsAt [rdfDescription] rdf).head? = some d → d.attrs.lookup name = none → XmpValue read rdf name none

/-- A one-line text (a final line end apart) that names a tool and, after the last space, its version: digits
and dots. -/
structure NamesTool (s : String) (name version : List Char) : Prop where
  split : s.toList = name ++ ' ' :: version ∨ s.toList = name ++ ' ' :: version ++ ['\n']
  oneLine : '\n' ∉ name
  digits : ∀ c ∈ version, c.isDigit = true ∨ c = '.'

/-- Texts at a path below the capture metadata of a MIX element. -/
def captureTexts (p : List String) (m : List Elem) : List PyVal := textsAt ("mix:ImageCaptureMetadata" :: p) m

/-- A MIX element repeats a value, without white space around it, or is absent if there is no value. -/
def Repeats (me : MixEnv) (read : String → String) (m : List Elem) (p : List String) (rdf : List Elem)
    (name : String) : Prop :=
  ∀ v, XmpValue read rdf name v → captureTexts p m = v.toList.map fun s => .str (me.strip s)

/-- The capture metadata among the children `m` of the MIX element are those given by XMP. -/
structure CapturedFrom (me : MixEnv) (read : String → String) (rdf m : List Elem) : Prop where
  one : (elemsAt ["mix:ImageCaptureMetadata"] m).length = 1
  created : Repeats me read m ["mix:GeneralCaptureInformation", "mix:dateTimeCreated"] rdf
    "{http://ns.adobe.com/xap/1.0/}CreateDate"
  artist : Repeats me read m ["mix:GeneralCaptureInformation", "mix:imageProducer"] rdf
    "{http://ns.adobe.com/tiff/1.0/}Artist"
  make : Repeats me read m ["mix:ScannerCapture", "mix:scannerManufacturer"] rdf
    "{http://ns.adobe.com/tiff/1.0/}Make"
  model : Repeats me read m ["mix:ScannerCapture", "mix:ScannerModel", "mix:scannerModelName"] rdf
    "{http://ns.adobe.com/tiff/1.0/}Model"
  serial : Repeats me read m ["mix:ScannerCapture", "mix:ScannerModel", "mix:scannerModelSerialNo"] rdf
    "{http://ns.adobe.com/exif/1.0/aux/}SerialNumber"
  /-- software with a version -/
  software : ∀ s, XmpValue read rdf "{http://ns.adobe.com/xap/1.0/}CreatorTool" (some s) →
    ∀ name version, NamesTool s name version →
    captureTexts ["mix:ScannerCapture", "mix:ScanningSystemSoftware", "mix:scanningSoftwareName"] m =
      [.str (String.ofList name)] ∧
    captureTexts ["mix:ScannerCapture", "mix:ScanningSystemSoftware", "mix:scanningSoftwareVersionNo"] m =
      [.str (String.ofList version)]
  /-- software without a version -/
  softwareName : ∀ s, XmpValue read rdf "{http://ns.adobe.com/xap/1.0/}CreatorTool" (some s) →
    (∀ name version, ¬ NamesTool s name version) →
    captureTexts ["mix:ScannerCapture", "mix:ScanningSystemSoftware", "mix:scanningSoftwareName"] m = [.str s] ∧
    captureTexts ["mix:ScannerCapture", "mix:ScanningSystemSoftware", "mix:scanningSoftwareVersionNo"] m = []
  noSoftware : XmpValue read rdf "{http://ns.adobe.com/xap/1.0/}CreatorTool" none →
    captureTexts ["mix:ScannerCapture", "mix:ScanningSystemSoftware", "mix:scanningSoftwareName"] m = [] ∧
    captureTexts ["mix:ScannerCapture", "mix:ScanningSystemSoftware", "mix:scanningSoftwareVersionNo"] m = []

/-- The capture metadata among the children `m` of the MIX element agree with the documents in XML boxes and in UUID
boxes. -/
structure MixCapture (me : MixEnv) (read : String → String) (inXml inUuid m : List Elem) : Prop where
  absent : NoXmpIn inXml → NoXmpIn inUuid → elemsAt ["mix:ImageCaptureMetadata"] m = []
  present : ∀ rdf, XmpOf inXml inUuid rdf → CapturedFrom me read rdf m

end Jpy.Spec
