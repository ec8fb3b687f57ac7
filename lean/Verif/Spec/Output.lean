import Verif.Model.CheckFile
import Verif.Spec.Xml
import Verif.Spec.Boxes
/-!
# The report as an XML document

What a reader of the output must find for an element of the report.
-/

namespace Jpy.Spec.Xml

/-- The text of an element as content: nothing for no text or the empty text. -/
def textNode (f : List Char → List Char) : PyVal → List Xml
  | .str s => if s.toList = [] then [] else [.text (f s.toList)]
  | _ => []

/- The document for an element of the report. `name` gives the names as they are written, `f` and `g` the
normalisation of text and attribute values, `decls` the namespace declarations on the outermost element. -/
mutual
/-- One element, without the text after it. -/
def docOf (name : String → List Char) (f g : List Char → List Char) (decls : List (List Char × List Char)) :
    Elem → Xml
  | .mk t a x c _ => .elem (name t) (decls ++ a.map fun (k, v) => (name k, g v.toList))
      (textNode f x ++ docsOf name f g c)
/-- Its children, each with the text after it. -/
def docsOf (name : String → List Char) (f g : List Char → List Char) : List Elem → List Xml
  | [] => []
  | e :: es => docOf name f g [] e :: textNode f (.str e.tail) ++ docsOf name f g es
end

/-- An element that XML can express: legal and different names, legal characters. -/
structure Expressible (name : String → List Char) (e : Elem) : Prop where
  tag : isName (name e.tag) = true
  attrs : ∀ a ∈ e.attrs, isName (name a.1) = true ∧ a.2.toList.all isChar = true
  distinct : (e.attrs.map fun a => name a.1).Nodup
  text : ∀ s, e.text = .str s → s.toList.all isChar = true
  tail : e.tail.toList.all isChar = true

/-! ## Names in namespaces -/

/-- The namespace of the report. -/
def reportSpace : List Char := "http://openpreservation.org/ns/jpylyzer/v2/".toList
/-- The namespace of the schema location. -/
def xsiSpace : List Char := "http://www.w3.org/2001/XMLSchema-instance".toList

/-- The name of an element of the report: names taken from embedded XML keep their namespace, names with a
prefix are those of the MIX extension, all others are names of the report. Unqualified names of embedded XML
are among the latter. -/
def nameOf (mix : List Char) (t : List Char) : List Char :=
  match t with
  | '{' :: _ => t
  | _ => match splitColon t with
    | some (_, l) => clark mix l
    | none => clark reportSpace t

/-- The name of an attribute: the only prefix is that of the schema location of the MIX extension. -/
def attrNameOf (t : List Char) : List Char :=
  match t with
  | '{' :: _ => t
  | _ => match splitColon t with
    | some (_, l) => clark xsiSpace l
    | none => t

/- An element of the report as a namespace-aware parser returns it, `f` and `g` being the normalisation of
text and attribute values. -/
mutual
/-- One element, without the text after it. -/
def reported (mix : List Char) (f g : List Char → List Char) : Elem → Xml
  | .mk t a x c _ => .elem (nameOf mix t.toList)
      ((a.filter fun k => (declares k.1.toList).isNone).map fun k => (attrNameOf k.1.toList, g k.2.toList))
      (textNode f x ++ reportedL mix f g c)
/-- Its children, each with the text after it. -/
def reportedL (mix : List Char) (f g : List Char → List Char) : List Elem → List Xml
  | [] => []
  | e :: es => reported mix f g e :: textNode f (.str e.tail) ++ reportedL mix f g es
end

/-- The namespace of the MIX extension: version 1.0 or 2.0. -/
def mixSpace (version : Nat) : String :=
  if version = 1 then "http://www.loc.gov/mix/v10" else "http://www.loc.gov/mix/v20"

/-- White space in attribute values (XML 1.0, 3.3.3): each becomes a space. -/
def spaced (s : List Char) : List Char := s.map fun c => if isSpace c then ' ' else c

/-- The whole document: the root element with the schema location and, after some layout, the given
elements. -/
def document (layout : List Xml) (mix : List Char) (f g : List Char → List Char) (es : List Elem) : Xml :=
  .elem (clark reportSpace "jpylyzer".toList)
    [(clark xsiSpace "schemaLocation".toList,
      ("http://openpreservation.org/ns/jpylyzer/v2/ " ++
        "http://jpylyzer.openpreservation.org/jpylyzer-v-2-2.xsd").toList)]
    (layout ++ reportedL mix f g es)

/-- Names as an XML parser returns them: a name without colon, or such a name with a namespace. -/
def ParsedName (t : String) : Prop :=
  isNCName t.toList = true ∨ ∃ u l, t.toList = clark u l ∧ u ≠ [] ∧ isNCName l = true ∧
    ∀ c ∈ u, isChar c = true ∧ (isSpace c = true → c = ' ')

/-- An element tree as an XML parser returns it: names as above, attributes with different names, no
attribute `xmlns`, attribute values and text between elements of legal characters. Namespace names with tabs or line ends, which only come from character references, are
excluded. -/
def FromXml (e : Elem) : Prop :=
  ∀ x ∈ e.iter, ParsedName x.tag ∧ (x.attrs.map (·.1)).Nodup ∧
    (∀ a ∈ x.attrs, ParsedName a.1 ∧ a.1 ≠ "xmlns" ∧ a.2.toList.all isChar = true) ∧
    x.tail.toList.all isChar = true

/-- All characters of the texts and attributes are characters of XML. -/
def LegalText (e : Elem) : Prop :=
  ∀ x ∈ e.iter, (∀ s, x.text = .str s → s.toList.all isChar = true) ∧
    (∀ a ∈ x.attrs, a.2.toList.all isChar = true) ∧ x.tail.toList.all isChar = true

/-! ## Assumptions -/

/-- What is assumed of the XML parser: the trees it returns have names of XML. -/
def ParsesXml (env : Env) : Prop := ∀ b e, env.parseXml b = some e → FromXml e

/-- A string of characters of XML. -/
def LegalStr (s : String) : Prop := s.toList.all isChar = true

/-- What is assumed of the libraries: the characters dropped from printed texts (general category C) include all
that are not characters of XML, and numbers are printed with legal characters. -/
structure LegalEnv (env : Env) : Prop where
  dropped : ∀ c, isChar c = false → env.catC c = true
  floats : ∀ f, LegalStr (env.floatStr f)

/-- What is assumed of `strip`: it adds no characters. -/
def StripsOnly (me : MixEnv) : Prop := ∀ s, LegalStr s → LegalStr (me.strip s)

/-- What is assumed of the file: its name, its path and its date have characters of XML only. -/
structure LegalFile (fs : FS) (path : PyStr) : Prop where
  name : LegalStr (PyStr.toText (stripSurrogatePairs (fs.basename path)))
  full : LegalStr (PyStr.toText (stripSurrogatePairs (fs.abspath path)))
  date : ∀ s, fs.modified path = .ok s → LegalStr s

/-! ## What a reader of the document looks up -/

/-- The child elements with a name of the report. -/
def childrenNamed (t : String) : Xml → List Xml
  | .text _ => []
  | .elem _ _ c => c.filter fun x => match x with
    | .elem n _ _ => n == clark reportSpace t.toList
    | .text _ => false

/-- All character data directly inside an element. -/
def dataOf : Xml → List Char
  | .text _ => []
  | .elem _ _ c => c.flatMap fun x => match x with
    | .text s => s
    | .elem .. => []

/-- The verdicts in a document: for every `file` element the text of its `isValid` elements. -/
def verdicts (x : Xml) : List (List (List Char)) :=
  (childrenNamed "file" x).map fun f => (childrenNamed "isValid" f).map dataOf

/-- Read as UTF-8, which is the encoding that the document declares, the bytes are the document `x`. -/
def ReadAs (b : Bytes) (x : Xml) : Prop := ∃ cs, IsUtf8 b cs ∧ parse cs = some x

end Jpy.Spec.Xml
