import Verif.Model.CheckFile
/-!
# The characters of the output document

`writeElement` and the fixed parts of `checkFiles` (`jpylyzer.py:635-707`), with the two library
serialisers they call: `xml.etree.ElementTree.tostring(e, 'unicode', 'xml')` and
`xml.dom.minidom.parseString(s).toprettyxml('    ')`, both as in CPython 3.11; and the UTF-8 writer around
standard output.
-/

namespace Jpy

/-- `ElementTree._escape_cdata`: the successive replacements never touch each other's results except
that `&` is replaced first, so they act on each character. -/
def escText (s : List Char) : List Char := s.flatMap fun c =>
  if c = '&' then "&amp;".toList else if c = '<' then "&lt;".toList
  else if c = '>' then "&gt;".toList else [c]

/-- `ElementTree._escape_attrib`. -/
def escAttr (s : List Char) : List Char := s.flatMap fun c =>
  if c = '&' then "&amp;".toList else if c = '<' then "&lt;".toList
  else if c = '>' then "&gt;".toList else if c = '"' then "&quot;".toList
  else if c = '\r' then "&#13;".toList else if c = '\n' then "&#10;".toList
  else if c = '\t' then "&#09;".toList else [c]

/-- `minidom._write_data`, for text and for attribute values. -/
def escData (s : List Char) : List Char := s.flatMap fun c =>
  if c = '&' then "&amp;".toList else if c = '<' then "&lt;".toList
  else if c = '"' then "&quot;".toList else if c = '>' then "&gt;".toList else [c]

/-- `ElementTree._namespace_map`. -/
def wellKnownSpaces : List (String × String) :=
  [ ("http://www.w3.org/XML/1998/namespace", "xml"),
    ("http://www.w3.org/1999/xhtml", "html"),
    ("http://www.w3.org/1999/02/22-rdf-syntax-ns#", "rdf"),
    ("http://schemas.xmlsoap.org/wsdl/", "wsdl"),
    ("http://www.w3.org/2001/XMLSchema", "xs"),
    ("http://www.w3.org/2001/XMLSchema-instance", "xsi"),
    ("http://purl.org/dc/elements/1.1/", "dc") ]

/-- Split at the last occurrence of a character: text before and after. -/
def splitLast (x : Char) : List Char → Option (List Char × List Char)
  | [] => none
  | c :: cs =>
    match splitLast x cs with
    | some (p, s) => some (c :: p, s)
    | none => if c = x then some ([], cs) else none

/-- `uri, tag = qname[1:].rsplit("}", 1)` for a name starting with a brace, `none` for other names.
Simplification: a name with an opening and no closing brace, which no XML parser gives, is taken as it
is instead of raising. -/
def splitName (t : String) : Option (String × String) :=
  match t.toList with
  | '{' :: r => (splitLast '}' r).map fun (u, l) => (String.ofList u, String.ofList l)
  | _ => none

/-- The dictionaries `qnames` and `namespaces` of `ElementTree._namespaces`: names with the forms they
are written in, namespaces with their prefixes. -/
structure Names where
  qnames : List (String × String) := []
  spaces : List (String × String) := []

/-- `add_qname` of `ElementTree._namespaces`, without default namespace. -/
def Names.add (n : Names) (t : String) : Names :=
  if (n.qnames.lookup t).isSome then n
  else
    match splitName t with
    | none => { n with qnames := n.qnames ++ [(t, t)] }
    | some (uri, l) =>
      match n.spaces.lookup uri with
      | some p => { n with qnames := n.qnames ++ [(t, p ++ ":" ++ l)] }
      | none =>
        let p := (wellKnownSpaces.lookup uri).getD ("ns" ++ toString n.spaces.length)
        { qnames := n.qnames ++ [(t, p ++ ":" ++ l)]
          spaces := if p = "xml" then n.spaces else n.spaces ++ [(uri, p)] }

/-- `ElementTree._namespaces`: all tags and attribute names in document order. -/
def namesOf (e : Elem) : Names :=
  (e.iter.flatMap fun x => x.tag :: x.attrs.map (·.1)).foldl Names.add {}

/-- `qnames[t]`. -/
def Names.qname (n : Names) (t : String) : List Char := ((n.qnames.lookup t).getD t).toList

/-- The namespace declarations written on the outermost element, sorted by prefix: attribute names and
values. -/
def Names.decls (n : Names) : List (List Char × List Char) :=
  (n.spaces.mergeSort fun a b => decide (a.2 ≤ b.2)).map fun (uri, p) =>
    ("xmlns:".toList ++ p.toList, uri.toList)

/-- Attributes as written: a space, the name and the escaped value in double quotes. -/
def attrText (esc : List Char → List Char) (as : List (List Char × List Char)) : List Char :=
  as.flatMap fun (k, v) => ' ' :: k ++ "=\"".toList ++ esc v ++ ['"']

/-- The attributes of an element with the names they are written with. -/
def attrsOf (q : String → List Char) (as : List (String × String)) : List (List Char × List Char) :=
  as.map fun (k, v) => (q k, v.toList)

/-- The text of an element that is about to be written. `None` and the empty string are not written;
other values raise `TypeError`, see `writeElement`. -/
def textOf : PyVal → List Char
  | .str s => s.toList
  | _ => []

/- `ElementTree._serialize_xml`: an element and the text after it. `decls` are the namespace declarations, none
below the outermost element. -/
mutual
/-- One element. -/
def etText (q : String → List Char) (decls : List (List Char × List Char)) : Elem → List Char
  | .mk t a x c l =>
    '<' :: q t ++ attrText escAttr (decls ++ attrsOf q a) ++
      (if textOf x = [] ∧ c.isEmpty then " />".toList
       else '>' :: escText (textOf x) ++ etTextL q c ++ "</".toList ++ q t ++ ['>']) ++ escText l.toList
/-- Its children. -/
def etTextL (q : String → List Char) : List Elem → List Char
  | [] => []
  | e :: es => etText q [] e ++ etTextL q es
end

/-- Line ends as an XML parser passes them on: a carriage return, alone or followed by a line feed,
becomes a line feed. -/
def eol : List Char → List Char
  | [] => []
  | '\r' :: '\n' :: cs => '\n' :: eol cs
  | '\r' :: cs => '\n' :: eol cs
  | c :: cs => c :: eol cs

/- `minidom.Element.writexml` with `addindent` four spaces and `newl` a line feed, on the document that
`minidom.parseString` builds from the output of `etText`: the same elements and attributes, and one text
node for each text that is not empty. A text node that is not the only node of its element is written on a line
of its own (`minidom.Text.writexml`), so after each element follows the text between it and the next tag, if there
is any. The outermost element, of which `minidom.parseString` would reject such a text, has none. -/
mutual
/-- One element at an indentation, and the text after it. -/
def prettyText (q : String → List Char) (decls : List (List Char × List Char)) (indent : List Char) :
    Elem → List Char
  | .mk t a x c l =>
    indent ++ '<' :: q t ++ attrText escData (decls ++ attrsOf q a) ++
      (match eol (textOf x), c with
       | [], [] => "/>\n".toList
       | d :: ds, [] => '>' :: escData (d :: ds) ++ "</".toList ++ q t ++ ">\n".toList
       | ds, c => ">\n".toList
           ++ (if ds = [] then [] else escData (indent ++ "    ".toList ++ ds ++ "\n".toList))
           ++ prettyTextL q (indent ++ "    ".toList) c ++ indent ++ "</".toList ++ q t
           ++ ">\n".toList) ++
      (if eol l.toList = [] then [] else escData (indent ++ eol l.toList ++ "\n".toList))
/-- Its children. -/
def prettyTextL (q : String → List Char) (indent : List Char) : List Elem → List Char
  | [] => []
  | e :: es => prettyText q [] indent e ++ prettyTextL q indent es
end

/-- `s.split("\n")`, `del [0]`, `"\n".join(..)`: everything after the first line. -/
def dropLine (s : List Char) : List Char := (s.dropWhile (· ≠ '\n')).drop 1

/-- The characters `writeElement` writes when it succeeds (`jpylyzer.py:635-656`). -/
def elementText (nopretty : Bool) (e : Elem) : List Char :=
  let n := namesOf e
  if nopretty then etText n.qname n.decls e
  else dropLine ("<?xml version=\"1.0\" ?>\n".toList ++ prettyText n.qname n.decls [] e)

/-- `NS_STRING_2` (`jpylyzer.py:69`). -/
def nsString : String := "http://openpreservation.org/ns/jpylyzer/v2/"
/-- `XSI_NS_STRING` (`jpylyzer.py:70`). -/
def xsiString : String := "http://www.w3.org/2001/XMLSchema-instance"
/-- `LOC_SCHEMA_STRING_2` (`jpylyzer.py:71-72`). -/
def locSchemaString : String :=
  "http://openpreservation.org/ns/jpylyzer/v2/ http://jpylyzer.openpreservation.org/jpylyzer-v-2-2.xsd"

/-- The characters of a part of the output (`jpylyzer.py:677-682, 689, 704, 707`). -/
def chunkText (nopretty : Bool) : Chunk → List Char
  | .head => ("<?xml version='1.0' encoding='UTF-8'?>\n" ++ "<jpylyzer xmlns=\"" ++ nsString ++ "\" "
      ++ "xmlns:xsi=\"" ++ xsiString ++ "\" " ++ "xsi:schemaLocation=\"" ++ locSchemaString
      ++ "\">\n").toList
  | .elem e => elementText nopretty e
  | .tail => "</jpylyzer>\n".toList

/-- All characters written to standard output. -/
def outputText (nopretty : Bool) (out : List Chunk) : List Char := out.flatMap (chunkText nopretty)

/-- All bytes written to standard output: `out` is `codecs.getwriter(config.UTF8_ENCODING)(sys.stdout.buffer)`
(`jpylyzer.py:671`, `config.py:26`), which encodes each text it is given. A `Char` is never a surrogate, so the
encoder does not fail. -/
def outputBytes (nopretty : Bool) (out : List Chunk) : Bytes :=
  out.flatMap fun c => (chunkText nopretty c).flatMap fun ch => utf8EncodeNat ch.toNat

end Jpy
