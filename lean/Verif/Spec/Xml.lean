/-!
# Reading XML

A reader for XML documents, independent of the model: one function consuming the document character by
character. It accepts a part of XML 1.0: an optional declaration, then one element; inside elements only
elements, character data and references to characters. It is stricter than the standard in that it
refuses comments, processing instructions, CDATA sections, white space around the equal sign of an
attribute, and the character `>` in character data. What it accepts is well-formed XML and what it
returns is what any conforming parser reports: line ends and attribute values are normalised (2.11, 3.3.3),
names and characters are checked (except inside the declaration), end tags must match and attributes of one element differ.
-/

namespace Jpy.Spec.Xml

/-- What is in a document. -/
inductive Xml where
  | text (s : List Char)
  | elem (name : List Char) (attrs : List (List Char × List Char)) (content : List Xml)

/-- White space (production 3). -/
def isSpace (c : Char) : Bool := c == ' ' || c == '\t' || c == '\n' || c == '\r'

/-- Allowed characters (production 2). Surrogates are not characters. -/
def isChar (c : Char) : Bool :=
  c == '\t' || c == '\n' || c == '\r' || (0x20 ≤ c.toNat && c.toNat ≤ 0xD7FF) ||
  (0xE000 ≤ c.toNat && c.toNat ≤ 0xFFFD) || (0x10000 ≤ c.toNat && c.toNat ≤ 0x10FFFF)

/-- Code points that may start a name (production 4). -/
def nameStartRanges : List (Nat × Nat) :=
  [ (0x3A, 0x3A), (0x41, 0x5A), (0x5F, 0x5F), (0x61, 0x7A), (0xC0, 0xD6), (0xD8, 0xF6), (0xF8, 0x2FF),
    (0x370, 0x37D), (0x37F, 0x1FFF), (0x200C, 0x200D), (0x2070, 0x218F), (0x2C00, 0x2FEF),
    (0x3001, 0xD7FF), (0xF900, 0xFDCF), (0xFDF0, 0xFFFD), (0x10000, 0xEFFFF) ]

/-- Further code points allowed in a name (production 4a). -/
def nameMoreRanges : List (Nat × Nat) :=
  [ (0x2D, 0x2E), (0x30, 0x39), (0xB7, 0xB7), (0x300, 0x36F), (0x203F, 0x2040) ]

/-- Is the character in one of the ranges? -/
def inRanges (rs : List (Nat × Nat)) (c : Char) : Bool :=
  rs.any fun r => r.1 ≤ c.toNat && c.toNat ≤ r.2

def isNameStart (c : Char) : Bool := inRanges nameStartRanges c
def isNameChar (c : Char) : Bool := inRanges nameStartRanges c || inRanges nameMoreRanges c

/-- Names (production 5). -/
def isName : List Char → Bool
  | [] => false
  | c :: cs => isNameStart c && cs.all isNameChar

/-- Value of a decimal number. -/
def decimal (cs : List Char) : Option Nat :=
  if cs ≠ [] ∧ cs.all Char.isDigit then some (cs.foldl (fun n c => 10 * n + (c.toNat - 48)) 0) else none

/-- The character a reference between `&` and `;` stands for (predefined entities 4.6, decimal character
references 4.1). -/
def refChar (r : List Char) : Option Char :=
  if r = "amp".toList then some '&' else if r = "lt".toList then some '<'
  else if r = "gt".toList then some '>' else if r = "quot".toList then some '"'
  else if r = "apos".toList then some '\''
  else match r with
    | '#' :: ds => do
      let n ← decimal ds
      if isChar (Char.ofNat n) then some (Char.ofNat n) else none
    | _ => none

/-- Where the reader is. Partial names, values and references are kept in reverse. -/
inductive Mode where
  /-- in character data -/
  | content
  /-- after `&` in character data -/
  | ref (acc : List Char)
  /-- after `<` -/
  | lt
  /-- in the name of a start tag -/
  | name (acc : List Char)
  /-- in a start tag, after white space -/
  | tag (n : List Char) (as : List (List Char × List Char))
  /-- in the name of an attribute -/
  | attr (n : List Char) (as : List (List Char × List Char)) (acc : List Char)
  /-- after the equal sign -/
  | equal (n : List Char) (as : List (List Char × List Char)) (a : List Char)
  /-- in an attribute value in quotes `q` -/
  | value (n : List Char) (as : List (List Char × List Char)) (a : List Char) (q : Char)
      (acc : List Char)
  /-- after `&` in an attribute value -/
  | valueRef (n : List Char) (as : List (List Char × List Char)) (a : List Char) (q : Char)
      (acc racc : List Char)
  /-- in a start tag, after an attribute value -/
  | next (n : List Char) (as : List (List Char × List Char))
  /-- after the slash of an empty-element tag -/
  | slash (n : List Char) (as : List (List Char × List Char))
  /-- in an end tag -/
  | close (acc : List Char)
  /-- after white space in an end tag -/
  | closeSpace (n : List Char)

/-- The state of the reader: where it is, the character data since the last tag (reversed), the content of
the innermost open element so far (reversed), and the open elements, innermost first, each with the content
of the surrounding element before it. -/
structure State where
  mode : Mode
  text : List Char
  content : List Xml
  stack : List (List Char × List (List Char × List Char) × List Xml)

/-- The content so far including the character data since the last tag. -/
def withText (text : List Char) (content : List Xml) : List Xml :=
  if text = [] then content else .text text.reverse :: content

/-- End of a start tag. -/
def openElem (s : State) (n : List Char) (as : List (List Char × List Char)) : State :=
  { mode := .content, text := [], content := [], stack := (n, as, s.content) :: s.stack }

/-- End of an end tag: it must match the innermost open element. -/
def closeElem (s : State) (n : List Char) : Option State :=
  match s.stack with
  | (m, as, outer) :: rest =>
    if m = n then
      some { mode := .content, text := [], content := .elem m as s.content.reverse :: outer, stack := rest }
    else none
  | [] => none

/-- One character. -/
def step (s : State) (c : Char) : Option State :=
  match s.mode with
  | .content =>
    if c = '<' then some { s with mode := .lt, text := [], content := withText s.text s.content }
    else if c = '&' ∧ s.stack ≠ [] then some { s with mode := .ref [] }
    else if c ≠ '&' ∧ c ≠ '>' ∧ isChar c then some { s with text := c :: s.text }
    else none
  | .ref acc =>
    if c = ';' then (refChar acc.reverse).map fun x => { s with mode := .content, text := x :: s.text }
    else some { s with mode := .ref (c :: acc) }
  | .lt =>
    if c = '/' then some { s with mode := .close [] }
    else if isNameStart c then some { s with mode := .name [c] }
    else none
  | .name acc =>
    if isNameChar c then some { s with mode := .name (c :: acc) }
    else if isSpace c then some { s with mode := .tag acc.reverse [] }
    else if c = '>' then some (openElem s acc.reverse [])
    else if c = '/' then some { s with mode := .slash acc.reverse [] }
    else none
  | .tag n as =>
    if isSpace c then some s
    else if c = '>' then some (openElem s n as)
    else if c = '/' then some { s with mode := .slash n as }
    else if isNameStart c then some { s with mode := .attr n as [c] }
    else none
  | .attr n as acc =>
    if isNameChar c then some { s with mode := .attr n as (c :: acc) }
    else if c = '=' then some { s with mode := .equal n as acc.reverse }
    else none
  | .equal n as a =>
    if c = '"' ∨ c = '\'' then some { s with mode := .value n as a c [] } else none
  | .value n as a q acc =>
    if c = q then
      if a ∈ as.map (·.1) then none else some { s with mode := .next n (as ++ [(a, acc.reverse)]) }
    else if c = '&' then some { s with mode := .valueRef n as a q acc [] }
    else if c = '<' then none
    else if isSpace c then some { s with mode := .value n as a q (' ' :: acc) }
    else if isChar c then some { s with mode := .value n as a q (c :: acc) }
    else none
  | .valueRef n as a q acc racc =>
    if c = ';' then (refChar racc.reverse).map fun x => { s with mode := .value n as a q (x :: acc) }
    else some { s with mode := .valueRef n as a q acc (c :: racc) }
  | .next n as =>
    if isSpace c then some { s with mode := .tag n as }
    else if c = '>' then some (openElem s n as)
    else if c = '/' then some { s with mode := .slash n as }
    else none
  | .slash n as =>
    if c = '>' then some { s with mode := .content, text := [], content := .elem n as [] :: s.content } else none
  | .close acc =>
    if isNameChar c then some { s with mode := .close (c :: acc) }
    else if isSpace c then some { s with mode := .closeSpace acc.reverse }
    else if c = '>' then closeElem s acc.reverse
    else none
  | .closeSpace n =>
    if isSpace c then some s else if c = '>' then closeElem s n else none

/-- All characters in turn. -/
def run : State → List Char → Option State
  | s, [] => some s
  | s, c :: cs => match step s c with
    | some s' => run s' cs
    | none => none

/-- Line ends (2.11): a carriage return, alone or followed by a line feed, is read as a line feed. -/
def lineEnds : List Char → List Char
  | [] => []
  | '\r' :: '\n' :: cs => '\n' :: lineEnds cs
  | '\r' :: cs => '\n' :: lineEnds cs
  | c :: cs => c :: lineEnds cs

/-- What follows the first `?>`. -/
def afterDecl : List Char → Option (List Char)
  | '?' :: '>' :: cs => some cs
  | _ :: cs => afterDecl cs
  | [] => none

/-- The document without its declaration (production 23), if it has one. -/
def withoutDecl (s : List Char) : Option (List Char) :=
  if "<?xml ".toList.isPrefixOf s then afterDecl s else some s

/-- Is this character data outside the root element? Only white space is allowed there. -/
def isBlank : Xml → Bool
  | .text s => s.all isSpace
  | .elem .. => false

/-- The root element of a document, `none` when the document is refused. -/
def read (doc : List Char) : Option Xml := do
  let body ← withoutDecl (lineEnds doc)
  let s ← run { mode := .content, text := [], content := [], stack := [] } body
  match s.mode, s.stack, (withText s.text s.content).reverse.filter fun x => !isBlank x with
  | .content, [], [.elem n as c] => some (.elem n as c)
  | _, _, _ => none

/-- Text without white space at either end. -/
def trim (s : List Char) : List Char :=
  ((s.dropWhile isSpace).reverse.dropWhile isSpace).reverse

/-- Is this an element? -/
def isElem : Xml → Bool
  | .elem .. => true
  | .text _ => false

/- The document without layout: in an element that contains elements, white space around character data is
removed; the text of an element that contains no element is kept as it is. -/
mutual
def layoutFree : Xml → Xml
  | .text s => .text s
  | .elem n as c => .elem n as (if c.any isElem then layoutFreeL c else c)
def layoutFreeL : List Xml → List Xml
  | [] => []
  | .text s :: xs => if trim s = [] then layoutFreeL xs else .text (trim s) :: layoutFreeL xs
  | .elem n as c :: xs => layoutFree (.elem n as c) :: layoutFreeL xs
end

/-! ## Namespaces

Namespaces in XML 1.0: qualified names become pairs of a namespace name and a local name, written
`{namespace}local`, and declarations are not attributes of the result. -/

/-- Split at the first colon: text before and after. -/
def splitColon : List Char → Option (List Char × List Char)
  | [] => none
  | c :: cs => if c = ':' then some ([], cs) else (splitColon cs).map fun (p, l) => (c :: p, l)

/-- Names without a colon. -/
def isNCName (s : List Char) : Bool := isName s && !s.contains ':'

/-- The namespace a declaration with this attribute name is for: a prefix, or nothing for the default
namespace. -/
def declares (k : List Char) : Option (List Char) :=
  if k = "xmlns".toList then some []
  else match splitColon k with
    | some (p, l) => if p = "xmlns".toList then some l else none
    | none => none

/-- The declarations of a start tag. -/
def declared (as : List (List Char × List Char)) : List (List Char × List Char) :=
  as.filterMap fun a => (declares a.1).map fun p => (p, a.2)

/-- A name in a namespace. -/
def clark (uri l : List Char) : List Char := '{' :: uri ++ '}' :: l

/-- The namespace bound to the prefix `xml`. -/
def xmlSpace : List Char := "http://www.w3.org/XML/1998/namespace".toList

/-- A prefixed name. The prefix must be declared. -/
def prefixed (scope : List (List Char × List Char)) (p l : List Char) : Option (List Char) :=
  if isNCName p && isNCName l then
    if p = "xml".toList then some (clark xmlSpace l)
    else match scope.lookup p with
      | some (c :: u) => some (clark (c :: u) l)
      | _ => none
  else none

/-- The name of an element: without prefix it is in the default namespace, if there is one. -/
def elemName (scope : List (List Char × List Char)) (n : List Char) : Option (List Char) :=
  match splitColon n with
  | none => match scope.lookup [] with
    | some (c :: u) => some (clark (c :: u) n)
    | _ => some n
  | some (p, l) => prefixed scope p l

/-- The name of an attribute: without prefix it is in no namespace. -/
def attrName (scope : List (List Char × List Char)) (n : List Char) : Option (List Char) :=
  match splitColon n with
  | none => some n
  | some (p, l) => prefixed scope p l

/-- The attributes that are not declarations. They must have different names. -/
def resolveAttrs (scope : List (List Char × List Char)) :
    List (List Char × List Char) → Option (List (List Char × List Char))
  | [] => some []
  | (k, v) :: as =>
    if (declares k).isSome then resolveAttrs scope as
    else do
      let n ← attrName scope k
      let r ← resolveAttrs scope as
      if n ∈ r.map (·.1) then none else some ((n, v) :: r)

/- The document with names in their namespaces, `none` when it is not namespace-well-formed. -/
mutual
def resolve (scope : List (List Char × List Char)) : Xml → Option Xml
  | .text s => some (.text s)
  | .elem n as c => do
    let n' ← elemName (declared as ++ scope) n
    let as' ← resolveAttrs (declared as ++ scope) as
    let c' ← resolveL (declared as ++ scope) c
    some (.elem n' as' c')
def resolveL (scope : List (List Char × List Char)) : List Xml → Option (List Xml)
  | [] => some []
  | x :: xs => do
    let x' ← resolve scope x
    let xs' ← resolveL scope xs
    some (x' :: xs')
end

/-- What a namespace-aware parser returns for a document. -/
def parse (doc : List Char) : Option Xml := (read doc).bind (resolve [])

end Jpy.Spec.Xml
