import Verif.Model.ByteConv
/-! # Model of the element trees and of `jpylyzer/etpatch.py` -/

namespace Jpy

/-- An ElementTree element: tag, attributes, text, children and the character data between its end tag and the
next tag, which only elements of embedded XML have. No code reads the latter; it is written to the output. The
empty string stands for no such data (`tail` is `None`), for which `_serialize_xml` does the same. -/
inductive Elem where
  | mk (tag : String) (attrs : List (String × String)) (text : PyVal) (children : List Elem) (tail : String := "")

namespace Elem

/-- `elt.tag` -/
def tag : Elem → String | mk t _ _ _ _ => t
/-- `elt.attrib` -/
def attrs : Elem → List (String × String) | mk _ a _ _ _ => a
/-- `elt.text` -/
def text : Elem → PyVal | mk _ _ x _ _ => x
/-- `list(elt)` -/
def children : Elem → List Elem | mk _ _ _ c _ => c
/-- `elt.tail` -/
def tail : Elem → String | mk _ _ _ _ l => l

/-- An element without children: `appendChildTagWithText` (`etpatch.py:67-70`) appends one of these. -/
def leaf (tag : String) (v : PyVal) : Elem := mk tag [] v []

/-- A container element: `ET.Element(tag)` with the given children. -/
def node (tag : String) (cs : List Elem) : Elem := mk tag [] .none cs

@[simp] theorem tag_mk (t a x c l) : (mk t a x c l).tag = t := rfl
@[simp] theorem text_mk (t a x c l) : (mk t a x c l).text = x := rfl
@[simp] theorem children_mk (t a x c l) : (mk t a x c l).children = c := rfl
@[simp] theorem attrs_mk (t a x c l) : (mk t a x c l).attrs = a := rfl
@[simp] theorem tail_mk (t a x c l) : (mk t a x c l).tail = l := rfl
@[simp] theorem tail_leaf (t v) : (leaf t v).tail = "" := rfl
@[simp] theorem tail_node (t c) : (node t c).tail = "" := rfl
@[simp] theorem tag_leaf (t v) : (leaf t v).tag = t := rfl
@[simp] theorem text_leaf (t v) : (leaf t v).text = v := rfl
@[simp] theorem children_leaf (t v) : (leaf t v).children = [] := rfl
@[simp] theorem tag_node (t c) : (node t c).tag = t := rfl
@[simp] theorem text_node (t c) : (node t c).text = .none := rfl
@[simp] theorem children_node (t c) : (node t c).children = c := rfl

/- `Element.iter()`: the element and all its descendants in document order. -/
mutual
/-- `elt.iter()` -/
def iter : Elem → List Elem
  | mk t a x c l => mk t a x c l :: iterL c
/-- Concatenation of `iter()` over a list of elements. -/
def iterL : List Elem → List Elem
  | [] => []
  | e :: es => e.iter ++ iterL es
end

/-- Children matching a path of tags below a list of children: `findall('a/b')` (ElementPath, only
child steps occur in the code). -/
def findall (cs : List Elem) : List String → List Elem
  | [] => []
  | [t] => cs.filter (·.tag == t)
  | t :: ts => (cs.filter (·.tag == t)).flatMap fun e => findall e.children ts

/-- `find(path)`: first match. -/
def find (cs : List Elem) (path : List String) : Option Elem := (findall cs path).head?

/-- `findElementText` (`etpatch.py:44-53`): the text of the first match; `none` if there is none
(Python's `None`, which is also the text of an element without text). -/
def findElementText (cs : List Elem) (path : List String) : Option PyVal :=
  (find cs path).map (·.text)

/-- `findAllText` (`etpatch.py:55-65`). -/
def findAllText (cs : List Elem) (path : List String) : List PyVal := (findall cs path).map (·.text)

/-- `appendIfNotEmpty` (`etpatch.py:72-75`), on the list of children. -/
def appendIfNotEmpty (cs : List Elem) (e : Elem) : List Elem :=
  if e.children.length ≠ 0 then cs ++ [e] else cs

end Elem
end Jpy
