import Verif.Spec.Basic
import Verif.Model.CheckFile
/-!
# Specification vocabulary for reports

A report is the `file` element returned by `checkOneFile`. Its parts are found by tag.
-/

namespace Jpy.Spec

/-- The part of a report with a given tag (`statusInfo`, `isValid`, `tests`, ...). -/
def part (rep : Elem) (tag : String) : Option Elem := rep.children.find? (·.tag == tag)

/-- The printed verdict. -/
def verdict (rep : Elem) : Option PyVal := (part rep "isValid").map (·.text)

/-- The texts with a given tag in `statusInfo`. -/
def status (rep : Elem) (tag : String) : List PyVal :=
  match part rep "statusInfo" with
  | some s => (s.children.filter fun e => e.tag == tag).map (·.text)
  | none => []

/-- The children of a part; empty if the part is missing. -/
def contents (rep : Elem) (tag : String) : List Elem := ((part rep tag).map (·.children)).getD []

/-- `checkOneFile` reports the file as valid. -/
def ReportedValid (env : Env) (me : MixEnv) (fs : FS) (fuel : Nat) (o : Options) (mix : Nat)
    (path : PyStr) : Prop :=
  ∃ rep, checkOneFile env me fs fuel o mix path = .ok rep ∧ verdict rep = some (.str "True")

/-- The bytes the validator gets to see. -/
def bytesRead : FileRead → Bytes
  | .data b => b
  | _ => []

/-- Reading or analysing the contents of a file raises an exception. -/
inductive AnalysisRaises (env : Env) (fs : FS) (fuel : Nat) (o : Options) (path : PyStr) (e : Exn) : Prop
  | reading : fs.read path = .error e → AnalysisRaises env fs fuel o path e
  | analysing : (∀ e, fs.read path ≠ .error e) →
      validateRoot env o fuel (bytesRead (fs.read path)) = .raised e → AnalysisRaises env fs fuel o path e

/- Removal of the passed tests from a verbose tests tree: a passed test disappears, a failed test
stays, a container is kept with what remains of its children, unless nothing remains. -/
mutual
/-- What remains of one element. -/
def failedOnly : Elem → List Elem
  | .mk t a x cs l =>
    if x = .str "True" then []
    else if x = .str "False" then [.mk t a x cs l]
    else if failedOnlyL cs = [] then []
    else [.mk t a x (failedOnlyL cs) l]
/-- What remains of a list of elements. -/
def failedOnlyL : List Elem → List Elem
  | [] => []
  | e :: es => failedOnly e ++ failedOnlyL es
end

/- Boxes that may differ only in the contents of XML and UUID boxes, at the top level or inside
superboxes. -/
mutual
/-- Two boxes. -/
inductive SameButXml : Elem → Elem → Prop
  | same (e) : SameButXml e e
  | xml {t a x c1 c2 l} : t = "xmlBox" ∨ t = "uuidBox" → SameButXml (.mk t a x c1 l) (.mk t a x c2 l)
  | super {t a x c1 c2 l} : t = "jp2HeaderBox" ∨ t = "resolutionBox" ∨ t = "uuidInfoBox" →
      SameButXmlL c1 c2 → SameButXml (.mk t a x c1 l) (.mk t a x c2 l)
/-- Two lists of boxes, pairwise. -/
inductive SameButXmlL : List Elem → List Elem → Prop
  | nil : SameButXmlL [] []
  | cons {e1 e2 l1 l2} : SameButXml e1 e2 → SameButXmlL l1 l2 → SameButXmlL (e1 :: l1) (e2 :: l2)
end

/-- The properties of a tile-part without its packet length and packed header segments. -/
def tilePartWithoutPackets : Elem → Elem
  | .mk t a x cs l => .mk t a x (cs.filter fun e => e.tag ≠ "plt" && e.tag ≠ "ppt") l

/-- The properties of a codestream without its packet length and packed header segments. -/
def codestreamWithoutPackets (cs : List Elem) : List Elem :=
  (cs.filter fun e => e.tag ≠ "plm" && e.tag ≠ "ppm").map fun e =>
    if e.tag = "tileParts" then .mk e.tag e.attrs e.text (e.children.map tilePartWithoutPackets) else e

/- The properties of a box without the packet segments of any codestream box in it. -/
mutual
/-- One box. -/
def boxWithoutPackets : Elem → Elem
  | .mk t a x cs l =>
    if t = "contiguousCodestreamBox" then .mk t a x (codestreamWithoutPackets cs) l
    else if t = "jp2HeaderBox" ∨ t = "resolutionBox" ∨ t = "uuidInfoBox" then
      .mk t a x (boxesWithoutPackets cs) l
    else .mk t a x cs l
/-- A list of boxes. -/
def boxesWithoutPackets : List Elem → List Elem
  | [] => []
  | e :: es => boxWithoutPackets e :: boxesWithoutPackets es
end

/-- The properties of a file without packet segments: codestream formats have the codestream at the
root. -/
def withoutPackets (fmt : Format) (props : List Elem) : List Elem :=
  match fmt with
  | .j2c | .jhc => codestreamWithoutPackets props
  | _ => boxesWithoutPackets props

end Jpy.Spec
