import Verif.Spec.Walk
import Verif.Spec.File
import Verif.Spec.Codestream
/-!
# What one box contributes to a report
-/

namespace Jpy.Spec

/-- What a box contributes to the report of the file around it: one element of the properties and possibly an
element of the tests and one of the warnings. -/
structure Share where
  props : Elem
  tests : List Elem
  warnings : List Elem

/-- The three lists consist of the contributions of the boxes, in the order of the boxes, where the contribution of a
box is a function `C` of its type and contents alone; they are followed by the properties `more`, and by tests and
warnings of the whole, which are not grouped by box: they have no children. -/
structure Collects (C : Bytes → Bytes → Option Share) (bs : List FoundBox) (more props tests warnings : List Elem) :
    Prop where
  shares : ∃ ss : List Share, ∃ own ownW : List Elem, (bs.map fun x => C x.type x.payload) = ss.map some ∧
    props = ss.map (·.props) ++ more ∧
    tests = ss.flatMap (·.tests) ++ own ∧ (∀ e ∈ own, e.children = []) ∧
    warnings = ss.flatMap (·.warnings) ++ ownW ∧ ∀ e ∈ ownW, e.children = []

/-- `ps` are the properties in the report `rep` of the codestream `b` of the file `f`: a codestream on its own, or the
contents of a codestream box; the report has one element for each box, in the order of the boxes (C03). -/
inductive CodestreamProps (fmt : Format) (rep : Elem) (f : Bytes) : Bytes → List Elem → Prop
  | bare : fmt = .j2c ∨ fmt = .jhc → CodestreamProps fmt rep f f (contents rep "properties")
  | box {bs : List FoundBox} {i : Nat} {x : FoundBox} {e : Elem} : fmt = .jp2 ∨ fmt = .jph → Boxes f bs →
      bs[i]? = some x → x.type = ascii "jp2c" → (contents rep "properties")[i]? = some e →
      CodestreamProps fmt rep f x.payload e.children

/-- `rep` is the report of a file whose analysis succeeds and whose boxes are `bs`. -/
def ReportOfBoxes (env : Env) (o : Options) (bs : List FoundBox) (rep : Elem) : Prop :=
  ∃ (me : MixEnv) (fs : FS) (fuel mix : Nat) (path : PyStr), checkOneFile env me fs fuel o mix path = .ok rep ∧
    status rep "success" = [.str "True"] ∧ Boxes (bytesRead (fs.read path)) bs

end Jpy.Spec
