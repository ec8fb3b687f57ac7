import Verif.Spec.Walk
import Verif.Spec.Boxes
import Verif.Spec.Report
/-!
# Specification: the warnings of a report

The only thing the tool warns about in the contents of a file is a box of unknown type.
-/

namespace Jpy.Spec

/-- The text of a box type in a message: UTF-8 without unprintable characters, nothing if it is not
UTF-8. -/
inductive TypeText (env : Env) : Bytes → String → Prop
  | text {t cs} : IsUtf8 t cs → TypeText env t (shown env cs)
  | binary {t} : (∀ cs, ¬ IsUtf8 t cs) → TypeText env t ""

/-- The superboxes and the names of their elements. -/
def superNames : List (Bytes × String) :=
  [ (ascii "jp2h", "jp2HeaderBox"), (ascii "res ", "resolutionBox"), (ascii "uinf", "uuidInfoBox") ]

/-- The warnings for boxes one after the other: one for every box of unknown type, also inside
superboxes, in the order of the file, and nothing else. A superbox without warnings is not mentioned. -/
inductive Warned (env : Env) : List FoundBox → List Elem → Prop
  | nil : Warned env [] []
  | unknown {s t p bs ws txt} : t ∉ knownBoxTypes → t ∉ knownMarkers → TypeText env t txt → Warned env bs ws →
      Warned env (⟨s, t, p⟩ :: bs)
        (.node "unknownBox" [.leaf "warning" (.str ("ignoring unknown box '" ++ txt ++ "'"))] :: ws)
  | super {s t name p hs inner bs ws} : (t, name) ∈ superNames → Boxes p hs → Warned env hs inner → Warned env bs ws →
      Warned env (⟨s, t, p⟩ :: bs) ((if inner = [] then [] else [.node name inner]) ++ ws)
  | other {s t p bs ws} : t ∈ knownBoxTypes ∨ t ∈ knownMarkers → t ∉ superNames.map (·.1) → Warned env bs ws →
      Warned env (⟨s, t, p⟩ :: bs) ws

end Jpy.Spec
