import Verif.Model.Stderr
import Verif.Spec.Warnings
import Verif.Spec.File
/-!
# Specification: what is printed on standard error
-/

namespace Jpy.Spec

/-- What is printed about an intellectual property box. -/
def iprMessage : String := "ignoring 'intellectualPropertyBox' (validator function not yet implemented)"

/-- The messages about boxes one after the other: one for every box of unknown type and one for every
intellectual property box, also inside superboxes, in the order of the file, and nothing else. -/
inductive Told (env : Env) : List FoundBox → List String → Prop
  | nil : Told env [] []
  | unknown {s t p bs ms txt} : t ∉ knownBoxTypes → t ∉ knownMarkers → TypeText env t txt → Told env bs ms →
      Told env (⟨s, t, p⟩ :: bs) (("ignoring unknown box '" ++ txt ++ "'") :: ms)
  | ipr {s p bs ms} : Told env bs ms → Told env (⟨s, ascii "jp2i", p⟩ :: bs) (iprMessage :: ms)
  | super {s t p hs inner bs ms} : t ∈ superboxTypes → Boxes p hs → Told env hs inner → Told env bs ms →
      Told env (⟨s, t, p⟩ :: bs) (inner ++ ms)
  | other {s t p bs ms} : t ∈ knownBoxTypes ∨ t ∈ knownMarkers → t ≠ ascii "jp2i" → t ∉ superboxTypes →
      Told env bs ms → Told env (⟨s, t, p⟩ :: bs) ms

/-- The texts of the warnings in a report, at any level. -/
def warningTexts (rep : Elem) : List PyVal :=
  ((Elem.iterL (contents rep "warnings")).filter (·.tag == "warning")).map (·.text)

/-- What is printed about a path that does not exist. -/
def absentMessage (p : PyStr) : String := p.toText ++ " does not exist"

end Jpy.Spec
