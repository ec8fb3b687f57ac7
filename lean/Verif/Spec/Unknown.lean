import Verif.Spec.Structure
import Verif.Spec.Boxes
/-!
# Specification: files that differ in boxes of unknown type

A box of unknown type may occur at any place after the first two boxes of a file, inside a JP2 header
after its first box, and anywhere inside a resolution or UUID info box (ISO/IEC 15444-1 I.8: readers
shall ignore them).
-/

namespace Jpy.Spec

/-- A box whose type is not known. (If the header is cut off the type has less than four bytes; two of
them can look like a marker.) -/
def Unknown (x : FoundBox) : Prop := x.type ∉ knownBoxTypes ∧ x.type ∉ knownMarkers

mutual
/-- `x'` is `x`, possibly with further unknown boxes inside. The start of the box in the file may
differ. -/
inductive MoreIn : FoundBox → FoundBox → Prop
  | same {s s' t p} : MoreIn ⟨s, t, p⟩ ⟨s', t, p⟩
  /-- a JP2 header: not before its first box, and not between its colour specification boxes, which
  have to be next to each other -/
  | header {s s' t p p' hs hs'} : t = ascii "jp2h" → Boxes p hs → Boxes p' hs' → More 1 hs hs' →
      (Together hs "colr" → Together hs' "colr") → MoreIn ⟨s, t, p⟩ ⟨s', t, p'⟩
  | super {s s' t p p' hs hs'} : t = ascii "res " ∨ t = ascii "uinf" → Boxes p hs → Boxes p' hs' →
      More 0 hs hs' → MoreIn ⟨s, t, p⟩ ⟨s', t, p'⟩
/-- `bs'` is `bs` with further unknown boxes, none of them before the first `k` boxes. -/
inductive More : Nat → List FoundBox → List FoundBox → Prop
  | nil {k} : More k [] []
  | keep {k x x' bs bs'} : MoreIn x x' → More (k - 1) bs bs' → More k (x :: bs) (x' :: bs')
  | add {u bs bs'} : Unknown u → More 0 bs bs' → More 0 bs (u :: bs')
end

/-- `b'` is the file `b` with further boxes of unknown type. -/
def MoreFile (b b' : Bytes) : Prop := ∃ bs bs', Boxes b bs ∧ Boxes b' bs' ∧ More 2 bs bs'

/-- The concatenation of `n` boxes of any type, each complete and with its own length. -/
inductive WholeBoxes : Nat → Bytes → Prop
  | nil : WholeBoxes 0 []
  | cons {t p e n es} : t.length = 4 → EncodesBox t p e → WholeBoxes n es → WholeBoxes (n + 1) (e ++ es)

mutual
/-- A reported box, and the same with further unknown boxes inside. -/
inductive MoreElem : Elem → Elem → Prop
  | same {e} : MoreElem e e
  | super {t a x cs cs' l} : t ∈ ["jp2HeaderBox", "resolutionBox", "uuidInfoBox"] → MoreElems cs cs' →
      MoreElem (.mk t a x cs l) (.mk t a x cs' l)
/-- The same for a list of reported boxes. -/
inductive MoreElems : List Elem → List Elem → Prop
  | nil : MoreElems [] []
  | keep {e e' es es'} : MoreElem e e' → MoreElems es es' → MoreElems (e :: es) (e' :: es')
  | add {u es es'} : u.tag = "unknownBox" → MoreElems es es' → MoreElems es (u :: es')
end

end Jpy.Spec
