import Verif.Spec.Walk
/-!
# Specification: complete boxes
-/

namespace Jpy.Spec

/-- The box has a complete header, and its payload has the length declared there: a 32-bit length, a
64-bit length, or zero for a box that extends to the end of the data. -/
def CompleteAt (b : Bytes) (x : FoundBox) : Prop :=
  x.type.length = 4 ∧
  (uint b x.start 4 = some (8 + x.payload.length) ∨
   (uint b x.start 4 = some 1 ∧ uint b (x.start + 8) 8 = some (16 + x.payload.length)) ∨
   (uint b x.start 4 = some 0 ∧ x.start + 8 + x.payload.length = b.length))

/-- Every byte of the data belongs to a complete box. -/
def AllComplete (b : Bytes) : Prop := ∀ bs, Boxes b bs → ∀ x ∈ bs, CompleteAt b x

/-- The bytes of a box of this type and payload that is the last one and whose declared length is zero or
at least its actual length. -/
inductive LastBox (t p : Bytes) : Bytes → Prop
  | short {l} : l.length = 4 → be l = 0 ∨ 8 + p.length ≤ be l → LastBox t p (l ++ t ++ p)
  | long {one x} : one.length = 4 → be one = 1 → x.length = 8 → be x = 0 ∨ 16 + p.length ≤ be x →
      LastBox t p (one ++ t ++ x ++ p)

end Jpy.Spec
