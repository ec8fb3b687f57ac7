import Verif.Spec.Generate
/-!
# The size of a report

Counts the elements of a report.
-/

namespace Jpy.Spec

mutual
/-- The number of elements of a tree, with its root. -/
def elements : Elem → Nat
  | .mk _ _ _ c _ => elementsL c + 1
/-- The number of elements of several trees. -/
def elementsL : List Elem → Nat
  | [] => 0
  | e :: es => elements e + elementsL es
end

/-- A parsed XML document has at most one element for each byte. -/
def XmlSizes (env : Env) : Prop := ∀ b e, env.parseXml b = some e → elements e ≤ b.length

/-! ## Codestreams whose tile-parts share a header -/

/-- A SOT segment of tile 0 with the given length field, and a segment without contents after it. -/
def sharedStart (length : UInt8) : List (Bytes × Bytes) :=
  [(SOT, [0, 10, 0, 0, 0, 0, 0, length, 0, 0]), ([0xff, 0x65], [0, 2])]

/-- `k` starts of tile-parts of 16 bytes, a start of a tile-part up to the end, `m` comments. -/
def sharedSegs : Nat → Nat → List (Bytes × Bytes)
  | 0, m => sharedStart 0 ++ List.replicate m (COM, [0, 5, 0, 0, 0x41])
  | k + 1, m => sharedStart 16 ++ sharedSegs k m

/-- A codestream of one pixel with `k + 1` tile-parts that all have the last part of the codestream,
with `m` comments, as their header: only the last one is followed by a SOD marker, and the validator
looks for that marker without regard to the length of the tile-part. -/
def sharedHeader (k m : Nat) : Bytes :=
  SOC ++ SIZ ++ [0, 41, 0, 0, 0, 0, 0, 1, 0, 0, 0, 1, 0, 0, 0, 0, 0, 0, 0, 0, 0, 0, 0, 1, 0, 0, 0, 1, 0, 0, 0, 0, 0, 0, 0, 0,
    0, 1, 7, 1, 1] ++
    segBytes [(COD, [0, 12, 0, 0, 0, 1, 0, 5, 4, 4, 0, 1]), (QCD, [0, 4, 0x40, 0x48])] ++
    segBytes (sharedSegs k m) ++ SOD ++ EOC

end Jpy.Spec
