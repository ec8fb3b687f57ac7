import Verif.Spec.Generate
import Verif.Spec.Codestream
/-!
# Specification: codestreams that differ in their main header
-/

namespace Jpy.Spec

/-- A marker segment that may stand in a main header: a two-byte marker other than SOT that is followed by a
length, and contents that start with their length. -/
def HeaderSeg (s : Bytes × Bytes) : Prop :=
  s.1.length = 2 ∧ s.1 ∉ delimiters ∧ s.1 ≠ SOT ∧ FieldIs s.2 0 2 (· = s.2.length)

/-- A codestream: SOC marker, SIZ segment with the given contents, marker segments, and whatever follows. -/
def codestreamOf (siz : Bytes) (segs : List (Bytes × Bytes)) (post : Bytes) : Bytes :=
  SOC ++ (SIZ ++ siz) ++ segBytes segs ++ post

/-- The segments that must be present or may be present only once for a component. -/
def countedSegs : List Bytes := [COD, COC, QCD, QCC, CAP]

end Jpy.Spec
