import Verif.Spec.File
/-!
# Reports on the same file in two formats
-/

namespace Jpy.Spec

/-- The properties of the code-block style that are not reported in the JPH formats when only the block coder of part 15
is used. -/
def styleNames : List String := ["resetOnBoundaries", "predTermination", "segmentationSymbols"]

/-- The properties of extended capabilities that are reported in the JPH formats only. -/
def htNames : List String := ["htCodeBlocks", "htSets", "htRegion", "htHomogeneous", "htReversible", "htB"]

/-- Elements without those with the given names. -/
def without (names : List String) (es : List Elem) : List Elem := es.filter fun e => decide (e.tag ∉ names)

/-- The superboxes, and the parts of a codestream that have segments in them. -/
def nestingNames : List String :=
  ["jp2HeaderBox", "resolutionBox", "uuidInfoBox", "contiguousCodestreamBox", "tileParts", "tilePart"]

/- Properties reported in a format of part 1 (first) and in one of part 15 (second). -/
mutual
/-- Two elements: they are equal, but for the properties above in COD, COC and CAP segments, at
any depth. -/
inductive SameButHT : Elem → Elem → Prop
  | same {e : Elem} : e.tag ∉ "cap" :: nestingNames → SameButHT e e
  | style {t a x c l} : t = "cod" ∨ t = "coc" → SameButHT (.mk t a x c l) (.mk t a x (without styleNames c) l)
  | cap {a x c l} : SameButHT (.mk "cap" a x (without htNames c) l) (.mk "cap" a x c l)
  | part {t a x c1 c2 l} : t ∈ nestingNames → SameButHTL c1 c2 →
      SameButHT (.mk t a x c1 l) (.mk t a x c2 l)
/-- Two lists, pairwise. -/
inductive SameButHTL : List Elem → List Elem → Prop
  | nil : SameButHTL [] []
  | cons {e1 e2 l1 l2} : SameButHT e1 e2 → SameButHTL l1 l2 → SameButHTL (e1 :: l1) (e2 :: l2)
end

/-- The tests whose rules depend on the format. -/
def formatTests : List String :=
  ["brandIsValid", "compatibilityListIsValid", "methIsValid", "colPrimsIsValid", "transfCIsValid", "matCoeffsIsValid",
    "cTypIsValid", "noMoreThanOneAlphaChannel", "cAssocAlphaChannelIsZero", "rsizIsValid", "roiShiftIsValid",
    "pcap15IsValid", "lcpIsValid", "pcpfIsValid", "containsColourSpecificationBox", "noZeroCTypesIfNoColourBox"]

/-- The results at a path in the tests. -/
def results (es : List Elem) (path : List String) : List PyVal :=
  (Elem.findAllText es path).filter fun v => decide (v ≠ .none)

/-- The two formats for files, or the two formats for codestreams. -/
def FormatPair (f1 f2 : Format) : Prop := f1 = .jp2 ∧ f2 = .jph ∨ f1 = .j2c ∧ f2 = .jhc

end Jpy.Spec
