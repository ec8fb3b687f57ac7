import Verif.Spec.Structure
import Verif.Spec.Unknown
/-!
# Specification: files that differ in metadata boxes

The boxes of a JP2 or JPH file that are not part of its image: XML, UUID, UUID info, intellectual property and
unknown boxes may stand anywhere after the file type box (ISO/IEC 15444-1 I.2.2, figure I.1).
-/

namespace Jpy.Spec

/-- The types of the boxes that make up the image: signature, file type, JP2 header and codestream. -/
def imageTypes : List Bytes := [ascii "jP  ", ascii "ftyp", ascii "jp2h", ascii "jp2c"]

/-- Type and payload of the boxes that make up the image, in order. -/
def imageBoxes (bs : List FoundBox) : List (Bytes × Bytes) :=
  (bs.filter fun x => decide (x.type ∈ imageTypes)).map fun x => (x.type, x.payload)

/-- Two lists of boxes start with the same two boxes, and agree in the boxes that make up the image and in
whether there is an intellectual property box. Other boxes may be added, removed or moved. -/
structure SameImageBoxes (bs bs' : List FoundBox) : Prop where
  start : (bs.take 2).map (fun x => (x.type, x.payload)) = (bs'.take 2).map fun x => (x.type, x.payload)
  image : imageBoxes bs = imageBoxes bs'
  ipr : Has bs "jp2i" ↔ Has bs' "jp2i"

end Jpy.Spec
