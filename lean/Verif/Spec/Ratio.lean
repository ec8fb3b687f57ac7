import Verif.Spec.Structure
import Verif.Spec.File
/-!
# Specification of the compression ratio

The size of the uncompressed image over the size of the file.
-/

namespace Jpy.Spec

/-- Depth of a component from its byte in the SIZ segment (A.5.1, table A.11). -/
def depth (s : Nat) : Nat := s % 128 + 1

/-- `q` is the compression ratio, with two decimals, of a file of `size` bytes for the image described by
the SIZ segment `siz`: the bits of a sample of every component, times height, times width, over eight
times the size. -/
def RatioOf (siz : Bytes) (size : Nat) (q : PyFloat) : Prop :=
  ∃ (x y x0 y0 nc : Nat) (ss : List Nat), uint siz 4 4 = some x ∧ uint siz 8 4 = some y ∧ uint siz 12 4 = some x0 ∧
    uint siz 16 4 = some y0 ∧ uint siz 36 2 = some nc ∧
    ss.length = nc ∧ (∀ i < nc, uint siz (38 + 3 * i) 1 = ss[i]?) ∧
    0 < q.den ∧ q.num * (8 * size) = (ss.map depth).sum * ((y : Int) - y0) * ((x : Int) - x0) * q.den ∧
    q.digits = 2

/-- The compression ratios printed in a report. -/
def ratios (rep : Elem) : List PyVal :=
  ((contents rep "properties").filter fun e => e.tag == "compressionRatio").map (·.text)

/-- A SIZ segment that is not cut off. -/
def SizComplete (siz : Bytes) : Prop := ∃ nc, uint siz 36 2 = some nc ∧ 38 + 3 * nc ≤ siz.length

end Jpy.Spec
