import Verif.Spec.Ratio
import Verif.Spec.Diagnosis
/-!
# Specification of the compression ratio in terms of the values shown
-/

namespace Jpy.Spec

/-- `q` is the number, with two decimals, of bits of `height` times `width` samples of all components, with
`depth` bits together, over the number of bits in `size` bytes. -/
def RatioFrom (depth height width : Int) (size : Nat) (q : PyFloat) : Prop :=
  0 < q.den ∧ q.num * (8 * size) = depth * height * width * q.den ∧ q.digits = 2

end Jpy.Spec
