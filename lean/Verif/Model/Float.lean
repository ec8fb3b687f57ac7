import Verif.Model.Codestream
/-!
# Python's floating-point arithmetic

The rest of the model computes quotients exactly (`intDiv`, `ceilDiv`, `PyFloat`). The code uses Python floats. This
file has the same computations with the roundings of IEEE 754 doubles (to nearest, ties to even), operation by
operation. A float is represented by its value, a rational. Simplifications: overflow, infinities, NaN and the sign of
zero are not represented (no computation below gets near 2^1023).
-/

namespace Jpy

/-- Nearest integer, ties to even (`roundTiesToEven`). -/
def rne (x : Rat) : Int :=
  let f := x.floor
  if x - f < 1 / 2 then f
  else if 1 / 2 < x - f then f + 1
  else if f % 2 = 0 then f else f + 1

/-- The exponent `e` with `2^e ≤ x < 2^(e+1)`, for positive `x`. -/
def expo (x : Rat) : Int :=
  let e : Int := (x.num.natAbs.log2 : Int) - x.den.log2
  if x < (2 : Rat) ^ e then e - 1 else e

/-- The double nearest to a positive number: an integer of at most 53 bits times a power of two. -/
def flPos (x : Rat) : Rat :=
  let u := max (expo x - 52) (-1074)
  (rne (x / (2 : Rat) ^ u) : Rat) * (2 : Rat) ^ u

/-- The double nearest to a number. -/
def fl (x : Rat) : Rat := if x = 0 then 0 else if x < 0 then -flPos (-x) else flPos x

/-- Python's `a / b` on integers: the double nearest to the quotient (`long_true_divide`). -/
def pyDiv (a b : Int) : Rat := fl ((a : Rat) / b)

/-- Python's `x * n` and `x / n` for a float and an integer: the integer is converted first. -/
def pyMulInt (x : Rat) (n : Int) : Rat := fl (x * fl n)
/-- See `pyMulInt`. -/
def pyDivInt (x : Rat) (n : Int) : Rat := fl (x / fl n)

/-- `int(x)` for a float: truncation. -/
def pyInt (x : Rat) : Int := if 0 ≤ x then x.floor else x.ceil

/-- `math.ceil(x)`. -/
def pyCeil (x : Rat) : Int := x.ceil

/-- `round(x, d)` for a float: the double nearest to the decimal number with `d` decimals that is nearest to `x`
(CPython converts to a decimal string and back, `double_round`). -/
def pyRound (d : Nat) (x : Rat) : Rat := fl ((rne (x * 10 ^ d) : Rat) / 10 ^ d)

/-- `_calculateCompressionRatio` (`boxvalidator.py:203-230`) for a file that is not empty, and the `round(.., 2)` of
its callers (`boxvalidator.py:1736-1738, 3699-3701`). -/
def ratioFloat (noBytes : Int) (depths : List Int) (height width : Int) : Rat :=
  let bytesPerPixel := pyDiv depths.sum 8
  let sizeUncompressed := pyMulInt (pyMulInt bytesPerPixel height) width
  pyRound 2 (pyDivInt sizeUncompressed noBytes)

/-- `10 ** e` as a factor of a float (`boxvalidator.py:1216`): an integer if `e` is not negative, which is then converted to a
float; the result of the C function `pow`, which is a parameter, otherwise. -/
def pyTenPow (pow : Int → Rat) (e : Int) : Rat := if 0 ≤ e then fl ((10 : Rat) ^ e.toNat) else pow e

/-- `vRescInPixelsPerMeter` and the like (`boxvalidator.py:1216-1222, 1275-1281`), before they are rounded. -/
def perMeterFloat (pow : Int → Rat) (n d e : Int) : Rat := fl (pyDiv n d * pyTenPow pow e)

/-- `vRescInPixelsPerInch` and the like (`boxvalidator.py:1224-1230, 1283-1289`), before they are rounded; `25.4e-3` is
the double nearest to 0.0254. -/
def perInchFloat (pow : Int → Rat) (n d e : Int) : Rat := fl (perMeterFloat pow n d e * fl (254 / 10000))

/-- The illuminant of an ICC profile (`boxvalidator.py:868-881`). -/
def illuminantFloat (v : Int) : Rat := pyRound 4 (pyDiv v 65536)

end Jpy
