import Verif.Model.Float
import Verif.Model.Mix
/-!
# The numbers of `mix.py` with Python's floats

`Model/Mix.lean` leaves the three computations with `float(text)` to parameters. Here they are, with the roundings of
doubles. What `float` makes of a text is still a parameter.
-/

namespace Jpy

/-- `int(y * k)` for a float `y` and an integer `k` (`mix.py:258-280`). -/
def mixTrunc (y : Rat) (k : Int) : Int := pyInt (pyMulInt y k)

/-- `int(round(y * k, 0))` (`mix.py:58-72`). For `k = 1` the code has no multiplication; it would change nothing. -/
def mixRound (y : Rat) (k : Int) : Int := pyInt (pyRound 0 (pyMulInt y k))

/-- The parameters of `mix.py` are Python's, if `float` turns a text into a number (`none`: `ValueError`). -/
structure ReadsFloats (me : MixEnv) (float : String → Option Rat) : Prop where
  trunc : ∀ s k, me.truncScaled s k = (float s).map (mixTrunc · k)
  round : ∀ s k, me.roundScaled s k = (float s).map (mixRound · k)

end Jpy
