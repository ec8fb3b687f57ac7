import Verif.Model.Float
/-!
# `str` of a Python float

`makeHumanReadable` (`etpatch.py:112-127`) turns the floats of a report into text with `str`. CPython chooses the shortest decimal
number that is read back as the same float, and of these the closest (`float_repr`, `PyOS_double_to_string` with
format `r`, `_Py_dg_dtoa` in mode 0). This is library code, not part of `/repo`. Infinities, NaN and the sign of
zero are not represented.
-/

namespace Jpy

/-- `m * 10^e` is the shortest decimal number that is read as `y`, without zeros at the end of `m`, and the closest of
this length (`_Py_dg_dtoa`, mode 0). -/
structure Shortest (y : Rat) (m : Nat) (e : Int) : Prop where
  reads : fl ((m : Rat) * (10 : Rat) ^ e) = y
  stripped : m % 10 ≠ 0
  minimal : ∀ (m' : Nat) (e' : Int), fl ((m' : Rat) * (10 : Rat) ^ e') = y →
    (Nat.toDigits 10 m).length ≤ (Nat.toDigits 10 m').length
  closest : ∀ (m' : Nat) (e' : Int), fl ((m' : Rat) * (10 : Rat) ^ e') = y →
    (Nat.toDigits 10 m').length = (Nat.toDigits 10 m).length →
    (y - (m : Rat) * (10 : Rat) ^ e).abs ≤ (y - (m' : Rat) * (10 : Rat) ^ e').abs

/-- The layout of the digits of `m * 10^e` (`format_float_short` in `pystrtod.c`, format `r`, with `.0` added to whole
numbers): with an exponent if the point is more than three places before or more than 16 places after the first
digit. -/
def reprText (m : Nat) (e : Int) : String :=
  let digits := Nat.toDigits 10 m
  let decpt : Int := digits.length + e
  if decpt ≤ -4 ∨ 16 < decpt then
    let x := decpt - 1
    let xs := Nat.toDigits 10 x.natAbs
    String.ofList (digits.take 1 ++ (if digits.length ≤ 1 then [] else '.' :: digits.drop 1) ++
      'e' :: (if x < 0 then '-' else '+') :: (if xs.length < 2 then '0' :: xs else xs))
  else if decpt ≤ 0 then String.ofList ('0' :: '.' :: (List.replicate (-decpt).toNat '0' ++ digits))
  else if digits.length ≤ decpt then String.ofList (digits ++ List.replicate e.toNat '0' ++ ['.', '0'])
  else String.ofList (digits.take decpt.toNat ++ '.' :: digits.drop decpt.toNat)

/-- `s` is `str(y)`. -/
inductive IsRepr : Rat → String → Prop
  | zero : IsRepr 0 "0.0"
  | pos {y m e} : 0 < y → Shortest y m e → IsRepr y (reprText m e)
  | neg {y s} : y < 0 → IsRepr (-y) s → IsRepr y ("-" ++ s)

example : reprText 1458 (-2) = "14.58" ∧ reprText 23622 (-1) = "2362.2" ∧ reprText 3 2 = "300.0" ∧ reprText 1 (-2) = "0.01" ∧
    reprText 33 15 = "3.3e+16" ∧ reprText 1 (-5) = "1e-05" := by decide +kernel

end Jpy
