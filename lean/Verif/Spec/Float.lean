import Verif.Spec.Basic
/-!
# Specification of floating-point numbers and of decimal rounding

Numbers are rationals here. A double is a rational of a certain form; rounding to nearest means that no double is
closer.
-/

namespace Jpy.Spec

/-- The finite numbers of the IEEE 754 format binary64. -/
def IsDouble (x : Rat) : Prop :=
  ∃ m e : Int, x = m * (2 : Rat) ^ e ∧ -(2 ^ 53) < m ∧ m < 2 ^ 53 ∧ -1074 ≤ e ∧ e ≤ 971

/-- `y` is a double, and no double is closer to `x`. -/
def NearestDouble (x y : Rat) : Prop := IsDouble y ∧ ∀ z, IsDouble z → (x - y).abs ≤ (x - z).abs

/-- The decimal number `k / 10 ^ d` is nearest to `x` among those with `d` decimals. -/
def NearestDecimal (d : Nat) (x : Rat) (k : Int) : Prop := ∀ j : Int, (x - k / 10 ^ d).abs ≤ (x - j / 10 ^ d).abs

/-- `y` is `x` rounded to `d` decimals, as well as a double can represent it. -/
def RoundedTo (d : Nat) (x y : Rat) : Prop := ∃ k : Int, NearestDecimal d x k ∧ NearestDouble (k / 10 ^ d) y

end Jpy.Spec
