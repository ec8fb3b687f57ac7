import Verif.Spec.Float
/-! # Specification of decimal numbers as text -/

namespace Jpy.Spec

/-- `s` is the number `x` in decimal notation: digits, a point and at least one digit, without superfluous zeros at
the beginning or the end. -/
def DecimalText (s : String) (x : Rat) : Prop :=
  ∃ a f : List Char, s.toList = a ++ '.' :: f ∧ a ≠ [] ∧ f ≠ [] ∧ (∀ c ∈ a ++ f, c.isDigit = true) ∧
    (a = ['0'] ∨ a.head? ≠ some '0') ∧ (f = ['0'] ∨ f.getLast? ≠ some '0') ∧
    x = (Nat.ofDigitChars 10 (a ++ f) 0 : Rat) / 10 ^ f.length

example : DecimalText "14.58" (1458 / 100) :=
  ⟨['1', '4'], ['5', '8'], by decide, by decide, by decide, by decide, by decide, by decide, by decide +kernel⟩

end Jpy.Spec
