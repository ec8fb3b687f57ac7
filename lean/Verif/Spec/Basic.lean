import Verif.Model.Elem
/-!
# Specification vocabulary: byte fields and element trees

Independent of the model's conversion functions: only lists, natural numbers and the data type of
element trees are used.
-/

namespace Jpy.Spec

/-- Big-endian value of a byte string: the first byte is the most significant. -/
def be : Bytes → Nat
  | [] => 0
  | x :: xs => x.toNat * 256 ^ xs.length + be xs

/-- The bytes at positions `off .. off+n-1` that exist. -/
def sub (b : Bytes) (off n : Nat) : Bytes := (b.drop off).take n

/-- The unsigned big-endian field of `n` bytes at `off`, if all its bytes exist. -/
def uint (b : Bytes) (off n : Nat) : Option Nat :=
  if off + n ≤ b.length then some (be (sub b off n)) else none

/-- Value `v` of the `n`-byte field at `off` exists and satisfies `p`. -/
def FieldIs (b : Bytes) (off n : Nat) (p : Nat → Prop) : Prop := ∃ v, uint b off n = some v ∧ p v

/-- Bit `i` (0 = least significant) of a number. -/
def bit (i v : Nat) : Nat := v / 2 ^ i % 2

/-- The hexadecimal digits `0123456789abcdef` as ASCII bytes. -/
def hexDigits : Bytes := [48, 49, 50, 51, 52, 53, 54, 55, 56, 57, 97, 98, 99, 100, 101, 102]

/-- `h` is the lower-case hexadecimal form of `b`: two digits per byte, most significant first. -/
def IsHex (b h : Bytes) : Prop :=
  h.length = 2 * b.length ∧ ∀ i (x : UInt8), b[i]? = some x →
    h[2 * i]? = hexDigits[x.toNat / 16]? ∧ h[2 * i + 1]? = hexDigits[x.toNat % 16]?

/-- `d` is `e` or a descendant of `e`. -/
inductive Within : Elem → Elem → Prop
  | self (e) : Within e e
  | child {d c e} : c ∈ e.children → Within d c → Within d e

/-- No test result anywhere in a tests tree is `False` (values before post-processing). -/
def NoFailure (tests : List Elem) : Prop :=
  ∀ e ∈ tests, ∀ d, Within d e → d.text ≠ .bool false

end Jpy.Spec

namespace Jpy

/-- Two outcomes agree up to a relation on their values: both succeed with related values, raise
the same exception, or run out of fuel. -/
inductive OutRel {α β : Type} (R : α → β → Prop) : Outcome α → Outcome β → Prop
  | ok {a b} : R a b → OutRel R (.ok a) (.ok b)
  | raised (e) : OutRel R (.raised e) (.raised e)
  | timeout : OutRel R .timeout .timeout

end Jpy
