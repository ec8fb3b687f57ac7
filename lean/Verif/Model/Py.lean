/-!
# Python runtime fragment

The parts of the Python runtime that jpylyzer relies on, as total functions: byte strings and slices,
integer bit operations, exceptions as values, and element text values.
-/

namespace Jpy

/-- A Python `bytes` object (or the `mmap` of the file, which slices to `bytes`).
`jpylyzer.py:323-328` uses the `str` `""` for an empty file; every operation the validators apply to
it gives the same result as on empty bytes, so it is represented by `[]`. -/
abbrev Bytes := List UInt8

/-- Exceptions that the modelled code can raise or that the caller distinguishes
(`jpylyzer.py:424-438`). -/
inductive Exn where
  | unboundLocal | typeError | valueError | zeroDivision | attributeError | keyError
  | memory | io | runtime | expat | recursion
  deriving DecidableEq, Repr

/-- Result of running Python code: a value, an exception, or no result within the given fuel
(number of loop iterations / recursion depth). "Runs forever" is "`timeout` for every fuel". -/
inductive Outcome (α : Type) where
  | ok (a : α)
  | raised (e : Exn)
  | timeout
  deriving Repr, DecidableEq

namespace Outcome

/-- Sequencing of Python statements: exceptions and non-termination propagate. -/
protected def bind {α β : Type} (x : Outcome α) (f : α → Outcome β) : Outcome β :=
  match x with
  | ok a => f a
  | raised e => raised e
  | timeout => timeout

instance : Monad Outcome where
  pure := ok
  bind := Outcome.bind

@[simp] theorem bind_ok {α β : Type} (a : α) (f : α → Outcome β) : (ok a >>= f) = f a := rfl
@[simp] theorem bind_raised {α β : Type} (e : Exn) (f : α → Outcome β) :
    ((raised e : Outcome α) >>= f) = raised e := rfl
@[simp] theorem bind_timeout {α β : Type} (f : α → Outcome β) :
    ((timeout : Outcome α) >>= f) = timeout := rfl
@[simp] theorem pure_eq {α : Type} (a : α) : (pure a : Outcome α) = ok a := rfl

theorem bind_eq_ok {α β : Type} {x : Outcome α} {f : α → Outcome β} {b : β} :
    (x >>= f) = ok b ↔ ∃ a, x = ok a ∧ f a = ok b := by
  cases x <;> simp

theorem bind_eq_raised {α β : Type} {x : Outcome α} {f : α → Outcome β} {e : Exn} :
    (x >>= f) = raised e ↔ x = raised e ∨ ∃ a, x = ok a ∧ f a = raised e := by
  cases x <;> simp

theorem bind_eq_timeout {α β : Type} {x : Outcome α} {f : α → Outcome β} :
    (x >>= f) = timeout ↔ x = timeout ∨ ∃ a, x = ok a ∧ f a = timeout := by
  cases x <;> simp

/-- Apply a pure function to a successful result. -/
def map {α β : Type} (f : α → β) : Outcome α → Outcome β
  | ok a => ok (f a)
  | raised e => raised e
  | timeout => timeout

end Outcome

/-- Python's clamping of a slice bound to `0..len` (`PySlice_AdjustIndices`, step 1). -/
def sliceIdx (len : Nat) (i : Int) : Nat :=
  if i < 0 then (i + len).toNat else min i.toNat len

/-- Python `b[i:j]`, including negative indices. -/
def slice (b : Bytes) (i j : Int) : Bytes :=
  (b.drop (sliceIdx b.length i)).take (sliceIdx b.length j - sliceIdx b.length i)

/-- Python `x >> k` on unbounded integers (floor division by `2^k`). -/
def shr (x : Int) (k : Nat) : Int := x / (2 : Int) ^ k

/-- Python `x & (2^k - 1)` on unbounded integers (two's complement, i.e. Euclidean modulus). -/
def low (x : Int) (k : Nat) : Int := x % (2 : Int) ^ k

/-- Python `x & (((2^w) - 1) << k)`: a contiguous mask of `w` bits starting at bit `k`. -/
def maskAt (x : Int) (k w : Nat) : Int := low (shr x k) w * (2 : Int) ^ k

/-- Python chained comparison `lo <= x <= hi`. -/
def between (lo x hi : Int) : Bool := decide (lo ≤ x ∧ x ≤ hi)

/-- Number of iterations of `range(n)`; empty for negative `n`. -/
def rangeLen (n : Int) : Nat := n.toNat

/-- `int(a / b)`: true division followed by truncation. Computed exactly here; the code rounds `a/b` to a
double first, which makes no difference for operands below 2^53 (`C73_model` in `Props/Float.lean`). -/
def intDiv (a b : Int) : Int := a.tdiv b

/-- `math.ceil(a / b)`, computed exactly; see `intDiv`. -/
def ceilDiv (a b : Int) : Int := -((-a).fdiv b)

/-- A Python float, represented by the exact rational `num/den` it was computed from and the number
of decimals it was rounded to. Simplification: the roundings of IEEE 754 are not part of it; they are modelled in
`Model/Float.lean` and compared in `Props/Float.lean`. -/
structure PyFloat where
  num : Int
  den : Int
  digits : Nat
  deriving DecidableEq, Repr

/-- Values that jpylyzer stores in the `text` field of elements. -/
inductive PyVal where
  | none
  | bool (b : Bool)
  | int (i : Int)
  | bytes (b : Bytes)
  | str (s : String)
  | flt (f : PyFloat)
  deriving DecidableEq, Repr

/-- Use of an optional looked-up text in integer arithmetic: `TypeError` on `None` or a non-number. -/
def needInt : Option PyVal → Outcome Int
  | some (.int i) => .ok i
  | _ => .raised .typeError

end Jpy
