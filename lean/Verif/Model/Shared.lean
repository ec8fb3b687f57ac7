/-! # Model of `jpylyzer/shared.py` -/

namespace Jpy

/-- `consecutive` (`shared.py:35-40`): every item exceeds its predecessor by one. The Python loop
over indices `1..len-1` is a recursion over adjacent pairs. -/
def consecutive : List Nat → Bool
  | [] => true
  | [_] => true
  | a :: b :: l => if (b : Int) - (a : Int) ≠ 1 then false else consecutive (b :: l)

/-- `listOccurrencesAreContiguous` (`shared.py:43-46`). -/
def listOccurrencesAreContiguous {α : Type} [DecidableEq α] (lst : List α) (value : α) : Bool :=
  consecutive ((List.range lst.length).filter fun i => lst[i]? == some value)

end Jpy
