import Verif.Spec.Sample
import Verif.Lemmas.Basic
/-! # Witnesses: concrete runs computed by the kernel -/

namespace Jpy
open Spec

/-- Whether a validator ran without error and without a failed test. -/
def acceptedB (x : Outcome BoxResult) : Bool := match x with | .ok r => r.node.isValid | _ => false

theorem acceptedB_iff (x : Outcome BoxResult) : acceptedB x = true ↔ Accepted x := by
  unfold Accepted
  cases x with
  | ok r => simp [acceptedB, isValid_iff]
  | _ => simp [acceptedB]

theorem accepted_of {x : Outcome BoxResult} (h : acceptedB x = true) : Accepted x := (acceptedB_iff x).1 h

theorem not_accepted_of {x : Outcome BoxResult} (h : acceptedB x = false) : ¬ Accepted x :=
  fun e => by rw [(acceptedB_iff x).2 e] at h; cases h

theorem ok_of {x : Outcome BoxResult} (h : acceptedB x = true) : ∃ r, x = .ok r ∧ NoFailure r.node.tests :=
  accepted_of h

end Jpy
