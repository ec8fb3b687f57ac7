import Verif.Model.Write
import Verif.Spec.Output
import Verif.Spec.Report
/-!
# Specification of interrupted runs

The program writes standard output from front to back and never goes back. However a run stops (it is killed, the
disk is full, an exception ends it, a file keeps it busy for ever), what is left is an initial part of what the run
writes.
-/

namespace Jpy.Spec

/-- The output up to and including the reports `reps`: all that is written before the report that follows, or before
the closing tag. -/
def upTo (nopretty : Bool) (tool : String) (reps : List Elem) : Bytes :=
  outputBytes nopretty (.head :: .elem (toolInfo tool) :: reps.map .elem)

/-- The closing tag, with the line end after it. -/
def closing : Bytes := ascii "</jpylyzer>\n"

/-- `q` is a part of `b` that lacks at least the last byte. -/
def ProperPart (q b : Bytes) : Prop := q <+: b ∧ q ≠ b

end Jpy.Spec
