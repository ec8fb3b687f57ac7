import Verif.Model.CheckFile
/-!
# Model of `checkOneFile` under a limit on the digits of printed integers

Current versions of Python (from 3.11, and from 3.10.7, 3.9.14 and 3.8.14) refuse to convert integers with
more than a given number of decimal digits to text: `str` raises `ValueError`. The limit is 4300 unless
it is changed, it cannot be set below 640, and 0 means that there is none. The rest of the model has no limit.
-/

namespace Jpy

/-- Does `str(textOut)` raise (`etpatch.py:119-131`)? Only integers are affected, after remapping (`etpatch.py:94-109`). -/
def tooLong (limit : Nat) (tbl : RemapTable) (e : Elem) : Bool :=
  match remapped tbl e.tag e.text with
  | .int i => decide (limit ≠ 0 ∧ 10 ^ limit ≤ i.natAbs)
  | _ => false

/-- `makeHumanReadable` (`etpatch.py:84-136`) on a list of elements, with the limit. -/
def makeHumanReadableD (env : Env) (limit : Nat) (tbl : RemapTable) (es : List Elem) : Outcome (List Elem) :=
  if (Elem.iterL es).any (tooLong limit tbl) then .raised .valueError else .ok (makeHumanReadableL env tbl es)

/-- The body of the `try` (`jpylyzer.py:381-422`), with the limit. -/
def analyseTryD (env : Env) (limit : Nat) (fs : FS) (o : Options) (fuel : Nat) (path : PyStr) : Outcome Analysis := do
  let (data, fmm) ← fileToMemoryMap fs path
  let n ← validateRoot env o fuel data
  let tests ← makeHumanReadableD env limit [] n.tests
  let props ← makeHumanReadableD env limit remapTable n.chars
  let warnings ← makeHumanReadableD env limit [] (n.warnings ++ fmm.map fun w => Elem.leaf "warning" (.str w))
  .ok { success := true, isValid := n.isValid, tests, props, warnings, failure := none }

/-- The `try` statement with its handler (`jpylyzer.py:381-444`), with the limit. -/
def analyseD (env : Env) (limit : Nat) (fs : FS) (o : Options) (fuel : Nat) (path : PyStr) : Outcome Analysis :=
  match analyseTryD env limit fs o fuel path with
  | .ok a => .ok a
  | .timeout => .timeout
  | .raised e => .ok
      { success := false, isValid := false, tests := [], props := []
        warnings := [Elem.leaf "warning" (.str (failureMessage e))]
        failure := some (failureMessage e) }

/-- `checkOneFile` (`jpylyzer.py:333-471`), with the limit. -/
def checkOneFileD (env : Env) (me : MixEnv) (limit : Nat) (fs : FS) (fuel : Nat) (o : Options) (mix : Nat)
    (path : PyStr) : Outcome Elem := do
  let info ← fileInfo fs path
  let a ← analyseD env limit fs o fuel path
  let mixProps ←
    if mix ≠ 0 ∧ a.isValid = true then do
      let m ← generateMix me mix a.props
      Outcome.ok [m]
    else Outcome.ok []
  let status := Elem.node "statusInfo"
    (Elem.leaf "success" (.str (boolStr a.success))
      :: (match a.failure with
          | some m => [Elem.leaf "failureMessage" (.str m)]
          | none => []))
  let verdict := Elem.mk "isValid" [("format", o.format.name)] (.str (boolStr a.isValid)) []
  let extension :=
    if mix ≠ 0 then
      [Elem.node "propertiesExtension"
        (if (o.format = .jp2 ∨ o.format = .jph) ∧ a.isValid = true then mixProps else [])]
    else []
  .ok (.node "file"
    ([ info, status, verdict, .node "tests" a.tests, .node "properties" a.props ]
      ++ extension ++ [ .node "warnings" a.warnings ]))

end Jpy
