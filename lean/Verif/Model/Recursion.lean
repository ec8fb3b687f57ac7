import Verif.Model.CheckFile
/-!
# Model of the program under Python's limit on nested calls

Python refuses calls that are nested deeper than a limit (`sys.getrecursionlimit()`, 1000 unless changed) and
raises `RecursionError`. Three recursions of the program follow its input, and this is the model of the
program with a limit for each of them; the rest of the model has none.

* `BoxValidator.validate` calls itself for the boxes of a superbox;
* `xml.etree.ElementTree._serialize_xml` calls itself for the children of an element;
* so does `xml.dom.minidom.Element.writexml`.

`ElementTree.fromstring`, `Element.iter` and `minidom.parseString` do not recurse in Python.
-/

namespace Jpy

/- The number of levels of an element and its descendants. -/
mutual
/-- One element: one call for itself. -/
def Elem.depth : Elem → Nat
  | .mk _ _ _ c _ => Elem.depthL c + 1
/-- Its children. -/
def Elem.depthL : List Elem → Nat
  | [] => 0
  | e :: es => max e.depth (Elem.depthL es)
end

/-- How many nested calls there is room for. They are counted from where the program makes the first one, so
they are smaller than the limit by the number of calls that are active there. -/
structure Room where
  /-- calls of `BoxValidator.validate` inside that of the whole file, with all they call for a box other
  than boxes inside it -/
  boxes : Nat
  /-- calls of `_serialize_xml` -/
  serialize : Nat
  /-- calls of `Element.writexml` -/
  pretty : Nat

/-- `BoxValidator(options, bType, contents).validate()` for a box found in a box loop
(`boxvalidator.py:76-128`), with room for `levels` nested calls. `near` is what
it does when there is not enough room. That can be anything: near the limit a box may still pass, or an
exception may be caught by a handler that expects another one. -/
def validateBoxR (env : Env) (o : Options) (near : Bytes → Bytes → Outcome BoxResult) :
    Nat → Nat → Bytes → Bytes → Outcome BoxResult
  | 0, _, bType, c => near bType c
  | _ + 1, 0, _, _ => .timeout
  | levels + 1, fuel + 1, bType, c =>
    match boxTypeOf bType with
    | .jp2HeaderBox => do
      let (n, types) ← walkBoxes (validateBoxR env o near levels fuel) c fuel
      .ok { tag := "jp2HeaderBox", node := jp2HeaderFinish o n types }
    | .resolutionBox => do
      let (n, types) ← walkBoxes (validateBoxR env o near levels fuel) c fuel
      .ok { tag := "resolutionBox", node := resolutionFinish o.verbose n types }
    | .uuidInfoBox => do
      let (n, types) ← walkBoxes (validateBoxR env o near levels fuel) c fuel
      .ok { tag := "uuidInfoBox", node := uuidInfoFinish o.verbose n types }
    | .contiguousCodestreamBox => do
      let n ← codestream env o fuel c
      .ok { tag := "contiguousCodestreamBox", node := n }
    | .tilePart => .raised .typeError
    | _ => validateLeaf env o fuel none bType c

/-- `validate_JP2` (`boxvalidator.py:3457-3705`) with a limit. -/
def validateJP2R (env : Env) (o : Options) (near : Bytes → Bytes → Outcome BoxResult) (levels fuel : Nat)
    (b : Bytes) : Outcome Node := do
  let (n, types) ← walkBoxes (validateBoxR env o near levels fuel) b fuel
  jp2Finish o b.length n types

/-- The validator run on the contents (`jpylyzer.py:388-407`), with a limit. The nesting inside of a
codestream is fixed. -/
def validateRootR (env : Env) (o : Options) (near : Bytes → Bytes → Outcome BoxResult) (levels fuel : Nat)
    (b : Bytes) : Outcome Node :=
  match o.format with
  | .jp2 | .jph => validateJP2R env o near levels fuel b
  | .j2c | .jhc => codestream env o fuel b
  | .other _ => .raised .unboundLocal

/-- The body of the `try` (`jpylyzer.py:381-422`), with a limit. -/
def analyseTryR (env : Env) (near : Bytes → Bytes → Outcome BoxResult) (levels : Nat) (fs : FS) (o : Options)
    (fuel : Nat) (path : PyStr) : Outcome Analysis := do
  let (data, fmm) ← fileToMemoryMap fs path
  let n ← validateRootR env o near levels fuel data
  .ok { success := true
        isValid := n.isValid
        tests := makeHumanReadableL env [] n.tests
        props := makeHumanReadableL env remapTable n.chars
        warnings := makeHumanReadableL env []
          (n.warnings ++ fmm.map fun w => Elem.leaf "warning" (.str w))
        failure := none }

/-- The `try` statement with its handler (`jpylyzer.py:381-444`), with a limit. -/
def analyseR (env : Env) (near : Bytes → Bytes → Outcome BoxResult) (levels : Nat) (fs : FS) (o : Options)
    (fuel : Nat) (path : PyStr) : Outcome Analysis :=
  match analyseTryR env near levels fs o fuel path with
  | .ok a => .ok a
  | .timeout => .timeout
  | .raised e => .ok
      { success := false, isValid := false, tests := [], props := []
        warnings := [Elem.leaf "warning" (.str (failureMessage e))]
        failure := some (failureMessage e) }

/-- `checkOneFile` (`jpylyzer.py:333-471`), with a limit. -/
def checkOneFileR (env : Env) (me : MixEnv) (near : Bytes → Bytes → Outcome BoxResult) (levels : Nat) (fs : FS)
    (fuel : Nat) (o : Options) (mix : Nat) (path : PyStr) : Outcome Elem := do
  let info ← fileInfo fs path
  let a ← analyseR env near levels fs o fuel path
  let mixProps ←
    if mix ≠ 0 ∧ a.isValid = true then do
      let m ← generateMix me mix a.props
      Outcome.ok [m]
    else Outcome.ok []
  let status := Elem.node "statusInfo"
    (Elem.leaf "success" (.str (boolStr a.success))
      :: (match a.failure with
          | some m => [Elem.leaf "failureMessage" (.str m)]
          | none => []))
  let verdict := Elem.mk "isValid" [("format", o.format.name)] (.str (boolStr a.isValid)) []
  let extension :=
    if mix ≠ 0 then
      [Elem.node "propertiesExtension"
        (if (o.format = .jp2 ∨ o.format = .jph) ∧ a.isValid = true then mixProps else [])]
    else []
  .ok (.node "file"
    ([ info, status, verdict, .node "tests" a.tests, .node "properties" a.props ]
      ++ extension ++ [ .node "warnings" a.warnings ]))

/-- `writeElement` (`jpylyzer.py:635-656`) with limits. Simplification: if an element has too many levels
and also a text that cannot be written, which exception is raised depends on which of them comes first; here
it is `RecursionError`. -/
def writeElementR (room : Room) (nopretty : Bool) (e : Elem) : Outcome Unit :=
  if room.serialize < e.depth then .raised .recursion
  else if nopretty then writeElement true e
  else do
    writeElement false e
    if room.pretty < e.depth then .raised .recursion else .ok ()

/-- The loop over the input files (`jpylyzer.py:691-704`) with limits. -/
def reportFilesR (room : Room) (check : PyStr → Outcome Elem) (nopretty : Bool) : List PyStr → List Chunk × Exit
  | [] => ([], .done)
  | p :: ps =>
    match check p with
    | .ok e =>
      match writeElementR room nopretty e with
      | .ok _ =>
        let (out, x) := reportFilesR room check nopretty ps
        (.elem e :: out, x)
      | .raised e => ([], .crash e)
      | .timeout => ([], .hang)
    | .raised e => ([], .crash e)
    | .timeout => ([], .hang)

/-- `checkFiles` (`jpylyzer.py:659-707`) with limits. -/
def checkFilesR (env : Env) (me : MixEnv) (near : Bytes → Bytes → Outcome BoxResult) (room : Room) (fs : FS)
    (fuel : Nat) (scriptName : String) (cfg : Config) (recurse : Bool) (paths : List PyStr)
    (existing : List PyStr) : Run :=
  let (found, missing) := findFiles fs recurse paths
  let files := existing ++ found
  if files.isEmpty then { out := [], missing := missing, exit := .code (-7), existing := files }
  else
    match writeElementR room cfg.nopretty (toolInfo scriptName) with
    | .ok _ =>
      let (chunks, x) := reportFilesR room (checkOneFileR env me near room.boxes fs fuel cfg.options cfg.mix)
        cfg.nopretty files
      { out := [.head, .elem (toolInfo scriptName)] ++ chunks ++ (if x = .done then [.tail] else [])
        missing := missing, exit := x, existing := files }
    | .raised e => { out := [.head], missing := missing, exit := .crash e, existing := files }
    | .timeout => { out := [.head], missing := missing, exit := .hang, existing := files }

end Jpy
