import Verif.Model.CheckFile
/-!
# Model of the messages on standard error

The functions of the other modules that call `shared.printWarning`, or call a function that does, with the
messages they print. What Python writes there by itself is not modelled: the trace of an uncaught exception, and
usage messages of the argument parser.
-/

namespace Jpy

/-- The messages printed by a computation, and its result. -/
structure Said (α : Type) where
  said : List String
  result : Outcome α

/-- Nothing is printed. -/
def Said.lift (x : Outcome α) : Said α := ⟨[], x⟩

/-- Nothing is printed after an exception. -/
def Said.bind (x : Said α) (f : α → Said β) : Said β :=
  match x.result with
  | .ok a => ⟨x.said ++ (f a).said, (f a).result⟩
  | .raised e => ⟨x.said, .raised e⟩
  | .timeout => ⟨x.said, .timeout⟩

instance : Monad Said where
  pure a := .lift (.ok a)
  bind := Said.bind

/-- `printWarning` (`shared.py:22-25`), without `User warning: ` and the end of the line. -/
def printWarning (msg : String) : Said Unit := ⟨[msg], .ok ()⟩

/-- The box loop, see `boxLoop`. -/
def boxLoopS (sub : Bytes → Bytes → Said BoxResult) (b : Bytes) :
    Nat → Int → Int → Node → List Bytes → Said (Node × List Bytes)
  | 0, _, _, _, _ => .lift .timeout
  | fuel + 1, byteStart, boxLength, node, types =>
    if byteStart < b.length ∧ boxLength ≠ 0 ∧ boxLength ≠ -9999 then do
      let box := getBox b byteStart
      let r ← sub box.type box.contents
      boxLoopS sub b fuel box.byteEnd box.length (node.absorb r) (types ++ [box.type])
    else .lift (.ok (node, types))

/-- The loop from its initial values. -/
def walkBoxesS (sub : Bytes → Bytes → Said BoxResult) (b : Bytes) (fuel : Nat) : Said (Node × List Bytes) :=
  boxLoopS sub b fuel 0 10 {} []

/-- `BoxValidator(options, bType, contents).validate()` (`boxvalidator.py:76-128`). It prints a message for
boxes that have a type but no validator function (`boxvalidator.py:118-124`), and for unknown boxes
(`boxvalidator.py:317-320`). In codestreams nothing is printed: all marker types have a function, and segments
with other markers are passed over. -/
def validateBoxS (env : Env) (o : Options) : Nat → Bytes → Bytes → Said BoxResult
  | 0, _, _ => .lift .timeout
  | fuel + 1, bType, c =>
    match boxTypeOf bType with
    | .jp2HeaderBox => do
      let (n, types) ← walkBoxesS (validateBoxS env o fuel) c fuel
      .lift (.ok { tag := "jp2HeaderBox", node := jp2HeaderFinish o n types })
    | .resolutionBox => do
      let (n, types) ← walkBoxesS (validateBoxS env o fuel) c fuel
      .lift (.ok { tag := "resolutionBox", node := resolutionFinish o.verbose n types })
    | .uuidInfoBox => do
      let (n, types) ← walkBoxesS (validateBoxS env o fuel) c fuel
      .lift (.ok { tag := "uuidInfoBox", node := uuidInfoFinish o.verbose n types })
    | .contiguousCodestreamBox => do
      let n ← Said.lift (codestream env o fuel c)
      .lift (.ok { tag := "contiguousCodestreamBox", node := n })
    | .tilePart => .lift (.raised .typeError)
    | .intellectualPropertyBox => do
      printWarning "ignoring 'intellectualPropertyBox' (validator function not yet implemented)"
      .lift (validateLeaf env o fuel none bType c)
    | .unknownBox => do
      let r ← Said.lift (validateLeaf env o fuel none bType c)
      printWarning ("ignoring unknown box '" ++ bytesToText env.catC bType ++ "'")
      .lift (.ok r)
    | _ => .lift (validateLeaf env o fuel none bType c)

/-- `validate_JP2` (`boxvalidator.py:3457-3705`). -/
def validateJP2S (env : Env) (o : Options) (fuel : Nat) (b : Bytes) : Said Node := do
  let (n, types) ← walkBoxesS (validateBoxS env o fuel) b fuel
  .lift (jp2Finish o b.length n types)

/-- `fileToMemoryMap` (`jpylyzer.py:293-330`). Simplification: surrogates in the name, which are printed as
escape sequences, are left out. -/
def fileToMemoryMapS (fs : FS) (path : PyStr) : Said (Bytes × List String) :=
  match fs.read path with
  | .error e => .lift (.raised e)
  | .tooLarge gb =>
    let msg := "file " ++ path.toText ++ " too large to open (" ++ gb ++ " GB). Try using 64-bit Python."
    do printWarning msg; .lift (.ok ([], [msg]))
  | .data [] =>
    let msg := "empty file " ++ path.toText
    do printWarning msg; .lift (.ok ([], [msg]))
  | .data (x :: xs) => .lift (.ok (x :: xs, []))

/-- The validator run on the contents (`jpylyzer.py:388-407`). -/
def validateRootS (env : Env) (o : Options) (fuel : Nat) (b : Bytes) : Said Node :=
  match o.format with
  | .jp2 | .jph => validateJP2S env o fuel b
  | .j2c | .jhc => .lift (codestream env o fuel b)
  | .other _ => .lift (.raised .unboundLocal)

/-- The body of the `try` (`jpylyzer.py:381-422`). -/
def analyseTryS (env : Env) (fs : FS) (o : Options) (fuel : Nat) (path : PyStr) : Said Analysis := do
  let (data, fmm) ← fileToMemoryMapS fs path
  let n ← validateRootS env o fuel data
  .lift (.ok
    { success := true
      isValid := n.isValid
      tests := makeHumanReadableL env [] n.tests
      props := makeHumanReadableL env remapTable n.chars
      warnings := makeHumanReadableL env [] (n.warnings ++ fmm.map fun w => Elem.leaf "warning" (.str w))
      failure := none })

/-- The `try` statement with its handler (`jpylyzer.py:381-444`), which prints the message of the failure. -/
def analyseS (env : Env) (fs : FS) (o : Options) (fuel : Nat) (path : PyStr) : Said Analysis :=
  let t := analyseTryS env fs o fuel path
  match t.result with
  | .ok a => ⟨t.said, .ok a⟩
  | .timeout => ⟨t.said, .timeout⟩
  | .raised e => ⟨t.said ++ [failureMessage e], .ok
      { success := false, isValid := false, tests := [], props := []
        warnings := [Elem.leaf "warning" (.str (failureMessage e))]
        failure := some (failureMessage e) }⟩

/-- `checkOneFile` (`jpylyzer.py:333-471`). -/
def checkOneFileS (env : Env) (me : MixEnv) (fs : FS) (fuel : Nat) (o : Options) (mix : Nat)
    (path : PyStr) : Said Elem := do
  let info ← Said.lift (fileInfo fs path)
  let a ← analyseS env fs o fuel path
  let mixProps ← Said.lift
    (if mix ≠ 0 ∧ a.isValid = true then do
      let m ← generateMix me mix a.props
      Outcome.ok [m]
    else Outcome.ok [])
  let status := Elem.node "statusInfo"
    (Elem.leaf "success" (.str (boolStr a.success))
      :: (match a.failure with
          | some m => [Elem.leaf "failureMessage" (.str m)]
          | none => []))
  let verdict := Elem.mk "isValid" [("format", o.format.name)] (.str (boolStr a.isValid)) []
  let extension :=
    if mix ≠ 0 then
      [Elem.node "propertiesExtension"
        (if (o.format = .jp2 ∨ o.format = .jph) ∧ a.isValid = true then mixProps else [])]
    else []
  .lift (.ok (.node "file"
    ([ info, status, verdict, .node "tests" a.tests, .node "properties" a.props ]
      ++ extension ++ [ .node "warnings" a.warnings ])))

/-- The loop over the input files (`jpylyzer.py:691-704`): messages, chunks written, and how it ended. -/
def reportFilesS (check : PyStr → Said Elem) (nopretty : Bool) :
    List PyStr → List String × List Chunk × Exit
  | [] => ([], [], .done)
  | p :: ps =>
    let r := check p
    match r.result with
    | .ok e =>
      match writeElement nopretty e with
      | .ok _ =>
        let (said, out, x) := reportFilesS check nopretty ps
        (r.said ++ said, .elem e :: out, x)
      | .raised e => (r.said, [], .crash e)
      | .timeout => (r.said, [], .hang)
    | .raised e => (r.said, [], .crash e)
    | .timeout => (r.said, [], .hang)

/-- A run with its messages. -/
structure RunS where
  said : List String
  run : Run

/-- `checkFiles` (`jpylyzer.py:659-707`) with `findFiles` (`jpylyzer.py:594-597`) and `checkNoInput`
(`jpylyzer.py:485-492`). All paths are looked for before the first file is analysed. -/
def checkFilesS (env : Env) (me : MixEnv) (fs : FS) (fuel : Nat) (scriptName : String) (cfg : Config)
    (recurse : Bool) (paths : List PyStr) (existing : List PyStr) : RunS :=
  let (found, missing) := findFiles fs recurse paths
  let files := existing ++ found
  let absent := missing.map fun p => p.toText ++ " does not exist"
  if files.isEmpty then
    ⟨absent ++ ["no images to check!"], { out := [], missing := missing, exit := .code (-7), existing := files }⟩
  else
    match writeElement cfg.nopretty (toolInfo scriptName) with
    | .ok _ =>
      let (said, chunks, x) := reportFilesS (checkOneFileS env me fs fuel cfg.options cfg.mix) cfg.nopretty files
      ⟨absent ++ said,
        { out := [.head, .elem (toolInfo scriptName)] ++ chunks ++ (if x = .done then [.tail] else [])
          missing := missing, exit := x, existing := files }⟩
    | .raised e => ⟨absent, { out := [.head], missing := missing, exit := .crash e, existing := files }⟩
    | .timeout => ⟨absent, { out := [.head], missing := missing, exit := .hang, existing := files }⟩

end Jpy
