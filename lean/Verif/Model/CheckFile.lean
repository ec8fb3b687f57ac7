import Verif.Model.Validate
import Verif.Model.Mix
/-! # Model of `jpylyzer/jpylyzer.py`: one file, many files, the command line -/

namespace Jpy

/-- A Python `str` as used for paths: code points, possibly lone surrogates (undecodable bytes of a
file name appear as such). -/
abbrev PyStr := List Nat

/-- Is this code point a surrogate? -/
def isSurrogate (n : Nat) : Bool := 0xD800 ≤ n && n < 0xE000

/-- UTF-8 encoding of one code point that is not a surrogate. -/
def utf8EncodeNat (n : Nat) : Bytes :=
  if n < 0x80 then [UInt8.ofNat n]
  else if n < 0x800 then [UInt8.ofNat (0xC0 + n / 64), UInt8.ofNat (0x80 + n % 64)]
  else if n < 0x10000 then
    [UInt8.ofNat (0xE0 + n / 4096), UInt8.ofNat (0x80 + n / 64 % 64), UInt8.ofNat (0x80 + n % 64)]
  else
    [UInt8.ofNat (0xF0 + n / 262144), UInt8.ofNat (0x80 + n / 4096 % 64),
     UInt8.ofNat (0x80 + n / 64 % 64), UInt8.ofNat (0x80 + n % 64)]

/-- `s.encode('utf-8')`: `none` for `UnicodeEncodeError`. -/
def encodeStrict (s : PyStr) : Option Bytes :=
  if s.any isSurrogate then none else some (s.flatMap utf8EncodeNat)

/-- `s.encode('utf-8', 'replace')`: every surrogate becomes a question mark. -/
def encodeReplace (s : PyStr) : Bytes :=
  s.flatMap fun n => if isSurrogate n then [0x3f] else utf8EncodeNat n

/-- `b.decode('utf-8', 'ignore')`. Simplification: on malformed input, which cannot occur here, the
model gives the empty string instead of skipping the malformed bytes. -/
def decodeIgnore (b : Bytes) : PyStr :=
  match utf8Decode b with
  | some cs => cs.map Char.toNat
  | none => []

/-- `stripSurrogatePairs` (`jpylyzer.py:502-513`). -/
def stripSurrogatePairs (s : PyStr) : PyStr :=
  match encodeStrict s with
  | some _ => s
  | none => decodeIgnore (encodeReplace s)

/-- A code point list as element text. Surrogates, which Lean strings cannot hold, are dropped; texts
built from it are either free of surrogates (file name and path, after `stripSurrogatePairs`) or
passed to `removeControlCharacters`, which drops them (category Cs). -/
def PyStr.toText (s : PyStr) : String :=
  String.ofList ((s.filter fun n => !isSurrogate n).map Char.ofNat)

/-- What opening and mapping a file gives (`jpylyzer.py:283-330`). -/
inductive FileRead where
  /-- the contents -/
  | data (b : Bytes)
  /-- the file exceeds the address space (`jpylyzer.py:314-322`); `gb` is the size in the message -/
  | tooLarge (gb : String)
  /-- `open` or `mmap` raised -/
  | error (e : Exn)

/-- The file system and the path functions of `os`, as parameters; theorems hold for all of them. -/
structure FS where
  isfile : PyStr → Bool
  isdir : PyStr → Bool
  isabs : PyStr → Bool
  abspath : PyStr → PyStr
  basename : PyStr → PyStr
  join : PyStr → PyStr → PyStr
  split : PyStr → PyStr × PyStr
  splitext : PyStr → PyStr × PyStr
  glob : PyStr → List PyStr
  walk : PyStr → List (PyStr × List PyStr × List PyStr)
  read : PyStr → FileRead
  getsize : PyStr → Outcome Int
  modified : PyStr → Outcome String

/-- `fileToMemoryMap` (`jpylyzer.py:293-330`): contents and warnings. `mmap` refuses empty files. -/
def fileToMemoryMap (fs : FS) (path : PyStr) : Outcome (Bytes × List String) :=
  match fs.read path with
  | .error e => .raised e
  | .tooLarge gb => .ok ([], ["file " ++ path.toText ++ " too large to open (" ++ gb ++
      " GB). Try using 64-bit Python."])
  | .data [] => .ok ([], ["empty file " ++ path.toText])
  | .data (x :: xs) => .ok (x :: xs, [])

/-- The validator run on the contents (`jpylyzer.py:388-407`). For any other format `boxType` is
unbound. -/
def validateRoot (env : Env) (o : Options) (fuel : Nat) (b : Bytes) : Outcome Node :=
  match o.format with
  | .jp2 | .jph => validateJP2 env o fuel b
  | .j2c | .jhc => codestream env o fuel b
  | .other _ => .raised .unboundLocal

/-- `failureMessage` (`jpylyzer.py:429-438`). -/
def failureMessage : Exn → String
  | .memory => "memory error (file size too large)"
  | .io => "I/O error (cannot open file)"
  | .runtime => "runtime error, please report to developers by creating " ++
      "an issue at https://github.com/openpreserve/jpylyzer/issues"
  | _ => "unknown error, please report to developers by creating " ++
      "an issue at https://github.com/openpreserve/jpylyzer/issues"

/-- The values `checkOneFile` holds after its `try` statement. -/
structure Analysis where
  success : Bool
  isValid : Bool
  tests : List Elem
  props : List Elem
  warnings : List Elem
  failure : Option String

/-- The body of the `try` (`jpylyzer.py:381-422`). -/
def analyseTry (env : Env) (fs : FS) (o : Options) (fuel : Nat) (path : PyStr) :
    Outcome Analysis := do
  let (data, fmm) ← fileToMemoryMap fs path
  let n ← validateRoot env o fuel data
  .ok { success := true
        isValid := n.isValid
        tests := makeHumanReadableL env [] n.tests
        props := makeHumanReadableL env remapTable n.chars
        warnings := makeHumanReadableL env []
          (n.warnings ++ fmm.map fun w => Elem.leaf "warning" (.str w))
        failure := none }

/-- The `try` statement with its handler (`jpylyzer.py:381-444`). -/
def analyse (env : Env) (fs : FS) (o : Options) (fuel : Nat) (path : PyStr) : Outcome Analysis :=
  match analyseTry env fs o fuel path with
  | .ok a => .ok a
  | .timeout => .timeout
  | .raised e => .ok
      { success := false, isValid := false, tests := [], props := []
        warnings := [Elem.leaf "warning" (.str (failureMessage e))]
        failure := some (failureMessage e) }

/-- `fileInfo` (`jpylyzer.py:348-374`); `getsize` is outside the `try`. The workaround for old dates
is inside `fs.modified`. -/
def fileInfo (fs : FS) (path : PyStr) : Outcome Elem := do
  let size ← fs.getsize path
  let modified ← fs.modified path
  .ok (.node "fileInfo"
    [ .leaf "fileName" (.str (PyStr.toText (stripSurrogatePairs (fs.basename path)))),
      .leaf "filePath" (.str (PyStr.toText (stripSurrogatePairs (fs.abspath path)))),
      .leaf "fileSizeInBytes" (.str (toString size)),
      .leaf "fileLastModified" (.str modified) ])

/-- `checkOneFile` (`jpylyzer.py:333-471`). -/
def checkOneFile (env : Env) (me : MixEnv) (fs : FS) (fuel : Nat) (o : Options) (mix : Nat)
    (path : PyStr) : Outcome Elem := do
  let info ← fileInfo fs path
  let a ← analyse env fs o fuel path
  let mixProps ←
    if mix ≠ 0 ∧ a.isValid = true then do
      let m ← generateMix me mix a.props
      Outcome.ok [m]
    else Outcome.ok []
  let status := Elem.node "statusInfo"
    (Elem.leaf "success" (.str (boolStr a.success))
      :: (match a.failure with
          | some m => [Elem.leaf "failureMessage" (.str m)]
          | none => []))
  let verdict := Elem.mk "isValid" [("format", o.format.name)] (.str (boolStr a.isValid)) []
  let extension :=
    if mix ≠ 0 then
      [Elem.node "propertiesExtension"
        (if (o.format = .jp2 ∨ o.format = .jph) ∧ a.isValid = true then mixProps else [])]
    else []
  .ok (.node "file"
    ([ info, status, verdict, .node "tests" a.tests, .node "properties" a.props ]
      ++ extension ++ [ .node "warnings" a.warnings ]))

/-- The wildcard `*`. -/
def star : Nat := 42

/-- `getFiles` (`jpylyzer.py:516-521`): the paths appended to `EXISTING_FILES`. -/
def getFiles (fs : FS) (pattern : PyStr) : List PyStr := (fs.glob pattern).filter fs.isfile

/-- `getFilesWithPatternFromTree` (`jpylyzer.py:524-535`). -/
def getFilesWithPatternFromTree (fs : FS) (root pattern : PyStr) : List PyStr :=
  (fs.walk root).flatMap fun (dirname, dirnames, _) =>
    dirnames.flatMap fun sub => getFiles fs (fs.join (fs.join dirname sub) pattern)

/-- `getFilesFromTree` (`jpylyzer.py:538-551`). -/
def getFilesFromTree (fs : FS) (root : PyStr) : List PyStr :=
  (fs.walk root).flatMap fun (dirname, _, filenames) => filenames.map (fs.join dirname)

/-- The first half of the body of `findFiles` (`jpylyzer.py:561-597`): appended paths, the new value
of `root`, and the path warned about. -/
def findFilesDirect (fs : FS) (root : PyStr) : List PyStr × PyStr × List PyStr :=
  if fs.isfile root then ([root], root, [])
  else if star ∈ root then
    let root := if fs.isabs root then root else fs.abspath root
    let filesList := fs.glob root
    match filesList with
    | [f] => ((if fs.isfile f then [f] else []), (if fs.isdir f then f else root), [])
    | _ => ((if filesList.length > 1 then filesList.filter fs.isfile else []), root, [])
  else if !fs.isdir root && !fs.isfile root then ([], root, [root])
  else ([], root, [])

/-- The recursive half (`jpylyzer.py:599-632`). -/
def findFilesRecurse (fs : FS) (root : PyStr) : List PyStr :=
  let root := if fs.isabs root then root else fs.abspath root
  if star ∈ root then
    let (path, filePattern) := fs.split root
    let nameExt := fs.splitext filePattern
    if star ∈ path then
      match fs.glob path with
      | [f] => getFilesWithPatternFromTree fs f filePattern
      | fp => fp.flatMap fun f =>
          if fs.isdir f then getFilesWithPatternFromTree fs f filePattern else []
    else if star ∈ filePattern then getFilesWithPatternFromTree fs path filePattern
    else if nameExt.1 = [star] ∨ nameExt.2 = [star] then
      getFilesWithPatternFromTree fs path (star :: nameExt.2)
    else []
  else if fs.isdir root then getFilesFromTree fs root
  else []

/-- `findFiles` (`jpylyzer.py:554-632`): appended paths and paths warned about. -/
def findFiles (fs : FS) (recurse : Bool) : List PyStr → List PyStr × List PyStr
  | [] => ([], [])
  | root :: rest =>
    let (files, root', warned) := findFilesDirect fs root
    let more := if recurse then findFilesRecurse fs root' else []
    let (files', warned') := findFiles fs recurse rest
    (files ++ more ++ files', warned ++ warned')

/-- The settings of `config.py` that `main` writes and `checkFiles` reads. -/
structure Config where
  format : Format
  verbose : Bool
  packetmarkers : Bool
  nullxml : Bool
  mix : Nat
  nopretty : Bool

/-- Is this character allowed in XML 1.0 (production `Char`)? Lean characters are never surrogates. -/
def xmlChar (c : Char) : Bool :=
  c == '\t' || c == '\n' || c == '\r' || (0x20 ≤ c.toNat && c.toNat != 0xFFFE && c.toNat != 0xFFFF)

/-- Can `ET.tostring` serialise this text? It raises `TypeError` for texts other than strings and
`None`. -/
def serialisable : PyVal → Bool
  | .none | .str _ => true
  | _ => false

/-- Does expat accept the serialised texts and attributes of this element? `ET.tostring` escapes markup
but writes every other character as it is. Simplification: tags and attribute names are taken to be
well-formed; they are constants or come from parsed XML. -/
def parseable (e : Elem) : Bool :=
  (match e.text with | .str s => s.toList.all xmlChar | _ => true) &&
  (e.attrs.all fun a => a.2.toList.all xmlChar) && e.tail.toList.all xmlChar

/-- `writeElement` (`jpylyzer.py:635-656`): serialisation and, unless switched off, pretty-printing,
which parses the serialised text again. The characters written are in `Model/Write.lean`. -/
def writeElement (nopretty : Bool) (e : Elem) : Outcome Unit :=
  if e.iter.all fun x => serialisable x.text then
    if nopretty then .ok ()
    else if e.iter.all parseable then .ok () else .raised .expat
  else .raised .typeError

/-- What is written to standard output: the XML head with the opening tag, serialised elements, the
closing tag. -/
inductive Chunk where
  | head
  | elem (e : Elem)
  | tail

/-- How a run ends. -/
inductive Exit where
  /-- `main` returned -/
  | done
  /-- `sys.exit(code)` -/
  | code (c : Int)
  /-- uncaught exception -/
  | crash (e : Exn)
  /-- no result within the fuel -/
  | hang
  deriving DecidableEq

/-- Observable result of a run: standard output, the paths warned about, the exit, and the new value
of the module global `EXISTING_FILES`. -/
structure Run where
  out : List Chunk
  missing : List PyStr
  exit : Exit
  existing : List PyStr

/-- The options handed to `checkOneFile` by `checkFiles` (`jpylyzer.py:696-701`). -/
def Config.options (c : Config) : Options :=
  { format := c.format, verbose := c.verbose, nullxml := c.nullxml,
    packetmarkers := c.packetmarkers }

/-- The loop over the input files (`jpylyzer.py:691-704`): chunks written, and how it ended. -/
def reportFiles (check : PyStr → Outcome Elem) (nopretty : Bool) : List PyStr → List Chunk × Exit
  | [] => ([], .done)
  | p :: ps =>
    match check p with
    | .ok e =>
      match writeElement nopretty e with
      | .ok _ =>
        let (out, x) := reportFiles check nopretty ps
        (.elem e :: out, x)
      | .raised e => ([], .crash e)
      | .timeout => ([], .hang)
    | .raised e => ([], .crash e)
    | .timeout => ([], .hang)

/-- The `toolInfo` element (`jpylyzer.py:686-688`). -/
def toolInfo (scriptName : String) : Elem :=
  .node "toolInfo" [.leaf "toolName" (.str scriptName), .leaf "toolVersion" (.str "2.2.1")]

/-- `checkFiles` (`jpylyzer.py:659-707`), given the value of `EXISTING_FILES` left by earlier calls. -/
def checkFiles (env : Env) (me : MixEnv) (fs : FS) (fuel : Nat) (scriptName : String) (cfg : Config)
    (recurse : Bool) (paths : List PyStr) (existing : List PyStr) : Run :=
  let (found, missing) := findFiles fs recurse paths
  let files := existing ++ found
  if files.isEmpty then { out := [], missing := missing, exit := .code (-7), existing := files }
  else
    match writeElement cfg.nopretty (toolInfo scriptName) with
    | .ok _ =>
      let (chunks, x) := reportFiles (checkOneFile env me fs fuel cfg.options cfg.mix) cfg.nopretty files
      { out := [.head, .elem (toolInfo scriptName)] ++ chunks ++ (if x = .done then [.tail] else [])
        missing := missing, exit := x, existing := files }
    | .raised e => { out := [.head], missing := missing, exit := .crash e, existing := files }
    | .timeout => { out := [.head], missing := missing, exit := .hang, existing := files }

/-- Parsed command line (`jpylyzer.py:710-763`). -/
structure Args where
  fmt : String
  mixFlag : Nat
  nullxml : Bool
  recurse : Bool
  packetmarkers : Bool
  verbose : Bool
  nopretty : Bool
  paths : List PyStr

/-- The format named by a (lower-cased) string. -/
def Format.ofName (s : String) : Format :=
  if s = "jp2" then .jp2 else if s = "jph" then .jph else if s = "j2c" then .j2c
  else if s = "jhc" then .jhc else .other s

/-- `main` (`jpylyzer.py:766-801`) after argument parsing, in a fresh process running Python 3. The
first test never succeeds: `nargs='+'` (`jpylyzer.py:755`) refuses an empty list of paths. `mixFlag` is
0, 1 or 2 (`jpylyzer.py:719-720`).
`lower` is `str.lower`. `errorExit` (`shared.py:28-32`) exits with status 0. -/
def main (env : Env) (me : MixEnv) (fs : FS) (fuel : Nat) (scriptName : String)
    (lower : String → String) (a : Args) : Run :=
  if a.paths.isEmpty then { out := [], missing := [], exit := .code 0, existing := [] }
  else
    match Format.ofName (lower a.fmt) with
    | .other _ => { out := [], missing := [], exit := .code 0, existing := [] }
    | f =>
      let mix := if f = .j2c ∨ f = .jhc then 0 else a.mixFlag
      checkFiles env me fs fuel scriptName
        { format := f, verbose := a.verbose, packetmarkers := a.packetmarkers,
          nullxml := a.nullxml, mix := mix, nopretty := a.nopretty } a.recurse a.paths []

end Jpy
