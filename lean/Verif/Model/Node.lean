import Verif.Model.Elem
/-! # Validator state: the three trees every `BoxValidator` builds -/

namespace Jpy

/-- `validationFormat` option (`boxvalidator.py:80`); any other string is `other`. -/
inductive Format where
  | jp2 | jph | j2c | jhc
  | other (s : String)
  deriving DecidableEq, Repr

/-- The string naming a format (`--format`, `jpylyzer.py:713-718`). -/
def Format.name : Format → String
  | jp2 => "jp2" | jph => "jph" | j2c => "j2c" | jhc => "jhc" | other s => s

/-- `self.format in ['jph', 'jhc']` -/
def Format.isHT : Format → Bool
  | jph => true | jhc => true | _ => false

/-- `self.format in ['jp2', 'j2c']` -/
def Format.isPart1 : Format → Bool
  | jp2 => true | j2c => true | _ => false

/-- The `options` dictionary handed to every `BoxValidator` (`boxvalidator.py:79-83`). -/
structure Options where
  format : Format
  verbose : Bool
  nullxml : Bool
  packetmarkers : Bool

/-- Externals that are parameters of the model; every theorem holds for all of them.
* `parseXml` — `xml.etree.ElementTree.fromstring` (expat), `none` when it raises;
* `catC ch` — `unicodedata.category(ch)[0] == "C"`;
* `floatStr` — `str()` of a Python float. -/
structure Env where
  parseXml : Bytes → Option Elem
  catC : Char → Bool
  floatStr : PyFloat → String

/-- The children of the `tests`, `characteristics` and `warnings` elements of one validator
(`boxvalidator.py:86-104`). -/
structure Node where
  tests : List Elem := []
  chars : List Elem := []
  warnings : List Elem := []

/-- One statement of a validator function that touches those trees. Leaf validators are modelled by
the list of statements they execute, in order. -/
inductive Step where
  /-- `self.testFor(name, result)` -/
  | test (name : String) (r : Bool)
  /-- `self.addCharacteristic(name, value)` -/
  | char (name : String) (v : PyVal)
  /-- `self.addWarning(msg)` -/
  | warn (msg : String)
  /-- `self.characteristics.append(e)` -/
  | elem (e : Elem)

/-- `testFor` (`boxvalidator.py:285-294`): a passed test is only recorded in verbose mode. -/
def Node.testFor (verbose : Bool) (n : Node) (name : String) (r : Bool) : Node :=
  if !verbose then
    if r = false then { n with tests := n.tests ++ [Elem.leaf name (.bool r)] } else n
  else { n with tests := n.tests ++ [Elem.leaf name (.bool r)] }

/-- `addCharacteristic` (`boxvalidator.py:296-298`). -/
def Node.addChar (n : Node) (name : String) (v : PyVal) : Node :=
  { n with chars := n.chars ++ [Elem.leaf name v] }

/-- `addWarning` (`boxvalidator.py:300-302`). -/
def Node.addWarning (n : Node) (msg : String) : Node :=
  { n with warnings := n.warnings ++ [Elem.leaf "warning" (.str msg)] }

/-- Execute one statement. -/
def Node.step (verbose : Bool) (n : Node) : Step → Node
  | .test name r => n.testFor verbose name r
  | .char name v => n.addChar name v
  | .warn msg => n.addWarning msg
  | .elem e => { n with chars := n.chars ++ [e] }

/-- Execute the statements of a leaf validator in order. -/
def Node.run (verbose : Bool) (n : Node) (ss : List Step) : Node :=
  ss.foldl (Node.step verbose) n

/-- `_getBitValue` (`boxvalidator.py:232-246`). -/
def getBitValue (n : Int) (p : Nat) (wordLength : Nat := 8) : Int := low (shr n (wordLength - p)) 1

/-- Result of `BoxValidator(...).validate()`: the tag of its trees, the trees, and the extra fields
some validators set (`boxvalidator.py:106-112`). -/
structure BoxResult where
  tag : String
  node : Node
  returnOffset : Option Int := none

/-- `resultsBox.tests` -/
def BoxResult.testsElem (r : BoxResult) : Elem := .node r.tag r.node.tests
/-- `resultsBox.characteristics` -/
def BoxResult.charsElem (r : BoxResult) : Elem := .node r.tag r.node.chars
/-- `resultsBox.warnings` -/
def BoxResult.warningsElem (r : BoxResult) : Elem := .node r.tag r.node.warnings

/-- The three statements adding a sub-result to its parent (`boxvalidator.py:415-417` and the other
superbox and marker-segment loops). -/
def Node.absorb (n : Node) (r : BoxResult) : Node :=
  { tests := Elem.appendIfNotEmpty n.tests r.testsElem
    chars := n.chars ++ [r.charsElem]
    warnings := Elem.appendIfNotEmpty n.warnings r.warningsElem }

/-- As `absorb`, without adding the characteristics (packet-marker segments when `--packetmarkers`
is off, e.g. `boxvalidator.py:1563-1567`). -/
def Node.absorbQuiet (n : Node) (r : BoxResult) : Node :=
  { n with
    tests := Elem.appendIfNotEmpty n.tests r.testsElem
    warnings := Elem.appendIfNotEmpty n.warnings r.warningsElem }

end Jpy
