import Verif.Model.CheckFile
/-!
# Specification vocabulary for file selection and output

A directory tree, what `os.walk` gives for it, and the paths of the files in it.
-/

namespace Jpy.Spec

/-- A directory: names of its files, names and contents of its subdirectories. -/
inductive Dir where
  | mk (files : List PyStr) (dirs : List (PyStr × Dir))

def Dir.files : Dir → List PyStr | .mk f _ => f
def Dir.dirs : Dir → List (PyStr × Dir) | .mk _ d => d

/-- The separator. -/
def slash : Nat := 47

/-- A file is below a directory under a list of names: the subdirectories on the way and the file. -/
inductive FileBelow : Dir → List PyStr → Prop
  | here {d f} : f ∈ d.files → FileBelow d [f]
  | inside {d n sub rel} : (n, sub) ∈ d.dirs → FileBelow sub rel → FileBelow d (n :: rel)

/-- Path of a file below `root`. -/
def pathOf (root : PyStr) (rel : List PyStr) : PyStr := root ++ rel.flatMap fun n => slash :: n

/-- Names are not empty, contain no separator and occur once in their directory. -/
inductive WellNamed : Dir → Prop
  | mk {f d} : f.Nodup → (d.map (·.1)).Nodup → (∀ n ∈ f, slash ∉ n) → (∀ x ∈ d, slash ∉ x.1) →
      (∀ x ∈ d, WellNamed x.2) → WellNamed (.mk f d)

mutual
/-- `os.walk` (top-down): the directory, its subdirectory names and file names, then the same for each
subdirectory. -/
def walkOf (join : PyStr → PyStr → PyStr) (root : PyStr) : Dir → List (PyStr × List PyStr × List PyStr)
  | .mk f d => (root, d.map (·.1), f) :: walkDirs join root d
/-- The subdirectories in turn. -/
def walkDirs (join : PyStr → PyStr → PyStr) (root : PyStr) :
    List (PyStr × Dir) → List (PyStr × List PyStr × List PyStr)
  | [] => []
  | (n, d) :: ds => walkOf join (join root n) d ++ walkDirs join root ds
end

/-- In the file system there is, at the path `root`, a directory with this tree, and paths are put
together with one separator. -/
structure HasTree (fs : FS) (root : PyStr) (d : Dir) : Prop where
  isdir : fs.isdir root = true
  isfile : fs.isfile root = false
  isabs : fs.isabs root = true
  walk : fs.walk root = walkOf fs.join root d
  join : ∀ a b, fs.join a b = a ++ slash :: b

/-- The elements written between the tool information and the closing tag. -/
def Document (out : List Chunk) (tool : Elem) (reports : List Elem) : Prop :=
  out = [.head, .elem tool] ++ reports.map .elem ++ [.tail]

/-- The path has no wildcard. -/
def Plain (p : PyStr) : Prop := 42 ∉ p

/-- The parts of a report, in order. -/
def reportParts (mix : Nat) : List String :=
  ["fileInfo", "statusInfo", "isValid", "tests", "properties"] ++
    (if mix = 0 then [] else ["propertiesExtension"]) ++ ["warnings"]

/-- The report elements written to standard output. -/
def reportsIn (out : List Chunk) : List Elem :=
  out.filterMap fun c => match c with
    | .elem e => if e.tag = "file" then some e else none
    | _ => none

end Jpy.Spec
