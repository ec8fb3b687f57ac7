import Verif.Model.Args
/-!
# Specification of the command line

Which command lines are accepted and what they mean: the options of the user manual with the usual
conventions (names can be abbreviated, short options can be combined, values can be attached), and the
paths, all in one place.
-/

namespace Jpy.Spec

/-- The names of each option. -/
def names : Act → List String
  | .help => ["--help", "-h"]
  | .format => ["--format", "-f"]
  | .mix => ["--mix"]
  | .nopretty => ["--nopretty"]
  | .nullxml => ["--nullxml"]
  | .recurse => ["--recurse", "-r"]
  | .packetmarkers => ["--packetmarkers", "-p"]
  | .verbose => ["--verbose"]
  | .version => ["--version", "-v"]

/-- What a command line can ask for. -/
inductive Setting where
  /-- an option without value -/
  | flag (a : Act)
  /-- a format -/
  | format (v : PyStr)
  /-- a version of MIX -/
  | mix (n : Nat)

/-- The options without value that change the settings. -/
def IsFlag (a : Act) : Prop := a ∈ [Act.nopretty, .nullxml, .recurse, .packetmarkers, .verbose]

/-- The setting that option `a` with value `v` stands for: any text is a format; the version of MIX has
to be 1 or 2. -/
inductive Value (ae : ArgEnv) : Act → PyStr → Setting → Prop
  | format {v} : Value ae .format v (.format v)
  | mix1 {v} : ae.int v = some 1 → Value ae .mix v (.mix 1)
  | mix2 {v} : ae.int v = some 2 → Value ae .mix v (.mix 2)

/-- The character `c`. -/
def chr (c : Char) : Nat := c.toNat

/-- `w` names option `a`: it is one of its names, or the beginning of its long name and of no other
name. -/
def Names (a : Act) (w : PyStr) : Prop :=
  (∃ n ∈ names a, w = lit n) ∨
  (lit "--" <+: w ∧ (∃ n ∈ names a, w <+: lit n) ∧ ∀ a', ∀ n ∈ names a', w <+: lit n → a' = a)

/-- `c` is the letter of option `a`. -/
def Letter (a : Act) (c : Nat) : Prop := ∃ n ∈ names a, [chr '-', c] = lit n

/-- The part of a word before the first `=`. -/
def beforeEq (w : PyStr) : PyStr := w.takeWhile (· ≠ chr '=')

/-- A word that is an argument and not an option: it does not start with a dash, or is a single dash, or
is a negative number or contains a space and does not resemble an option: it does not start like a long
option or with the letter of a short one. -/
def Argument (ae : ArgEnv) (w : PyStr) : Prop :=
  w.head? ≠ some (chr '-') ∨ w = [chr '-'] ∨
  w ≠ lit "--" ∧ (ae.negativeNumber w = true ∨ chr ' ' ∈ w) ∧
    ∀ a, ∀ n ∈ names a, ¬ (2 ≤ (beforeEq w).length ∧ beforeEq w <+: lit n) ∧
      ¬ (n.length = 2 ∧ lit n <+: w)

/-- The words `ws` are an option, or several short ones in one word, and ask for these settings. -/
inductive OptionWords (ae : ArgEnv) : List PyStr → List Setting → Prop
  /-- `--verbose` -/
  | flag {w a} : Names a w → IsFlag a → OptionWords ae [w] [.flag a]
  /-- `--format jp2` -/
  | value {w a v x} : Names a w → Value ae a v x → Argument ae v → OptionWords ae [w, v] [x]
  /-- `--format=jp2` -/
  | equals {w a v x} : Names a w → Value ae a v x → OptionWords ae [w ++ chr '=' :: v] [x]
  /-- `-fjp2` -/
  | attached {c a v x} : Letter a c → Value ae a v x → v ≠ [] → v.head? ≠ some (chr '=') →
      OptionWords ae [chr '-' :: c :: v] [x]
  /-- `-rp`: `-r` and `-p` -/
  | cluster {c a d r ws xs} : Letter a c → IsFlag a → d ≠ chr '-' →
      OptionWords ae ((chr '-' :: d :: r) :: ws) xs →
      OptionWords ae ((chr '-' :: c :: d :: r) :: ws) (.flag a :: xs)

/-- Any number of options. -/
inductive OptionList (ae : ArgEnv) : List PyStr → List Setting → Prop
  | nil : OptionList ae [] []
  | cons {ws xs rest ys} : OptionWords ae ws xs → OptionList ae rest ys →
      OptionList ae (ws ++ rest) (xs ++ ys)

/-- A command line: options before and after the paths; or options before them, and a `--` before, among
or after the paths, which makes everything after it a path. -/
inductive CommandLine (ae : ArgEnv) : List PyStr → List Setting → List PyStr → Prop
  | plain {o₁ o₂ xs₁ xs₂ ps} : OptionList ae o₁ xs₁ → ps ≠ [] → (∀ p ∈ ps, Argument ae p) →
      OptionList ae o₂ xs₂ → CommandLine ae (o₁ ++ ps ++ o₂) (xs₁ ++ xs₂) ps
  | dashes {o xs ps qs} : OptionList ae o xs → (∀ p ∈ ps, Argument ae p) → ps ++ qs ≠ [] →
      CommandLine ae (o ++ ps ++ lit "--" :: qs) xs (ps ++ qs)

/-- The last format asked for. -/
def lastFormat (xs : List Setting) : Option PyStr :=
  (xs.filterMap fun | .format v => some v | _ => none).getLast?

/-- The last version of MIX asked for. -/
def lastMix (xs : List Setting) : Option Nat :=
  (xs.filterMap fun | .mix n => some n | _ => none).getLast?

/-- The arguments handed to the rest of the program are those asked for. -/
structure Asked (xs : List Setting) (ps : List PyStr) (a : Args) : Prop where
  fmt : a.fmt = formatText ((lastFormat xs).getD (lit "jp2"))
  mix : a.mixFlag = (lastMix xs).getD 0
  nopretty : a.nopretty = true ↔ .flag .nopretty ∈ xs
  nullxml : a.nullxml = true ↔ .flag .nullxml ∈ xs
  recurse : a.recurse = true ↔ .flag .recurse ∈ xs
  packetmarkers : a.packetmarkers = true ↔ .flag .packetmarkers ∈ xs
  verbose : a.verbose = true ↔ .flag .verbose ∈ xs
  paths : a.paths = ps

/-- The words before the first `--`. -/
def beforeDashes (ws : List PyStr) : List PyStr := ws.takeWhile (· ≠ lit "--")

/-- The word could be the beginning of several long options. -/
def Ambiguous (w : PyStr) : Prop :=
  lit "--" <+: w ∧ (∀ a, ¬ Names a (beforeEq w)) ∧ ∃ a, ∃ n ∈ names a, beforeEq w <+: lit n

end Jpy.Spec
