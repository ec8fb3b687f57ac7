import Verif.Model.CheckFile
/-!
# Model of the command line: `parseCommandLine` (`jpylyzer.py:710-763`)

The options are declared in `jpylyzer.py:713-757`; what the declarations mean is decided by `argparse`,
modelled here as in CPython 3.11 (`argparse.py`, line numbers of that file), for the features that
`jpylyzer` uses: options without value or with one value, prefix matching of long options, clusters of
short options, one list of positional arguments, `--`.
-/

namespace Jpy

/-- The library functions that are parameters of the model: `int` of a string (`none`: `ValueError`), and
the regular expression `^-\d+$|^-\d*\.\d+$` for negative numbers (`argparse.py`, `_negative_number_matcher`). -/
structure ArgEnv where
  int : PyStr → Option Int
  negativeNumber : PyStr → Bool

/-- The options (`jpylyzer.py:713-750`), with `--help` that `ArgumentParser` adds (`jpylyzer.py:62`). -/
inductive Act where
  | help | format | mix | nopretty | nullxml | recurse | packetmarkers | verbose | version
  deriving DecidableEq, Repr

/-- A Python string literal. -/
def lit (s : String) : PyStr := s.toList.map Char.toNat

/-- `_option_string_actions`: the option strings in the order of declaration (`jpylyzer.py:713-750`). -/
def optionStrings : List (PyStr × Act) :=
  [ (lit "-h", .help), (lit "--help", .help),
    (lit "--format", .format), (lit "-f", .format),
    (lit "--mix", .mix),
    (lit "--nopretty", .nopretty),
    (lit "--nullxml", .nullxml),
    (lit "--recurse", .recurse), (lit "-r", .recurse),
    (lit "--packetmarkers", .packetmarkers), (lit "-p", .packetmarkers),
    (lit "--verbose", .verbose),
    (lit "--version", .version), (lit "-v", .version) ]

/-- The `add_argument` calls with option strings in `parseCommandLine` (`jpylyzer.py:713-750`). -/
def addArgumentCalls : List (List PyStr × Act) :=
  [ ([lit "--format", lit "-f"], .format),
    ([lit "--mix"], .mix),
    ([lit "--nopretty"], .nopretty),
    ([lit "--nullxml"], .nullxml),
    ([lit "--recurse", lit "-r"], .recurse),
    ([lit "--packetmarkers", lit "-p"], .packetmarkers),
    ([lit "--verbose"], .verbose),
    ([lit "--version", lit "-v"], .version) ]

/-- `PARSER` when the module has been imported (`jpylyzer.py:62`): `ArgumentParser` adds `--help`. -/
def parserAtImport : List (PyStr × Act) := [(lit "-h", .help), (lit "--help", .help)]

/-- The declarations of `parseCommandLine` (`jpylyzer.py:713-750`) on a parser that knows these option
strings. `none`: `add_argument` raises `ArgumentError`, because an option string is known already
(`argparse.py`, `_check_conflict` with the conflict handler `error`). -/
def declare : List (List PyStr × Act) → List (PyStr × Act) → Option (List (PyStr × Act))
  | [], known => some known
  | (ns, a) :: calls, known =>
    if ns.any fun n => known.any fun k => k.1 == n then none
    else declare calls (known ++ ns.map fun n => (n, a))

/-- Does the option take a value? `nargs` is `None` for `--format` and `--mix` and 0 for the others
(`store_true`, `help`, `version`). -/
def Act.takesValue : Act → Bool
  | .format | .mix => true
  | _ => false

/-- How the program ends while parsing: an error message and exit code 2 (`ArgumentParser.error`), the
help text (`--help`) or the version (`--version`), both with exit code 0. -/
inductive CmdExit where
  | usage | help | version
  deriving DecidableEq, Repr

/-- `_option_string_actions[s]`. -/
def findOption (s : PyStr) : Option Act := (optionStrings.find? fun x => x.1 == s).map (·.2)

/-- What `_parse_optional` says about an option word: the action (`none`: no such option), the option
string, and the text attached with the separator it is attached with. -/
structure Hit where
  act : Option Act
  name : PyStr
  sep : Option PyStr
  explicit : Option PyStr
  deriving DecidableEq, Repr

/-- `str.partition('=')`: what is before and, if there is a `=`, after the first one. -/
def partitionEq : PyStr → PyStr × Option PyStr
  | [] => ([], none)
  | c :: s => if c = 61 then ([], some s) else let r := partitionEq s; (c :: r.1, r.2)

/-- `_get_option_tuples` (`argparse.py:2280-2320`), for a word of at least two characters that starts
with a dash. -/
def optionTuples (w : PyStr) : List Hit :=
  match w with
  | _ :: 45 :: _ =>
    let (pre, e) := partitionEq w
    (optionStrings.filter fun x => pre.isPrefixOf x.1).map fun x => ⟨some x.2, x.1, e.map fun _ => [61], e⟩
  | _ =>
    optionStrings.filterMap fun x =>
      if x.1 = w.take 2 then some ⟨some x.2, x.1, some [], some (w.drop 2)⟩
      else if w.isPrefixOf x.1 then some ⟨some x.2, x.1, none, none⟩
      else none

/-- `_parse_optional` (`argparse.py:2225-2278`): is the word an option (`some`) or an argument (`none`)?
An ambiguous abbreviation is an error. -/
def parseOptional (ae : ArgEnv) (w : PyStr) : Except CmdExit (Option Hit) :=
  match w with
  | [] => .ok none
  | c :: r =>
    if c ≠ 45 then .ok none
    else match findOption w with
    | some a => .ok (some ⟨some a, w, none, none⟩)
    | none =>
      if r = [] then .ok none
      else match (partitionEq w).2.bind fun e => (findOption (partitionEq w).1).map fun a => (a, e) with
      | some (a, e) => .ok (some ⟨some a, (partitionEq w).1, some [61], some e⟩)
      | none =>
        match optionTuples w with
        | [h] => .ok (some h)
        | _ :: _ :: _ => .error .usage
        | [] =>
          if ae.negativeNumber w then .ok none
          else if w.contains 32 then .ok none
          else .ok (some ⟨none, w, none, none⟩)

/-- The letters of `arg_strings_pattern` (`argparse.py:1939-1962`): `-` for the first `--`, `A` for an
argument, `O` for an option. -/
inductive Tok where
  | dashes | arg | opt (h : Hit)
  deriving DecidableEq, Repr

/-- The pattern, together with the words (`argparse.py:1939-1962`). All words after `--` are arguments. -/
def pattern (ae : ArgEnv) : List PyStr → Except CmdExit (List (PyStr × Tok))
  | [] => .ok []
  | w :: ws =>
    if w = lit "--" then .ok ((w, .dashes) :: ws.map fun x => (x, .arg))
    else do
      let o ← parseOptional ae w
      let rest ← pattern ae ws
      .ok ((w, match o with | none => .arg | some h => .opt h) :: rest)

/-- The namespace: values of the options so far, and the paths once they have been found. -/
structure Space where
  fmt : PyStr
  mix : Int
  nopretty : Bool
  nullxml : Bool
  recurse : Bool
  packetmarkers : Bool
  verbose : Bool
  deriving DecidableEq, Repr

/-- The defaults (`jpylyzer.py:713-750`). -/
def Space.default : Space := ⟨lit "jp2", 0, false, false, false, false, false⟩

/-- `take_action` (`argparse.py:1968-1987`) with `_get_values` for an option: values are converted with
`str` or `int`, and the value of `--mix` has to be 1 or 2 (`jpylyzer.py:719-720`). -/
def takeAction (ae : ArgEnv) (a : Act) (args : List PyStr) (s : Space) : Except CmdExit Space :=
  match a with
  | .help => .error .help
  | .version => .error .version
  | .format => match args with
    | [v] => .ok { s with fmt := v }
    | _ => .error .usage
  | .mix => match args with
    | [v] => match ae.int v with
      | some i => if i = 1 ∨ i = 2 then .ok { s with mix := i } else .error .usage
      | none => .error .usage
    | _ => .error .usage
  | .nopretty => .ok { s with nopretty := true }
  | .nullxml => .ok { s with nullxml := true }
  | .recurse => .ok { s with recurse := true }
  | .packetmarkers => .ok { s with packetmarkers := true }
  | .verbose => .ok { s with verbose := true }

/-- A sequence of actions (`argparse.py:2060-2061`). -/
def takeActions (ae : ArgEnv) : List (Act × List PyStr) → Space → Except CmdExit Space
  | [], s => .ok s
  | (a, args) :: as, s => do takeActions ae as (← takeAction ae a args s)

/-- The last case of `consume_optional` (`argparse.py:2049-2055`): no attached text, so the value, if
one is needed, is the next word, which has to be an argument. -/
def separate (a : Act) (rest : List (PyStr × Tok)) :
    Except CmdExit (List (Act × List PyStr) × List (PyStr × Tok)) :=
  if a.takesValue then
    match rest with
    | (v, .arg) :: rest => .ok ([(a, [v])], rest)
    | _ => .error .usage
  else .ok ([(a, [])], rest)

/-- The loop of `consume_optional` (`argparse.py:1998-2055`) for an option with attached text `e`
(`sep`: with which separator). Gives the actions to take, the words not recognised and the words left. -/
def attached (name : PyStr) (rest : List (PyStr × Tok)) (a : Act) (sep : PyStr) (e : PyStr) :
    Except CmdExit (List (Act × List PyStr) × List PyStr × List (PyStr × Tok)) :=
  if a.takesValue then .ok ([(a, [e])], [], rest)
  else match e with
    | [] => .error .usage
    | c :: e' =>
      if name.drop 1 |>.head? |>.any (· = 45) then .error .usage
      else if sep ≠ [] ∨ c = 45 then .error .usage
      else match findOption [45, c] with
      | none => .ok ([(a, [])], [45 :: c :: e'], rest)
      | some a' =>
        match e' with
        | [] => do
          let (as, r) ← separate a' rest
          .ok ((a, []) :: as, [], r)
        | 61 :: e'' => do
          let (as, x, r) ← attached [45, c] rest a' [61] e''
          .ok ((a, []) :: as, x, r)
        | c' :: e'' => do
          let (as, x, r) ← attached [45, c] rest a' [] (c' :: e'')
          .ok ((a, []) :: as, x, r)

/-- `consume_optional` (`argparse.py:1990-2062`). -/
def consumeOptional (ae : ArgEnv) (w : PyStr) (h : Hit) (rest : List (PyStr × Tok)) (s : Space) :
    Except CmdExit (Space × List PyStr × List (PyStr × Tok)) :=
  match h.act with
  | none => .ok (s, [w], rest)
  | some a =>
    match h.explicit with
    | some e => do
      let (as, x, r) ← attached h.name rest a (h.sep.getD []) e
      .ok (← takeActions ae as s, x, r)
    | none => do
      let (as, r) ← separate a rest
      .ok (← takeActions ae as s, [], r)

/-- Is this an option? -/
def Tok.isOpt : Tok → Bool
  | .opt _ => true
  | _ => false

/-- Is this an argument? -/
def Tok.isArg : Tok → Bool
  | .arg => true
  | _ => false

/-- `consume_positionals` (`argparse.py:2069-2086`) with the pattern `(-*A[A-]*)` of `nargs='+'`: the
words up to the next option, provided that there is an argument among them. There is only one positional;
once it has its value nothing more is consumed. `_get_values` removes the first `--`. -/
def consumePositionals (paths : Option (List PyStr)) (ts : List (PyStr × Tok)) :
    Option (List PyStr) × List (PyStr × Tok) :=
  match paths with
  | some p => (some p, ts)
  | none =>
    let run := ts.takeWhile fun t => !t.2.isOpt
    if run.any fun t => t.2.isArg then (some ((run.map (·.1)).erase (lit "--")), ts.drop run.length)
    else (none, ts)

/-- The main loop (`argparse.py:2096-2131`), while there are options left, and what follows it. Gives
the namespace, the paths and the words not recognised. Each round consumes a word, so that the fuel, the
number of words, is sufficient. -/
def argLoop (ae : ArgEnv) : Nat → List (PyStr × Tok) → Space → Option (List PyStr) → List PyStr →
    Except CmdExit (Space × Option (List PyStr) × List PyStr)
  | 0, _, _, _, _ => .error .usage
  | fuel + 1, ts, s, paths, extras =>
    if ts.any fun t => t.2.isOpt then
      match ts with
      | (w, .opt h) :: rest => do
        let (s', x, r) ← consumeOptional ae w h rest s
        argLoop ae fuel r s' paths (extras ++ x)
      | _ =>
        let (paths', ts') := consumePositionals paths ts
        if ts'.length < ts.length then argLoop ae fuel ts' s paths' extras
        else
          argLoop ae fuel (ts.dropWhile fun t => !t.2.isOpt) s paths
            (extras ++ (ts.takeWhile fun t => !t.2.isOpt).map (·.1))
    else
      let (paths', ts') := consumePositionals paths ts
      .ok (s, paths', extras ++ ts'.map (·.1))

/-- The value of `--format` as text. Surrogates, which Lean strings cannot hold, become U+FFFD: neither
occurs in the name of a supported format. -/
def formatText (s : PyStr) : String :=
  String.ofList (s.map fun n => if isSurrogate n then Char.ofNat 0xFFFD else Char.ofNat n)

/-- `parseCommandLine` (`jpylyzer.py:710-763`) on `sys.argv[1:]`: `parse_args` is `parse_known_args`
followed by an error if there are words that were not recognised. -/
def parseCommandLine (ae : ArgEnv) (argv : List PyStr) : Except CmdExit Args := do
  let ts ← pattern ae argv
  let (s, paths, extras) ← argLoop ae (argv.length + 1) ts .default none []
  match paths with
  | none => .error .usage
  | some p =>
    if extras ≠ [] then .error .usage
    else .ok { fmt := formatText s.fmt, mixFlag := s.mix.toNat, nullxml := s.nullxml, recurse := s.recurse,
               packetmarkers := s.packetmarkers, verbose := s.verbose, nopretty := s.nopretty, paths := p }

/-- What a run of the program from the command line does: it ends while the command line is parsed, or
does what `main` (`jpylyzer.py:766-801`) does after that. -/
inductive CliRun where
  | stopped (e : CmdExit)
  | ran (r : Run)

/-- `main` (`jpylyzer.py:766-801`) from the command line. -/
def cli (ae : ArgEnv) (env : Env) (me : MixEnv) (fs : FS) (fuel : Nat) (scriptName : String)
    (lower : String → String) (argv : List PyStr) : CliRun :=
  match parseCommandLine ae argv with
  | .ok a => .ran (main env me fs fuel scriptName lower a)
  | .error e => .stopped e

/-- Calls of `main` one after the other in one process: the parser is a module variable
(`jpylyzer.py:62`), so that each call declares the options again. `none`: the call raises
`ArgumentError` before anything else. A call that is the first to succeed works with the options declared
and with the empty list `EXISTING_FILES`. -/
def mains (ae : ArgEnv) (env : Env) (me : MixEnv) (fs : FS) (fuel : Nat) (scriptName : String)
    (lower : String → String) : List (List PyStr) → List (PyStr × Act) → List (Option CliRun)
  | [], _ => []
  | argv :: rest, known =>
    match declare addArgumentCalls known with
    | none => none :: mains ae env me fs fuel scriptName lower rest known
    | some k => some (cli ae env me fs fuel scriptName lower argv) :: mains ae env me fs fuel scriptName lower rest k

end Jpy
