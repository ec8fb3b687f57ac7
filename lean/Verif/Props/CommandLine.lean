import Verif.Spec.Tree
import Verif.Spec.Ratio
import Verif.Lemmas.Report
import Verif.Lemmas.Tree
import Verif.Lemmas.Sample
/-!
# File selection and output: C43 to C46
-/

set_option linter.unusedSimpArgs false

namespace Jpy
open Spec

/-! ## C43 -/

/-- C43 (no recursion): plain paths are selected if and only if they are existing files, in the order
given, and a warning is given for exactly those that are neither a file nor a directory. -/
theorem C43_plain (fs : FS) (paths : List PyStr) (h : ∀ p ∈ paths, Plain p) :
    findFiles fs false paths =
      (paths.filter fs.isfile, paths.filter fun p => !fs.isfile p && !fs.isdir p) := by
  induction paths with
  | nil => rfl
  | cons p ps ih =>
    rw [findFiles, ih fun q hq => h q (by simp [hq])]
    have hp : ¬ star ∈ p := h p (by simp)
    unfold findFilesDirect
    by_cases h1 : fs.isfile p = true
    · simp [h1]
    · rw [Bool.not_eq_true] at h1
      by_cases h2 : fs.isdir p = true
      · simp [h1, h2, hp]
      · rw [Bool.not_eq_true] at h2
        simp [h1, h2, hp]

/-- C43 (wildcards): without recursion, a path with a wildcard that is not itself a file stands for the
files among its expansions. -/
theorem C43_wildcard (fs : FS) (paths : List PyStr) :
    (findFiles fs false paths).1 = paths.flatMap fun p =>
      if fs.isfile p then [p]
      else if 42 ∈ p then (fs.glob (if fs.isabs p then p else fs.abspath p)).filter fs.isfile
      else [] := by
  induction paths with
  | nil => rfl
  | cons p ps ih =>
    rw [findFiles, List.flatMap_cons, ← ih]
    have key : (findFilesDirect fs p).1 = if fs.isfile p then [p]
      else if 42 ∈ p then (fs.glob (if fs.isabs p then p else fs.abspath p)).filter fs.isfile
      else [] := by
      unfold findFilesDirect
      by_cases h1 : fs.isfile p = true
      · simp [h1]
      · by_cases h2 : 42 ∈ p
        · have h2' : star ∈ p := h2
          rw [if_neg h1, if_neg h1, if_pos h2, if_pos h2']
          simp only
          generalize fs.glob _ = g
          match g with
          | [] => rfl
          | [f] => by_cases hf : fs.isfile f = true <;> simp [hf]
          | f :: f' :: r => simp
        · have h2' : ¬ star ∈ p := h2
          rw [if_neg h1, if_neg h1, if_neg h2, if_neg h2']
          split <;> rfl
    simp only [key]
    simp

/-- C43 (recursion): for a directory given with recursion, exactly the files below it are selected, each
once, and nothing is warned about. -/
theorem C43_tree {fs : FS} {root : PyStr} {d : Dir} (hd : HasTree fs root d) (hw : WellNamed d)
    (hp : Plain root) :
    (∀ p, p ∈ (findFiles fs true [root]).1 ↔ ∃ rel, FileBelow d rel ∧ p = pathOf root rel) ∧
    (findFiles fs true [root]).1.Nodup ∧ (findFiles fs true [root]).2 = [] := by
  have hs : ¬ star ∈ root := hp
  have e : findFiles fs true [root] = ((relsOf d).map (pathOf root), []) := by
    rw [findFiles, findFiles]
    unfold findFilesDirect findFilesRecurse getFilesFromTree
    simp [hd.isfile, hd.isdir, hd.isabs, hs, hd.walk]
    exact walk_files fs.join hd.join d root
  rw [e]
  refine ⟨fun p => ?_, paths_nodup hw root, rfl⟩
  rw [List.mem_map]
  constructor
  · rintro ⟨rel, hr, rfl⟩
    exact ⟨rel, relsOf_sound d rel hr, rfl⟩
  · rintro ⟨rel, hr, rfl⟩
    exact ⟨rel, relsOf_complete hr, rfl⟩

/-- C43 (several arguments): every argument is expanded on its own, in the order given. -/
theorem C43_arguments (fs : FS) (recurse : Bool) (paths : List PyStr) :
    findFiles fs recurse paths =
      (paths.flatMap fun p => (findFiles fs recurse [p]).1, paths.flatMap fun p => (findFiles fs recurse [p]).2) := by
  induction paths with
  | nil => rfl
  | cons p ps ih =>
    rw [findFiles, ih]
    simp only [List.flatMap_cons, findFiles, List.append_nil]

/-! ## C46 -/

/-- C46 (report): a report has its parts in the documented order. -/
theorem C46_report {env : Env} {me : MixEnv} {fs : FS} {fuel : Nat} {o : Options} {mix : Nat} {path : PyStr}
    {rep : Elem} (h : checkOneFile env me fs fuel o mix path = .ok rep) :
    rep.tag = "file" ∧ rep.children.map (·.tag) = reportParts mix := by
  obtain ⟨info, a, m, h1, h2, h3, rfl⟩ := checkOneFile_ok.1 h
  refine ⟨rfl, ?_⟩
  have hi := fileInfo_tag h1
  unfold buildReport extensionOf reportParts
  by_cases hm : mix = 0 <;> simp [hm, hi, Elem.node]

theorem reportFiles_ok {check : PyStr → Outcome Elem} {np : Bool} : ∀ {files : List PyStr},
    (∀ p ∈ files, ∃ e, check p = .ok e ∧ writeElement np e = .ok ()) →
    ∃ reps, inTurn check files = .ok reps ∧ reportFiles check np files = (reps.map .elem, .done)
  | [], _ => ⟨[], rfl, rfl⟩
  | p :: ps, h => by
    obtain ⟨e, he, hw⟩ := h p (by simp)
    obtain ⟨reps, h1, h2⟩ := reportFiles_ok (check := check) (np := np) (files := ps)
      fun q hq => h q (by simp [hq])
    refine ⟨e :: reps, ?_, ?_⟩
    · rw [inTurn, he, h1]; rfl
    · rw [reportFiles, he]
      simp only [hw, h2]
      rfl

/-- When a report cannot be made or written, the output ends with the report before. -/
theorem reportFiles_stop {check : PyStr → Outcome Elem} {np : Bool} {files : List PyStr} {out : List Chunk} {x : Exit}
    (h : reportFiles check np files = (out, x)) (hx : x ≠ .done) :
    ∃ pre p post reps, files = pre ++ p :: post ∧ inTurn check pre = .ok reps ∧ out = reps.map .elem ∧
      ¬ ∃ e, check p = .ok e ∧ writeElement np e = .ok () := by
  induction files generalizing out x with
  | nil => cases h; exact absurd rfl hx
  | cons p ps ih =>
    rw [reportFiles] at h
    split at h
    · rename_i e he
      split at h
      · rename_i hw
        generalize hr : reportFiles check np ps = r at h
        obtain ⟨out', x'⟩ := r
        simp only [Prod.mk.injEq] at h
        obtain ⟨rfl, rfl⟩ := h
        obtain ⟨pre, q, post, reps, rfl, h1, rfl, h2⟩ := ih hr hx
        refine ⟨p :: pre, q, post, e :: reps, rfl, ?_, rfl, h2⟩
        rw [inTurn, he, h1]; rfl
      · rename_i hw
        cases h
        refine ⟨[], p, ps, [], rfl, rfl, rfl, ?_⟩
        rintro ⟨e', he', hw'⟩
        rw [he] at he'; cases he'
        rw [hw] at hw'; cases hw'
      · rename_i hw
        cases h
        refine ⟨[], p, ps, [], rfl, rfl, rfl, ?_⟩
        rintro ⟨e', he', hw'⟩
        rw [he] at he'; cases he'
        rw [hw] at hw'; cases hw'
    · rename_i he
      cases h
      refine ⟨[], p, ps, [], rfl, rfl, rfl, ?_⟩
      rintro ⟨e', he', -⟩
      rw [he] at he'; cases he'
    · rename_i he
      cases h
      refine ⟨[], p, ps, [], rfl, rfl, rfl, ?_⟩
      rintro ⟨e', he', -⟩
      rw [he] at he'; cases he'

section
variable {env : Env} {me : MixEnv} {fs : FS} {fuel : Nat} {tool : String} {cfg : Config} {recurse : Bool}
  {paths existing : List PyStr}

/-- C46: if a report of every selected file can be made and written, the output is one document: the
head, the tool information, one report for each selected file in the order of selection, and the closing
tag. Missing: a file for which no report can be made or written (`C46_false`). -/
theorem C46_document_partial (hne : existing ++ (findFiles fs recurse paths).1 ≠ [])
    (htool : writeElement cfg.nopretty (toolInfo tool) = .ok ())
    (hall : ∀ p ∈ existing ++ (findFiles fs recurse paths).1, ∃ rep,
      checkOneFile env me fs fuel cfg.options cfg.mix p = .ok rep ∧ writeElement cfg.nopretty rep = .ok ()) :
    ∃ reps, Document (checkFiles env me fs fuel tool cfg recurse paths existing).out (toolInfo tool) reps ∧
      (checkFiles env me fs fuel tool cfg recurse paths existing).exit = .done ∧
      inTurn (checkOneFile env me fs fuel cfg.options cfg.mix) (existing ++ (findFiles fs recurse paths).1) =
        .ok reps := by
  obtain ⟨reps, h1, h2⟩ := reportFiles_ok hall
  refine ⟨reps, ?_, ?_, h1⟩
  all_goals
    unfold checkFiles
    simp only
    rw [if_neg (by simpa using hne)]
    simp only [htool, h2]
  unfold Document
  simp

/-- What is written otherwise: reports for the files before one for which no report can be made or
written, and no closing tag. -/
theorem C46_stop (hne : existing ++ (findFiles fs recurse paths).1 ≠ [])
    (htool : writeElement cfg.nopretty (toolInfo tool) = .ok ())
    (hexit : (checkFiles env me fs fuel tool cfg recurse paths existing).exit ≠ .done) :
    ∃ pre p post reps, existing ++ (findFiles fs recurse paths).1 = pre ++ p :: post ∧
      inTurn (checkOneFile env me fs fuel cfg.options cfg.mix) pre = .ok reps ∧
      (checkFiles env me fs fuel tool cfg recurse paths existing).out =
        [.head, .elem (toolInfo tool)] ++ reps.map .elem ∧
      ¬ ∃ rep, checkOneFile env me fs fuel cfg.options cfg.mix p = .ok rep ∧
        writeElement cfg.nopretty rep = .ok () := by
  unfold checkFiles at hexit ⊢
  simp only at hexit ⊢
  rw [if_neg (by simpa using hne)] at hexit ⊢
  simp only [htool] at hexit ⊢
  obtain ⟨pre, p, post, reps, h1, h2, h3, h4⟩ := reportFiles_stop rfl hexit
  refine ⟨pre, p, post, reps, h1, h2, ?_, h4⟩
  rw [h3, if_neg hexit, List.append_nil]

end

/-! ## C44 -/

/-- One call of `checkFiles`. -/
structure Call where
  cfg : Config
  recurse : Bool
  paths : List PyStr

/-- The runs of a sequence of calls in one process, starting with the given list of files. -/
def calls (env : Env) (me : MixEnv) (fs : FS) (fuel : Nat) (tool : String) : List Call → List PyStr → List Run
  | [], _ => []
  | c :: cs, existing =>
    let r := checkFiles env me fs fuel tool c.cfg c.recurse c.paths existing
    r :: calls env me fs fuel tool cs r.existing

theorem checkFiles_existing (env : Env) (me : MixEnv) (fs : FS) (fuel : Nat) (tool : String) (cfg : Config)
    (recurse : Bool) (paths existing : List PyStr) :
    (checkFiles env me fs fuel tool cfg recurse paths existing).existing =
      existing ++ (findFiles fs recurse paths).1 := by
  unfold checkFiles
  simp only
  split
  · rfl
  · split <;> rfl

/-- C44 (what happens): the k-th call in a process analyses the files selected by all calls up to it. -/
theorem C44_history (env : Env) (me : MixEnv) (fs : FS) (fuel : Nat) (tool : String) : ∀ (cs : List Call)
    (existing : List PyStr) (k : Nat) (c : Call), cs[k]? = some c →
    (calls env me fs fuel tool cs existing)[k]? = some (checkFiles env me fs fuel tool c.cfg c.recurse c.paths
      (existing ++ (cs.take k).flatMap fun c => (findFiles fs c.recurse c.paths).1))
  | [], _, k, c, h => by simp at h
  | c :: cs, existing, 0, c', h => by
    simp only [List.getElem?_cons_zero, Option.some.injEq] at h
    subst h
    simp [calls]
  | c :: cs, existing, k + 1, c', h => by
    rw [List.getElem?_cons_succ] at h
    rw [calls]
    simp only [List.getElem?_cons_succ]
    rw [C44_history env me fs fuel tool cs _ k c' h, checkFiles_existing]
    simp [List.append_assoc]

theorem reportFiles_done {check : PyStr → Outcome Elem} {np : Bool} : ∀ {files : List PyStr} {out : List Chunk},
    reportFiles check np files = (out, .done) → ∃ reps, inTurn check files = .ok reps ∧ out = reps.map .elem
  | [], out, h => by cases h; exact ⟨[], rfl, rfl⟩
  | p :: ps, out, h => by
    rw [reportFiles] at h
    split at h
    · rename_i e he
      split at h
      · generalize hr : reportFiles check np ps = r at h
        obtain ⟨out', x⟩ := r
        simp only [Prod.mk.injEq] at h
        obtain ⟨rfl, rfl⟩ := h
        obtain ⟨reps, h1, rfl⟩ := reportFiles_done hr
        refine ⟨e :: reps, ?_, rfl⟩
        rw [inTurn, he, h1]; rfl
      · cases h
      · cases h
    · cases h
    · cases h

theorem inTurn_file {env : Env} {me : MixEnv} {fs : FS} {fuel : Nat} {o : Options} {mix : Nat} :
    ∀ {files : List PyStr} {reps : List Elem}, inTurn (checkOneFile env me fs fuel o mix) files = .ok reps →
    ∀ e ∈ reps, e.tag = "file"
  | [], reps, h => by cases h; simp
  | p :: ps, reps, h => by
    rw [inTurn, Outcome.bind_eq_ok] at h
    obtain ⟨e, he, h⟩ := h
    rw [Outcome.bind_eq_ok] at h
    obtain ⟨es, hes, h⟩ := h
    cases h
    intro x hx
    rcases List.mem_cons.1 hx with rfl | hx
    · exact (C46_report he).1
    · exact inTurn_file hes x hx

theorem reportsIn_document {out : List Chunk} {tool : String} {reps : List Elem}
    (h : Document out (toolInfo tool) reps) (hf : ∀ e ∈ reps, e.tag = "file") : reportsIn out = reps := by
  unfold Document at h
  subst h
  have key : ∀ (l : List Elem), (∀ e ∈ l, e.tag = "file") → reportsIn (l.map Chunk.elem) = l := by
    intro l
    induction l with
    | nil => intro _; rfl
    | cons e es ih =>
      intro h
      have := ih fun x hx => h x (by simp [hx])
      unfold reportsIn at this ⊢
      simp only [List.map_cons, List.filterMap_cons, h e (by simp), if_true, this]
  have happ : ∀ (x y : List Chunk), reportsIn (x ++ y) = reportsIn x ++ reportsIn y :=
    fun x y => List.filterMap_append
  rw [happ, happ, key reps hf]
  simp [reportsIn, toolInfo, Elem.node]

/-- A run that ends normally writes one document with the reports of the selected files, in order. -/
theorem C46_done {env : Env} {me : MixEnv} {fs : FS} {fuel : Nat} {tool : String} {cfg : Config} {recurse : Bool}
    {paths existing : List PyStr}
    (h : (checkFiles env me fs fuel tool cfg recurse paths existing).exit = .done) :
    ∃ reps, Document (checkFiles env me fs fuel tool cfg recurse paths existing).out (toolInfo tool) reps ∧
      reportsIn (checkFiles env me fs fuel tool cfg recurse paths existing).out = reps ∧
      inTurn (checkOneFile env me fs fuel cfg.options cfg.mix) (existing ++ (findFiles fs recurse paths).1) =
        .ok reps := by
  have : ∃ reps, Document (checkFiles env me fs fuel tool cfg recurse paths existing).out (toolInfo tool) reps ∧
      inTurn (checkOneFile env me fs fuel cfg.options cfg.mix) (existing ++ (findFiles fs recurse paths).1) =
        .ok reps := by
    unfold checkFiles at h ⊢
    simp only at h ⊢
    split at h
    · cases h
    · rename_i hne
      rw [if_neg hne]
      split at h
      · rename_i hw
        simp only at h
        simp only [hw]
        generalize hrf : reportFiles (checkOneFile env me fs fuel cfg.options cfg.mix) cfg.nopretty
          (existing ++ (findFiles fs recurse paths).1) = r at h
        obtain ⟨out, x⟩ := r
        simp only at h
        subst h
        obtain ⟨reps, h1, h2⟩ := reportFiles_done hrf
        refine ⟨reps, ?_, h1⟩
        simp [Document, h2]
      · cases h
      · cases h
  obtain ⟨reps, h1, h2⟩ := this
  exact ⟨reps, h1, reportsIn_document h1 (inTurn_file h2), h2⟩

/-- C44 for the first call in a process: if it ends normally it reports exactly the files it selects, one
report each. Missing: later calls (`C44_false`; what they do is `C44_history`). -/
theorem C44_first_partial (env : Env) (me : MixEnv) (fs : FS) (fuel : Nat) (tool : String) (c : Call) (cs : List Call)
    (r : Run) (hr : (calls env me fs fuel tool (c :: cs) []).head? = some r) (hd : r.exit = .done) :
    inTurn (checkOneFile env me fs fuel c.cfg.options c.cfg.mix) (findFiles fs c.recurse c.paths).1 =
      .ok (reportsIn r.out) := by
  simp only [calls, List.head?_cons, Option.some.injEq] at hr
  subst hr
  obtain ⟨reps, -, h1, h2⟩ := C46_done hd
  rw [h1]
  exact h2

/-- C44 does not hold: a second call reports the files of the first call again. -/
theorem C44_false : ∃ (env : Env) (me : MixEnv) (fs : FS) (fuel : Nat) (tool : String) (c1 c2 : Call) (r1 r2 : Run),
    calls env me fs fuel tool [c1, c2] [] = [r1, r2] ∧
    (findFiles fs c1.recurse c1.paths).1 = [[97]] ∧ (findFiles fs c2.recurse c2.paths).1 = [[98]] ∧
    r1.exit = .done ∧ r2.exit = .done ∧ (reportsIn r1.out).length = 1 ∧ (reportsIn r2.out).length = 2 := by
  refine ⟨Sample.env0, Sample.me0, Sample.fs0 Sample.cs1, 200, "jpylyzer",
    ⟨⟨.j2c, false, false, false, 0, false⟩, false, [[97]]⟩, ⟨⟨.j2c, false, false, false, 0, false⟩, false, [[98]]⟩,
    _, _, rfl, rfl, rfl, ?_, ?_, ?_, ?_⟩ <;> decide +kernel

/-- C46 does not hold: when the name of one of two files contains the character U+0001, no report is
written for either and the document is not closed; both files are valid codestreams. -/
theorem C46_false : ∃ (env : Env) (me : MixEnv) (fs : FS) (fuel : Nat) (tool : String) (cfg : Config)
    (paths : List PyStr),
    (findFiles fs false paths).1 = [[1], [98]] ∧
    (∀ p ∈ [[1], [98]], ReportedValid env me fs fuel cfg.options cfg.mix p) ∧
    (checkFiles env me fs fuel tool cfg false paths []).exit = .crash .expat ∧
    (checkFiles env me fs fuel tool cfg false paths []).out.length = 2 ∧
    reportsIn (checkFiles env me fs fuel tool cfg false paths []).out = [] := by
  refine ⟨Sample.env0, Sample.me0, Sample.fs0 Sample.cs1, 200, "jpylyzer", ⟨.j2c, false, false, false, 0, false⟩,
    [[1], [98]], rfl, ?_, ?_, ?_, ?_⟩
  · intro p hp
    simp only [List.mem_cons, List.not_mem_nil, or_false] at hp
    rcases hp with rfl | rfl
    · obtain ⟨rep, h1, h2, -⟩ := Sample.saysValid_ok (x := checkOneFile Sample.env0 Sample.me0
        (Sample.fs0 Sample.cs1) 200 (Sample.opts .j2c) 0 [1]) (by decide +kernel)
      exact ⟨rep, h1, h2⟩
    · obtain ⟨rep, h1, h2, -⟩ := Sample.saysValid_ok (x := checkOneFile Sample.env0 Sample.me0
        (Sample.fs0 Sample.cs1) 200 (Sample.opts .j2c) 0 [98]) (by decide +kernel)
      exact ⟨rep, h1, h2⟩
  · decide +kernel
  · decide +kernel
  · rw [← List.length_eq_zero_iff]
    decide +kernel

/-! ## C45 -/

theorem ofName_other {s : String} (h : s ∉ ["jp2", "jph", "j2c", "jhc"]) : Format.ofName s = .other s := by
  simp only [List.mem_cons, List.not_mem_nil, or_false, not_or] at h
  unfold Format.ofName
  rw [if_neg h.1, if_neg h.2.1, if_neg h.2.2.1, if_neg h.2.2.2]

theorem ofName_known {s : String} (h : s ∈ ["jp2", "jph", "j2c", "jhc"]) :
    ∃ f, Format.ofName s = f ∧ f.name = s ∧ ∀ t, f ≠ .other t := by
  simp only [List.mem_cons, List.not_mem_nil, or_false] at h
  rcases h with rfl | rfl | rfl | rfl
  · exact ⟨.jp2, by decide, rfl, by simp⟩
  · exact ⟨.jph, by decide, rfl, by simp⟩
  · exact ⟨.j2c, by decide, rfl, by simp⟩
  · exact ⟨.jhc, by decide, rfl, by simp⟩

section
variable (env : Env) (me : MixEnv) (fs : FS) (fuel : Nat) (tool : String) (lower : String → String) (a : Args)

/-- C45 (format): with a format other than the four supported ones nothing is written to standard output
and no file is selected. -/
theorem C45_format (h : lower a.fmt ∉ ["jp2", "jph", "j2c", "jhc"]) :
    (main env me fs fuel tool lower a).out = [] ∧ (main env me fs fuel tool lower a).exit = .code 0 ∧
      (main env me fs fuel tool lower a).existing = [] := by
  unfold main
  split
  · exact ⟨rfl, rfl, rfl⟩
  · rw [ofName_other h]; exact ⟨rfl, rfl, rfl⟩

theorem main_eq (hp : a.paths ≠ []) (h : lower a.fmt ∈ ["jp2", "jph", "j2c", "jhc"]) :
    main env me fs fuel tool lower a = checkFiles env me fs fuel tool
      { format := Format.ofName (lower a.fmt), verbose := a.verbose, packetmarkers := a.packetmarkers,
        nullxml := a.nullxml,
        mix := if lower a.fmt = "j2c" ∨ lower a.fmt = "jhc" then 0 else a.mixFlag, nopretty := a.nopretty }
      a.recurse a.paths [] := by
  unfold main
  rw [if_neg (by simpa using hp)]
  simp only [List.mem_cons, List.not_mem_nil, or_false] at h
  rcases h with h | h | h | h <;> rw [h] <;> rfl

/-- C45 (no input): if no file is selected, nothing is written to standard output and the exit code
is -7. -/
theorem C45_empty (hp : a.paths ≠ []) (h : lower a.fmt ∈ ["jp2", "jph", "j2c", "jhc"])
    (hnone : (findFiles fs a.recurse a.paths).1 = []) :
    (main env me fs fuel tool lower a).out = [] ∧ (main env me fs fuel tool lower a).exit = .code (-7) := by
  rw [main_eq _ _ _ _ _ _ _ hp h]
  unfold checkFiles
  simp only [hnone]
  exact ⟨rfl, rfl⟩

end

theorem reportFiles_mem {check : PyStr → Outcome Elem} {np : Bool} : ∀ {files : List PyStr} {e : Elem},
    .elem e ∈ (reportFiles check np files).1 → ∃ p ∈ files, check p = .ok e
  | [], e, h => by cases h
  | p :: ps, e, h => by
    rw [reportFiles] at h
    split at h
    · rename_i e' he
      split at h
      · rcases List.mem_cons.1 h with h | h
        · cases h
          exact ⟨p, by simp, he⟩
        · obtain ⟨q, hq, h⟩ := reportFiles_mem h
          exact ⟨q, by simp [hq], h⟩
      · cases h
      · cases h
    · cases h
    · cases h

/-- Every report written is a report of a selected file. -/
theorem C46_reports {env : Env} {me : MixEnv} {fs : FS} {fuel : Nat} {tool : String} {cfg : Config}
    {recurse : Bool} {paths existing : List PyStr} {e : Elem}
    (h : e ∈ reportsIn (checkFiles env me fs fuel tool cfg recurse paths existing).out) :
    ∃ p ∈ existing ++ (findFiles fs recurse paths).1,
      checkOneFile env me fs fuel cfg.options cfg.mix p = .ok e := by
  unfold reportsIn at h
  obtain ⟨c, hc, he⟩ := List.mem_filterMap.1 h
  unfold checkFiles at hc
  simp only at hc
  have key : ∀ e', c = .elem e' → e' = e ∧ e'.tag = "file" := by
    rintro e' rfl
    simp only at he
    split at he
    · rename_i ht
      cases he
      exact ⟨rfl, ht⟩
    · cases he
  split at hc
  · cases hc
  · split at hc
    · simp only [List.mem_append] at hc
      rcases hc with (hc | hc) | hc
      · rcases List.mem_cons.1 hc with rfl | hc
        · cases he
        · rw [List.mem_singleton] at hc
          have := (key _ hc).2
          exact absurd this (show "toolInfo" ≠ "file" by decide)
      · cases c with
        | elem e' =>
          obtain ⟨rfl, -⟩ := key e' rfl
          exact reportFiles_mem hc
        | head => cases he
        | tail => cases he
      · split at hc
        · rw [List.mem_singleton] at hc
          subst hc
          cases he
        · cases hc
    · rw [List.mem_singleton] at hc
      subst hc
      cases he
    · rw [List.mem_singleton] at hc
      subst hc
      cases he

/-- C45 (MIX): with the formats j2c and jhc no report written contains MIX output. -/
theorem C45_mix (env : Env) (me : MixEnv) (fs : FS) (fuel : Nat) (tool : String) (lower : String → String) (a : Args)
    (h : lower a.fmt = "j2c" ∨ lower a.fmt = "jhc") :
    ∀ rep ∈ reportsIn (main env me fs fuel tool lower a).out, part rep "propertiesExtension" = none := by
  intro rep hrep
  by_cases hp : a.paths = []
  · unfold main at hrep
    rw [if_pos (by simp [hp])] at hrep
    cases hrep
  rw [main_eq _ _ _ _ _ _ _ hp (by rcases h with h | h <;> simp [h])] at hrep
  obtain ⟨p, -, hr⟩ := C46_reports hrep
  simp only [h, if_true] at hr
  have ht := (C46_report hr).2
  unfold part
  rw [List.find?_eq_none]
  intro x hx
  have : x.tag ∈ rep.children.map (·.tag) := List.mem_map.2 ⟨x, hx, rfl⟩
  rw [ht] at this
  intro e
  rw [beq_iff_eq] at e
  rw [e] at this
  exact absurd this (by decide)

/-! ## Concrete cases -/

/-- C43: a path without wildcard; a directory with a file and a subdirectory with a file. -/
example : Plain [97, 98] := fun h => absurd h (by decide)
example : HasTree { Sample.fs0 [] with
      isdir := fun p => p == [100], isfile := fun p => p != [100], join := fun a b => a ++ slash :: b,
      walk := fun _ => [([100], [[115]], [[97]]), ([100, 47, 115], [], [[98]])] } [100]
    (.mk [[97]] [([115], .mk [[98]] [])]) ∧ WellNamed (.mk [[97]] [([115], .mk [[98]] [])]) :=
  ⟨⟨rfl, rfl, rfl, rfl, fun _ _ => rfl⟩,
    .mk (by decide) (by decide) (by decide) (by decide) fun x hx => by
      cases List.mem_singleton.1 hx
      exact .mk (by decide) (by decide) (by decide) (by decide) (by simp)⟩

/-- C45: an unsupported format; no file. -/
example : "tiff" ∉ ["jp2", "jph", "j2c", "jhc"] := by decide
example : (findFiles { Sample.fs0 [] with isfile := fun _ => false } false [[97]]).1 = [] := rfl

/-- C44, C46: a run over two files that ends normally. -/
example : (checkFiles Sample.env0 Sample.me0 (Sample.fs0 Sample.cs1) 200 "jpylyzer" ⟨.j2c, false, false, false, 0, false⟩
    false [[97], [98]] []).exit = .done := by decide +kernel

end Jpy
