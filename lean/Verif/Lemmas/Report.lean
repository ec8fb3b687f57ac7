import Verif.Lemmas.Rel
import Verif.Lemmas.Basic
import Verif.Spec.File
/-! # Lemmas about reports -/

set_option linter.unusedSimpArgs false

namespace Jpy
open Spec

/-- The report built by `checkOneFile`. -/
def buildReport (o : Options) (info : Elem) (a : Analysis) (ext : List Elem) : Elem :=
  .node "file"
    ([ info,
       Elem.node "statusInfo"
        (Elem.leaf "success" (.str (boolStr a.success))
          :: (match a.failure with
              | some m => [Elem.leaf "failureMessage" (.str m)]
              | none => [])),
       Elem.mk "isValid" [("format", o.format.name)] (.str (boolStr a.isValid)) [],
       .node "tests" a.tests, .node "properties" a.props ]
      ++ ext ++ [ .node "warnings" a.warnings ])

/-- The MIX elements of a report. -/
def mixOutput (me : MixEnv) (mix : Nat) (a : Analysis) : Outcome (List Elem) :=
  if mix ≠ 0 ∧ a.isValid = true then do
    let m ← generateMix me mix a.props
    Outcome.ok [m]
  else Outcome.ok []

/-- The extension part of a report. -/
def extensionOf (o : Options) (mix : Nat) (a : Analysis) (mixProps : List Elem) : List Elem :=
  if mix ≠ 0 then
    [Elem.node "propertiesExtension"
      (if (o.format = .jp2 ∨ o.format = .jph) ∧ a.isValid = true then mixProps else [])]
  else []

theorem checkOneFile_eq (env me fs fuel o mix path) :
    checkOneFile env me fs fuel o mix path = (do
      let info ← fileInfo fs path
      let a ← analyse env fs o fuel path
      let m ← mixOutput me mix a
      .ok (buildReport o info a (extensionOf o mix a m))) := by
  unfold checkOneFile
  congr 1; funext info
  congr 1; funext a
  unfold mixOutput
  by_cases h : mix ≠ 0 ∧ a.isValid = true
  · rw [if_pos h, if_pos h]
    cases generateMix me mix a.props <;> rfl
  · rw [if_neg h, if_neg h]
    rfl

theorem checkOneFile_ok {env me fs fuel o mix path rep} :
    checkOneFile env me fs fuel o mix path = .ok rep ↔
      ∃ info a m, fileInfo fs path = .ok info ∧ analyse env fs o fuel path = .ok a ∧
        mixOutput me mix a = .ok m ∧ rep = buildReport o info a (extensionOf o mix a m) := by
  rw [checkOneFile_eq]
  constructor
  · intro h
    obtain ⟨info, h1, h⟩ := Outcome.bind_eq_ok.1 h
    obtain ⟨a, h2, h⟩ := Outcome.bind_eq_ok.1 h
    obtain ⟨m, h3, h⟩ := Outcome.bind_eq_ok.1 h
    cases h
    exact ⟨info, a, m, h1, h2, h3, rfl⟩
  · rintro ⟨info, a, m, h1, h2, h3, rfl⟩
    rw [h1, Outcome.bind_ok, h2, Outcome.bind_ok, h3, Outcome.bind_ok]

theorem fileInfo_tag {fs path info} (h : fileInfo fs path = .ok info) : info.tag = "fileInfo" := by
  unfold fileInfo at h
  obtain ⟨a, -, h⟩ := Outcome.bind_eq_ok.1 h
  obtain ⟨b, -, h⟩ := Outcome.bind_eq_ok.1 h
  cases h
  rfl

section
variable {o : Options} {info : Elem} {a : Analysis} {mix : Nat} {m : List Elem}

/-- The parts of a report other than the extension. -/
theorem report_parts (hi : info.tag = "fileInfo") :
    part (buildReport o info a (extensionOf o mix a m)) "fileInfo" = some info ∧
    part (buildReport o info a (extensionOf o mix a m)) "statusInfo" = some (Elem.node "statusInfo"
        (Elem.leaf "success" (.str (boolStr a.success))
          :: (match a.failure with
              | some m => [Elem.leaf "failureMessage" (.str m)]
              | none => []))) ∧
    part (buildReport o info a (extensionOf o mix a m)) "isValid" =
      some (Elem.mk "isValid" [("format", o.format.name)] (.str (boolStr a.isValid)) []) ∧
    part (buildReport o info a (extensionOf o mix a m)) "tests" = some (.node "tests" a.tests) ∧
    part (buildReport o info a (extensionOf o mix a m)) "properties" = some (.node "properties" a.props) ∧
    part (buildReport o info a (extensionOf o mix a m)) "warnings" = some (.node "warnings" a.warnings) ∧
    part (buildReport o info a (extensionOf o mix a m)) "propertiesExtension" =
      (extensionOf o mix a m).head? := by
  unfold part buildReport extensionOf
  by_cases h : mix = 0 <;> simp [h, hi, List.find?_cons, List.find?_append, Elem.node, Elem.leaf]

end

/-- The analysis of a run that did not raise. -/
def analysisOf (env : Env) (n : Node) (fmm : List String) : Analysis :=
  { success := true
    isValid := n.isValid
    tests := makeHumanReadableL env [] n.tests
    props := makeHumanReadableL env remapTable n.chars
    warnings := makeHumanReadableL env []
      (n.warnings ++ fmm.map fun w => Elem.leaf "warning" (.str w))
    failure := none }

/-- The analysis of a run that raised. -/
def analysisFailed (e : Exn) : Analysis :=
  { success := false, isValid := false, tests := [], props := []
    warnings := [Elem.leaf "warning" (.str (failureMessage e))]
    failure := some (failureMessage e) }

theorem analyse_cases {env fs o fuel path a} (h : analyse env fs o fuel path = .ok a) :
    (∃ b fmm n, fileToMemoryMap fs path = .ok (b, fmm) ∧ validateRoot env o fuel b = .ok n ∧
      a = analysisOf env n fmm) ∨
    (∃ e, analyseTry env fs o fuel path = .raised e ∧ a = analysisFailed e) := by
  unfold analyse at h
  split at h
  · rename_i a' h1
    cases h
    left
    unfold analyseTry at h1
    obtain ⟨⟨b, fmm⟩, h2, h1⟩ := Outcome.bind_eq_ok.1 h1
    obtain ⟨n, h3, h1⟩ := Outcome.bind_eq_ok.1 h1
    cases h1
    exact ⟨b, fmm, n, h2, h3, rfl⟩
  · cases h
  · rename_i e h1
    cases h
    exact .inr ⟨e, h1, rfl⟩

/-- Related runs give related analyses. -/
theorem analyse_rel {env : Env} {o1 o2 : Options} (N : NodeRel env o1 o2) (hf : o1.format = o2.format)
    {S : Analysis → Analysis → Prop} (fs : FS) (fuel : Nat) (path : PyStr)
    (hS : ∀ n1 n2 fmm, N.R (rootCtx o1.format) n1 n2 → S (analysisOf env n1 fmm) (analysisOf env n2 fmm))
    (hfail : ∀ e, S (analysisFailed e) (analysisFailed e)) :
    OutRel S (analyse env fs o1 fuel path) (analyse env fs o2 fuel path) := by
  have key : OutRel S (analyseTry env fs o1 fuel path) (analyseTry env fs o2 fuel path) := by
    unfold analyseTry
    refine OutRel.bind (R := Eq) (OutRel.refl (fun _ => rfl) _) ?_
    rintro ⟨b, fmm⟩ _ - - rfl
    refine (validateRoot_rel N hf fuel b).bind ?_
    rintro n1 n2 - - h
    exact .ok (hS n1 n2 fmm h)
  unfold analyse
  generalize analyseTry env fs o1 fuel path = x at key
  generalize analyseTry env fs o2 fuel path = y at key
  cases key with
  | ok h => exact .ok h
  | raised e => exact .ok (hfail e)
  | timeout => exact .timeout

end Jpy

namespace Jpy
open Spec

theorem fileToMemoryMap_ok {fs path b w} (h : fileToMemoryMap fs path = .ok (b, w)) :
    b = bytesRead (fs.read path) ∧ ∀ e, fs.read path ≠ .error e := by
  unfold fileToMemoryMap at h
  split at h <;> cases h <;> rename_i h' <;> rw [h'] <;> exact ⟨rfl, by simp⟩

theorem fileToMemoryMap_data {fs path} (h : ∀ e, fs.read path ≠ .error e) :
    ∃ w, fileToMemoryMap fs path = .ok (bytesRead (fs.read path), w) := by
  unfold fileToMemoryMap
  split <;> rename_i h'
  · exact absurd h' (h _)
  all_goals rw [h']; exact ⟨_, rfl⟩

theorem fileToMemoryMap_raised {fs path e} :
    fileToMemoryMap fs path = .raised e ↔ fs.read path = .error e := by
  unfold fileToMemoryMap
  split <;> rename_i h' <;> rw [h'] <;> simp

theorem analyseTry_raised {env fs o fuel path e} : analyseTry env fs o fuel path = .raised e ↔
    AnalysisRaises env fs fuel o path e := by
  unfold analyseTry
  constructor
  · intro h
    rcases Outcome.bind_eq_raised.1 h with h | ⟨⟨b, w⟩, h1, h⟩
    · exact .reading (fileToMemoryMap_raised.1 h)
    · obtain ⟨rfl, hne⟩ := fileToMemoryMap_ok h1
      rcases Outcome.bind_eq_raised.1 h with h | ⟨n, -, h⟩
      · exact .analysing hne h
      · cases h
  · rintro (h | ⟨hne, h⟩)
    · rw [fileToMemoryMap_raised.2 h]; rfl
    · obtain ⟨w, hw⟩ := fileToMemoryMap_data hne
      rw [hw, Outcome.bind_ok]
      simp only [h]
      rfl

theorem verdict_eq {o info a mix m} (hi : info.tag = "fileInfo") :
    verdict (buildReport o info a (extensionOf o mix a m)) = some (.str (boolStr a.isValid)) := by
  unfold verdict
  rw [(report_parts hi).2.2.1]; rfl

theorem boolStr_true {b : Bool} : boolStr b = "True" ↔ b = true := by cases b <;> simp [boolStr]

/-- What a valid report says about the contents. -/
theorem reportedValid_contents {env me fs fuel o mix path} (h : ReportedValid env me fs fuel o mix path) :
    ∃ n, validateRoot env o fuel (bytesRead (fs.read path)) = .ok n ∧ n.isValid = true := by
  obtain ⟨rep, h, hv⟩ := h
  obtain ⟨info, a, m, h1, h2, h3, rfl⟩ := checkOneFile_ok.1 h
  rw [verdict_eq (fileInfo_tag h1)] at hv
  simp only [Option.some.injEq, PyVal.str.injEq, boolStr_true] at hv
  rcases analyse_cases h2 with ⟨b, fmm, n, h4, h5, rfl⟩ | ⟨e, h4, rfl⟩
  · obtain ⟨rfl, -⟩ := fileToMemoryMap_ok h4
    exact ⟨n, h5, hv⟩
  · cases hv

end Jpy
