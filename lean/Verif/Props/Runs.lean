import Verif.Lemmas.Sample
import Verif.Lemmas.Nullxml
import Verif.Lemmas.Packets
/-!
# C01–C07: verdicts, failures and options

All statements are about the report returned by `checkOneFile`, for every file system, file content,
format, external parser and amount of fuel (a bound on steps: `.timeout` means that the run did not
finish within it).
-/

set_option linter.unusedSimpArgs false

namespace Jpy
open Spec

section
variable (env : Env) (me : MixEnv) (fs : FS) (fuel : Nat) (o : Options) (mix : Nat) (path : PyStr)

/-- C01: a successful report says valid exactly when nothing in its tests tree is `False`. -/
theorem C01_verdict (rep : Elem) (h : checkOneFile env me fs fuel o mix path = .ok rep)
    (hs : status rep "success" = [.str "True"]) :
    (verdict rep = some (.str "True") ∨ verdict rep = some (.str "False")) ∧
    (verdict rep = some (.str "True") ↔
      ∀ e ∈ contents rep "tests", ∀ d, Within d e → d.text ≠ .str "False") := by
  obtain ⟨info, a, m, h1, h2, h3, rfl⟩ := checkOneFile_ok.1 h
  have hi := fileInfo_tag h1
  obtain ⟨-, p2, -, p4, -⟩ := report_parts (o := o) (a := a) (mix := mix) (m := m) hi
  rw [verdict_eq hi]
  refine ⟨by cases a.isValid <;> simp [boolStr], ?_⟩
  unfold contents
  rw [p4]
  rcases analyse_cases h2 with ⟨b, fmm, n, -, h5, rfl⟩ | ⟨e, -, rfl⟩
  · simp only [Option.some.injEq, PyVal.str.injEq, boolStr_true]
    show n.isValid = true ↔ PrintedOk (makeHumanReadableL env [] n.tests)
    rw [isValid_iff, printedOk_list env _ (tests_shape h5)]
  · exfalso
    unfold status at hs
    rw [p2] at hs
    simp [analysisFailed, boolStr, Elem.node, Elem.leaf] at hs

/-- C02: whenever reading or analysing the contents raises, the report says so. -/
theorem C02_failure (size : Int) (modified : String) (hsize : fs.getsize path = .ok size)
    (hmod : fs.modified path = .ok modified) (e : Exn) (h : AnalysisRaises env fs fuel o path e) :
    ∃ rep msg, checkOneFile env me fs fuel o mix path = .ok rep ∧
      status rep "success" = [.str "False"] ∧ verdict rep = some (.str "False") ∧
      contents rep "tests" = [] ∧ contents rep "properties" = [] ∧
      status rep "failureMessage" = [.str msg] ∧
      contents rep "warnings" = [Elem.leaf "warning" (.str msg)] := by
  obtain ⟨info, hinfo⟩ : ∃ info, fileInfo fs path = .ok info := by
    unfold fileInfo; rw [hsize, Outcome.bind_ok, hmod, Outcome.bind_ok]; exact ⟨_, rfl⟩
  have ha : analyse env fs o fuel path = .ok (analysisFailed e) := by
    unfold analyse; rw [analyseTry_raised.2 h]; rfl
  have hm : mixOutput me mix (analysisFailed e) = .ok [] := by
    unfold mixOutput; rw [if_neg]; simp [analysisFailed]
  refine ⟨_, failureMessage e, checkOneFile_ok.2 ⟨info, _, _, hinfo, ha, hm, rfl⟩, ?_⟩
  have hi := fileInfo_tag hinfo
  obtain ⟨-, p2, p3, p4, p5, p6, -⟩ := report_parts (o := o) (a := analysisFailed e) (mix := mix) (m := []) hi
  unfold status verdict contents
  rw [p2, p3, p4, p5, p6]
  simp [analysisFailed, boolStr, Elem.node, Elem.leaf]

/-- C02: `success` and `failureMessage` are consistent in every report, and a report without success
is never valid. -/
theorem C02_consistent (rep : Elem) (h : checkOneFile env me fs fuel o mix path = .ok rep) :
    (status rep "success" = [.str "True"] ∧ status rep "failureMessage" = []) ∨
    (status rep "success" = [.str "False"] ∧ verdict rep = some (.str "False") ∧
      (status rep "failureMessage").length = 1) := by
  obtain ⟨info, a, m, h1, h2, h3, rfl⟩ := checkOneFile_ok.1 h
  have hi := fileInfo_tag h1
  obtain ⟨-, p2, p3, -⟩ := report_parts (o := o) (a := a) (mix := mix) (m := m) hi
  unfold status verdict
  rw [p2, p3]
  rcases analyse_cases h2 with ⟨b, fmm, n, -, h5, rfl⟩ | ⟨e, -, rfl⟩
  · left; simp [analysisOf, boolStr, Elem.node, Elem.leaf]
  · right; simp [analysisFailed, boolStr, Elem.node, Elem.leaf]

/-- Related analyses give related reports, provided the MIX elements are made from the same
properties. -/
theorem report_rel {o1 o2 : Options} {S : Analysis → Analysis → Prop} {T : Elem → Elem → Prop}
    (h : OutRel S (analyse env fs o1 fuel path) (analyse env fs o2 fuel path))
    (hm : ∀ a1 a2, S a1 a2 → mixOutput me mix a1 = mixOutput me mix a2)
    (ht : ∀ info a1 a2 m, fileInfo fs path = .ok info → S a1 a2 → mixOutput me mix a1 = .ok m →
      T (buildReport o1 info a1 (extensionOf o1 mix a1 m)) (buildReport o2 info a2 (extensionOf o2 mix a2 m))) :
    OutRel T (checkOneFile env me fs fuel o1 mix path) (checkOneFile env me fs fuel o2 mix path) := by
  rw [checkOneFile_eq, checkOneFile_eq]
  refine OutRel.bind (R := Eq) (OutRel.refl (fun _ => rfl) _) ?_
  rintro info _ hi - rfl
  refine h.bind ?_
  intro a1 a2 _ _ hS
  rw [← hm a1 a2 hS]
  refine OutRel.bind (R := Eq) (OutRel.refl (fun _ => rfl) _) ?_
  rintro m _ hm1 - rfl
  exact .ok (ht info a1 a2 m hi hS hm1)

/-- The analyses of the runs without and with `--verbose`. -/
theorem verbose_analysis :
    OutRel (fun a1 a2 : Analysis => a1.success = a2.success ∧ a1.isValid = a2.isValid ∧
        a1.props = a2.props ∧ a1.warnings = a2.warnings ∧ a1.failure = a2.failure ∧
        a1.tests = failedOnlyL a2.tests)
      (analyse env fs { o with verbose := false } fuel path)
      (analyse env fs { o with verbose := true } fuel path) := by
  refine analyse_rel (verboseRel env o) rfl fs fuel path ?_ ?_
  · rintro n1 n2 fmm h
    refine ⟨rfl, VR_isValid h, ?_, ?_, rfl, ?_⟩
    · show makeHumanReadableL _ _ _ = makeHumanReadableL _ _ _
      rw [h.2.2.1]
    · show makeHumanReadableL _ _ _ = makeHumanReadableL _ _ _
      rw [h.2.2.2]
    · show makeHumanReadableL _ _ _ = failedOnlyL (makeHumanReadableL _ _ _)
      rw [h.1, readable_rawFailedL env _ h.2.1]
  · intro e
    exact ⟨rfl, rfl, rfl, rfl, rfl, by simp [analysisFailed, failedOnlyL]⟩

/-- C03: `--verbose` has no influence on anything but the tests: the runs end in the same way, and all
other parts of the two reports are equal. -/
theorem C03_verbose :
    OutRel (fun r1 r2 => ∀ tag ∈ ["fileInfo", "statusInfo", "isValid", "properties", "propertiesExtension",
        "warnings"], part r1 tag = part r2 tag)
      (checkOneFile env me fs fuel { o with verbose := false } mix path)
      (checkOneFile env me fs fuel { o with verbose := true } mix path) := by
  refine report_rel env me fs fuel mix path (verbose_analysis env fs fuel o path) ?_ ?_
  · rintro a1 a2 ⟨-, h2, h3, -⟩
    unfold mixOutput; rw [h2, h3]
  · rintro info a1 a2 m hi ⟨h1, h2, h3, h4, h5, -⟩ - tag ht
    have hi := fileInfo_tag hi
    obtain ⟨p1, p2, p3, -, p5, p6, p7⟩ :=
      report_parts (o := { o with verbose := false }) (a := a1) (mix := mix) (m := m) hi
    obtain ⟨q1, q2, q3, -, q5, q6, q7⟩ :=
      report_parts (o := { o with verbose := true }) (a := a2) (mix := mix) (m := m) hi
    simp only [List.mem_cons, List.not_mem_nil, or_false] at ht
    rcases ht with rfl | rfl | rfl | rfl | rfl | rfl
    · rw [p1, q1]
    · rw [p2, q2, h1, h5]
    · rw [p3, q3, h2]
    · rw [p5, q5, h3]
    · rw [p7, q7]; unfold extensionOf; rw [h2]
    · rw [p6, q6, h4]

/-- C04: the tests reported by default are those reported with `--verbose`, without the passed tests
and the containers left empty. -/
theorem C04_failed_tests :
    OutRel (fun r1 r2 => contents r1 "tests" = failedOnlyL (contents r2 "tests"))
      (checkOneFile env me fs fuel { o with verbose := false } mix path)
      (checkOneFile env me fs fuel { o with verbose := true } mix path) := by
  refine report_rel env me fs fuel mix path (verbose_analysis env fs fuel o path) ?_ ?_
  · rintro a1 a2 ⟨-, h2, h3, -⟩
    unfold mixOutput; rw [h2, h3]
  · rintro info a1 a2 m hi ⟨-, -, -, -, -, h6⟩ -
    have hi := fileInfo_tag hi
    unfold contents
    rw [(report_parts hi).2.2.2.1, (report_parts hi).2.2.2.1]
    exact h6

/-- C05: `--nullxml` has no influence on anything but the contents of XML and UUID boxes, and none at
all on the report of a valid file. -/
theorem C05_nullxml :
    OutRel (fun r1 r2 => (∀ tag ∈ ["fileInfo", "statusInfo", "isValid", "tests", "warnings"],
          part r1 tag = part r2 tag) ∧
        SameButXmlL (contents r1 "properties") (contents r2 "properties") ∧
        (verdict r1 = some (.str "True") → r1 = r2))
      (checkOneFile env me fs fuel { o with nullxml := false } mix path)
      (checkOneFile env me fs fuel { o with nullxml := true } mix path) := by
  refine report_rel (S := fun a1 a2 => a1.success = a2.success ∧ a1.isValid = a2.isValid ∧
        a1.tests = a2.tests ∧ a1.warnings = a2.warnings ∧ a1.failure = a2.failure ∧
        SameButXmlL a1.props a2.props ∧ (a1.isValid = true → a1.props = a2.props))
      env me fs fuel mix path ?_ ?_ ?_
  · refine analyse_rel (nullxmlRel env o false true) rfl fs fuel path ?_ ?_
    · rintro n1 n2 fmm h
      have h : XR (rootCtx o.format) n1 n2 := h
      refine ⟨rfl, XR_isValid h, ?_, ?_, rfl, sameL_readable env _ h.chars, ?_⟩
      · show makeHumanReadableL _ _ _ = makeHumanReadableL _ _ _
        rw [h.tests]
      · show makeHumanReadableL _ _ _ = makeHumanReadableL _ _ _
        rw [h.warnings]
      · intro hv
        show makeHumanReadableL _ _ _ = makeHumanReadableL _ _ _
        rw [h.valid hv]
    · intro e
      exact ⟨rfl, rfl, rfl, rfl, rfl, .nil, fun _ => rfl⟩
  · rintro a1 a2 ⟨-, h2, -, -, -, -, h7⟩
    unfold mixOutput
    rw [← h2]
    by_cases hv : a1.isValid = true
    · rw [h7 hv]
    · rw [if_neg (fun h => hv h.2), if_neg (fun h => hv h.2)]
  · rintro info a1 a2 m hi ⟨h1, h2, h3, h4, h5, h6, h7⟩ -
    have hi := fileInfo_tag hi
    obtain ⟨p1, p2, p3, p4, p5, p6, p7⟩ :=
      report_parts (o := { o with nullxml := false }) (a := a1) (mix := mix) (m := m) hi
    obtain ⟨q1, q2, q3, q4, q5, q6, q7⟩ :=
      report_parts (o := { o with nullxml := true }) (a := a2) (mix := mix) (m := m) hi
    refine ⟨?_, ?_, ?_⟩
    · intro tag ht
      simp only [List.mem_cons, List.not_mem_nil, or_false] at ht
      rcases ht with rfl | rfl | rfl | rfl | rfl
      · rw [p1, q1]
      · rw [p2, q2, h1, h5]
      · rw [p3, q3, h2]
      · rw [p4, q4, h3]
      · rw [p6, q6, h4]
    · unfold contents; rw [p5, q5]; exact h6
    · rw [verdict_eq hi]
      simp only [Option.some.injEq, PyVal.str.injEq, boolStr_true]
      intro hv
      unfold buildReport extensionOf
      rw [h1, h5, ← h2, h3, h4, h7 hv]

end

/-! ## MIX depends on a few properties only -/

/-- The paths read by MIX generation. -/
def mixPaths : List (List String) :=
  [ ["fileTypeBox", "br"], ["contiguousCodestreamBox", "cod", "transformation"], ["compressionRatio"],
    ["jp2HeaderBox", "colourSpecificationBox", "icc"],
    ["jp2HeaderBox", "colourSpecificationBox", "icc", "colourSpace"],
    ["jp2HeaderBox", "colourSpecificationBox", "icc", "description"],
    ["jp2HeaderBox", "colourSpecificationBox", "enumCS"],
    ["contiguousCodestreamBox", "com", "comment"],
    ["jp2HeaderBox", "imageHeaderBox", "width"], ["jp2HeaderBox", "imageHeaderBox", "height"],
    ["contiguousCodestreamBox", "siz", "xTsiz"], ["contiguousCodestreamBox", "siz", "yTsiz"],
    ["contiguousCodestreamBox", "cod", "layers"], ["contiguousCodestreamBox", "cod", "levels"],
    ["xmlBox", nsMeta, nsRDF], ["uuidBox", nsMeta, nsRDF],
    ["jp2HeaderBox", "resolutionBox", "captureResolutionBox"],
    ["jp2HeaderBox", "resolutionBox", "displayResolutionBox"],
    ["contiguousCodestreamBox", "siz"] ]

theorem generateMix_congr (me : MixEnv) (flag : Nat) {p1 p2 : List Elem}
    (h : ∀ p ∈ mixPaths, Elem.find p1 p = Elem.find p2 p) : generateMix me flag p1 = generateMix me flag p2 := by
  simp only [mixPaths, List.mem_cons, List.not_mem_nil, or_false, forall_eq_or_imp, forall_eq] at h
  simp only [generateMix, mixBdoi, mixBio, mixIcm, mixIam, mixSpatial, mixPhotometric, mixCodec, findRDF, findText, h]

theorem packetFree_mix : ∀ p ∈ mixPaths, packetFree p = true := by decide +kernel

theorem mix_withoutPackets (me : MixEnv) (flag : Nat) (fmt : Format) (ps : List Elem) :
    generateMix me flag (withoutPackets fmt ps) = generateMix me flag ps := by
  apply generateMix_congr
  intro p hp
  unfold Elem.find
  have h1 := boxesW_findall p ps (packetFree_mix p hp)
  have h2 : Elem.findall (codestreamWithoutPackets ps) p = Elem.findall ps p := by
    apply codestreamW_findall
    rintro t ts rfl
    have : ∀ p ∈ mixPaths, ∀ t, p.head? = some t → t ≠ "plm" ∧ t ≠ "ppm" ∧ t ≠ "tileParts" := by
      simp [mixPaths]
    exact this _ hp t rfl
  cases fmt <;> simp only [withoutPackets, h1, h2]

section
variable (env : Env) (me : MixEnv) (fs : FS) (fuel : Nat) (o : Options) (mix : Nat) (path : PyStr)

/-- C06: `--packetmarkers` has no influence on anything but the properties, and there it only adds the
packet marker segments. -/
theorem C06_packetmarkers :
    OutRel (fun r1 r2 => (∀ tag ∈ ["fileInfo", "statusInfo", "isValid", "tests", "propertiesExtension",
          "warnings"], part r1 tag = part r2 tag) ∧
        contents r1 "properties" = withoutPackets o.format (contents r2 "properties"))
      (checkOneFile env me fs fuel { o with packetmarkers := false } mix path)
      (checkOneFile env me fs fuel { o with packetmarkers := true } mix path) := by
  refine report_rel (S := fun a1 a2 => a1.success = a2.success ∧ a1.isValid = a2.isValid ∧
        a1.tests = a2.tests ∧ a1.warnings = a2.warnings ∧ a1.failure = a2.failure ∧
        a1.props = withoutPackets o.format a2.props) env me fs fuel mix path ?_ ?_ ?_
  · refine analyse_rel (packetRel env o) rfl fs fuel path ?_ ?_
    · rintro n1 n2 fmm h
      have h : PR (rootCtx o.format) n1 n2 := h
      refine ⟨rfl, ?_, ?_, ?_, rfl, ?_⟩
      · show n1.isValid = n2.isValid
        unfold Node.isValid; rw [h.tests]
      · show makeHumanReadableL _ _ _ = makeHumanReadableL _ _ _
        rw [h.tests]
      · show makeHumanReadableL _ _ _ = makeHumanReadableL _ _ _
        rw [h.warnings]
      · show makeHumanReadableL _ _ _ = withoutPackets _ (makeHumanReadableL _ _ _)
        rw [h.chars]
        cases o.format <;> simp only [rootCtx, stripped, withoutPackets, readable_boxes, readable_codestream]
    · intro e
      refine ⟨rfl, rfl, rfl, rfl, rfl, ?_⟩
      cases o.format <;> rfl
  · rintro a1 a2 ⟨-, h2, -, -, -, h6⟩
    unfold mixOutput
    rw [h2, h6, mix_withoutPackets]
  · rintro info a1 a2 m hi ⟨h1, h2, h3, h4, h5, h6⟩ -
    have hi := fileInfo_tag hi
    obtain ⟨p1, p2, p3, p4, p5, p6, p7⟩ :=
      report_parts (o := { o with packetmarkers := false }) (a := a1) (mix := mix) (m := m) hi
    obtain ⟨q1, q2, q3, q4, q5, q6, q7⟩ :=
      report_parts (o := { o with packetmarkers := true }) (a := a2) (mix := mix) (m := m) hi
    refine ⟨?_, ?_⟩
    · intro tag ht
      simp only [List.mem_cons, List.not_mem_nil, or_false] at ht
      rcases ht with rfl | rfl | rfl | rfl | rfl | rfl
      · rw [p1, q1]
      · rw [p2, q2, h1, h5]
      · rw [p3, q3, h2]
      · rw [p4, q4, h3]
      · rw [p7, q7]; unfold extensionOf; rw [h2]
      · rw [p6, q6, h4]
    · unfold contents; rw [p5, q5]; exact h6

/-- C07: when the run with MIX output completes, the run without it gives the same report without the
extension; the extension holds the MIX element exactly when the file is valid and the format is jp2 or
jph. -/
theorem C07_mix (hmix : mix ≠ 0) (rep : Elem) (h : checkOneFile env me fs fuel o mix path = .ok rep) :
    ∃ rep0, checkOneFile env me fs fuel o 0 path = .ok rep0 ∧
      (∀ tag ∈ ["fileInfo", "statusInfo", "isValid", "tests", "properties", "warnings"],
        part rep tag = part rep0 tag) ∧
      part rep0 "propertiesExtension" = none ∧
      ∃ ext, part rep "propertiesExtension" = some (.node "propertiesExtension" ext) ∧
        (if verdict rep = some (.str "True") ∧ (o.format = .jp2 ∨ o.format = .jph)
          then ∃ m, generateMix me mix (contents rep "properties") = .ok m ∧ ext = [m]
          else ext = []) := by
  obtain ⟨info, a, m, h1, h2, h3, rfl⟩ := checkOneFile_ok.1 h
  have hi := fileInfo_tag h1
  have h30 : mixOutput me 0 a = .ok [] := by simp [mixOutput]
  refine ⟨_, checkOneFile_ok.2 ⟨info, a, [], h1, h2, h30, rfl⟩, ?_⟩
  obtain ⟨p1, p2, p3, p4, p5, p6, p7⟩ := report_parts (o := o) (a := a) (mix := mix) (m := m) hi
  obtain ⟨q1, q2, q3, q4, q5, q6, q7⟩ := report_parts (o := o) (a := a) (mix := 0) (m := []) hi
  refine ⟨?_, ?_, ?_⟩
  · intro tag ht
    simp only [List.mem_cons, List.not_mem_nil, or_false] at ht
    rcases ht with rfl | rfl | rfl | rfl | rfl | rfl
    · rw [p1, q1]
    · rw [p2, q2]
    · rw [p3, q3]
    · rw [p4, q4]
    · rw [p5, q5]
    · rw [p6, q6]
  · rw [q7]; simp [extensionOf]
  · refine ⟨if (o.format = .jp2 ∨ o.format = .jph) ∧ a.isValid = true then m else [], ?_, ?_⟩
    · rw [p7]; simp [extensionOf, hmix]
    · rw [verdict_eq hi]
      unfold contents
      rw [p5]
      simp only [Option.some.injEq, PyVal.str.injEq, boolStr_true, Option.map_some, Option.getD_some,
        Elem.children_node]
      by_cases hc : a.isValid = true ∧ (o.format = .jp2 ∨ o.format = .jph)
      · rw [if_pos hc, if_pos ⟨hc.2, hc.1⟩]
        unfold mixOutput at h3
        rw [if_pos ⟨hmix, hc.1⟩] at h3
        obtain ⟨x, hx, h3⟩ := Outcome.bind_eq_ok.1 h3
        cases h3
        exact ⟨x, hx, rfl⟩
      · rw [if_neg hc, if_neg (fun h => hc ⟨h.2, h.1⟩)]

end
/-! ## Concrete cases -/

/-- C01: a file reported valid, and a file analysed with success and reported invalid: the same one
checked as JPH. -/
example : (∃ rep, Sample.reportOf (Sample.opts .jp2) 0 Sample.jp2b = .ok rep ∧
      status rep "success" = [.str "True"] ∧ verdict rep = some (.str "True")) ∧
    (∃ rep, Sample.reportOf (Sample.opts .jph) 0 Sample.jp2b = .ok rep ∧
      status rep "success" = [.str "True"] ∧ verdict rep = some (.str "False")) := by
  obtain ⟨rep, h1, h2, h3⟩ := Sample.saysValid_ok Sample.jp2b_report
  obtain ⟨rep', h1', h2', h3'⟩ := Sample.says_ok (v := "False") (s := "True")
    (x := Sample.reportOf (Sample.opts .jph) 0 Sample.jp2b) (by decide +kernel)
  exact ⟨⟨rep, h1, h3, h2⟩, rep', h1', h3', h2'⟩

/-- C02: a file that cannot be read, and contents whose analysis raises: those of any file for a format
that is not supported. -/
example : AnalysisRaises Sample.env0 { Sample.fs0 [] with read := fun _ => .error .io } 200 (Sample.opts .jp2) [97]
    .io := .reading rfl
example : ∃ e, AnalysisRaises Sample.env0 (Sample.fs0 Sample.jp2) 200 (Sample.opts (.other "x")) [97] e :=
  ⟨_, .analysing (fun _ h => nomatch h) rfl⟩

/-- C03, C04: runs of an invalid file, where the two reports differ. -/
example : ∃ r1 r2,
    checkOneFile Sample.env0 Sample.me0 (Sample.fs0 Sample.jp2b) 200 { Sample.opts .jph with verbose := false } 0 [97] =
      .ok r1 ∧
    checkOneFile Sample.env0 Sample.me0 (Sample.fs0 Sample.jp2b) 200 { Sample.opts .jph with verbose := true } 0 [97] =
      .ok r2 ∧ (contents r1 "tests").length < (contents r2 "tests").length := by
  obtain ⟨r1, e1, h1⟩ := Sample.tests_ok (n := 2) (x := checkOneFile Sample.env0 Sample.me0 (Sample.fs0 Sample.jp2b)
    200 { Sample.opts .jph with verbose := false } 0 [97]) (by decide +kernel)
  obtain ⟨r2, e2, h2⟩ := Sample.tests_ok (n := 21) (x := checkOneFile Sample.env0 Sample.me0 (Sample.fs0 Sample.jp2b)
    200 { Sample.opts .jph with verbose := true } 0 [97]) (by decide +kernel)
  exact ⟨r1, r2, e1, e2, by rw [h1, h2]; decide⟩

/-- C07: a run with MIX output that completes. -/
example : (1 : Nat) ≠ 0 ∧ ∃ rep, Sample.reportOf (Sample.opts .jp2) 1 Sample.jp2b = .ok rep ∧
    verdict rep = some (.str "True") := by
  obtain ⟨rep, h1, h2, h3⟩ := Sample.saysValid_ok (x := Sample.reportOf (Sample.opts .jp2) 1 Sample.jp2b)
    (by decide +kernel)
  exact ⟨by decide, rep, h1, h2⟩

end Jpy
