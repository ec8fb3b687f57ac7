import Verif.Lemmas.Stderr
import Verif.Props.Complete
import Verif.Props.Crashes
/-!
# The messages on standard error and the warnings of the reports (C71)
-/

namespace Jpy
open Spec

section
variable {env : Env} {me : MixEnv} {fs : FS} {fuel : Nat} {o : Options} {mix : Nat} {path : PyStr}

theorem reportFilesS_run {check : PyStr → Outcome Elem} {checkS : PyStr → Said Elem} {nopretty : Bool}
    (h : ∀ p, (checkS p).result = check p) : ∀ ps : List PyStr,
    (reportFilesS checkS nopretty ps).2 = reportFiles check nopretty ps
  | [] => rfl
  | p :: ps => by
    unfold reportFilesS reportFiles
    simp only [h]
    cases check p with
    | timeout => rfl
    | raised e => rfl
    | ok e =>
      simp only
      cases writeElement nopretty e with
      | timeout => rfl
      | raised e => rfl
      | ok _ => simp only [← reportFilesS_run h ps]

/-- C71: the model of the program with its messages gives the same reports and the same output as the one
without. -/
theorem C71_same_program (env : Env) (me : MixEnv) (fs : FS) (fuel : Nat) :
    (∀ o mix path, (checkOneFileS env me fs fuel o mix path).result = checkOneFile env me fs fuel o mix path) ∧
    ∀ tool cfg recurse paths existing, (checkFilesS env me fs fuel tool cfg recurse paths existing).run =
      checkFiles env me fs fuel tool cfg recurse paths existing := by
  refine ⟨fun o mix path => checkOneFileS_result .., fun tool cfg recurse paths existing => ?_⟩
  have h := reportFilesS_run (nopretty := cfg.nopretty)
    (fun p => checkOneFileS_result env me fs fuel cfg.options cfg.mix p) (existing ++ (findFiles fs recurse paths).1)
  unfold checkFilesS checkFiles
  simp only [← h]
  split
  · rfl
  · cases writeElement cfg.nopretty (toolInfo tool) <;> rfl

/-- The messages of a file that is reported on are those of its analysis. -/
theorem said_file {rep : Elem} (h : checkOneFile env me fs fuel o mix path = .ok rep) :
    (checkOneFileS env me fs fuel o mix path).said = (analyseS env fs o fuel path).said := by
  obtain ⟨info, a, m, h1, h2, h3, -⟩ := checkOneFile_ok.1 h
  unfold checkOneFileS
  rw [said_bind]
  unfold Said.bind
  simp only [result_lift, h1, said_lift, List.nil_append]
  rw [said_bind]
  unfold Said.bind
  simp only [analyseS_result, h2]
  rw [said_bind]
  unfold Said.bind
  simp only [result_lift]
  split <;> simp

/-- The messages of the analysis: of opening the file and of its contents, then that of a failure. -/
theorem said_analysis {rep : Elem} (h : checkOneFile env me fs fuel o mix path = .ok rep) :
    (∃ b fmm n, fileToMemoryMap fs path = .ok (b, fmm) ∧ validateRoot env o fuel b = .ok n ∧
      contents rep "warnings" = makeHumanReadableL env [] (n.warnings ++ fmm.map fun w => Elem.leaf "warning" (.str w)) ∧
      status rep "success" = [.str "True"] ∧
      (checkOneFileS env me fs fuel o mix path).said = fmm ++ (validateRootS env o fuel b).said) ∨
    (∃ e, analyseTry env fs o fuel path = .raised e ∧ contents rep "warnings" = [.leaf "warning" (.str (failureMessage e))] ∧
      status rep "success" = [.str "False"] ∧
      (checkOneFileS env me fs fuel o mix path).said = (analyseTryS env fs o fuel path).said ++ [failureMessage e]) := by
  have hs := said_file h
  obtain ⟨info, a, m, h1, h2, h3, rfl⟩ := checkOneFile_ok.1 h
  obtain ⟨-, p1, -, -, -, p5, -⟩ := report_parts (fileInfo_tag h1) (o := o) (a := a) (mix := mix) (m := m)
  have hw : contents (buildReport o info a (extensionOf o mix a m)) "warnings" = a.warnings := by
    unfold contents; rw [p5]; rfl
  have hok : status (buildReport o info a (extensionOf o mix a m)) "success" = [.str (boolStr a.success)] := by
    unfold status; rw [p1]
    cases a.failure <;> simp [Elem.node, Elem.leaf, Elem.children, Elem.tag, Elem.text]
  rw [hw, hok, hs]
  have hr := analyseTryS_result env fs o fuel path
  rcases analyse_cases h2 with ⟨b, fmm, n, h4, h5, rfl⟩ | ⟨e, h4, rfl⟩
  · refine .inl ⟨b, fmm, n, h4, h5, rfl, rfl, ?_⟩
    have hm : (fileToMemoryMapS fs path).said = fmm := by
      unfold fileToMemoryMap at h4
      unfold fileToMemoryMapS
      split at h4 <;> rename_i hread <;> rw [hread] <;> cases h4 <;> rfl
    have : (analyseTryS env fs o fuel path).said = fmm ++ (validateRootS env o fuel b).said := by
      unfold analyseTryS
      rw [said_bind]
      unfold Said.bind
      simp only [fileToMemoryMapS_result, h4, hm]
      rw [said_bind]
      unfold Said.bind
      simp only [validateRootS_result, h5, said_lift, List.append_nil]
    rw [← this]
    unfold analyseS
    have : analyseTry env fs o fuel path = .ok (analysisOf env n fmm) := by
      unfold analyseTry; rw [h4]; simp only [Outcome.bind_ok, h5]; rfl
    simp only [hr, this]
  · refine .inr ⟨e, h4, rfl, rfl, ?_⟩
    unfold analyseS
    simp only [hr, h4]

theorem bool_text {a b : String} (h : [PyVal.str a] = [.str b]) : a = b := by cases h; rfl

/-- C71 (boxes): while a JP2 or JPH file is analysed, one message is printed for each box of unknown type and
for each intellectual property box, in the order of the file, and nothing else. If the analysis fails, some of the
last ones are missing, and the message of the failure follows, which is then the only warning of the report. -/
theorem C71_boxes (hfmt : o.format = .jp2 ∨ o.format = .jph) {b : Bytes} (hb : fs.read path = .data b) (hne : b ≠ [])
    {bs : List FoundBox} (hbs : Boxes b bs) {rep : Elem} (h : checkOneFile env me fs fuel o mix path = .ok rep) :
    ∃ ms, Told env bs ms ∧ (∀ ms', Told env bs ms' → ms' = ms) ∧
      (status rep "success" = [.str "True"] → (checkOneFileS env me fs fuel o mix path).said = ms) ∧
      (status rep "success" = [.str "False"] → ∃ k msg,
        (checkOneFileS env me fs fuel o mix path).said = ms.take k ++ [msg] ∧ warningTexts rep = [.str msg]) := by
  obtain ⟨ms, hm⟩ := told_exists env _ b bs (Nat.le_refl _) hbs
  refine ⟨ms, hm, fun _ h' => (told_unique hm h').symm, ?_, ?_⟩
  all_goals
    intro hok
    have hmm : fileToMemoryMapS fs path = .lift (.ok (b, [])) := by
      unfold fileToMemoryMapS
      rw [hb]
      cases b with
      | nil => exact absurd rfl hne
      | cons x xs => rfl
    have hr := validateRootS_tells (o := o) (fuel := fuel) hbs hm hfmt
    rcases said_analysis h with ⟨b', fmm, n, h1, h2, h3, h4, h5⟩ | ⟨e, h1, h2, h3, h4⟩
  · rw [← fileToMemoryMapS_result, hmm] at h1
    cases h1
    rw [h5, List.nil_append, hr.2 n (by rw [validateRootS_result, h2])]
  · rw [h3] at hok; exact absurd (bool_text hok) (by decide)
  · rw [h4] at hok; exact absurd (bool_text hok) (by decide)
  · have ht : (analyseTryS env fs o fuel path).said <+: ms := by
      unfold analyseTryS
      rw [hmm, said_bind]
      unfold Said.bind
      simp only [result_lift, said_lift, List.nil_append]
      rw [said_bind]
      unfold Said.bind
      split <;> simp only [said_lift, List.append_nil] <;> exact hr.1
    refine ⟨(analyseTryS env fs o fuel path).said.length, failureMessage e, ?_, ?_⟩
    · rw [h4, ← List.prefix_iff_eq_take.1 ht]
    · unfold warningTexts; rw [h2]; rfl

/-- C71 (codestreams): nothing is printed while a bare codestream is analysed, except the message of a failure,
which is then the only warning of the report. -/
theorem C71_codestream (hfmt : o.format = .j2c ∨ o.format = .jhc) {b : Bytes} (hb : fs.read path = .data b)
    (hne : b ≠ []) {rep : Elem} (h : checkOneFile env me fs fuel o mix path = .ok rep) :
    (status rep "success" = [.str "True"] → (checkOneFileS env me fs fuel o mix path).said = []) ∧
    (status rep "success" = [.str "False"] → ∃ msg, (checkOneFileS env me fs fuel o mix path).said = [msg] ∧
      warningTexts rep = [.str msg]) := by
  have hq : ∀ b', (validateRootS env o fuel b').said = [] := fun b' =>
    validateRootS_quiet (by rcases hfmt with e | e <;> simp [e])
  have hmm : fileToMemoryMapS fs path = .lift (.ok (b, [])) := by
    unfold fileToMemoryMapS
    rw [hb]
    cases b with
    | nil => exact absurd rfl hne
    | cons x xs => rfl
  rcases said_analysis h with ⟨b', fmm, n, h1, h2, h3, h4, h5⟩ | ⟨e, h1, h2, h3, h4⟩
  · rw [← fileToMemoryMapS_result, hmm] at h1
    cases h1
    refine ⟨fun _ => by rw [h5, hq, List.append_nil], fun hok => ?_⟩
    rw [h4] at hok; exact absurd (bool_text hok) (by decide)
  · refine ⟨fun hok => absurd (bool_text (h3.symm.trans hok)) (by decide), fun _ => ⟨failureMessage e, ?_, ?_⟩⟩
    · have : (analyseTryS env fs o fuel path).said = [] := by
        unfold analyseTryS
        rw [hmm, said_bind]
        unfold Said.bind
        simp only [result_lift, said_lift, List.nil_append]
        rw [said_bind]
        unfold Said.bind
        split <;> simp only [said_lift, List.append_nil] <;> exact hq b
      rw [h4, this]; rfl
    · unfold warningTexts; rw [h2]; rfl

/-! ## The warnings of the report -/

/-- The texts of the warnings in a list of elements. -/
def textsIn (es : List Elem) : List PyVal := ((Elem.iterL es).filter (·.tag == "warning")).map (·.text)

theorem textsIn_append (a b : List Elem) : textsIn (a ++ b) = textsIn a ++ textsIn b := by
  unfold textsIn; rw [iterL_append, List.filter_append, List.map_append]

theorem textsIn_node {t : String} (h : t ≠ "warning") (es : List Elem) : textsIn [.node t es] = textsIn es := by
  unfold textsIn
  show (List.filter _ (Elem.node t es :: (Elem.iterL es ++ []))).map _ = _
  rw [List.append_nil, List.filter_cons_of_neg (by simpa [Elem.node, Elem.tag] using h)]

theorem not_ipr (txt : String) : "ignoring unknown box '" ++ txt ++ "'" ≠ iprMessage := by
  intro h
  have := congrArg (fun s : String => s.toList.take 10) h
  simp only [String.toList_append] at this
  rw [List.append_assoc, List.take_append_of_le_length (by decide)] at this
  revert this
  decide

/-- The warnings about boxes are the messages other than those about intellectual property boxes. -/
theorem told_warned {bs ms} (h : Told env bs ms) : ∀ {ws}, Warned env bs ws →
    textsIn ws = (ms.filter (· ≠ iprMessage)).map .str := by
  induction h with
  | nil => intro ws h'; cases h'; rfl
  | unknown h1 h2 h3 _ ih =>
    intro ws h'
    cases h' with
    | unknown _ _ h3' h4 =>
      rw [List.filter_cons_of_pos (by simpa using not_ipr _), ← List.singleton_append, textsIn_append, ih h4,
        typeText_unique h3' h3]
      rfl
    | super h _ _ _ => exact absurd (super_known (superNames_iff.2 (List.mem_map.2 ⟨_, h, rfl⟩))).1 h1
    | other h _ _ => exact absurd h (by simp [h1, h2])
  | ipr _ ih =>
    intro ws h'
    cases h' with
    | unknown h1 _ _ _ => exact absurd ipr_known h1
    | super h _ _ _ => exact absurd rfl (super_known (superNames_iff.2 (List.mem_map.2 ⟨_, h, rfl⟩))).2
    | other _ _ h => rw [List.filter_cons_of_neg (by simp), ih h]
  | super h1 h2 _ _ ih1 ih2 =>
    intro ws h'
    cases h' with
    | unknown h _ _ _ => exact absurd (super_known h1).1 h
    | super hn h2' h3' h4' =>
      obtain rfl := boxes_unique h2 h2'
      rw [List.filter_append, List.map_append, textsIn_append, ih2 h4', ← ih1 h3']
      congr 1
      split
      · rename_i e; rw [e]
      · refine textsIn_node ?_ _
        have : ∀ p ∈ superNames, p.2 ≠ "warning" := by decide
        exact this _ hn
    | other _ h _ => exact absurd (superNames_iff.1 h1) h
  | other h1 h2 h3 _ ih =>
    intro ws h'
    cases h' with
    | unknown h4 h5 _ _ => exact absurd h1 (by simp [h4, h5])
    | super h _ _ _ => exact absurd (superNames_iff.2 (List.mem_map.2 ⟨_, h, rfl⟩)) h3
    | other _ _ h => exact ih h

/-- C71 (report): the warnings of a successful report on a JP2 or JPH file are the messages that are printed
while it is analysed, in the same order, without those about intellectual property boxes. -/
theorem C71_report_partial (hs : Sane env) (hfmt : o.format = .jp2 ∨ o.format = .jph) {b : Bytes}
    (hb : fs.read path = .data b) (hne : b ≠ []) {rep : Elem} (h : checkOneFile env me fs fuel o mix path = .ok rep)
    (hok : status rep "success" = [.str "True"]) :
    warningTexts rep = ((checkOneFileS env me fs fuel o mix path).said.filter (· ≠ iprMessage)).map .str := by
  obtain ⟨bs, hbs⟩ := boxes_exists b
  obtain ⟨ms, hm, -, h1, -⟩ := C71_boxes hfmt hb hne hbs h
  obtain ⟨ws, hw, -, hp⟩ := C62_boxes env hs me fs o mix fuel hfmt path b rep hb hne bs hbs h hok
  rw [h1 hok, ← told_warned hm hw]
  unfold warningTexts contents
  rw [hp]
  rfl

/-- C71 (empty files): the message about an empty file, or one that is too large, is printed and is the warning
of the report, where unprintable characters of the name are left out. -/
theorem C71_empty {msg : String} (hr : (fs.read path = .data [] ∧ msg = "empty file " ++ path.toText) ∨
      ∃ gb, fs.read path = .tooLarge gb ∧
        msg = "file " ++ path.toText ++ " too large to open (" ++ gb ++ " GB). Try using 64-bit Python.")
    {rep : Elem} (h : checkOneFile env me fs fuel o mix path = .ok rep) (hok : status rep "success" = [.str "True"]) :
    (checkOneFileS env me fs fuel o mix path).said = [msg] ∧ warningTexts rep = [.str (shown env msg.toList)] := by
  have h2 := C62_empty env me fs o mix fuel path rep msg hr h hok
  refine ⟨?_, by unfold warningTexts contents; rw [h2]; rfl⟩
  rcases said_analysis h with ⟨b', fmm, n, h1, -, -, -, h5⟩ | ⟨e, -, -, h3, -⟩
  · have hw : b' = [] ∧ fmm = [msg] := by
      unfold fileToMemoryMap at h1
      rcases hr with ⟨hr, rfl⟩ | ⟨gb, hr, rfl⟩ <;> rw [hr] at h1 <;> cases h1 <;> exact ⟨rfl, rfl⟩
    obtain ⟨rfl, rfl⟩ := hw
    have : (validateRootS env o fuel []).said = [] := by
      by_cases hf : o.format = .jp2 ∨ o.format = .jph
      · have := (validateRootS_tells (env := env) (fuel := fuel) (b := []) (bs := []) (.done (Nat.le_refl 0)) .nil hf).1
        exact List.prefix_nil.1 this
      · exact validateRootS_quiet hf
    rw [h5, this]; rfl
  · rw [h3] at hok; exact absurd (bool_text hok) (by decide)

theorem told_ipr {bs ms} (h : Told env bs ms) : iprMessage ∈ ms ↔
    ∃ x ∈ bs, x.type = ascii "jp2i" ∨ (x.type ∈ superboxTypes ∧ ∃ d p, HasBox x.payload d (ascii "jp2i") p) := by
  induction h with
  | nil => simp
  | unknown h1 h2 h3 _ ih =>
    rw [List.mem_cons, ih]
    simp only [List.mem_cons, exists_eq_or_imp]
    constructor
    · rintro (e | h)
      · exact absurd e.symm (not_ipr _)
      · exact .inr h
    · rintro (e | h)
      · rcases e with rfl | ⟨e, -⟩
        · exact absurd ipr_known h1
        · exact absurd (super_known e).1 h1
      · exact .inr h
  | ipr _ ih => simp
  | @super s t p hs inner bs ms h1 h2 _ _ ih1 ih2 =>
    rw [List.mem_append, ih1, ih2]
    simp only [List.mem_cons, exists_eq_or_imp]
    refine or_congr ⟨?_, ?_⟩ Iff.rfl
    · rintro ⟨x, hx, e | ⟨e, d, q, hq⟩⟩
      · refine .inr ⟨h1, 1, x.payload, ?_⟩
        rw [← e]; exact .top h2 hx
      · exact .inr ⟨h1, d + 1, q, hasBox_inside h2 hx e hq⟩
    · rintro (e | ⟨-, d, q, hq⟩)
      · exact absurd e (super_known h1).2
      · obtain ⟨x, hx, ⟨e, -⟩ | ⟨e, d', hd⟩⟩ := hasBox_inv h2 hq
        · exact ⟨x, hx, .inl e⟩
        · exact ⟨x, hx, .inr ⟨e, d', q, hd⟩⟩
  | other h1 h2 h3 _ ih =>
    rw [ih]
    simp only [List.mem_cons, exists_eq_or_imp, h2, h3, false_and, or_self, false_or]

/-- C71, exactly when: all that is printed about a JP2 or JPH file whose analysis succeeds is in its report if
and only if there is no intellectual property box in it, at any depth. -/
theorem C71_exact (hs : Sane env) (hfmt : o.format = .jp2 ∨ o.format = .jph) {b : Bytes}
    (hb : fs.read path = .data b) (hne : b ≠ []) {rep : Elem} (h : checkOneFile env me fs fuel o mix path = .ok rep)
    (hok : status rep "success" = [.str "True"]) :
    (checkOneFileS env me fs fuel o mix path).said.map .str = warningTexts rep ↔
      ∀ d p, ¬ HasBox b d (ascii "jp2i") p := by
  obtain ⟨bs, hbs⟩ := boxes_exists b
  obtain ⟨ms, hm, -, h1, -⟩ := C71_boxes hfmt hb hne hbs h
  rw [C71_report_partial hs hfmt hb hne h hok, h1 hok]
  have e1 : ms.map PyVal.str = (ms.filter (· ≠ iprMessage)).map .str ↔ iprMessage ∉ ms := by
    constructor
    · intro e hi
      have e := congrArg List.length e
      rw [List.length_map, List.length_map] at e
      have := List.length_filter_eq_length_iff.1 e.symm _ hi
      simp at this
    · intro hi
      rw [List.filter_eq_self.2]
      intro x hx
      have : x ≠ iprMessage := fun e => hi (e ▸ hx)
      simpa using this
  rw [e1, told_ipr hm]
  constructor
  · intro hn d p hp
    obtain ⟨x, hx, ⟨e, -⟩ | ⟨e, d', hd⟩⟩ := hasBox_inv hbs hp
    · exact hn ⟨x, hx, .inl e⟩
    · exact hn ⟨x, hx, .inr ⟨e, d', p, hd⟩⟩
  · rintro hn ⟨x, hx, e | ⟨e, d, p, hp⟩⟩
    · have := HasBox.top hbs hx
      rw [e] at this
      exact hn _ _ this
    · exact hn _ _ (hasBox_inside hbs hx e hp)

/-! ## A whole run -/

theorem reportFilesS_said {check : PyStr → Said Elem} {nopretty : Bool} : ∀ ps : List PyStr,
    (reportFilesS check nopretty ps).1 <+: ps.flatMap (fun p => (check p).said) ∧
    ((reportFilesS check nopretty ps).2.2 = .done →
      (reportFilesS check nopretty ps).1 = ps.flatMap (fun p => (check p).said) ∧
      ∀ p ∈ ps, ∃ e, (check p).result = .ok e)
  | [] => ⟨List.prefix_rfl, fun _ => ⟨rfl, by simp⟩⟩
  | p :: ps => by
    have ih := reportFilesS_said (check := check) (nopretty := nopretty) ps
    unfold reportFilesS
    rw [List.flatMap_cons]
    cases hr : (check p).result with
    | timeout => simp only [hr]; exact ⟨List.prefix_append .., fun h => by cases h⟩
    | raised e => simp only [hr]; exact ⟨List.prefix_append .., fun h => by cases h⟩
    | ok e =>
      simp only [hr]
      cases writeElement nopretty e with
      | timeout => exact ⟨List.prefix_append .., fun h => by cases h⟩
      | raised e => exact ⟨List.prefix_append .., fun h => by cases h⟩
      | ok _ =>
        simp only
        refine ⟨(List.prefix_append_right_inj _).2 ih.1, fun h => ?_⟩
        obtain ⟨h1, h2⟩ := ih.2 h
        refine ⟨by rw [h1], fun q hq => ?_⟩
        rcases List.mem_cons.1 hq with rfl | hq
        · exact ⟨e, hr⟩
        · exact h2 q hq

/-- C71 (run): a run prints one message for each path that does not exist, in the order of the command line, and
then the messages of the files, one file after the other; if there are no files it ends with a message that says
so. A run that breaks off prints a beginning of that. -/
theorem C71_run (tool : String) (cfg : Config) (recurse : Bool) (paths existing : List PyStr) :
    ∃ run said, checkFiles env me fs fuel tool cfg recurse paths existing = run ∧
      checkFilesS env me fs fuel tool cfg recurse paths existing = ⟨said, run⟩ ∧
      (run.existing = [] → run.exit = .code (-7) ∧ said = run.missing.map absentMessage ++ ["no images to check!"]) ∧
      (run.exit = .done → said = run.missing.map absentMessage ++
        run.existing.flatMap fun p => (checkOneFileS env me fs fuel cfg.options cfg.mix p).said) ∧
      (run.existing ≠ [] → ∃ rest, said = run.missing.map absentMessage ++ rest ∧
        rest <+: run.existing.flatMap fun p => (checkOneFileS env me fs fuel cfg.options cfg.mix p).said) := by
  refine ⟨_, (checkFilesS env me fs fuel tool cfg recurse paths existing).said, rfl, ?_, ?_⟩
  · rw [← (C71_same_program env me fs fuel).2]
  rw [← (C71_same_program env me fs fuel).2]
  unfold checkFilesS
  generalize findFiles fs recurse paths = ff
  obtain ⟨found, missing⟩ := ff
  simp only
  have hr := reportFilesS_said (check := checkOneFileS env me fs fuel cfg.options cfg.mix) (nopretty := cfg.nopretty)
    (existing ++ found)
  split
  · rename_i h
    have h' : existing ++ found = [] := List.isEmpty_iff.1 h
    exact ⟨fun _ => ⟨rfl, rfl⟩, fun h => (by cases h), fun hn => absurd h' hn⟩
  · rename_i h
    have h' : existing ++ found ≠ [] := fun e => h (List.isEmpty_iff.2 e)
    cases writeElement cfg.nopretty (toolInfo tool) with
    | ok _ =>
      refine ⟨fun e => absurd e h', fun hd => ?_, fun _ => ⟨_, rfl, hr.1⟩⟩
      simp only at hd ⊢
      rw [(hr.2 hd).1]
      rfl
    | raised e =>
      exact ⟨fun e => absurd e h', fun hd => (by cases hd), fun _ => ⟨[], by simp [absentMessage], List.nil_prefix⟩⟩
    | timeout =>
      exact ⟨fun e => absurd e h', fun hd => (by cases hd), fun _ => ⟨[], by simp [absentMessage], List.nil_prefix⟩⟩

/-- C71 (silence): if a run completes and prints nothing, then every path existed, and every file was
opened, had contents, was analysed without failure and has a report without warnings. -/
theorem C71_silence (hs : Sane env) {tool : String} {cfg : Config} {recurse : Bool} {paths existing : List PyStr}
    (hfmt : cfg.options.format = .jp2 ∨ cfg.options.format = .jph ∨ cfg.options.format = .j2c ∨ cfg.options.format = .jhc)
    (hd : (checkFiles env me fs fuel tool cfg recurse paths existing).exit = .done)
    (hq : (checkFilesS env me fs fuel tool cfg recurse paths existing).said = []) :
    (checkFiles env me fs fuel tool cfg recurse paths existing).missing = [] ∧
    ∀ p ∈ (checkFiles env me fs fuel tool cfg recurse paths existing).existing,
      ∃ b rep, fs.read p = .data b ∧ b ≠ [] ∧ checkOneFile env me fs fuel cfg.options cfg.mix p = .ok rep ∧
        status rep "success" = [.str "True"] ∧ warningTexts rep = [] := by
  obtain ⟨run, said, h1, h2, -, h4, -⟩ := C71_run (env := env) (me := me) (fs := fs) (fuel := fuel) tool cfg recurse
    paths existing
  rw [h2] at hq
  obtain rfl : said = [] := hq
  rw [h1] at hd ⊢
  have h4 := (h4 hd).symm
  obtain ⟨h5, h6⟩ := List.append_eq_nil_iff.1 h4
  refine ⟨List.map_eq_nil_iff.1 h5, fun p hp => ?_⟩
  have h6 := List.flatMap_eq_nil_iff.1 h6 p hp
  have hex : ∃ rep, checkOneFile env me fs fuel cfg.options cfg.mix p = .ok rep := by
    subst h1
    rw [← (C71_same_program env me fs fuel).2] at hd hp
    unfold checkFilesS at hd hp
    revert hd hp
    generalize findFiles fs recurse paths = ff
    obtain ⟨found, missing⟩ := ff
    simp only
    split
    · intro hd; cases hd
    · cases writeElement cfg.nopretty (toolInfo tool) with
      | ok _ =>
        intro hd hp
        obtain ⟨e, he⟩ := ((reportFilesS_said _).2 hd).2 p hp
        exact ⟨e, by rw [← checkOneFileS_result, he]⟩
      | raised e => intro hd; cases hd
      | timeout => intro hd; cases hd
  obtain ⟨rep, hrep⟩ := hex
  have hok : status rep "success" = [.str "True"] := by
    rcases said_analysis hrep with ⟨_, _, _, -, -, -, h, -⟩ | ⟨e, -, -, -, h⟩
    · exact h
    · rw [h6] at h
      exact absurd h.symm (by simp)
  cases hb : fs.read p with
  | error e =>
    exfalso
    rcases said_analysis hrep with ⟨b', fmm, n, h, -⟩ | ⟨e, -, -, -, h⟩
    · unfold fileToMemoryMap at h; rw [hb] at h; cases h
    · rw [h6] at h; exact absurd h.symm (by simp)
  | tooLarge gb =>
    have := (C71_empty (.inr ⟨gb, hb, rfl⟩) hrep hok).1
    rw [h6] at this; cases this
  | data b =>
    by_cases hne : b = []
    · subst hne
      have := (C71_empty (.inl ⟨hb, rfl⟩) hrep hok).1
      rw [h6] at this; cases this
    · refine ⟨b, rep, rfl, hne, hrep, hok, ?_⟩
      rcases hfmt with hf | hf | hf | hf
      · rw [C71_report_partial hs (.inl hf) hb hne hrep hok, h6]; rfl
      · rw [C71_report_partial hs (.inr hf) hb hne hrep hok, h6]; rfl
      all_goals
        have := C62_codestream env me fs cfg.options cfg.mix fuel (by simp [hf]) p b rep hb hne hrep hok
        unfold warningTexts contents
        rw [this]
        rfl

end

/-! ## Concrete cases -/

open Sample

/-- The messages and the report on a file with the given contents. -/
def tellsOf (o : Options) (b : Bytes) : Said Elem := checkOneFileS env0 me0 (fs0 b) 200 o 0 [97]

/-- The messages, whether the file is reported valid, and the warnings of the report. -/
def told (x : Said Elem) : List String × Bool × Option (List PyVal) :=
  (x.said, saysValid x.result, match x.result with | .ok rep => some (warningTexts rep) | _ => none)

/-- C71 fails: an intellectual property box in a valid file is mentioned on standard error but not in the
report. -/
theorem C71_false : told (tellsOf (opts .jp2) (jp2 ++ box "jp2i" [] ++ box "abcd" [])) =
    ([iprMessage, "ignoring unknown box 'abcd'"], true, some [.str "ignoring unknown box 'abcd'"]) := by
  decide +kernel

/-- C71 fails: the warning about an unknown box is printed, but it is lost from the report if the analysis of a
later box fails. -/
theorem C71_lost : ∃ msg, told (tellsOf (opts .jp2) (box "abcd" [] ++ crashingFile)) =
    (["ignoring unknown box 'abcd'", msg], false, some [.str msg]) :=
  ⟨failureMessage .zeroDivision, by decide +kernel⟩

/-- A file whose messages are exactly the warnings of its report, as in `C71_exact`. -/
example : told (tellsOf (opts .jp2) (fileWith (box "abcd" [1, 2]) (box "free" []))) =
    (["ignoring unknown box 'abcd'", "ignoring unknown box 'free'"], true,
      some [.str "ignoring unknown box 'abcd'", .str "ignoring unknown box 'free'"]) := by decide +kernel

/-- `C71_empty` at work. -/
example : told (tellsOf (opts .jp2) []) = (["empty file a"], false, some [.str "empty file a"]) := by decide +kernel

/-- `C71_codestream` at work. -/
example : told (tellsOf (opts .j2c) cs1) = ([], true, some []) := by decide +kernel

/-- `C71_codestream` at work: a failure, from a SIZ segment that is cut off. -/
example : told (tellsOf (opts .j2c) [0xff, 0x4f, 0xff, 0x51, 0, 3]) =
    ([failureMessage .unboundLocal], false, some [.str (failureMessage .unboundLocal)]) := by decide +kernel

/-- `C71_silence` at work: a run on a valid file that prints nothing. -/
example : (checkFilesS env0 me0 (fs0 jp2) 200 "jpylyzer" ⟨.jp2, false, false, false, 0, false⟩ false [[97]] []).said = [] ∧
    (checkFiles env0 me0 (fs0 jp2) 200 "jpylyzer" ⟨.jp2, false, false, false, 0, false⟩ false [[97]] []).exit = .done := by decide +kernel

end Jpy
