import Verif.Lemmas.DepthWalk
import Verif.Props.Digits
import Verif.Props.Metadata
import Verif.Props.Complete
/-!
# C70: the nesting of boxes and of metadata

Python limits the nesting of calls. The results do not depend on the limit as long as the boxes and the XML
documents of the files are not nested too deeply for it, and a report has few more levels than they. But a
valid file of a few kilobytes can be nested more deeply than any limit. With boxes nested in boxes it is
reported as not valid. With elements nested in elements the whole run ends with an exception, and the other
files are not reported.
-/

namespace Jpy
open Spec

section
variable {env : Env} {me : MixEnv} {near : Bytes → Bytes → Outcome BoxResult} {levels : Nat} {fs : FS} {fuel : Nat}
  {o : Options} {mix : Nat} {path : PyStr}

theorem checkOneFileR_eq : checkOneFileR env me near levels fs fuel o mix path = (do
      let info ← fileInfo fs path
      let a ← analyseR env near levels fs o fuel path
      let m ← mixOutput me mix a
      .ok (buildReport o info a (extensionOf o mix a m))) := by
  unfold checkOneFileR
  congr 1; funext info
  congr 1; funext a
  unfold mixOutput
  by_cases h : mix ≠ 0 ∧ a.isValid = true
  · rw [if_pos h, if_pos h]
    cases generateMix me mix a.props <;> rfl
  · rw [if_neg h, if_neg h]
    rfl

/-- C70 (boxes): if there is room for the boxes of a file, its report does not depend on the limit, nor on
what happens near it. -/
theorem C70_boxes_partial
    (h : o.format = .jp2 ∨ o.format = .jph → NestedIn levels (bytesRead (fs.read path))) :
    checkOneFileR env me near levels fs fuel o mix path = checkOneFile env me fs fuel o mix path := by
  have hr : validateRootR env o near levels fuel (bytesRead (fs.read path)) =
      validateRoot env o fuel (bytesRead (fs.read path)) := by
    unfold validateRootR validateRoot
    cases hf : o.format <;> simp only
    · exact validateJP2R_eq (h (.inl hf))
    · exact validateJP2R_eq (h (.inr hf))
  have ht : analyseTryR env near levels fs o fuel path = analyseTry env fs o fuel path := by
    unfold analyseTryR analyseTry
    cases hf : fileToMemoryMap fs path with
    | timeout => rfl
    | raised e => rfl
    | ok x =>
      obtain ⟨b, fmm⟩ := x
      rw [memoryMap_bytes hf]
      simp only [Outcome.bind_ok, hr]
  have ha : analyseR env near levels fs o fuel path = analyse env fs o fuel path := by
    unfold analyseR analyse; rw [ht]; cases analyseTry env fs o fuel path <;> rfl
  rw [checkOneFileR_eq, checkOneFile_eq, ha]

theorem depth_info {info} (h : fileInfo fs path = .ok info) : info.depth = 2 := by
  unfold fileInfo at h
  obtain ⟨_, -, h⟩ := ok_of_bind h
  obtain ⟨_, -, h⟩ := ok_of_bind h
  cases h
  levels
  decide

theorem depth_extension {a : Analysis} {m} (h : mixOutput me mix a = .ok m) :
    Elem.depthL (extensionOf o mix a m) ≤ 8 := by
  have hm : Elem.depthL m ≤ 7 := by
    unfold mixOutput at h
    split at h
    · obtain ⟨e, he, h⟩ := ok_of_bind h
      cases h
      rw [depthL_one]
      exact depth_mix he
    · cases h; decide
  unfold extensionOf
  split
  · rw [depthL_one, depth_node]
    split
    · omega
    · decide
  · decide

theorem depth_report {info : Elem} {a : Analysis} {ext} : (buildReport o info a ext).depth =
    max (max info.depth (max (max (Elem.depthL a.tests) (Elem.depthL a.props) + 1) 2))
      (max (Elem.depthL ext) (Elem.depthL a.warnings + 1)) + 1 := by
  have h2 : (Elem.mk "isValid" [("format", o.format.name)] (.str (boolStr a.isValid)) []).depth = 1 := rfl
  unfold buildReport
  rw [depth_node, depthL_append, depthL_append, depthL_cons, depthL_cons, depthL_cons, depthL_cons, depthL_one, depthL_one, h2]
  cases a.failure <;> simp only [depth_node, depthL_cons, depth_leaf, depthL_nil] <;> omega

/-- C70 (report): how many levels of elements a report has follows from how the file is nested. -/
theorem C70_depth {n m : Nat} (hf : FileNested env o.format n m (bytesRead (fs.read path))) {rep : Elem}
    (h : checkOneFile env me fs fuel o mix path = .ok rep) : rep.depth ≤ max (n + max 4 m + 2) 9 := by
  obtain ⟨info, a, x, h1, h2, h3, rfl⟩ := checkOneFile_ok.1 h
  have hi := depth_info h1
  have he := depth_extension (o := o) h3
  have ha : Elem.depthL a.tests ≤ n + max 4 m ∧ Elem.depthL a.props ≤ n + max 4 m ∧
      Elem.depthL a.warnings ≤ n + max 4 m := by
    rcases analyse_cases h2 with ⟨b, fmm, q, h4, h5, rfl⟩ | ⟨e, -, rfl⟩
    · cases memoryMap_bytes h4
      have hq := low_root hf h5
      simp only [analysisOf, depthL_readable]
      refine ⟨hq.tests, hq.chars, ?_⟩
      have hw : Elem.depthL (fmm.map fun w => Elem.leaf "warning" (.str w)) ≤ 1 := depthL_le fun e he => by
        obtain ⟨w, -, rfl⟩ := List.mem_map.1 he
        rw [depth_leaf]; exact Nat.le_refl _
      have := hq.warnings
      rw [depthL_append]
      omega
    · simp only [analysisFailed, depthL_nil, depthL_one, depth_leaf]
      omega
  rw [depth_report]
  omega

theorem writeElementR_eq {room : Room} {nopretty : Bool} {e : Elem} (h1 : e.depth ≤ room.serialize)
    (h2 : nopretty = true ∨ e.depth ≤ room.pretty) : writeElementR room nopretty e = writeElement nopretty e := by
  unfold writeElementR
  rw [if_neg (by omega)]
  rcases h2 with rfl | h2
  · rfl
  · split
    · rename_i h; rw [h]
    · rename_i h
      rw [if_neg (by omega)]
      have : nopretty = false := by simpa using h
      rw [this]
      cases writeElement false e <;> rfl

theorem reportFilesR_eq {room : Room} {nopretty : Bool} {f g : PyStr → Outcome Elem} : ∀ {ps : List PyStr},
    (∀ p ∈ ps, f p = g p) → (∀ p ∈ ps, ∀ e, g p = .ok e → e.depth ≤ room.serialize ∧
      (nopretty = true ∨ e.depth ≤ room.pretty)) → reportFilesR room f nopretty ps = reportFiles g nopretty ps
  | [], _, _ => rfl
  | p :: ps, h, hd => by
    unfold reportFilesR reportFiles
    rw [h p (List.mem_cons_self ..), reportFilesR_eq (fun q hq => h q (List.mem_cons_of_mem _ hq))
      (fun q hq => hd q (List.mem_cons_of_mem _ hq))]
    cases hg : g p with
    | timeout => rfl
    | raised e => rfl
    | ok e =>
      obtain ⟨h1, h2⟩ := hd p (List.mem_cons_self ..) e hg
      simp only [writeElementR_eq h1 h2]
      cases writeElement nopretty e <;> rfl

theorem depth_toolInfo (tool : String) : (toolInfo tool).depth = 2 := by unfold toolInfo; levels; decide

/-- C70 (run): if there is room for the boxes and for the documents of all files of a run, the result of
the run does not depend on the limit, nor on what happens near it. -/
theorem C70_run_partial {room : Room} {tool : String} {cfg : Config} {recurse : Bool} {paths existing : List PyStr}
    {n m : Nat}
    (hf : ∀ p ∈ existing ++ (findFiles fs recurse paths).1, FileNested env cfg.format n m (bytesRead (fs.read p)))
    (hb : n ≤ room.boxes) (hs : max (n + max 4 m + 2) 9 ≤ room.serialize)
    (hp : cfg.nopretty = true ∨ max (n + max 4 m + 2) 9 ≤ room.pretty) :
    checkFilesR env me near room fs fuel tool cfg recurse paths existing =
      checkFiles env me fs fuel tool cfg recurse paths existing := by
  have ht : writeElementR room cfg.nopretty (toolInfo tool) = writeElement cfg.nopretty (toolInfo tool) := by
    refine writeElementR_eq ?_ ?_
    · rw [depth_toolInfo]; omega
    · rw [depth_toolInfo]; exact hp.imp id fun h => by omega
  have hr : reportFilesR room (checkOneFileR env me near room.boxes fs fuel cfg.options cfg.mix) cfg.nopretty
        (existing ++ (findFiles fs recurse paths).1) =
      reportFiles (checkOneFile env me fs fuel cfg.options cfg.mix) cfg.nopretty
        (existing ++ (findFiles fs recurse paths).1) := by
    refine reportFilesR_eq (fun p hp' => C70_boxes_partial fun h d t q hb' => ?_) fun p hp' e he => ?_
    · exact Nat.le_trans ((hf p hp' h).1 _ _ _ hb') hb
    · have := C70_depth (hf p hp') he
      exact ⟨by omega, hp.imp id fun h => by omega⟩
  unfold checkFilesR checkFiles
  simp only [ht, hr]
  split
  · rfl
  · cases writeElement cfg.nopretty (toolInfo tool) <;> rfl

/-- C70 (failure): if boxes are nested too deeply and Python raises its exception for that, a file that is
analysed successfully without a limit is reported with success and validity False, without tests and
properties, and with a message that does not tell the reason. -/
theorem C70_fails (hfmt : o.format = .jp2 ∨ o.format = .jph) {rep : Elem}
    (hrep : checkOneFile env me fs fuel o mix path = .ok rep) (hs : status rep "success" = [.str "True"])
    (hn : ¬ NestedIn levels (bytesRead (fs.read path))) :
    ∃ rep' msg, checkOneFileR env me (fun _ _ => .raised .recursion) levels fs fuel o mix path = .ok rep' ∧
      status rep' "success" = [.str "False"] ∧ verdict rep' = some (.str "False") ∧
      contents rep' "tests" = [] ∧ contents rep' "properties" = [] ∧
      status rep' "failureMessage" = [.str msg] ∧
      contents rep' "warnings" = [Elem.leaf "warning" (.str msg)] ∧
      msg = "unknown error, please report to developers by creating " ++
        "an issue at https://github.com/openpreserve/jpylyzer/issues" := by
  obtain ⟨info, a, m, hinfo, ha, -, rfl⟩ := checkOneFile_ok.1 hrep
  have hi := fileInfo_tag hinfo
  have he : analyseTryR env (fun _ _ => .raised .recursion) levels fs o fuel path = .raised .recursion := by
    rcases analyse_cases ha with ⟨b, fmm, q, h1, h2, rfl⟩ | ⟨e, -, rfl⟩
    · cases memoryMap_bytes h1
      have h3 : validateJP2 env o fuel (bytesRead (fs.read path)) = .ok q := by
        unfold validateRoot at h2
        rcases hfmt with hf | hf <;> rw [hf] at h2 <;> exact h2
      have h4 : validateRootR env o (fun _ _ => .raised .recursion) levels fuel (bytesRead (fs.read path)) =
          .raised .recursion := by
        have : validateRootR env o (fun _ _ => .raised .recursion) levels fuel (bytesRead (fs.read path)) =
            validateJP2R env o (fun _ _ => .raised .recursion) levels fuel (bytesRead (fs.read path)) := by
          unfold validateRootR
          rcases hfmt with hf | hf <;> rw [hf]
        rw [this]
        rcases validateJP2R_or (levels := levels) h3 with h | h
        · exact absurd (validateJP2R_fails (fun _ _ _ h => by cases h) h) hn
        · exact h
      unfold analyseTryR
      rw [h1]
      simp only [Outcome.bind_ok, h4]
      rfl
    · unfold status at hs
      rw [(report_parts hi).2.1] at hs
      simp [analysisFailed, Elem.node, Elem.leaf, boolStr, Elem.children] at hs
  have ha : analyseR env (fun _ _ => .raised .recursion) levels fs o fuel path = .ok (analysisFailed .recursion) := by
    unfold analyseR; rw [he]; rfl
  have hm : mixOutput me mix (analysisFailed .recursion) = .ok [] := by
    unfold mixOutput; rw [if_neg]; simp [analysisFailed]
  refine ⟨buildReport o info (analysisFailed .recursion) (extensionOf o mix (analysisFailed .recursion) []),
    failureMessage .recursion, ?_, ?_⟩
  · rw [checkOneFileR_eq, hinfo, Outcome.bind_ok, ha, Outcome.bind_ok, hm, Outcome.bind_ok]
  · obtain ⟨-, p2, p3, p4, p5, p6, -⟩ :=
      report_parts (o := o) (a := analysisFailed .recursion) (mix := mix) (m := []) hi
    unfold status verdict contents
    rw [p2, p3, p4, p5, p6]
    refine ⟨?_, rfl, rfl, rfl, ?_, rfl, rfl⟩ <;>
      simp [analysisFailed, Elem.node, Elem.leaf, boolStr, Elem.children, Elem.tag, Elem.text]
end

/-! ## Files that are nested more deeply -/

/-- The boxes of a file to which a last box is added. -/
theorem boxes_last {k : Nat} {a : Bytes} (ha : WholeBoxes k a) {t : String} (ht : (ascii t).length = 4) (p : Bytes) :
    ∃ bs bs', Boxes a bs ∧ Boxes (a ++ lastBox t p) bs' ∧ bs.length = k ∧ bs'.map sh = bs.map sh ++ [(ascii t, p)] := by
  obtain ⟨ps, hl, hw⟩ := boxes_whole ha
  obtain ⟨⟨qs, hq, eq⟩, -⟩ := C10_roundtrip (EncodesBoxes.toEnd (p := p) ht)
  obtain ⟨bs, h1, e1⟩ := hw [] [] [] (.done (by simp))
  obtain ⟨bs', h2, e2⟩ := hw [] _ qs hq
  refine ⟨bs, bs', by simpa [Boxes] using h1, by simpa [Boxes, lastBox] using h2, ?_, ?_⟩
  · rw [← hl, ← List.length_map (f := sh), e1]; simp
  · rw [e2, e1]
    have : qs.map sh = [(ascii t, p)] := eq
    rw [this]; simp

theorem valid_last {env : Env} {o : Options} (hfmt : o.format = .jp2 ∨ o.format = .jph) {k : Nat} {a : Bytes}
    (ha : WholeBoxes k a) (hk : 2 ≤ k) (hv : FileValid env o a) {t : String} (ht : (ascii t).length = 4)
    (hi : ascii t ∉ imageTypes) (hj : ascii t ≠ ascii "jp2i") {p : Bytes} (hp : BoxPasses env o (ascii t) p) :
    FileValid env o (a ++ lastBox t p) := by
  obtain ⟨bs, bs', h1, h2, hl, e⟩ := boxes_last ha ht p
  refine C65_boxes env o hfmt h1 h2 ⟨?_, ?_, ?_⟩ (fun x hx _ => ?_) hv
  · rw [take_sh, take_sh, e, List.take_append_of_le_length (by rw [List.length_map]; omega)]
  · rw [imageBoxes_eq, imageBoxes_eq, e]
    simp [List.filter_append, hi]
  · rw [has_sh, has_sh, e]
    simp only [List.mem_append, List.mem_singleton, Prod.mk.injEq]
    exact ⟨fun ⟨q, h⟩ => ⟨q, .inl h⟩, fun ⟨q, h⟩ => h.elim (fun h => ⟨q, h⟩) fun h => absurd h.1.symm hj⟩
  · have : sh x ∈ bs'.map sh := List.mem_map_of_mem hx
    rw [e] at this
    rcases List.mem_append.1 this with h | h
    · exact fileValid_passes hfmt hv h1 h
    · simp only [List.mem_singleton, sh, Prod.mk.injEq] at h
      rw [h.1, h.2]; exact hp

theorem mem_last {k : Nat} {a : Bytes} (ha : WholeBoxes k a) {t : String} (ht : (ascii t).length = 4) (p : Bytes) :
    ∃ bs' x, Boxes (a ++ lastBox t p) bs' ∧ x ∈ bs' ∧ x.type = ascii t ∧ x.payload = p := by
  obtain ⟨bs, bs', h1, h2, hl, e⟩ := boxes_last ha ht p
  have : (ascii t, p) ∈ bs'.map sh := by rw [e]; simp
  obtain ⟨x, hx, ex⟩ := List.mem_map.1 this
  simp only [sh, Prod.mk.injEq] at ex
  exact ⟨bs', x, h2, hx, ex.1, ex.2⟩

/-- A last box that is not a superbox does not add levels of boxes. -/
theorem nested_last {n k : Nat} {a : Bytes} (ha : WholeBoxes k a) (hk : 2 ≤ k) (hn : NestedIn n a) {t : String}
    (ht : (ascii t).length = 4) (hs : ascii t ∉ superboxTypes) (p : Bytes) : NestedIn n (a ++ lastBox t p) := by
  obtain ⟨bs, bs', h1, h2, hl, e⟩ := boxes_last ha ht p
  intro d t' p' h
  rcases hasBox_first h h2 with ⟨rfl, -⟩ | ⟨x, hx, hsx, d', rfl, hd⟩
  · cases bs with
    | nil => simp at hl; omega
    | cons y bs => exact hn _ _ _ (.top h1 (List.mem_cons_self ..))
  · have : sh x ∈ bs'.map sh := List.mem_map_of_mem hx
    rw [e] at this
    rcases List.mem_append.1 this with h | h
    · obtain ⟨y, hy, ey⟩ := List.mem_map.1 h
      simp only [sh, Prod.mk.injEq] at ey
      exact hn _ _ _ (hasBox_at h1 hy (by rw [ey.1]; exact hsx) (by rw [ey.2]; exact hd))
    · simp only [List.mem_singleton, sh, Prod.mk.injEq] at h
      rw [h.1] at hsx
      exact absurd hsx hs

theorem encodes_ulst : EncodesBox (ascii "ulst") [0, 0] (Sample.box "ulst" [0, 0]) := .short (l := Sample.be32 10) rfl rfl
theorem encodes_url : EncodesBox (ascii "url ") [0, 0, 0, 0, 0] (Sample.box "url " [0, 0, 0, 0, 0]) :=
  .short (l := Sample.be32 13) rfl rfl

theorem nestedInfo_boxes : ∀ k, ∃ l, EncodesBoxes ((ascii "ulst", [0, 0]) :: (ascii "url ", [0, 0, 0, 0, 0]) :: l) (nestedInfo k) ∧
    (k = 0 ∧ l = [] ∨ ∃ j, k = j + 1 ∧ l = [(ascii "uinf", nestedInfo j)])
  | 0 => ⟨[], by
      have := EncodesBoxes.cons (t := ascii "ulst") rfl encodes_ulst
        (EncodesBoxes.cons (t := ascii "url ") rfl encodes_url EncodesBoxes.nil)
      simpa [nestedInfo] using this, .inl ⟨rfl, rfl⟩⟩
  | k + 1 => ⟨[(ascii "uinf", nestedInfo k)], by
      have := EncodesBoxes.cons (t := ascii "ulst") rfl encodes_ulst
        (EncodesBoxes.cons (t := ascii "url ") rfl encodes_url (EncodesBoxes.toEnd (t := ascii "uinf") (p := nestedInfo k) rfl))
      rw [nestedInfo, lastBox]
      rw [List.append_assoc]
      exact this, .inr ⟨k, rfl, rfl⟩⟩

theorem nestedInfo_step {env : Env} {o : Options} {p : Bytes} {l : List (Bytes × Bytes)}
    (he : EncodesBoxes ((ascii "ulst", [0, 0]) :: (ascii "url ", [0, 0, 0, 0, 0]) :: l) p)
    (hl : ∀ x ∈ l, x.1 = ascii "uinf" ∧ BoxPasses env o x.1 x.2) : BoxPasses env o (ascii "uinf") p := by
  obtain ⟨⟨bs, hb, hm⟩, -⟩ := C10_roundtrip he
  have hf : ∀ t, ascii "uinf" ≠ t → l.filter (fun x => x.1 == t) = [] := fun t ht =>
    List.filter_eq_nil_iff.2 fun x hx => by rw [(hl x hx).1]; simpa using ht
  refine (C37_uinf env o p).2 ⟨bs, hb, fun x hx => ?_, ?_, ?_⟩
  · have : (x.type, x.payload) ∈ (ascii "ulst", [0, 0]) :: (ascii "url ", [0, 0, 0, 0, 0]) :: l :=
      hm ▸ List.mem_map.2 ⟨x, hx, rfl⟩
    simp only [List.mem_cons, Prod.mk.injEq] at this
    rcases this with ⟨e1, e2⟩ | ⟨e1, e2⟩ | h
    · rw [e1, e2]
      exact (passes_of fun fuel => C37_ulst env o fuel _).2 ⟨0, by decide, by decide⟩
    · rw [e1, e2]
      refine (passes_of fun fuel => C38_url env o fuel _).2 ⟨⟨0, by decide, rfl⟩, by decide, [], 0, [], rfl, by decide, rfl⟩
    · exact (hl _ h).2
  · rw [number_sh, show bs.map sh = _ from hm, List.filter_cons, if_pos (by decide), List.filter_cons, if_neg (by decide),
      hf _ (by decide)]
    rfl
  · rw [number_sh, show bs.map sh = _ from hm, List.filter_cons, if_neg (by decide), List.filter_cons, if_pos (by decide),
      hf _ (by decide)]
    rfl

/-- UUID info boxes in each other pass all tests. -/
theorem nestedInfo_passes (env : Env) (o : Options) : ∀ k, BoxPasses env o (ascii "uinf") (nestedInfo k)
  | 0 => by
    obtain ⟨l, he, ⟨-, rfl⟩ | ⟨j, hj, -⟩⟩ := nestedInfo_boxes 0
    · exact nestedInfo_step he (fun x hx => by cases hx)
    · omega
  | k + 1 => by
    obtain ⟨l, he, ⟨h, -⟩ | ⟨j, hj, rfl⟩⟩ := nestedInfo_boxes (k + 1)
    · omega
    · cases hj
      refine nestedInfo_step he fun x hx => ?_
      cases List.mem_singleton.1 hx
      exact ⟨rfl, nestedInfo_passes env o k⟩

theorem nestedInfo_hasBox : ∀ k, HasBox (nestedInfo k) (k + 1) (ascii "ulst") [0, 0]
  | 0 => by
    obtain ⟨l, he, -⟩ := nestedInfo_boxes 0
    obtain ⟨⟨bs, hb, hm⟩, -⟩ := C10_roundtrip he
    have : (ascii "ulst", [0, 0]) ∈ bs.map (fun x => (x.type, x.payload)) := by rw [hm]; simp
    obtain ⟨x, hx, e⟩ := List.mem_map.1 this
    simp only [Prod.mk.injEq] at e
    rw [← e.1, ← e.2]
    exact .top hb hx
  | k + 1 => by
    obtain ⟨l, he, ⟨h, -⟩ | ⟨j, hj, rfl⟩⟩ := nestedInfo_boxes (k + 1)
    · omega
    · cases hj
      obtain ⟨⟨bs, hb, hm⟩, -⟩ := C10_roundtrip he
      have : (ascii "uinf", nestedInfo k) ∈ bs.map (fun x => (x.type, x.payload)) := by rw [hm]; simp
      obtain ⟨x, hx, e⟩ := List.mem_map.1 this
      simp only [Prod.mk.injEq] at e
      refine hasBox_at hb hx (by rw [e.1]; decide) ?_
      rw [e.2]
      exact nestedInfo_hasBox k

/-- Their size is proportional to the number of levels. -/
theorem nestedInfo_length : ∀ k, (nestedInfo k).length = 23 + 31 * k
  | 0 => by decide
  | k + 1 => by
    have h1 : (Sample.box "ulst" [0, 0] ++ Sample.box "url " [0, 0, 0, 0, 0]).length = 23 := by decide
    have h2 : (lastBox "uinf" (nestedInfo k)).length = 8 + (nestedInfo k).length := by
      rw [lastBox, List.length_append]; rfl
    rw [nestedInfo, List.length_append, h1, h2, nestedInfo_length k]
    omega

section
variable {env : Env} {o : Options} (hfmt : o.format = .jp2 ∨ o.format = .jph) {k : Nat} {a : Bytes}
  (ha : WholeBoxes k a) (hk : 2 ≤ k) (hv : FileValid env o a)
include hfmt ha hk hv

/-- C70 does not hold for boxes: whatever the limit, a valid file becomes one that is reported as valid
without the limit and as not valid with it, when a box of a size proportional to the limit is added. -/
theorem C70_false (me : MixEnv) (levels : Nat) {fs : FS} {path : PyStr}
    (hr : fs.read path = .data (a ++ lastBox "uinf" (nestedInfo levels)))
    (hs : ∃ n, fs.getsize path = .ok n) (hm : ∃ t, fs.modified path = .ok t) :
    (a ++ lastBox "uinf" (nestedInfo levels)).length = a.length + 31 * (levels + 1) ∧
    ∃ f0, ∀ fuel ≥ f0, ReportedValid env me fs fuel o 0 path ∧
      ∃ rep, checkOneFileR env me (fun _ _ => .raised .recursion) levels fs fuel o 0 path = .ok rep ∧
        verdict rep = some (.str "False") ∧ contents rep "properties" = [] := by
  constructor
  · have h2 : (lastBox "uinf" (nestedInfo levels)).length = 8 + (nestedInfo levels).length := by
      rw [lastBox, List.length_append]; rfl
    rw [List.length_append, h2, nestedInfo_length]
    omega
  have hval := valid_last hfmt ha hk hv (t := "uinf") rfl (by decide) (by decide) (nestedInfo_passes env o levels)
  obtain ⟨f0, h0⟩ := reported_of_fileValid (me := me) hr hs hm hval
  refine ⟨f0, fun fuel hf => ⟨h0 fuel hf, ?_⟩⟩
  obtain ⟨rep, h1, h2⟩ := h0 fuel hf
  have hsucc : status rep "success" = [.str "True"] := by
    obtain ⟨info, an, m, g1, g2, g3, rfl⟩ := checkOneFile_ok.1 h1
    rw [verdict_eq (fileInfo_tag g1)] at h2
    rcases analyse_cases g2 with ⟨b, fmm, q, -, -, rfl⟩ | ⟨e, -, rfl⟩
    · unfold status
      rw [(report_parts (fileInfo_tag g1)).2.1]
      simp [analysisOf, Elem.node, Elem.leaf, boolStr, Elem.children, Elem.tag, Elem.text]
    · simp [analysisFailed, boolStr] at h2
  have hnot : ¬ NestedIn levels (bytesRead (fs.read path)) := by
    rw [hr]
    intro h
    obtain ⟨bs, x, hb, hx, e1, e2⟩ := mem_last ha (t := "uinf") rfl (nestedInfo levels)
    have := h _ _ _ (hasBox_at hb hx (by rw [e1]; decide) (e2 ▸ nestedInfo_hasBox levels))
    omega
  obtain ⟨rep', msg, g1, -, g3, -, g5, -⟩ := C70_fails (levels := levels) hfmt h1 hsucc hnot
  exact ⟨rep', g1, g3, g5⟩
end

/-! ## Elements that are nested more deeply -/

theorem nestedElem_depth : ∀ k, (nestedElem k).depth = k + 1
  | 0 => by decide
  | k + 1 => by rw [nestedElem, depth_node, depthL_one, nestedElem_depth k]

theorem nestedDoc_length : ∀ k, (nestedDoc k).length = 7 * (k + 1)
  | 0 => by decide
  | k + 1 => by
    rw [nestedDoc, List.length_append, List.length_append, nestedDoc_length k]
    have h1 : (ascii "<a>").length = 3 := by decide
    have h2 : (ascii "</a>").length = 4 := by decide
    omega

theorem xml_depth {env : Env} {o : Options} (hx : ReadsNested env) {k fuel : Nat} {r : BoxResult}
    (h : validateBox env o fuel (ascii "xml ") (nestedDoc k) = .ok r) : k + 2 ≤ r.charsElem.depth := by
  cases fuel with
  | zero => cases h
  | succ fuel =>
    rw [validateBox_leaf env o fuel _ _ (t := .xmlBox) (by decide) rfl] at h
    unfold validateLeaf at h
    obtain ⟨ss, h1, h⟩ := Outcome.bind_eq_ok.1 h
    cases h
    have ht : boxTypeOf (ascii "xml ") = .xmlBox := by decide
    rw [ht] at h1
    simp only [leaf, xmlBox, xmlSteps, hx k] at h1
    cases h1
    have hc : (Node.run o.verbose {} [Step.elem (nestedElem k), Step.test "containsWellformedXML" true]).chars =
        [nestedElem k] := by
      show (Node.testFor o.verbose _ "containsWellformedXML" true).chars = _
      rw [testFor_chars]
      rfl
    unfold BoxResult.charsElem
    rw [depth_node, hc, depthL_one, nestedElem_depth]
    exact Nat.le_refl _

section
variable {env : Env} {me : MixEnv} {fs : FS} {cfg : Config} {k : Nat} {a : Bytes}

theorem nestedDoc_depth {o : Options} (hfmt : o.format = .jp2 ∨ o.format = .jph) (ha : WholeBoxes k a)
    (hx : ReadsNested env) {j fuel : Nat} {p : PyStr} (hr : fs.read p = .data (a ++ lastBox "xml " (nestedDoc j)))
    {rep : Elem} (h : checkOneFile env me fs fuel o 0 p = .ok rep) (hv : verdict rep = some (.str "True")) :
    j + 4 ≤ rep.depth := by
  obtain ⟨info, an, m, g1, g2, g3, rfl⟩ := checkOneFile_ok.1 h
  rw [verdict_eq (fileInfo_tag g1)] at hv
  rcases analyse_cases g2 with ⟨b, fmm, q, h4, h5, rfl⟩ | ⟨e, -, rfl⟩
  · cases memoryMap_bytes h4
    have h6 : validateJP2 env o fuel (bytesRead (fs.read p)) = .ok q := by
      unfold validateRoot at h5
      rcases hfmt with hf | hf <;> rw [hf] at h5 <;> exact h5
    obtain ⟨⟨n0, types⟩, hw, h6⟩ := Outcome.bind_eq_ok.1 h6
    rw [hr] at hw
    obtain ⟨bs, x, hb, hxm, e1, e2⟩ := mem_last ha (t := "xml ") rfl (nestedDoc j)
    obtain ⟨rs, hrs, rfl, -⟩ := walkBoxes_ok hb hw
    simp only [jp2Finish_eq] at h6
    obtain ⟨more, hq, -⟩ := jp2Last_chars h6
    rw [jp2Mid_chars, chars_foldl_absorb] at hq
    obtain ⟨r, hr1, hr2⟩ := inTurn_mem hrs hxm
    rw [e1, e2] at hr2
    have h7 := xml_depth hx hr2
    have h8 : r.charsElem.depth ≤ Elem.depthL q.chars := by
      refine depth_mem ?_
      rw [hq]
      exact List.mem_append_left _ (List.mem_append_right _ (List.mem_map_of_mem hr1))
    rw [depth_report]
    simp only [analysisOf, depthL_readable]
    omega
  · simp [analysisFailed, boolStr] at hv

/-- C70 does not hold for documents: whatever the room for writing, a valid file becomes one that is valid
when an XML box of a size proportional to the room is added, and that ends the run. Neither this file nor
one of the files after it is reported, and the document is not closed. The box is the smallest possible: with
room for `j + 4` levels the report can be written (`C70_run_partial`, for boxes that are not inside others). -/
theorem C70_crash (near : Bytes → Bytes → Outcome BoxResult) (j : Nat) {room : Room} {tool : String} {recurse : Bool}
    {paths existing : List PyStr} {p : PyStr} {ps : List PyStr} (hx : ReadsNested env)
    (hfmt : cfg.format = .jp2 ∨ cfg.format = .jph) (ha : WholeBoxes k a) (hk : 2 ≤ k)
    (hv : FileValid env cfg.options a) (hmix : cfg.mix = 0)
    (hfiles : existing ++ (findFiles fs recurse paths).1 = p :: ps)
    (hr : fs.read p = .data (a ++ lastBox "xml " (nestedDoc j)))
    (hs : ∃ n, fs.getsize p = .ok n) (hm : ∃ t, fs.modified p = .ok t)
    (hb : NestedIn room.boxes a) (hw : writeElement cfg.nopretty (toolInfo tool) = .ok ())
    (h2 : 2 ≤ room.serialize) (h2' : 2 ≤ room.pretty)
    (hj : room.serialize < j + 4 ∨ cfg.nopretty = false ∧ room.pretty < j + 4) :
    (a ++ lastBox "xml " (nestedDoc j)).length = a.length + 7 * j + 15 ∧
    ∃ f0, ∀ fuel ≥ f0, ReportedValid env me fs fuel cfg.options cfg.mix p ∧
      ∃ e, (room.serialize < j + 4 → e = .recursion) ∧
      (checkFilesR env me near room fs fuel tool cfg recurse paths existing).exit = .crash e ∧
      (checkFilesR env me near room fs fuel tool cfg recurse paths existing).out = [.head, .elem (toolInfo tool)] := by
  constructor
  · have h3 : (lastBox "xml " (nestedDoc j)).length = 8 + (nestedDoc j).length := by
      rw [lastBox, List.length_append]; rfl
    rw [List.length_append, h3, nestedDoc_length]
    omega
  have hfmt' : cfg.options.format = .jp2 ∨ cfg.options.format = .jph := hfmt
  have hval := valid_last hfmt' ha hk hv (t := "xml ") rfl (by decide) (by decide)
    ((C65_xml_box env cfg.options (nestedDoc j)).2 (by rw [hx]; rfl))
  obtain ⟨f0, h0⟩ := reported_of_fileValid (me := me) hr hs hm hval
  refine ⟨f0, fun fuel hf => ?_⟩
  obtain ⟨rep, g1, g2⟩ := h0 fuel hf
  have hd := nestedDoc_depth hfmt' ha hx hr g1 g2
  have g3 : checkOneFileR env me near room.boxes fs fuel cfg.options cfg.mix p = .ok rep := by
    rw [C70_boxes_partial (fun _ => ?_), hmix, g1]
    rw [hr]
    exact nested_last ha hk hb rfl (by decide) _
  have g4 : writeElementR room cfg.nopretty (toolInfo tool) = .ok () := by
    rw [writeElementR_eq, hw]
    · rw [depth_toolInfo]; exact h2
    · rw [depth_toolInfo]; exact .inr h2'
  obtain ⟨e, g5, g7⟩ : ∃ e, writeElementR room cfg.nopretty rep = .raised e ∧
      (room.serialize < j + 4 → e = .recursion) := by
    unfold writeElementR
    by_cases hse : room.serialize < rep.depth
    · exact ⟨_, if_pos hse, fun _ => rfl⟩
    · obtain ⟨hn, hp⟩ := hj.resolve_left (by omega)
      rw [if_neg hse, hn, if_neg (by decide)]
      have : ∀ w : Outcome Unit, w = writeElement false rep → ∃ e, (w >>= fun _ =>
          if room.pretty < rep.depth then Outcome.raised Exn.recursion else .ok ()) = .raised e := fun w h => by
        unfold writeElement at h
        rw [if_pos (show room.pretty < rep.depth by omega)]
        split at h
        · rw [if_neg (by decide)] at h
          split at h <;> (subst h; exact ⟨_, rfl⟩)
        · subst h; exact ⟨_, rfl⟩
      obtain ⟨e, h⟩ := this _ rfl
      exact ⟨e, h, fun h => by omega⟩
  have g6 : checkFilesR env me near room fs fuel tool cfg recurse paths existing =
      { out := [.head, .elem (toolInfo tool)], missing := (findFiles fs recurse paths).2, exit := .crash e,
        existing := p :: ps } := by
    unfold checkFilesR
    simp only [hfiles, g4]
    rw [if_neg (by simp)]
    unfold reportFilesR
    simp only [g3, g5]
    rfl
  exact ⟨hmix ▸ ⟨rep, g1, g2⟩, e, g7, by rw [g6], by rw [g6]⟩
end

/-! ## Concrete cases -/

/-- A JP2 file of a 1 × 1 image has two levels of boxes, and no XML in it. -/
theorem jp2_levels {d : Nat} {t p : Bytes} (h : HasBox Sample.jp2 d t p) :
    d ≤ 2 ∧ t ≠ ascii "xml " ∧ t ≠ ascii "uuid" := by
  have hb : Boxes Sample.jp2 jp2Boxes := boxes_of 10 (by decide +kernel)
  rcases hasBox_first h hb with ⟨rfl, x, hx, rfl, rfl⟩ | ⟨x, hx, hs, d', rfl, hd⟩
  · refine ⟨by decide, ?_⟩
    have : ∀ x ∈ jp2Boxes, x.type ≠ ascii "xml " ∧ x.type ≠ ascii "uuid" := by decide +kernel
    exact this x hx
  · have : x.payload = Sample.ihdr 1 1 1 7 ++ Sample.colr 17 := by
      have : ∀ x ∈ jp2Boxes, x.type ∈ superboxTypes → x.payload = Sample.ihdr 1 1 1 7 ++ Sample.colr 17 := by
        decide +kernel
      exact this x hx hs
    rw [this] at hd
    have hb2 : Boxes (Sample.ihdr 1 1 1 7 ++ Sample.colr 17) [⟨0, ascii "ihdr", (Sample.ihdr 1 1 1 7).drop 8⟩,
        ⟨22, ascii "colr", (Sample.colr 17).drop 8⟩] := boxes_of 10 (by decide +kernel)
    rcases hasBox_first hd hb2 with ⟨rfl, y, hy, rfl, rfl⟩ | ⟨y, hy, hs, -⟩
    · refine ⟨by decide, ?_⟩
      simp only [List.mem_cons, List.not_mem_nil, or_false] at hy
      rcases hy with rfl | rfl <;> exact ⟨by decide, by decide⟩
    · simp only [List.mem_cons, List.not_mem_nil, or_false] at hy
      rcases hy with rfl | rfl <;> exact absurd hs (by decide)

theorem jp2_nested (env : Env) (fmt : Format) : FileNested env fmt 2 0 Sample.jp2 := fun _ =>
  ⟨fun _ _ _ h => (jp2_levels h).1, fun _ _ _ h => ⟨fun e => absurd e (jp2_levels h).2.1, fun e => absurd e (jp2_levels h).2.2⟩⟩

/-- `C70_run_partial` at work: two levels of boxes and nine of elements are enough for this file. -/
example (me : MixEnv) (near : Bytes → Bytes → Outcome BoxResult) (fuel : Nat) (tool : String) :
    checkFilesR Sample.env0 me near ⟨2, 9, 9⟩ (Sample.fs0 Sample.jp2) fuel tool ⟨.jp2, false, false, false, 0, false⟩
      false [[97], [98]] [] =
    checkFiles Sample.env0 me (Sample.fs0 Sample.jp2) fuel tool ⟨.jp2, false, false, false, 0, false⟩ false [[97], [98]] [] :=
  C70_run_partial (n := 2) (m := 0) (fun _ _ => jp2_nested _ _) (by decide) (by decide) (.inr (by decide))

/-- `C70_false` at work, for a limit of 490 nested boxes: the file has 15387 bytes. -/
example (me : MixEnv) : ∃ f0, ∀ fuel ≥ f0,
    ReportedValid Sample.env0 me (Sample.fs0 (Sample.jp2 ++ lastBox "uinf" (nestedInfo 490))) fuel (Sample.opts .jp2) 0 [97] ∧
    ∃ rep, checkOneFileR Sample.env0 me (fun _ _ => .raised .recursion) 490
        (Sample.fs0 (Sample.jp2 ++ lastBox "uinf" (nestedInfo 490))) fuel (Sample.opts .jp2) 0 [97] = .ok rep ∧
      verdict rep = some (.str "False") ∧ contents rep "properties" = [] :=
  (C70_false (.inl rfl) jp2_whole (by decide) jp2_fileValid me 490 (fs := Sample.fs0 _) (path := [97])
    rfl ⟨_, rfl⟩ ⟨_, rfl⟩).2

/-- An environment whose XML parser reads nested elements. -/
def Sample.envNested : Env :=
  { Sample.env0 with parseXml := fun b =>
      if b = nestedDoc (b.length / 7 - 1) then some (nestedElem (b.length / 7 - 1)) else none }

theorem envNested_reads : ReadsNested Sample.envNested := by
  intro k
  have : (nestedDoc k).length / 7 - 1 = k := by rw [nestedDoc_length]; omega
  show (if nestedDoc k = nestedDoc ((nestedDoc k).length / 7 - 1) then _ else none) = _
  rw [this, if_pos rfl]

/-- `C70_crash` at work: with room for 980 levels of elements, a run on two files ends at the first one. -/
example (me : MixEnv) (near : Bytes → Bytes → Outcome BoxResult) : ∃ f0, ∀ fuel ≥ f0,
    ReportedValid Sample.envNested me (Sample.fs0 (Sample.jp2 ++ lastBox "xml " (nestedDoc 977))) fuel (Sample.opts .jp2) 0 [97] ∧
    ∃ e, (980 < 977 + 4 → e = Exn.recursion) ∧
    (checkFilesR Sample.envNested me near ⟨490, 980, 980⟩ (Sample.fs0 (Sample.jp2 ++ lastBox "xml " (nestedDoc 977))) fuel
      "jpylyzer" ⟨.jp2, false, false, false, 0, false⟩ false [[97], [98]] []).exit = .crash e ∧
    (checkFilesR Sample.envNested me near ⟨490, 980, 980⟩ (Sample.fs0 (Sample.jp2 ++ lastBox "xml " (nestedDoc 977))) fuel
      "jpylyzer" ⟨.jp2, false, false, false, 0, false⟩ false [[97], [98]] []).out = [.head, .elem (toolInfo "jpylyzer")] :=
  (C70_crash near 977 (room := ⟨490, 980, 980⟩) (cfg := ⟨.jp2, false, false, false, 0, false⟩) (fs := Sample.fs0 _)
    envNested_reads (.inl rfl) jp2_whole (by decide) (fileValid_of 100 (by decide +kernel)) rfl rfl rfl ⟨_, rfl⟩ ⟨_, rfl⟩
    (fun _ _ _ h => Nat.le_trans (jp2_levels h).1 (by decide)) (by decide +kernel) (by decide) (by decide) (.inl (by decide))).2

end Jpy
