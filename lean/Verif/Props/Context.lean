import Verif.Spec.Context
import Verif.Props.Shows
import Verif.Props.Unknown
import Verif.Props.Unseen
import Verif.Props.Runs
import Verif.Lemmas.Diagnosis
import Verif.Lemmas.Warned
/-!
# C81: the report on a box depends on that box alone
-/

namespace Jpy
open Spec Sample

/-- What the analysis of a box contributes. -/
def shareOf (env : Env) (r : BoxResult) : Share :=
  ⟨makeHumanReadable env remapTable r.charsElem, makeHumanReadableL env [] (Spec.entry r.tag r.node.tests),
    makeHumanReadableL env [] (Jpy.entry r)⟩

open Classical in
/-- The contribution of a box, if its analysis ends. -/
noncomputable def contribution (env : Env) (o : Options) (t p : Bytes) : Option Share :=
  if h : ∃ r k, validateBox env o k t p = .ok r then some (shareOf env (Classical.choose h)) else none

theorem contribution_eq {env : Env} {o : Options} {k : Nat} {t p : Bytes} {r : BoxResult}
    (h : validateBox env o k t p = .ok r) : contribution env o t p = some (shareOf env r) := by
  have hx : ∃ r k, validateBox env o k t p = .ok r := ⟨r, k, h⟩
  unfold contribution
  rw [dif_pos hx]
  obtain ⟨k', hk'⟩ := Classical.choose_spec hx
  have h1 := (validateBox_le env o (f := k) (g := k + k') (by omega) t p).ok h
  have h2 := (validateBox_le env o (f := k') (g := k + k') (by omega) t p).ok hk'
  rw [h1] at h2
  cases h2; rfl

theorem contribution_some {env : Env} {o : Options} {t p : Bytes} {s : Share}
    (h : contribution env o t p = some s) : ∃ k r, validateBox env o k t p = .ok r ∧ s = shareOf env r := by
  unfold contribution at h
  split at h
  · rename_i hx
    obtain ⟨k, hk⟩ := Classical.choose_spec hx
    exact ⟨k, _, hk, (Option.some.inj h).symm⟩
  · cases h

theorem contributions {env : Env} {o : Options} {k : Nat} : ∀ {bs : List FoundBox} {rs : List BoxResult},
    inTurn (fun x : FoundBox => validateBox env o k x.type x.payload) bs = .ok rs →
    (bs.map fun x => contribution env o x.type x.payload) = (rs.map (shareOf env)).map some
  | [], rs, h => by cases h; rfl
  | x :: bs, rs, h => by
    obtain ⟨y, zs, rfl, h1, h2⟩ := inTurn_cons.1 h
    simp only [List.map_cons]
    rw [contribution_eq h1, contributions h2]

/-- `m` has the tests of `n` and further tests, without children. -/
def AddsTests (n m : Node) : Prop := ∃ own : List Elem, m.tests = n.tests ++ own ∧ ∀ e ∈ own, e.children = []

theorem AddsTests.refl (n : Node) : AddsTests n n := ⟨[], by simp, by simp⟩

theorem AddsTests.trans {a b c : Node} (h1 : AddsTests a b) (h2 : AddsTests b c) : AddsTests a c := by
  obtain ⟨x, e1, l1⟩ := h1
  obtain ⟨y, e2, l2⟩ := h2
  refine ⟨x ++ y, by rw [e2, e1, List.append_assoc], fun e he => ?_⟩
  rcases List.mem_append.1 he with he | he
  · exact l1 e he
  · exact l2 e he

theorem AddsTests.testFor {a b : Node} (h : AddsTests a b) (v : Bool) (name : String) (r : Bool) :
    AddsTests a (b.testFor v name r) := by
  refine h.trans ?_
  have hl : AddsTests b { b with tests := b.tests ++ [Elem.leaf name (.bool r)] } :=
    ⟨_, rfl, by simp [Elem.leaf, Elem.children]⟩
  unfold Node.testFor
  split
  · split
    · exact hl
    · exact .refl _
  · exact hl

theorem AddsTests.testIf {a b : Node} (h : AddsTests a b) (v c : Bool) (name : String) (r : Bool) :
    AddsTests a (b.testIf v c name r) := by
  unfold Node.testIf
  split
  · exact h.testFor v name r
  · exact h

theorem jp2Mid_adds (o : Options) (n : Node) (ts : List Bytes) : AddsTests n (jp2Mid o n ts) := by
  unfold jp2Mid
  simp only
  iterate 6 refine AddsTests.testFor ?_ _ _ _
  refine AddsTests.testIf ?_ _ _ _ _
  iterate 4 refine AddsTests.testFor ?_ _ _ _
  exact .refl _

theorem sizConsistency_adds {o : Options} {nb : Int} {n m : Node} {ih sz : List Elem}
    (h : sizConsistency o nb n ih sz = .ok m) : AddsTests n m := by
  unfold sizConsistency at h
  simp only [] at h
  obtain ⟨_, -, h⟩ := Outcome.bind_eq_ok.1 h
  obtain ⟨_, -, h⟩ := Outcome.bind_eq_ok.1 h
  obtain ⟨_, -, h⟩ := Outcome.bind_eq_ok.1 h
  obtain ⟨_, -, h⟩ := Outcome.bind_eq_ok.1 h
  obtain ⟨_, -, h⟩ := Outcome.bind_eq_ok.1 h
  have key : ∀ (a1 a2 a3 a4 a5 : Bool), AddsTests n
      (((((n.testFor o.verbose "heightConsistentWithSIZ" a1).testFor o.verbose "widthConsistentWithSIZ" a2).testFor
        o.verbose "nCConsistentWithSIZ" a3).testFor o.verbose "bPCSignConsistentWithSIZ" a4).testFor o.verbose
        "bPCDepthConsistentWithSIZ" a5) := fun _ _ _ _ _ =>
    (((((AddsTests.refl n).testFor _ _ _).testFor _ _ _).testFor _ _ _).testFor _ _ _).testFor _ _ _
  split at h
  · obtain ⟨_, -, h⟩ := Outcome.bind_eq_ok.1 h
    obtain ⟨_, -, h⟩ := Outcome.bind_eq_ok.1 h
    obtain ⟨_, -, h⟩ := Outcome.bind_eq_ok.1 h
    cases h
    exact key _ _ _ _ _
  · cases h
    exact key _ _ _ _ _

theorem jp2Finish_adds {o : Options} {nb : Int} {n m : Node} {ts : List Bytes} (h : jp2Finish o nb n ts = .ok m) :
    AddsTests n m := by
  rw [jp2Finish_eq] at h
  refine (jp2Mid_adds o n ts).trans ?_
  unfold jp2Last at h
  split at h
  · exact sizConsistency_adds h
  · cases h; exact .refl _

theorem headerFinish_adds (o : Options) (n : Node) (ts : List Bytes) : AddsTests n (jp2HeaderFinish o n ts) := by
  unfold jp2HeaderFinish
  simp only
  repeat first
    | exact AddsTests.refl _
    | refine AddsTests.testFor ?_ _ _ _
    | refine AddsTests.testIf ?_ _ _ _ _
    | split

theorem resolutionFinish_adds (v : Bool) (n : Node) (ts : List Bytes) : AddsTests n (resolutionFinish v n ts) := by
  unfold resolutionFinish
  exact (((AddsTests.refl n).testFor _ _ _).testFor _ _ _).testFor _ _ _

theorem uuidInfoFinish_adds (v : Bool) (n : Node) (ts : List Bytes) : AddsTests n (uuidInfoFinish v n ts) := by
  unfold uuidInfoFinish
  exact ((AddsTests.refl n).testFor _ _ _).testFor _ _ _

theorem readableL_flatMap {α : Type} (env : Env) (tbl : RemapTable) (f : α → List Elem) (l : List α) :
    makeHumanReadableL env tbl (l.flatMap f) = l.flatMap fun x => makeHumanReadableL env tbl (f x) := by
  induction l with
  | nil => rfl
  | cons x l ih => rw [List.flatMap_cons, List.flatMap_cons, readableL_append, ih]

theorem readableL_leaves (env : Env) (tbl : RemapTable) {l : List Elem} (h : ∀ e ∈ l, e.children = []) :
    ∀ e ∈ makeHumanReadableL env tbl l, e.children = [] := by
  intro e he
  rw [readableL_map] at he
  obtain ⟨e', h1, rfl⟩ := List.mem_map.1 he
  rw [readable_children, h e' h1]; rfl

/-- The three lists of a loop over boxes and what follows it. -/
theorem collects {env : Env} {o : Options} {k : Nat} {bs : List FoundBox} {rs : List BoxResult}
    (h : inTurn (fun x : FoundBox => validateBox env o k x.type x.payload) bs = .ok rs) {m : Node} {more ws : List Elem}
    (hc : m.chars = (rs.foldl Node.absorb {}).chars ++ more) (ht : AddsTests (rs.foldl Node.absorb {}) m)
    (hw : m.warnings = (rs.foldl Node.absorb {}).warnings) (hws : ∀ e ∈ ws, e.children = []) :
    Collects (contribution env o) bs (makeHumanReadableL env remapTable more) (makeHumanReadableL env remapTable m.chars)
      (makeHumanReadableL env [] m.tests) (makeHumanReadableL env [] (m.warnings ++ ws)) := by
  obtain ⟨own, e1, e2⟩ := ht
  refine ⟨rs.map (shareOf env), makeHumanReadableL env [] own, makeHumanReadableL env [] ws, contributions h, ?_, ?_,
    readableL_leaves env _ e2, ?_, readableL_leaves env _ hws⟩
  · rw [hc, readableL_append, chars_foldl_absorb]
    congr 1
    rw [List.nil_append, readableL_map, List.map_map, List.map_map]; rfl
  · rw [e1, readableL_append, foldl_absorb_tests, List.nil_append, readableL_flatMap, List.flatMap_map]; rfl
  · rw [hw, readableL_append, warnings_foldl_absorb, List.nil_append, readableL_flatMap, List.flatMap_map]; rfl

/-- The list of children in the entry of a part is the list of its tests. -/
theorem entry_kids (env : Env) (tbl : RemapTable) (tag : String) (l : List Elem) :
    (makeHumanReadableL env tbl (Spec.entry tag l)).flatMap (·.children) = makeHumanReadableL env tbl l ∧
    (makeHumanReadableL env tbl (Spec.entry tag l)).length ≤ 1 ∧
    ∀ e ∈ makeHumanReadableL env tbl (Spec.entry tag l), e.tag = tag := by
  cases l with
  | nil => simp [Spec.entry, makeHumanReadableL]
  | cons a l =>
    have h1 : (makeHumanReadable env tbl (.node tag (a :: l))).children = makeHumanReadableL env tbl (a :: l) :=
      readable_children env tbl _
    have h2 : (makeHumanReadable env tbl (.node tag (a :: l))).tag = tag := readable_tag env tbl _
    simp [Spec.entry, makeHumanReadableL, h1, h2]

theorem warnings_entry (r : BoxResult) : Jpy.entry r = Spec.entry r.tag r.node.warnings := by
  unfold Jpy.entry
  cases r.node.warnings <;> simp [Spec.entry]

/-- A superbox collects the contributions of the boxes in it. -/
theorem super_collects {env : Env} {o : Options} {t p : Bytes} {inner : List FoundBox} {s : Share}
    (ht : t ∈ superboxTypes) (hb : Boxes p inner) (h : contribution env o t p = some s) :
    Collects (contribution env o) inner [] s.props.children (s.tests.flatMap (·.children))
      (s.warnings.flatMap (·.children)) ∧
    s.tests.length ≤ 1 ∧ (∀ e ∈ s.tests, e.tag = s.props.tag) ∧
    s.warnings.length ≤ 1 ∧ ∀ e ∈ s.warnings, e.tag = s.props.tag := by
  obtain ⟨k, r, hr, rfl⟩ := contribution_some h
  have htag : (shareOf env r).props.tag = r.tag := readable_tag env remapTable _
  have hkids : (shareOf env r).props.children = makeHumanReadableL env remapTable r.node.chars :=
    readable_children env remapTable _
  obtain ⟨k1, k2, k3⟩ := entry_kids env [] r.tag r.node.tests
  obtain ⟨w1, w2, w3⟩ := entry_kids env [] r.tag r.node.warnings
  rw [htag, hkids]
  simp only [shareOf, warnings_entry]
  rw [k1, w1]
  refine ⟨?_, k2, k3, w2, w3⟩
  cases k with
  | zero => cases hr
  | succ k =>
    have key : ∀ {n m types}, walkBoxes (validateBox env o k) p k = .ok (n, types) → m.chars = n.chars → AddsTests n m →
        m.warnings = n.warnings → Collects (contribution env o) inner [] (makeHumanReadableL env remapTable m.chars)
          (makeHumanReadableL env [] m.tests) (makeHumanReadableL env [] m.warnings) := by
      intro n m types hw hc ht hwn
      obtain ⟨rs, hrs, rfl, -⟩ := walkBoxes_ok hb hw
      have := collects (more := []) (ws := []) hrs (by rw [hc, List.append_nil]) ht hwn (by simp)
      rw [List.append_nil] at this
      exact this
    rw [validateBox] at hr
    have hcase : t = ascii "jp2h" ∨ t = ascii "res " ∨ t = ascii "uinf" := by simpa [superboxTypes] using ht
    rcases hcase with rfl | rfl | rfl
    · rw [show boxTypeOf (ascii "jp2h") = .jp2HeaderBox by decide] at hr
      obtain ⟨⟨n, types⟩, hw, hr⟩ := Outcome.bind_eq_ok.1 hr
      cases hr
      exact key hw (by simp [jp2HeaderFinish_chars]) (headerFinish_adds o n types) (by simp [jp2HeaderFinish_warnings])
    · rw [show boxTypeOf (ascii "res ") = .resolutionBox by decide] at hr
      obtain ⟨⟨n, types⟩, hw, hr⟩ := Outcome.bind_eq_ok.1 hr
      cases hr
      exact key hw (by simp only [resolutionFinish, testFor_chars]) (resolutionFinish_adds _ n types)
        (by simp only [resolutionFinish, testFor_warnings])
    · rw [show boxTypeOf (ascii "uinf") = .uuidInfoBox by decide] at hr
      obtain ⟨⟨n, types⟩, hw, hr⟩ := Outcome.bind_eq_ok.1 hr
      cases hr
      exact key hw (by simp only [uuidInfoFinish, testFor_chars]) (uuidInfoFinish_adds _ n types)
        (by simp only [uuidInfoFinish, testFor_warnings])

/-- The report of a file collects the contributions of its boxes. -/
theorem file_collects {env : Env} {o : Options} (hfmt : o.format = .jp2 ∨ o.format = .jph) (me : MixEnv) (fs : FS)
    (fuel mix : Nat) (path : PyStr) (rep : Elem) (bs : List FoundBox)
    (h : checkOneFile env me fs fuel o mix path = .ok rep) (hs : status rep "success" = [.str "True"])
    (hb : Boxes (bytesRead (fs.read path)) bs) :
    ∃ more, Collects (contribution env o) bs more (contents rep "properties") (contents rep "tests")
        (contents rep "warnings") ∧
      more.length ≤ 1 ∧ ∀ e ∈ more, e.tag = "compressionRatio" := by
  obtain ⟨info, a, m, h1, h2, h3, rfl⟩ := checkOneFile_ok.1 h
  have hi := fileInfo_tag h1
  obtain ⟨-, -, -, p1, p2, p3, -⟩ := report_parts hi (o := o) (a := a) (mix := mix) (m := m)
  have q1 : contents (buildReport o info a (extensionOf o mix a m)) "properties" = a.props := by
    unfold contents; rw [p2]; rfl
  have q2 : contents (buildReport o info a (extensionOf o mix a m)) "tests" = a.tests := by
    unfold contents; rw [p1]; rfl
  have q3 : contents (buildReport o info a (extensionOf o mix a m)) "warnings" = a.warnings := by
    unfold contents; rw [p3]; rfl
  rw [q1, q2, q3]
  rcases analyse_cases h2 with ⟨b, fmm, n, h4, h5, rfl⟩ | ⟨e, h4, rfl⟩
  · obtain ⟨rfl, -⟩ := fileToMemoryMap_ok h4
    have h6 : validateJP2 env o fuel (bytesRead (fs.read path)) = .ok n := by
      unfold validateRoot at h5
      rcases hfmt with hf | hf <;> rw [hf] at h5 <;> exact h5
    obtain ⟨⟨n0, types⟩, hw, h6⟩ := Outcome.bind_eq_ok.1 h6
    obtain ⟨rs, hr, rfl, -⟩ := walkBoxes_ok hb hw
    have hc : ∃ more : List Elem, n.chars = (rs.foldl Node.absorb {}).chars ++ more ∧ more.length ≤ 1 ∧
        ∀ e ∈ more, e.tag = "compressionRatio" := by
      have h7 := h6
      simp only [jp2Finish_eq] at h7
      rw [← jp2Mid_chars o (rs.foldl Node.absorb {}) types]
      exact jp2Last_chars h7
    obtain ⟨more, e1, e2, e3⟩ := hc
    refine ⟨makeHumanReadableL env remapTable more, collects hr e1 (jp2Finish_adds h6) (jp2Finish_warnings h6)
      (by intro e he; obtain ⟨w, -, rfl⟩ := List.mem_map.1 he; rfl), by rw [readableL_length']; exact e2, ?_⟩
    intro e he
    rw [readableL_map] at he
    obtain ⟨e', he', rfl⟩ := List.mem_map.1 he
    rw [readable_tag]; exact e3 e' he'
  · unfold status at hs
    rw [(report_parts hi).2.1] at hs
    simp [analysisFailed, Elem.node, Elem.leaf, boolStr, Elem.children] at hs

/-- **C81.** The report on a box depends on that box alone. With given options there is a function of the type and the
contents of a box such that, in the report of any file whose analysis succeeds, properties, tests and warnings are what
this function gives for the boxes of the file, in their order, followed by at most the compression ratio, the tests
of the file as a whole and the warnings about the file as a whole. The boxes in a superbox contribute to the report on
the superbox in the same way, by the same function. -/
theorem C81_context (env : Env) (o : Options) (hfmt : o.format = .jp2 ∨ o.format = .jph) :
    ∃ C : Bytes → Bytes → Option Share,
      (∀ (me : MixEnv) (fs : FS) (fuel mix : Nat) (path : PyStr) (rep : Elem) (bs : List FoundBox),
        checkOneFile env me fs fuel o mix path = .ok rep → status rep "success" = [.str "True"] →
        Boxes (bytesRead (fs.read path)) bs →
        ∃ more, Collects C bs more (contents rep "properties") (contents rep "tests") (contents rep "warnings") ∧
          more.length ≤ 1 ∧ ∀ e ∈ more, e.tag = "compressionRatio") ∧
      ∀ (t p : Bytes) (inner : List FoundBox) (s : Share), t ∈ superboxTypes → Boxes p inner → C t p = some s →
        Collects C inner [] s.props.children (s.tests.flatMap (·.children)) (s.warnings.flatMap (·.children)) ∧
        s.tests.length ≤ 1 ∧ (∀ e ∈ s.tests, e.tag = s.props.tag) ∧
        s.warnings.length ≤ 1 ∧ ∀ e ∈ s.warnings, e.tag = s.props.tag := by
  exact ⟨contribution env o, file_collects hfmt, fun t p inner s => super_collects⟩

/-- Box `i` of a file has its properties in element `i`. -/
theorem props_share {env : Env} {o : Options} (hfmt : o.format = .jp2 ∨ o.format = .jph) {me : MixEnv} {fs : FS}
    {fuel mix : Nat} {path : PyStr} {rep : Elem} {bs : List FoundBox}
    (h : checkOneFile env me fs fuel o mix path = .ok rep) (hs : status rep "success" = [.str "True"])
    (hb : Boxes (bytesRead (fs.read path)) bs) {i : Nat} {x : FoundBox} (hx : bs[i]? = some x) :
    ∃ s, contribution env o x.type x.payload = some s ∧ (contents rep "properties")[i]? = some s.props := by
  obtain ⟨more, ⟨ss, own, ownW, e1, e2, -⟩, -⟩ := file_collects hfmt me fs fuel mix path rep bs h hs hb
  have h1 := congrArg (fun l => l[i]?) e1
  simp only [List.getElem?_map, hx, Option.map_some] at h1
  cases hq : ss[i]? with
  | none => rw [hq] at h1; cases h1
  | some s =>
    rw [hq] at h1
    refine ⟨s, Option.some.inj h1, ?_⟩
    have hlt : i < ss.length := by
      rcases Nat.lt_or_ge i ss.length with hl | hl
      · exact hl
      · rw [List.getElem?_eq_none hl] at hq; cases hq
    rw [e2, List.getElem?_append_left (by simpa using hlt), List.getElem?_map, hq]; rfl

/-- C81 (the same box in two files): if box `i` of a file and box `j` of another have the same type and contents, the
reports have the same properties for them, whatever else is in the files and wherever these boxes are. -/
theorem C81_same {env : Env} {me me' : MixEnv} {fs fs' : FS} {fuel fuel' : Nat} {o : Options} {mix mix' : Nat}
    {path path' : PyStr} (hfmt : o.format = .jp2 ∨ o.format = .jph) {rep rep' : Elem}
    (h : checkOneFile env me fs fuel o mix path = .ok rep) (hs : status rep "success" = [.str "True"])
    (h' : checkOneFile env me' fs' fuel' o mix' path' = .ok rep') (hs' : status rep' "success" = [.str "True"])
    {bs bs' : List FoundBox} (hb : Boxes (bytesRead (fs.read path)) bs) (hb' : Boxes (bytesRead (fs'.read path')) bs')
    {i j : Nat} {x y : FoundBox} (hx : bs[i]? = some x) (hy : bs'[j]? = some y) (ht : y.type = x.type)
    (hp : y.payload = x.payload) :
    ∃ e, (contents rep "properties")[i]? = some e ∧ (contents rep' "properties")[j]? = some e := by
  obtain ⟨s, c1, c2⟩ := props_share hfmt h hs hb hx
  obtain ⟨s', c1', c2'⟩ := props_share hfmt h' hs' hb' hy
  rw [ht, hp, c1] at c1'
  cases c1'
  exact ⟨s.props, c2, c2'⟩

/-- C81 (faults): if each box of a file also occurs in a valid file, wherever, then the tests that fail in the report
of the file are about the file as a whole, not about a box. -/
theorem C81_fault {env : Env} {o : Options} (hfmt : o.format = .jp2 ∨ o.format = .jph) {bs : List FoundBox} {rep : Elem}
    (h : ReportOfBoxes env o bs rep)
    (hv : ∀ x ∈ bs, ∃ bs' rep', ReportOfBoxes env o bs' rep' ∧ verdict rep' = some (.str "True") ∧
      ∃ y ∈ bs', y.type = x.type ∧ y.payload = x.payload) :
    ∀ e ∈ contents rep "tests", ∀ d, Within d e → d.text = .str "False" → e.children = [] := by
  intro e he d hd hf
  obtain ⟨me, fs, fuel, mix, path, h1, h2, h3⟩ := h
  obtain ⟨more, ⟨ss, own, ownW, e1, -, e2, e3, -⟩, -⟩ := file_collects hfmt me fs fuel mix path rep bs h1 h2 h3
  rw [e2] at he
  rcases List.mem_append.1 he with he | he
  · exfalso
    obtain ⟨s, hs, hes⟩ := List.mem_flatMap.1 he
    have hs' : some s ∈ bs.map fun x => contribution env o x.type x.payload := by
      rw [e1]; exact List.mem_map_of_mem hs
    obtain ⟨x, hx, hc⟩ := List.mem_map.1 hs'
    obtain ⟨bs', rep', ⟨me', fs', fuel', mix', path', g1, g2, g3⟩, hval, y, hy, ht, hp⟩ := hv x hx
    obtain ⟨more', ⟨ss', own', ownW', f1, -, f2, -⟩, -⟩ := file_collects hfmt me' fs' fuel' mix' path' rep' bs' g1 g2 g3
    have hm : some s ∈ ss'.map some := by
      rw [← f1]
      refine List.mem_map.2 ⟨y, hy, ?_⟩
      rw [ht, hp]; exact hc
    obtain ⟨s', hs'', hss⟩ := List.mem_map.1 hm
    cases hss
    refine (C01_verdict _ _ _ _ _ _ _ rep' g1 g2).2.1 hval e ?_ d hd hf
    rw [f2]
    exact List.mem_append_left _ (List.mem_flatMap.2 ⟨s, hs'', hes⟩)
  · exact e3 e he

/-! ## Marker segments -/

open Classical in
/-- The element for a segment of a header in which segments with the markers `l` are examined, if there is one. -/
noncomputable def segElem (env : Env) (o : Options) (l : List Bytes) (csiz : Nat) (m c : Bytes) : List Elem :=
  if h : ∃ r k, validateLeaf env o k (some (csiz : Int)) m c = .ok r then
    if m ∈ l ∧ (m ∈ packetSegments → o.packetmarkers = true) then [(Classical.choose h).charsElem] else []
  else []

theorem segElem_eq {env : Env} {o : Options} {l : List Bytes} {csiz k : Nat} {m c : Bytes} {r : BoxResult}
    (h : validateLeaf env o k (some (csiz : Int)) m c = .ok r) : segElem env o l csiz m c =
      if m ∈ l ∧ (m ∈ packetSegments → o.packetmarkers = true) then [r.charsElem] else [] := by
  have hx : ∃ r k, validateLeaf env o k (some (csiz : Int)) m c = .ok r := ⟨r, k, h⟩
  unfold segElem
  rw [dif_pos hx]
  obtain ⟨k', hk'⟩ := Classical.choose_spec hx
  have h1 := (validateLeaf_le env o (f := k) (g := k + k') (by omega) (some (csiz : Int)) m c).ok h
  have h2 := (validateLeaf_le env o (f := k') (g := k + k') (by omega) (some (csiz : Int)) m c).ok hk'
  rw [h1] at h2
  cases h2; rfl

theorem segElem_other {env : Env} {o : Options} {l : List Bytes} {csiz : Nat} {m c : Bytes} (h : m ∉ l) :
    segElem env o l csiz m c = [] := by
  unfold segElem
  by_cases hx : ∃ r k, validateLeaf env o k (some (csiz : Int)) m c = .ok r
  · rw [dif_pos hx, if_neg (fun hh => h hh.1)]
  · rw [dif_neg hx]

/-- The elements for the segments of a header, one by one. -/
theorem segs_elems {env : Env} {o : Options} {fuel csiz : Nat} {l q : List Bytes}
    (hq : ∀ m ∈ l, (m ∈ packetSegments ↔ m ∈ q)) : ∀ (ss : List FoundSeg) (rs) (n : Node),
    inTurn (segRun (segV env o fuel) (some (csiz : Int))) (ss.filter fun x => decide (x.marker ∈ l)) = .ok rs →
    (absorbSegs o.packetmarkers q n rs).chars =
      n.chars ++ ss.flatMap fun x => segElem env o l csiz x.marker x.contents
  | [], rs, n, h => by
    cases h
    simp [absorbSegs]
  | x :: ss, rs, n, h => by
    rw [List.filter_cons] at h
    by_cases hx : x.marker ∈ l
    · rw [if_pos (decide_eq_true hx)] at h
      obtain ⟨y, hy, h⟩ := Outcome.bind_eq_ok.1 h
      obtain ⟨ys, hys, h⟩ := Outcome.bind_eq_ok.1 h
      cases h
      obtain ⟨y1, y2⟩ := y
      obtain ⟨e1, hy⟩ := segRun_ok.1 hy
      simp only at e1
      subst e1
      have hrec := fun n => segs_elems hq ss ys n hys
      show (absorbSegs o.packetmarkers q (if x.marker ∈ q then n.absorbPacket o.packetmarkers y2
        else n.absorb y2) ys).chars = _
      rw [hrec, List.flatMap_cons, segElem_eq hy, ← List.append_assoc]
      congr 1
      by_cases hp : x.marker ∈ q
      · rw [if_pos hp]
        unfold Node.absorbPacket
        by_cases hpm : o.packetmarkers = true
        · rw [if_pos hpm, if_pos ⟨hx, fun _ => hpm⟩, absorb_chars]
        · rw [if_neg hpm, if_neg (fun hh => hpm (hh.2 ((hq _ hx).2 hp)))]
          simp [Node.absorbQuiet]
      · rw [if_neg hp, if_pos ⟨hx, fun hm => absurd ((hq _ hx).1 hm) hp⟩, absorb_chars]
    · rw [if_neg (by simpa using hx)] at h
      rw [segs_elems hq ss rs n h, List.flatMap_cons, segElem_other hx, List.nil_append]

/-- The element for a tile-part with the given SOT segment and header segments. -/
noncomputable def tpElem (env : Env) (o : Options) (csiz : Nat) (c : Bytes) (ss : List (Bytes × Bytes)) : Elem :=
  .node "tilePart" (.node "sot" (Node.run o.verbose {} (sot c)).chars ::
    ((ss.flatMap fun x => segElem env o tilePartSegments csiz x.1 x.2) ++
      [.leaf "pltCount" (.int ((ss.filter fun x => x.1 == PLT).length : Nat)),
       .leaf "pptCount" (.int ((ss.filter fun x => x.1 == PPT).length : Nat))]))

/-- The marker and contents of segments. -/
def plainSegs (ss : List FoundSeg) : List (Bytes × Bytes) := ss.map fun x => (x.marker, x.contents)

theorem plainSegs_number (ss : List FoundSeg) (m : Bytes) :
    ((plainSegs ss).filter fun x => x.1 == m).length = segNumber m ss := by
  unfold plainSegs segNumber
  rw [List.filter_map, List.length_map]; rfl

theorem tpElem_plain (env : Env) (o : Options) (csiz : Nat) (c : Bytes) (ss : List FoundSeg) :
    tpElem env o csiz c (plainSegs ss) = .node "tilePart" (.node "sot" (Node.run o.verbose {} (sot c)).chars ::
      ((ss.flatMap fun x => segElem env o tilePartSegments csiz x.marker x.contents) ++
        [.leaf "pltCount" (.int (segNumber PLT ss)), .leaf "pptCount" (.int (segNumber PPT ss))])) := by
  unfold tpElem
  rw [plainSegs_number, plainSegs_number]
  unfold plainSegs
  rw [List.flatMap_map]

theorem tilePart_elem {env o fuel} {csiz : Nat} {b : Bytes} {t : TilePartInfo} (ht : t.At b) {r}
    (h : tilePart env o fuel (some (csiz : Int)) (t.start : Nat) b = .ok r) {ss : List FoundSeg} {e : Option Nat}
    (hse : SegsTo b SOD (t.start + 12) ss e) :
    r.charsElem = tpElem env o csiz (sub b (t.start + 2) 10) (plainSegs ss) := by
  have hs := segAt_of_at ht
  rw [tilePart_unfold hs] at h
  obtain ⟨s, hl, hr⟩ := Outcome.bind_eq_ok.1 h
  cases hr
  have hl' := (tpLoop_le (seg1 := segV env o fuel) (fun _ _ _ => .refl _) o.packetmarkers
    (some (csiz : Int)) b _ (show fuel ≤ fuel + ss.length + 2 by omega)).ok hl
  simp only [intOf] at hl'
  have hl2 := tpLoop_eq (seg := segV env o fuel) (pm := o.packetmarkers) (csiz := some (csiz : Int)) hse
    (fuel := fuel + ss.length + 2) (s := tpStart o.verbose (sub b (t.start + 2) 10) (t.start + 12)) (by omega)
    (by simp only [tpStart]; decide) (by simp only [tpStart]; omega) rfl
  have hl' := hl2.symm.trans hl'
  obtain ⟨rs, hrs, he⟩ := Outcome.bind_eq_ok.1 hl'
  cases he
  have h1 := segs_elems (l := tilePartSegments) (q := [mPLT, mPPT]) (by decide +kernel) ss rs
    (sotNode o.verbose (sub b (t.start + 2) 10)) hrs
  rw [tpElem_plain]
  unfold tpResult BoxResult.charsElem tpFinish
  simp only [testIf_chars, Node.addChar, testFor_chars, tpEnd, tpStart, h1, Nat.zero_add, List.append_assoc]
  rfl

/-- The elements for the tile-parts that are visited. -/
theorem tileParts_elems {env o f} {csiz : Nat} {b : Bytes} {n : Int} {off ts} (hv : Visited b n off ts)
    {hdr : TilePartInfo → List FoundSeg} (hh : ∀ t ∈ ts, ∃ e, SegsTo b SOD (t.start + 12) (hdr t) e) :
    ∀ fuel s s', tileLoop (fun x => tilePart env o f (some (csiz : Int)) x b) b fuel s = .ok s' →
    s.marker = mSOT → s.offset = ((off : Nat) : Int) → s.found.length = n.toNat →
    s'.node.chars = s.node.chars ++
      ts.map fun t => tpElem env o csiz (sub b (t.start + 2) 10) (plainSegs (hdr t)) := by
  induction hv with
  | @done off hx =>
    intro fuel s s' h hm ho hn
    cases fuel with
    | zero => cases h
    | succ fuel =>
      rw [tileLoop, if_pos hm, ho, slice2] at h
      simp only [] at h
      rw [if_neg (show ¬ sub b off 2 = mSOT from hx)] at h
      cases h
      simp
  | @last t ht hlast =>
    intro fuel s s' h hm ho hn
    cases fuel with
    | zero => cases h
    | succ fuel =>
      rw [tileLoop, if_pos hm, ho, slice2] at h
      simp only [] at h
      rw [if_pos (show sub b t.start 2 = mSOT from ht.marker)] at h
      obtain ⟨r, hr, h⟩ := Outcome.bind_eq_ok.1 h
      obtain ⟨isot, hi, h⟩ := Outcome.bind_eq_ok.1 h
      obtain ⟨tnsot, htn, h⟩ := Outcome.bind_eq_ok.1 h
      obtain ⟨-, h2, h3⟩ := shows_tilePart ht hr
      obtain ⟨e, hse⟩ := hh t (by simp)
      have h1 := tilePart_elem ht hr hse
      rw [h2] at hi
      cases hi
      rw [h3] at h
      rw [List.map_cons, List.map_nil, ← h1]
      by_cases hin : 0 ≤ (t.index : Int) ∧ (t.index : Int) < (s.found.length : Int)
      · rw [if_pos hin] at h
        have : t.length = 0 := by rcases hlast with h | h <;> omega
        rw [if_neg (by simp [this])] at h
        cases h
        rfl
      · rw [if_neg hin] at h
        cases h
        rfl
  | @step t ts ht hlt hne _ ih =>
    intro fuel s s' h hm ho hn
    cases fuel with
    | zero => cases h
    | succ fuel =>
      rw [tileLoop, if_pos hm, ho, slice2] at h
      simp only [] at h
      rw [if_pos (show sub b t.start 2 = mSOT from ht.marker)] at h
      obtain ⟨r, hr, h⟩ := Outcome.bind_eq_ok.1 h
      obtain ⟨isot, hi, h⟩ := Outcome.bind_eq_ok.1 h
      obtain ⟨tnsot, htn, h⟩ := Outcome.bind_eq_ok.1 h
      obtain ⟨-, h2, h3⟩ := shows_tilePart ht hr
      obtain ⟨e, hse⟩ := hh t (by simp)
      have h1 := tilePart_elem ht hr hse
      rw [h2] at hi
      cases hi
      rw [h3] at h
      rw [if_pos (by omega), if_pos (by simp only [Option.getD_some]; omega)] at h
      have h4 := ih (fun t' ht' => hh t' (by simp [ht'])) _ _ _ h ht.marker (by simp) (by rw [List.length_modify]; exact hn)
      rw [h4, absorb_chars, List.map_cons, ← h1]; simp

/-- The properties of a codestream: SIZ, the other segments of the main header, and what follows. -/
theorem codestream_segs (env : Env) (o : Options)
    (hfmt : (o.format = .jp2 ∨ o.format = .jph) ∨ o.format = .j2c ∨ o.format = .jhc) (fuel : Nat) (b : Bytes) (n : Node)
    (h : codestream env o fuel b = .ok n) (hsoc : sub b 0 2 = SOC) (siz : Bytes) (csiz : Nat)
    (main : List FoundSeg) (sot : Option Nat) (hm : MainHeader b siz csiz main sot) :
    ∃ tps rest, n.chars = segElem env o [SIZ] csiz SIZ siz ++
        (main.flatMap fun x => segElem env o mainSegments csiz x.marker x.contents) ++
        ([.leaf "ppmCount" (.int (segNumber PPM main)), .leaf "plmCount" (.int (segNumber PLM main)),
          .node "tileParts" tps] ++ rest) ∧
      (segElem env o [SIZ] csiz SIZ siz).length = 1 ∧
      (∀ e ∈ rest, e.tag = "compressionRatio") ∧
      (∀ k tiles ts (hdr : TilePartInfo → List FoundSeg), FieldIs siz 20 4 (1 ≤ ·) → FieldIs siz 24 4 (1 ≤ ·) → TileCount siz tiles → sot = some k →
        Visited b (min tiles 65535) k ts → (∀ t ∈ ts, ∃ e, SegsTo b SOD (t.start + 12) (hdr t) e) →
        tps = ts.map fun t => tpElem env o csiz (sub b (t.start + 2) 10) (plainSegs (hdr t))) := by
  obtain ⟨⟨first, hs1, hse⟩, hcs⟩ := hm
  obtain ⟨n0, hs0, -⟩ := getMarkerSegment_spec b 0
  have hn02 : n0 = some 2 := by
    generalize (getMarkerSegment b ((0 : Nat) : Int)).contents = cc at hs0
    generalize (getMarkerSegment b ((0 : Nat) : Int)).marker = mm at hs0
    cases hs0 with
    | alone => rfl
    | seg hd => exact absurd (show sub b 0 2 ∈ delimiters by rw [hsoc]; decide) hd
    | noLength hd => exact absurd (show sub b 0 2 ∈ delimiters by rw [hsoc]; decide) hd
  subst hn02
  rw [codestream_eq hs0 rfl hs1] at h
  obtain ⟨r, h1, h⟩ := Outcome.bind_eq_ok.1 h
  obtain ⟨cs, h2, h⟩ := Outcome.bind_eq_ok.1 h
  obtain ⟨s, h3, h⟩ := Outcome.bind_eq_ok.1 h
  obtain ⟨rsiz, h4, h⟩ := Outcome.bind_eq_ok.1 h
  obtain ⟨tiles, h5, h⟩ := Outcome.bind_eq_ok.1 h
  obtain ⟨t, h6, hend⟩ := Outcome.bind_eq_ok.1 h
  obtain ⟨htag, -, -, -, -, -, tcsiz, -⟩ := siz_text h1
  rw [reported_text tcsiz, hcs] at h2
  cases h2
  have h3' := (mainLoop_le (seg1 := segV env o fuel) (fun _ _ _ => .refl _) o.packetmarkers
    (some (csiz : Int)) b _ (show fuel ≤ fuel + main.length + 2 by omega)).ok h3
  rw [mainLoop_eq hse (by omega) (show mSIZ ≠ mSOT by decide) (by simp [mainStart, intOf]) rfl] at h3'
  obtain ⟨rs, hrs, hs⟩ := Outcome.bind_eq_ok.1 h3'
  cases hs
  have hsegs := segs_elems (l := mainSegments) (q := [mPLM, mPPM]) (by decide +kernel) main rs (headNode o b r) hrs
  rw [headNode_chars] at hsegs
  have hmain : (mainNode o (mainEnd b o.packetmarkers (mainStart o b r (intOf (some first))) main sot rs)
      rsiz).chars = r.charsElem :: ((main.flatMap fun x => segElem env o mainSegments csiz x.marker x.contents) ++
        [.leaf "ppmCount" (.int (segNumber PPM main)), .leaf "plmCount" (.int (segNumber PLM main))]) := by
    unfold mainNode
    simp only [testIf_chars, testFor_chars, Node.addChar, mainEnd, mainStart, hsegs, Nat.zero_add]
    simp
    exact ⟨rfl, rfl⟩
  have h1' : validateLeaf env o fuel (some (csiz : Int)) SIZ siz = .ok r := by
    rw [← h1]; exact validateLeaf_csiz (by decide) _ _
  have hz : segElem env o [SIZ] csiz SIZ siz = [r.charsElem] := by
    rw [segElem_eq h1', if_pos ⟨by simp, fun hh => absurd hh (by decide)⟩]
  obtain ⟨ratio, hch, hr1, hr2⟩ := cs_finish_chars hend
  refine ⟨t.node.chars, ratio, ?_, by rw [hz]; rfl, ?_, ?_⟩
  · rw [hch, hmain, hz]; simp
  · intro e he
    rcases hfmt with hf | hf
    · rw [hr1 hf] at he; cases he
    · obtain ⟨v, rfl⟩ := hr2 hf
      rw [List.mem_singleton.1 he]; rfl
  · rintro k tiles' ts hdr hx hy ht rfl hv hh
    obtain ⟨v, hv1, hv'⟩ := siz_shows_tiles h1 hcs
    rw [hmain, first_text htag hv1] at h5
    cases h5
    have e := tileCount_unique hx hy (hv' hx hy) ht
    subst e
    have hm : lastMarker mSOT main (some k) = mSOT := (lastMarker_eq hse).2 rfl
    have := tileParts_elems hv hh _ _ _ h6 hm rfl (by simp [rangeLen])
    rw [this]; rfl

/-- The codestream behind the properties of a codestream. -/
theorem props_codestream {env : Env} {o : Options} {me : MixEnv} {fs : FS} {fuel mix : Nat} {path : PyStr} {rep : Elem}
    (h : checkOneFile env me fs fuel o mix path = .ok rep) (hs : status rep "success" = [.str "True"])
    {b : Bytes} {ps : List Elem} (hp : CodestreamProps o.format rep (bytesRead (fs.read path)) b ps) :
    ((o.format = .jp2 ∨ o.format = .jph) ∨ o.format = .j2c ∨ o.format = .jhc) ∧
    ∃ k n, codestream env o k b = .ok n ∧ ps = makeHumanReadableL env remapTable n.chars := by
  cases hp with
  | bare hfmt =>
    refine ⟨.inr hfmt, ?_⟩
    obtain ⟨info, a, m, h1, h2, h3, rfl⟩ := checkOneFile_ok.1 h
    have hi := fileInfo_tag h1
    obtain ⟨-, -, -, -, p2, -, -⟩ := report_parts hi (o := o) (a := a) (mix := mix) (m := m)
    have q1 : contents (buildReport o info a (extensionOf o mix a m)) "properties" = a.props := by
      unfold contents; rw [p2]; rfl
    rw [q1]
    rcases analyse_cases h2 with ⟨b, fmm, n, h4, h5, rfl⟩ | ⟨e, h4, rfl⟩
    · obtain ⟨rfl, -⟩ := fileToMemoryMap_ok h4
      have h6 : codestream env o fuel (bytesRead (fs.read path)) = .ok n := by
        unfold validateRoot at h5
        rcases hfmt with hf | hf <;> rw [hf] at h5 <;> exact h5
      exact ⟨fuel, n, h6, rfl⟩
    · unfold status at hs
      rw [(report_parts hi).2.1] at hs
      simp [analysisFailed, Elem.node, Elem.leaf, boolStr, Elem.children] at hs
  | @box bs i x e hfmt hb hx ht he =>
    refine ⟨.inl hfmt, ?_⟩
    obtain ⟨ss, c1, c2⟩ := props_share hfmt h hs hb hx
    obtain ⟨k, r, hr, rfl⟩ := contribution_some c1
    rw [c2] at he
    cases he
    rw [ht] at hr
    cases k with
    | zero => cases hr
    | succ k =>
      rw [validateBox, show boxTypeOf (ascii "jp2c") = .contiguousCodestreamBox by decide] at hr
      obtain ⟨n, h6, hr⟩ := Outcome.bind_eq_ok.1 hr
      cases hr
      exact ⟨k, n, h6, readable_children env remapTable _⟩

theorem readable_leaf_tag (env : Env) (l : List Elem) (h : ∀ e ∈ l, e.tag = "compressionRatio") :
    ∀ e ∈ makeHumanReadableL env remapTable l, e.tag = "compressionRatio" := by
  intro e he
  rw [readableL_map] at he
  obtain ⟨e', he', rfl⟩ := List.mem_map.1 he
  rw [readable_tag]; exact h e' he'

/-- C81 (marker segments and tile-parts): likewise, with given options there are functions `Z` of the number of
components and the contents of a SIZ segment, `S` of the number of components and the marker and contents of another
segment, and `T` of the number of components, the contents of a SOT segment and the list of the markers and contents
of the other segments of a tile-part header, such that, in the report on any codestream with a SIZ segment, in a
box of a file or on its own, the properties are what `Z` gives for the SIZ segment, what `S` gives for the other segments
of the main header, in their order, two counts, the tile-parts, which are what `T` gives for the tile-parts visited, in
their order, and for a codestream on its own the compression ratio. -/
theorem C81_segments (env : Env) (o : Options) :
    ∃ (Z : Nat → Bytes → Elem) (S : Nat → Bytes → Bytes → List Elem) (T : Nat → Bytes → List (Bytes × Bytes) → Elem),
      (∀ csiz m c, (S csiz m c).length ≤ 1) ∧
      ∀ (me : MixEnv) (fs : FS) (fuel mix : Nat) (path : PyStr) (rep : Elem) (b : Bytes) (ps : List Elem),
        checkOneFile env me fs fuel o mix path = .ok rep → status rep "success" = [.str "True"] →
        CodestreamProps o.format rep (bytesRead (fs.read path)) b ps → sub b 0 2 = SOC →
        ∀ (siz : Bytes) (csiz : Nat) (main : List FoundSeg) (sot : Option Nat), MainHeader b siz csiz main sot →
        ∃ c1 c2 tps rest, ps = Z csiz siz :: (main.flatMap fun x => S csiz x.marker x.contents) ++ [c1, c2, tps] ++ rest ∧
          c1.tag = "ppmCount" ∧ c2.tag = "plmCount" ∧ tps.tag = "tileParts" ∧
          (∀ e ∈ rest, e.tag = "compressionRatio") ∧
          ∀ k n ts (hdr : TilePartInfo → List FoundSeg), FieldIs siz 20 4 (1 ≤ ·) → FieldIs siz 24 4 (1 ≤ ·) →
            TileCount siz n → sot = some k → Visited b (min n 65535) k ts → (∀ t ∈ ts, ∃ e, SegsTo b SOD (t.start + 12) (hdr t) e) →
            tps.children = ts.map fun t =>
              T csiz (sub b (t.start + 2) 10) ((hdr t).map fun x => (x.marker, x.contents)) := by
  have hz : ∀ csiz siz, (segElem env o [SIZ] csiz SIZ siz).length = 1 →
      makeHumanReadableL env remapTable (segElem env o [SIZ] csiz SIZ siz) =
        [((makeHumanReadableL env remapTable (segElem env o [SIZ] csiz SIZ siz))[0]?).getD (.node "" [])] := by
    intro csiz siz hl
    generalize segElem env o [SIZ] csiz SIZ siz = l at hl
    match l, hl with
    | [a], _ => rfl
  refine ⟨fun csiz siz => ((makeHumanReadableL env remapTable (segElem env o [SIZ] csiz SIZ siz))[0]?).getD (.node "" []),
    fun csiz m c => makeHumanReadableL env remapTable (segElem env o mainSegments csiz m c),
    fun csiz c ss => makeHumanReadable env remapTable (tpElem env o csiz c ss), ?_, ?_⟩
  · intro csiz m c
    rw [readableL_length']
    unfold segElem
    split
    · split <;> simp
    · simp
  intro me fs fuel mix path rep b ps h hs hp hsoc siz csiz main sot hm
  obtain ⟨hfmt, k, n, h6, rfl⟩ := props_codestream h hs hp
  obtain ⟨tps, rest, e1, e2, e3, e4⟩ := codestream_segs env o hfmt k _ n h6 hsoc siz csiz main sot hm
  refine ⟨makeHumanReadable env remapTable (.leaf "ppmCount" (.int (segNumber PPM main))),
    makeHumanReadable env remapTable (.leaf "plmCount" (.int (segNumber PLM main))),
    makeHumanReadable env remapTable (.node "tileParts" tps), makeHumanReadableL env remapTable rest, ?_,
    readable_tag env remapTable _, readable_tag env remapTable _, readable_tag env remapTable _,
    readable_leaf_tag env rest e3, ?_⟩
  · rw [e1, readableL_append, readableL_append, readableL_append, readableL_flatMap, hz csiz siz e2]
    simp [makeHumanReadableL]
  · intro k n ts hdr hx hy ht hk hv hh
    rw [readable_children, e4 k n ts hdr hx hy ht hk hv hh]
    show makeHumanReadableL env remapTable (ts.map _) = _
    rw [readableL_map, List.map_map]; rfl

/-! ## Concrete files -/

/-- `C81_same` at work: the codestream is the fourth box of one file and the sixth box of another, which has unknown
boxes and another header; both reports have the same element for it. -/
example : ∃ rep rep' e, reportOf (opts .jp2) 0 (fileWith [] []) = .ok rep ∧
    reportOf (opts .jp2) 0 (unseenWith [1, 2] [60, 97, 47, 62] [5]) = .ok rep' ∧
    (contents rep "properties")[3]? = some e ∧ (contents rep' "properties")[5]? = some e := by
  obtain ⟨rep, h, -, hs⟩ := saysValid_ok (show saysValid (reportOf (opts .jp2) 0 (fileWith [] [])) = true by
    decide +kernel)
  obtain ⟨rep', h', -, hs'⟩ := saysValid_ok
    (show saysValid (reportOf (opts .jp2) 0 (unseenWith [1, 2] [60, 97, 47, 62] [5])) = true by decide +kernel)
  have hb : Boxes (fileWith [] [])
      [⟨0, ascii "jP  ", [0x0d, 0x0a, 0x87, 0x0a]⟩, ⟨12, ascii "ftyp", ascii "jp2 " ++ be32 0 ++ ascii "jp2 "⟩,
      ⟨32, ascii "jp2h", headerWith []⟩, ⟨77, ascii "jp2c", cs1⟩] := boxes_of 10 (by decide +kernel)
  have hb' : Boxes (unseenWith [1, 2] [60, 97, 47, 62] [5])
      [⟨0, ascii "jP  ", [0x0d, 0x0a, 0x87, 0x0a]⟩, ⟨12, ascii "ftyp", ascii "jp2 " ++ be32 0 ++ ascii "jp2 "⟩,
      ⟨32, ascii "jp2h", headerWith (box "abcd" [1, 2])⟩, ⟨87, ascii "jp2i", [60, 97, 47, 62]⟩,
      ⟨99, ascii "uuid", List.replicate 16 7 ++ [5]⟩, ⟨124, ascii "jp2c", cs1⟩] := boxes_of 10 (by decide +kernel)
  obtain ⟨e, h1, h2⟩ := C81_same (.inl rfl) h hs h' hs' hb hb' (i := 3) (j := 5) rfl rfl rfl rfl
  exact ⟨rep, rep', e, h, h', h1, h2⟩

/-- The hypotheses of `C81_fault` are met by an invalid file: the boxes of a valid file without the last one. -/
example : ∃ bs rep, ReportOfBoxes env0 (opts .jp2) bs rep ∧ verdict rep = some (.str "False") ∧ bs.length = 3 ∧
    ∀ x ∈ bs, ∃ bs' rep', ReportOfBoxes env0 (opts .jp2) bs' rep' ∧ verdict rep' = some (.str "True") ∧
      ∃ y ∈ bs', y.type = x.type ∧ y.payload = x.payload := by
  have hok : (match reportOf (opts .jp2) 0 (sig ++ ftyp "jp2 " ++ box "jp2h" (headerWith [])) with
      | .ok rep => status rep "success" == [.str "True"] && verdict rep == some (.str "False")
      | _ => false) = true := by decide +kernel
  cases hr : reportOf (opts .jp2) 0 (sig ++ ftyp "jp2 " ++ box "jp2h" (headerWith [])) with
  | ok rep =>
    rw [hr] at hok
    simp only [Bool.and_eq_true, beq_iff_eq] at hok
    have hb : Boxes (sig ++ ftyp "jp2 " ++ box "jp2h" (headerWith []))
        [⟨0, ascii "jP  ", [0x0d, 0x0a, 0x87, 0x0a]⟩, ⟨12, ascii "ftyp", ascii "jp2 " ++ be32 0 ++ ascii "jp2 "⟩,
        ⟨32, ascii "jp2h", headerWith []⟩] := boxes_of 10 (by decide +kernel)
    obtain ⟨rep', h, hv, hs⟩ := saysValid_ok (show saysValid (reportOf (opts .jp2) 0 (fileWith [] [])) = true by
      decide +kernel)
    have hb' : Boxes (fileWith [] [])
        [⟨0, ascii "jP  ", [0x0d, 0x0a, 0x87, 0x0a]⟩, ⟨12, ascii "ftyp", ascii "jp2 " ++ be32 0 ++ ascii "jp2 "⟩,
        ⟨32, ascii "jp2h", headerWith []⟩, ⟨77, ascii "jp2c", cs1⟩] := boxes_of 10 (by decide +kernel)
    refine ⟨_, rep, ⟨me0, fs0 _, 200, 0, [97], hr, hok.1, hb⟩, hok.2, rfl, fun x hx => ?_⟩
    refine ⟨_, rep', ⟨me0, fs0 _, 200, 0, [97], h, hs, hb'⟩, hv, x, ?_, rfl, rfl⟩
    simp only [List.mem_cons, List.not_mem_nil, or_false] at hx ⊢
    rcases hx with hx | hx | hx <;> simp [hx]
  | _ => rw [hr] at hok; cases hok

/-- `C81_segments` at work on a bare codestream: the report exists, and there is a main header. -/
example : ∃ rep rest, reportOf (opts .j2c) 0 csBroken = .ok rep ∧ ∃ siz csiz main sot, MainHeader csBroken siz csiz main sot ∧
    (Classical.choose (C81_segments env0 (opts .j2c)) csiz siz :: rest) = contents rep "properties" := by
  have hok : (match reportOf (opts .j2c) 0 csBroken with
      | .ok rep => status rep "success" == [.str "True"]
      | _ => false) = true := by decide +kernel
  cases hr : reportOf (opts .j2c) 0 csBroken with
  | ok rep =>
    rw [hr] at hok
    have hm := sample_main (b := csBroken) (by decide) (by decide) (by decide) (by decide) (by decide) (by decide) (by decide)
      (by decide) (by decide)
    obtain ⟨S, T, -, hS⟩ := Classical.choose_spec (C81_segments env0 (opts .j2c))
    obtain ⟨c1, c2, tps, rest, e, -⟩ := hS me0 (fs0 csBroken) 200 0 [97] rep _ _ hr (by simpa using hok) (.bare (.inl rfl))
      (by decide) _ _ _ _ hm
    exact ⟨rep, _, rfl, _, _, _, _, hm, e.symm⟩
  | _ => rw [hr] at hok; cases hok

end Jpy
