import Verif.Props.Size
import Verif.Lemmas.DepthWalk
/-! # C69: the size of a report with `--mix` -/

namespace Jpy
open Spec

/-- The number of elements of an element that is built from others. -/
macro "counts" : tactic => `(tactic|
  simp only [elements_node, elementsL, elementsL_append, elements_leaf, sLeaf])

theorem size_bdoi {me flag props e} (h : mixBdoi me flag props = .ok e) : elements e ≤ 9 := by
  revert e
  change OkP (fun e : Elem => elements e ≤ 9) _
  unfold mixBdoi
  simp only []
  binds
  all_goals counts; decide

theorem size_photometric {me props e} (h : mixPhotometric me props = .ok e) : elements e ≤ 5 := by
  unfold mixPhotometric at h
  split at h
  · obtain ⟨_, -, h⟩ := ok_of_bind h
    obtain ⟨_, -, h⟩ := ok_of_bind h
    obtain ⟨_, -, h⟩ := ok_of_bind h
    cases h
    counts
    decide
  · obtain ⟨_, -, h⟩ := ok_of_bind h
    obtain ⟨_, -, h⟩ := ok_of_bind h
    cases h
    counts
    decide

theorem size_codec {props es} (h : mixCodec props = .ok es) : elementsL es ≤ 3 := by
  unfold mixCodec at h
  split at h
  · cases h; decide
  · obtain ⟨_, -, h⟩ := ok_of_bind h
    split at h <;> cases h <;> counts <;> decide

theorem size_bio {me flag props e} (h : mixBio me flag props = .ok e) : elements e ≤ 20 := by
  unfold mixBio at h
  obtain ⟨_, -, h⟩ := ok_of_bind h
  obtain ⟨_, -, h⟩ := ok_of_bind h
  obtain ⟨pi, hpi, h⟩ := ok_of_bind h
  obtain ⟨codec, hc, h⟩ := ok_of_bind h
  obtain ⟨tx, -, h⟩ := ok_of_bind h
  obtain ⟨ty, -, h⟩ := ok_of_bind h
  obtain ⟨ly, -, h⟩ := ok_of_bind h
  obtain ⟨lv, -, h⟩ := ok_of_bind h
  cases h
  have h1 := size_photometric hpi
  have h2 := size_codec hc
  have h3 : ∀ (p : Prop) [Decidable p] (a b : Elem), elements a ≤ 3 → elements b ≤ 3 → elements (if p then a else b) ≤ 3 := by
    intro p _ a b ha hb; split <;> assumption
  have h4 : ∀ (p : Prop) [Decidable p] (a : Elem), elements a ≤ 1 → elementsL (if p then [a] else []) ≤ 1 := by
    intro p _ a ha; split
    · rw [elementsL_one]; exact ha
    · decide
  have a1 := h3 (flag = 1) (sLeaf "mix:tiles" (strOf tx ++ "x" ++ strOf ty)) (.node "mix:Tiles"
      [sLeaf "mix:tileWidth" (strOf tx), sLeaf "mix:tileHeight" (strOf ty)]) (by counts; decide) (by counts; decide)
  have a2 := h4 (strOf ly ≠ "0") (sLeaf "mix:qualityLayers" (strOf ly)) (by counts; decide)
  have a3 := h4 (strOf lv ≠ "0") (sLeaf "mix:resolutionLevels" (strOf lv)) (by counts; decide)
  simp only [elements_node, elementsL, elementsL_append]
  rw [show elements (sLeaf "mix:imageWidth" (strOf _)) = 1 from elements_leaf .., show elements (sLeaf "mix:imageHeight" (strOf _)) = 1 from elements_leaf ..]
  omega

theorem size_addIfExist {me rdf ns tag dest es} (h : addIfExist me rdf ns tag dest = .ok es) : elementsL es ≤ 1 := by
  unfold addIfExist at h
  obtain ⟨v, -, h⟩ := ok_of_bind h
  split at h
  · obtain ⟨s, -, h⟩ := ok_of_bind h
    cases h; counts; decide
  · cases h; decide

theorem size_icm {me props e} (h : mixIcm me props = .ok e) : elementsL e.toList ≤ 12 := by
  unfold mixIcm at h
  split at h
  · cases h; decide
  · obtain ⟨cr, h1, h⟩ := ok_of_bind h
    obtain ⟨ar, h2, h⟩ := ok_of_bind h
    obtain ⟨ma, h3, h⟩ := ok_of_bind h
    obtain ⟨mo, h4, h⟩ := ok_of_bind h
    obtain ⟨se, h5, h⟩ := ok_of_bind h
    obtain ⟨to, -, h⟩ := ok_of_bind h
    have h1 := size_addIfExist h1
    have h2 := size_addIfExist h2
    have h3 := size_addIfExist h3
    have h4 := size_addIfExist h4
    have h5 := size_addIfExist h5
    have key : ∀ so : List Elem, elementsL so ≤ 3 → elementsL (some (Elem.node "mix:ImageCaptureMetadata"
        (Elem.node "mix:GeneralCaptureInformation" (cr ++ ar) ::
          if (ma ++ (if (mo ++ se).isEmpty = true then [] else [Elem.node "mix:ScannerModel" (mo ++ se)]) ++ so).isEmpty = true
            then [] else [Elem.node "mix:ScannerCapture"
              (ma ++ (if (mo ++ se).isEmpty = true then [] else [Elem.node "mix:ScannerModel" (mo ++ se)]) ++ so)]))).toList ≤ 12 := by
      intro so h6
      have h7 : elementsL (if (mo ++ se).isEmpty = true then [] else [Elem.node "mix:ScannerModel" (mo ++ se)]) ≤ 3 := by
        split
        · decide
        · rw [elementsL_one, elements_node, elementsL_append]; omega
      generalize (if (mo ++ se).isEmpty = true then [] else [Elem.node "mix:ScannerModel" (mo ++ se)]) = x at *
      simp only [Option.toList, elementsL_one]
      rw [elements_node, elementsL, elements_node, elementsL_append]
      split
      · rw [elementsL]; omega
      · rw [elementsL_one, elements_node, elementsL_append, elementsL_append]; omega
    revert h
    generalize e = e'
    revert e'
    change OkP (fun e : Option Elem => elementsL e.toList ≤ 12) _
    simp only []
    split
    · with_reducible refine OkP.bind_ok ?_
      exact OkP.ok (key _ (by decide))
    · with_reducible refine OkP.bind fun _ _ => ?_
      split <;> with_reducible refine OkP.bind_ok ?_
      · exact OkP.ok (key _ (by counts; decide))
      · exact OkP.ok (key _ (by counts; decide))

theorem size_spatial {me flag props es} (h : mixSpatial me flag props = .ok es) : elementsL es ≤ 8 := by
  unfold mixSpatial at h
  simp only at h
  split at h
  · obtain ⟨_, -, h⟩ := ok_of_bind h
    obtain ⟨_, -, h⟩ := ok_of_bind h
    obtain ⟨_, -, h⟩ := ok_of_bind h
    obtain ⟨_, -, h⟩ := ok_of_bind h
    obtain ⟨_, -, h⟩ := ok_of_bind h
    obtain ⟨_, -, h⟩ := ok_of_bind h
    cases h
    counts
    decide
  · split at h
    · obtain ⟨_, -, h⟩ := ok_of_bind h
      obtain ⟨_, -, h⟩ := ok_of_bind h
      obtain ⟨_, -, h⟩ := ok_of_bind h
      obtain ⟨_, -, h⟩ := ok_of_bind h
      obtain ⟨_, -, h⟩ := ok_of_bind h
      obtain ⟨_, -, h⟩ := ok_of_bind h
      cases h
      counts
      decide
    · cases h; decide

theorem elementsL_mem {e : Elem} : ∀ {l : List Elem}, e ∈ l → elements e ≤ elementsL l
  | x :: xs, h => by
    rw [elementsL]
    rcases List.mem_cons.1 h with rfl | h
    · omega
    · have := elementsL_mem h; omega

theorem elementsL_filter (p : Elem → Bool) : ∀ l : List Elem, elementsL (l.filter p) ≤ elementsL l
  | [] => Nat.le_refl _
  | x :: xs => by
    have := elementsL_filter p xs
    rw [List.filter_cons, elementsL]
    split
    · rw [elementsL]; omega
    · omega

theorem length_elementsL : ∀ l : List Elem, l.length ≤ elementsL l
  | [] => Nat.le_refl _
  | .mk _ _ _ c _ :: xs => by
    have := length_elementsL xs
    rw [elementsL, elements, List.length_cons]; omega

theorem children_elements (e : Elem) : elementsL e.children + 1 = elements e := by cases e; rfl

theorem size_findall : ∀ (path : List String) (cs : List Elem), elementsL (Elem.findall cs path) ≤ elementsL cs
  | [], cs => by rw [Elem.findall, elementsL]; omega
  | [t], cs => by rw [Elem.findall]; exact elementsL_filter _ _
  | t :: u :: ts, cs => by
    rw [Elem.findall.eq_3 _ _ _ (by simp)]
    refine Nat.le_trans ?_ (elementsL_filter (·.tag == t) cs)
    generalize cs.filter (·.tag == t) = l
    induction l with
    | nil => exact Nat.le_refl _
    | cons e es ih =>
      rw [List.flatMap_cons, elementsL_append, elementsL]
      have := size_findall (u :: ts) e.children
      have := children_elements e
      omega
  termination_by path => path.length

theorem size_find {cs : List Elem} {path e} (h : Elem.find cs path = some e) : elements e ≤ elementsL cs :=
  Nat.le_trans (elementsL_mem (List.mem_of_mem_head? h)) (size_findall path cs)

theorem elementsL_leaves (t : String) (vs : List PyVal) : elementsL (vs.map (Elem.leaf t)) = vs.length := by
  induction vs with
  | nil => rfl
  | cons v vs ih => rw [List.map_cons, elementsL, elements_leaf, ih, List.length_cons]; omega

theorem size_iam {me flag props e} (h : mixIam me flag props = .ok e) : elements e ≤ elementsL props + 14 := by
  unfold mixIam at h
  obtain ⟨sp, h1, h⟩ := ok_of_bind h
  have h1 := size_spatial h1
  have key : ∀ (bps : Elem) (num : PyVal), elements bps ≤ elementsL props + 3 → elements (Elem.node "mix:ImageAssessmentMetadata"
      (sp ++ [Elem.node "mix:ImageColorEncoding" [bps, Elem.leaf "mix:samplesPerPixel" num]])) ≤ elementsL props + 14 := by
    intro bps num hb
    counts
    omega
  simp only [] at h
  split at h
  · rename_i x hx
    have h3 : elementsL x.children ≤ elementsL props := by
      have := size_find hx
      have := children_elements x
      omega
    revert h
    generalize e = e'
    revert e'
    change OkP (fun e : Elem => elements e ≤ elementsL props + 14) _
    binds
    · exact key _ _ (by counts; omega)
    · refine key _ _ ?_
      rw [elements_node, elementsL_append, elementsL_leaves, elementsL_one]
      have h4 : (Elem.findAllText x.children ["ssizDepth"]).length ≤ elementsL x.children := by
        unfold Elem.findAllText
        rw [List.length_map]
        exact Nat.le_trans (length_elementsL _) (size_findall _ _)
      counts
      omega
  · obtain ⟨_, h', -⟩ := ok_of_bind h
    cases h'

/-- MIX output repeats a part of the report and adds a fixed number of elements. -/
theorem size_mix {me flag props e} (h : generateMix me flag props = .ok e) : elements e ≤ elementsL props + 56 := by
  unfold generateMix at h
  obtain ⟨a, h1, h⟩ := ok_of_bind h
  obtain ⟨b, h2, h⟩ := ok_of_bind h
  obtain ⟨c, h3, h⟩ := ok_of_bind h
  obtain ⟨d, h4, h⟩ := ok_of_bind h
  cases h
  have h1 := size_bdoi h1
  have h2 := size_bio h2
  have h3 := size_icm h3
  have h4 := size_iam h4
  rw [elements, elementsL_append, elementsL_append, elementsL, elementsL_one, elementsL_one]
  omega

/-- C69 (partial): with any options, also `--mix`, the report for a file of `n` bytes has at most
`2 ^ 27 * (n + 1) ^ 2 + 72` elements. -/
theorem C69_mix_partial {env : Env} (hx : XmlSizes env) {me : MixEnv} {fs : FS} {fuel : Nat} {o : Options} {mix : Nat}
    {path : PyStr} {rep : Elem} (h : checkOneFile env me fs fuel o mix path = .ok rep) :
    elements rep ≤ 2 ^ 27 * ((bytesRead (fs.read path)).length + 1) ^ 2 + 72 := by
  obtain ⟨info, a, m, h1, h2, h3, rfl⟩ := checkOneFile_ok.1 h
  obtain ⟨h4, -⟩ := size_analysis hx h2
  have h6 : elements info = 5 := by
    unfold fileInfo at h1
    obtain ⟨_, -, h1⟩ := Outcome.bind_eq_ok.1 h1
    obtain ⟨_, -, h1⟩ := Outcome.bind_eq_ok.1 h1
    cases h1
    simp [elements_node, elementsL, elements_leaf]
  have h7 : elementsL m ≤ elementsL a.props + 56 := by
    unfold mixOutput at h3
    split at h3
    · obtain ⟨x, g1, g2⟩ := Outcome.bind_eq_ok.1 h3
      cases g2
      rw [elementsL_one]
      exact size_mix g1
    · cases h3; rw [elementsL]; omega
  have h8 : elementsL (extensionOf o mix a m) ≤ elementsL a.props + 57 := by
    unfold extensionOf
    split
    · rw [elementsL_one, elements_node]
      split
      · omega
      · rw [elementsL]; omega
    · rw [elementsL]; omega
  unfold buildReport
  cases hf : a.failure with
  | none =>
    simp [elements_node, elementsL, elementsL_append, elements_leaf, elements, h6]
    omega
  | some x =>
    simp [elements_node, elementsL, elementsL_append, elements_leaf, elements, h6]
    omega

/-- A file with a report that has MIX output. -/
example : ∃ rep, Sample.reportOf (Sample.opts .jp2) 2 Sample.jp2 = .ok rep ∧ 72 < elements rep := by
  have : (match Sample.reportOf (Sample.opts .jp2) 2 Sample.jp2 with | .ok rep => decide (72 < elements rep) | _ => false) = true := by
    decide +kernel
  revert this
  cases Sample.reportOf (Sample.opts .jp2) 2 Sample.jp2 with
  | ok rep => exact fun h => ⟨rep, rfl, of_decide_eq_true h⟩
  | _ => exact fun h => nomatch h

end Jpy
