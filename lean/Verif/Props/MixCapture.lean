import Verif.Spec.MixCapture
import Verif.Props.MixValues
import Verif.Props.Unknown
/-! # Capture metadata in MIX output: more of C55 -/

namespace Jpy
open Spec

theorem find_inside {props p} {t u : String} :
    (elemsAt (t :: p) (insideOf u props)).head? = Elem.find props (u :: t :: p) := by
  rw [← find_head]; rfl

theorem findRDF_xml {props rdf} (h : XmpIn (insideOf "xmlBox" props) rdf) : findRDF props = some rdf := by
  obtain ⟨hne, h⟩ := h
  rw [find_inside] at h
  obtain ⟨⟨t, a, x, c⟩, he, rfl⟩ := Option.map_eq_some_iff.1 h
  simp only [Elem.children_mk] at hne ⊢
  unfold findRDF
  rw [show Elem.find props ["xmlBox", nsMeta, nsRDF] = _ from he]
  cases c with
  | nil => exact absurd rfl hne
  | cons c cs => rfl

theorem findRDF_skip {props} (h : NoXmpIn (insideOf "xmlBox" props)) : findRDF props =
    match Elem.find props ["uuidBox", nsMeta, nsRDF] with
    | some (.mk _ _ _ (c :: cs) _) => some (c :: cs)
    | _ => none := by
  unfold findRDF
  have h := fun e he => h e (by rw [find_inside]; exact he)
  cases he : Elem.find props ["xmlBox", nsMeta, nsRDF] with
  | none => rfl
  | some e =>
    have := h e he
    obtain ⟨t, a, x, c⟩ := e
    cases this
    rfl

theorem findRDF_of {props rdf} (h : XmpOf (insideOf "xmlBox" props) (insideOf "uuidBox" props) rdf) : findRDF props = some rdf := by
  rcases h with h | ⟨h1, hne, h⟩
  · exact findRDF_xml h
  · rw [findRDF_skip h1]
    rw [find_inside] at h
    obtain ⟨⟨t, a, x, c⟩, he, rfl⟩ := Option.map_eq_some_iff.1 h
    simp only [Elem.children_mk] at hne ⊢
    rw [show Elem.find props ["uuidBox", nsMeta, nsRDF] = _ from he]
    cases c with
    | nil => exact absurd rfl hne
    | cons c cs => rfl

theorem findRDF_none {props} (h1 : NoXmpIn (insideOf "xmlBox" props)) (h2 : NoXmpIn (insideOf "uuidBox" props)) :
    findRDF props = none := by
  rw [findRDF_skip h1]
  have h := fun e he => h2 e (by rw [find_inside]; exact he)
  cases he : Elem.find props ["uuidBox", nsMeta, nsRDF] with
  | none => rfl
  | some e =>
    have := h e he
    obtain ⟨t, a, x, c⟩ := e
    cases this
    rfl

theorem findValue_of {rdf ns tag v} (h : XmpValue id rdf (ns ++ tag) v) :
    findValueInRDF rdf ns tag = .ok (v.map PyVal.str) := by
  unfold findValueInRDF
  generalize hn : ns ++ tag = name at h ⊢
  cases h with
  | element s h =>
    unfold textsAt at h
    rw [List.head?_map, find_head] at h
    obtain ⟨e, he, ht⟩ := Option.map_eq_some_iff.1 h
    rw [show Elem.find rdf [nsDescription, name] = _ from he]
    simp [ht]
  | emptyElement h =>
    unfold textsAt at h
    rw [List.head?_map, find_head] at h
    obtain ⟨e, he, ht⟩ := Option.map_eq_some_iff.1 h
    rw [show Elem.find rdf [nsDescription, name] = _ from he]
    simp [ht]
  | fromAttribute d s h1 h2 h3 =>
    rw [show Elem.find rdf [nsDescription, name] = _ from find_none h1]
    rw [find_head] at h2
    rw [show Elem.find rdf [nsDescription] = _ from h2]
    simp only [h3]
    by_cases hs : s = "" <;> simp [hs]
  | absent d h1 h2 h3 =>
    rw [show Elem.find rdf [nsDescription, name] = _ from find_none h1]
    rw [find_head] at h2
    rw [show Elem.find rdf [nsDescription] = _ from h2]
    simp only [h3]
    rfl

theorem addIfExist_of {me rdf ns tag dest l v} (h : addIfExist me rdf ns tag dest = .ok l)
    (hv : XmpValue id rdf (ns ++ tag) v) : l = v.toList.map fun s => sLeaf dest (me.strip s) := by
  unfold addIfExist at h
  rw [findValue_of hv] at h
  cases v with
  | none => cases h; rfl
  | some s => cases h; rfl

theorem addIfExist_tags {me rdf ns tag dest l} (h : addIfExist me rdf ns tag dest = .ok l) :
    l = [] ∨ ∃ s, l = [sLeaf dest s] := by
  unfold addIfExist at h
  obtain ⟨v, -, h⟩ := Outcome.bind_eq_ok.1 h
  cases v with
  | none => cases h; exact .inl rfl
  | some x =>
    obtain ⟨s, -, h⟩ := Outcome.bind_eq_ok.1 h
    cases h
    exact .inr ⟨_, rfl⟩

/-! ## Tool names -/

theorem splitLastSpace_none : ∀ {l : List Char}, ' ' ∉ l → splitLastSpace l = none
  | [], _ => rfl
  | c :: cs, h => by
    unfold splitLastSpace
    rw [splitLastSpace_none (fun m => h (by simp [m]))]
    simp only
    rw [if_neg (fun e => h (by simp [e]))]

theorem splitLastSpace_some : ∀ (p : List Char) {r : List Char}, ' ' ∉ r →
    splitLastSpace (p ++ ' ' :: r) = some (p, r)
  | [], r, h => by
    show splitLastSpace (' ' :: r) = _
    unfold splitLastSpace
    rw [splitLastSpace_none h]
    simp
  | c :: p, r, h => by
    show splitLastSpace (c :: (p ++ ' ' :: r)) = _
    unfold splitLastSpace
    rw [splitLastSpace_some p h]

theorem splitLastSpace_spec : ∀ {l p r : List Char}, splitLastSpace l = some (p, r) → l = p ++ ' ' :: r
  | [], p, r, h => by cases h
  | c :: cs, p, r, h => by
    unfold splitLastSpace at h
    split at h
    · rename_i q s hq
      cases h
      rw [splitLastSpace_spec hq]
      rfl
    · split at h
      · rename_i hc
        cases h
        rw [hc]
        rfl
      · cases h

theorem version_no {version : List Char} (h : ∀ c ∈ version, c.isDigit = true ∨ c = '.') {x : Char}
    (hx : x.isDigit = false) (hx' : x ≠ '.') : x ∉ version := by
  intro m
  rcases h x m with h | h
  · rw [hx] at h; cases h
  · exact hx' h

theorem matchTool_some {s : String} {name version : List Char} (h : NamesTool s name version) :
    matchTool s = some (String.ofList name, String.ofList version) := by
  obtain ⟨hs, h1, h2⟩ := h
  have hsp : ' ' ∉ version := version_no h2 (by decide) (by decide)
  have hnl : '\n' ∉ version := version_no h2 (by decide) (by decide)
  have hno : '\n' ∉ name ++ ' ' :: version := by simp [h1, hnl]
  unfold matchTool
  have hcs : (if s.toList.getLast? = some '\n' then s.toList.dropLast else s.toList) = name ++ ' ' :: version := by
    rcases hs with hs | hs
    · rw [hs, if_neg]
      intro e
      exact hno (List.mem_of_getLast? e)
    · rw [hs, if_pos (by rw [List.getLast?_append]; rfl), List.dropLast_append_of_ne_nil (by simp)]
      simp
  simp only [hcs]
  rw [if_neg hno, splitLastSpace_some name hsp]
  simp only
  rw [if_pos]
  rw [List.all_eq_true]
  exact fun c hc => isVersionChar_iff.2 (h2 c hc)

theorem dropLast_last {l : List Char} {x : Char} (h : l.getLast? = some x) : l.dropLast ++ [x] = l := by
  have hne : l ≠ [] := by intro e; rw [e] at h; cases h
  rw [List.getLast?_eq_some_getLast hne] at h
  rw [← Option.some.inj h]
  exact List.dropLast_concat_getLast hne

theorem matchTool_none {s : String} (h : ∀ name version, ¬ NamesTool s name version) : matchTool s = none := by
  unfold matchTool
  simp only
  generalize hcs : (if s.toList.getLast? = some '\n' then s.toList.dropLast else s.toList) = cs
  have hs : s.toList = cs ∨ s.toList = cs ++ ['\n'] := by
    split at hcs
    · rename_i hl
      right
      rw [← hcs]
      exact (dropLast_last hl).symm
    · exact .inl hcs
  by_cases hn : '\n' ∈ cs
  · rw [if_pos hn]
  · rw [if_neg hn]
    cases hp : splitLastSpace cs with
    | none => rfl
    | some pr =>
      obtain ⟨p, r⟩ := pr
      simp only
      have hcs' := splitLastSpace_spec hp
      rw [if_neg]
      intro hall
      rw [List.all_eq_true] at hall
      refine h p r ⟨?_, ?_, fun c hc => isVersionChar_iff.1 (hall c hc)⟩
      · rw [hcs'] at hs; exact hs
      · intro m; exact hn (by rw [hcs']; simp [m])

/-! ## The element -/

/-- The software element. -/
def softwareOf (s : String) : Elem :=
  .node "mix:ScanningSystemSoftware" (match matchTool s with
    | some (g1, g2) => [sLeaf "mix:scanningSoftwareName" g1, sLeaf "mix:scanningSoftwareVersionNo" g2]
    | none => [sLeaf "mix:scanningSoftwareName" s])

/-- `mixIcm` spelled out. -/
theorem mixIcm_ok {me props icm rdf} (hr : findRDF props = some rdf) (h : mixIcm me props = .ok icm) :
    ∃ created artist make model serial, ∃ tool : Option String,
      addIfExist me rdf nsXap "CreateDate" "mix:dateTimeCreated" = .ok created ∧
      addIfExist me rdf nsTiff "Artist" "mix:imageProducer" = .ok artist ∧
      addIfExist me rdf nsTiff "Make" "mix:scannerManufacturer" = .ok make ∧
      addIfExist me rdf nsTiff "Model" "mix:scannerModelName" = .ok model ∧
      addIfExist me rdf nsAux "SerialNumber" "mix:scannerModelSerialNo" = .ok serial ∧
      findValueInRDF rdf nsXap "CreatorTool" = .ok (tool.map PyVal.str) ∧
      icm = some (.node "mix:ImageCaptureMetadata"
        (.node "mix:GeneralCaptureInformation" (created ++ artist) ::
          (if (make ++ (if (model ++ serial).isEmpty then [] else [Elem.node "mix:ScannerModel" (model ++ serial)])
              ++ (tool.map softwareOf).toList).isEmpty then []
           else [.node "mix:ScannerCapture" (make ++
              (if (model ++ serial).isEmpty then [] else [Elem.node "mix:ScannerModel" (model ++ serial)])
              ++ (tool.map softwareOf).toList)]))) := by
  unfold mixIcm at h
  rw [hr] at h
  obtain ⟨created, h1, h⟩ := Outcome.bind_eq_ok.1 h
  obtain ⟨artist, h2, h⟩ := Outcome.bind_eq_ok.1 h
  obtain ⟨make, h3, h⟩ := Outcome.bind_eq_ok.1 h
  obtain ⟨model, h4, h⟩ := Outcome.bind_eq_ok.1 h
  obtain ⟨serial, h5, h⟩ := Outcome.bind_eq_ok.1 h
  obtain ⟨tool, h6, h⟩ := Outcome.bind_eq_ok.1 h
  simp only at h
  cases tool with
  | none =>
    simp only at h
    refine ⟨created, artist, make, model, serial, none, h1, h2, h3, h4, h5, h6, ?_⟩
    cases h
    rfl
  | some v =>
    simp only at h
    obtain ⟨s, hs, h⟩ := Outcome.bind_eq_ok.1 h
    cases asText_ok hs
    refine ⟨created, artist, make, model, serial, some s, h1, h2, h3, h4, h5, h6, ?_⟩
    unfold softwareOf
    cases hg : matchTool s with
    | none =>
      simp only [asText, Outcome.bind_ok, hg] at h
      cases h
      simp only [Option.map_some, Option.toList_some, hg]
    | some g =>
      obtain ⟨g1, g2⟩ := g
      simp only [asText, Outcome.bind_ok, hg] at h
      cases h
      simp only [Option.map_some, Option.toList_some, hg]

theorem textsAt_filterless {t : String} {v : Option String} {f : String → String} :
    textsAt [t] (v.toList.map fun s => sLeaf t (f s)) = v.toList.map fun s => .str (f s) := by
  cases v with
  | none => rfl
  | some s => simp [textsAt, elemsAt, sLeaf]

theorem textsAt_append (p : List String) (xs ys : List Elem) :
    textsAt p (xs ++ ys) = textsAt p xs ++ textsAt p ys := by
  unfold textsAt
  rw [elemsAt_append, List.map_append]

theorem textsAt_other {t : String} {p : List String} {es : List Elem} (h : ∀ e ∈ es, e.tag ≠ t) :
    textsAt (t :: p) es = [] := by
  unfold textsAt
  rw [elemsAt_other h]
  rfl

theorem addIfExist_tag {me rdf ns tag dest l} (h : addIfExist me rdf ns tag dest = .ok l) :
    ∀ e ∈ l, e.tag = dest := by
  rcases addIfExist_tags h with rfl | ⟨s, rfl⟩ <;> simp [sLeaf]

theorem captureTexts_eq {p : List String} {u : String} {bdoi bio iam : Elem} {cs : List Elem}
    (h1 : bdoi.tag ≠ "mix:ImageCaptureMetadata") (h2 : bio.tag ≠ "mix:ImageCaptureMetadata")
    (h3 : iam.tag ≠ "mix:ImageCaptureMetadata") :
    captureTexts (u :: p)
      ([bdoi, bio] ++ (some (Elem.node "mix:ImageCaptureMetadata" cs)).toList ++ [iam]) =
      textsAt (u :: p) cs := by
  unfold captureTexts
  rw [textsAt_append, textsAt_append, textsAt_other (es := [bdoi, bio]), textsAt_other (es := [iam])]
  · simp only [List.nil_append, List.append_nil, Option.toList_some]
    exact textsAt_below
  · simp [h3]
  · simp [h1, h2]

theorem textsAt_wrap {t u : String} {p : List String} {l : List Elem} :
    textsAt (t :: u :: p) (if l.isEmpty then [] else [Elem.node t l]) = textsAt (u :: p) l := by
  cases l with
  | nil =>
    simp only [List.isEmpty_nil, if_true]
    unfold textsAt
    rw [elemsAt_nil, elemsAt_nil]
  | cons a l =>
    simp only [List.isEmpty_cons]
    exact textsAt_below

theorem mixIcm_software {s : String} :
    (∀ name version, NamesTool s name version →
      textsAt ["mix:ScanningSystemSoftware", "mix:scanningSoftwareName"] [softwareOf s] =
        [.str (String.ofList name)] ∧
      textsAt ["mix:ScanningSystemSoftware", "mix:scanningSoftwareVersionNo"] [softwareOf s] =
        [.str (String.ofList version)]) ∧
    ((∀ name version, ¬ NamesTool s name version) →
      textsAt ["mix:ScanningSystemSoftware", "mix:scanningSoftwareName"] [softwareOf s] = [.str s] ∧
      textsAt ["mix:ScanningSystemSoftware", "mix:scanningSoftwareVersionNo"] [softwareOf s] = []) := by
  constructor
  · intro name version h
    unfold softwareOf
    rw [matchTool_some h]
    simp [textsAt, elemsAt, sLeaf, Elem.node]
  · intro h
    unfold softwareOf
    rw [matchTool_none h]
    simp [textsAt, elemsAt, sLeaf, Elem.node]

/-- C55: the capture metadata that are generated from the properties of a report agree with the XMP in
them. -/
theorem C55_capture {me : MixEnv} {flag : Nat} {props : List Elem} {m : Elem}
    (h : generateMix me flag props = .ok m) : MixCapture me id (insideOf "xmlBox" props) (insideOf "uuidBox" props) m.children := by
  obtain ⟨bdoi, bio, icm, iam, h1, h2, h3, h4, -, hm⟩ := generateMix_parts h
  rw [hm]
  have t1 : bdoi.tag ≠ "mix:ImageCaptureMetadata" := by
    obtain ⟨_, _, _, _, -, -, -, -, rfl⟩ := mixBdoi_ok h1
    simp
  have t2 : bio.tag ≠ "mix:ImageCaptureMetadata" := by
    obtain ⟨_, _, _, _, _, _, _, _, -, -, -, -, -, -, -, -, rfl⟩ := mixBio_ok h2
    simp
  have t3 : iam.tag ≠ "mix:ImageCaptureMetadata" := by
    obtain ⟨_, _, _, _, -, -, -, -, rfl⟩ := mixIam_ok h4
    simp
  have key : ∀ rdf, XmpOf (insideOf "xmlBox" props) (insideOf "uuidBox" props) rdf → ∃ (created artist make model serial : List Elem) (tool : Option String),
      addIfExist me rdf nsXap "CreateDate" "mix:dateTimeCreated" = .ok created ∧
      addIfExist me rdf nsTiff "Artist" "mix:imageProducer" = .ok artist ∧
      addIfExist me rdf nsTiff "Make" "mix:scannerManufacturer" = .ok make ∧
      addIfExist me rdf nsTiff "Model" "mix:scannerModelName" = .ok model ∧
      addIfExist me rdf nsAux "SerialNumber" "mix:scannerModelSerialNo" = .ok serial ∧
      findValueInRDF rdf nsXap "CreatorTool" = .ok (tool.map PyVal.str) ∧
      (elemsAt ["mix:ImageCaptureMetadata"] ([bdoi, bio] ++ icm.toList ++ [iam])).length = 1 ∧
      (∀ u, captureTexts ["mix:GeneralCaptureInformation", u] ([bdoi, bio] ++ icm.toList ++ [iam]) =
        textsAt [u] created ++ textsAt [u] artist) ∧
      (∀ u p, captureTexts ("mix:ScannerCapture" :: u :: p) ([bdoi, bio] ++ icm.toList ++ [iam]) =
        textsAt (u :: p) make ++
        textsAt (u :: p)
          (if (model ++ serial).isEmpty then [] else [Elem.node "mix:ScannerModel" (model ++ serial)]) ++
        textsAt (u :: p) (tool.map softwareOf).toList) := by
    intro rdf hr
    obtain ⟨created, artist, make, model, serial, tool, a1, a2, a3, a4, a5, a6, rfl⟩ := mixIcm_ok (findRDF_of hr) h3
    refine ⟨created, artist, make, model, serial, tool, a1, a2, a3, a4, a5, a6, ?_, ?_, ?_⟩
    · rw [elemsAt_append, elemsAt_append, elemsAt_other (es := [bdoi, bio]), elemsAt_other (es := [iam])]
      · rfl
      · simp [t3]
      · simp [t1, t2]
    · intro u
      rw [captureTexts_eq t1 t2 t3]
      rw [show ∀ (x : Elem) (l : List Elem), x :: l = [x] ++ l from fun _ _ => rfl, textsAt_append]
      rw [show textsAt ["mix:GeneralCaptureInformation", u] [Elem.node "mix:GeneralCaptureInformation" (created ++ artist)]
        = textsAt [u] (created ++ artist) from textsAt_below, textsAt_append]
      rw [textsAt_other (t := "mix:GeneralCaptureInformation"), List.append_nil]
      intro e he
      generalize make ++ _ ++ _ = l at he
      cases l with
      | nil => cases he
      | cons =>
        cases List.mem_singleton.1 he
        simp
    · intro u p
      rw [captureTexts_eq t1 t2 t3]
      rw [show ∀ (x : Elem) (l : List Elem), x :: l = [x] ++ l from fun _ _ => rfl, textsAt_append]
      rw [textsAt_other (es := [Elem.node "mix:GeneralCaptureInformation" (created ++ artist)]) (by simp), List.nil_append]
      rw [textsAt_wrap, textsAt_append, textsAt_append]
  have noneMake : ∀ {rdf l p}, addIfExist me rdf nsTiff "Make" "mix:scannerManufacturer" = .ok l → ∀ {u},
      u ≠ "mix:scannerManufacturer" → textsAt (u :: p) l = [] := by
    intro rdf l p h u hu
    exact textsAt_other fun e he => by rw [addIfExist_tag h e he]; exact hu.symm
  have noneModel : ∀ {l : List Elem} {u p}, u ≠ "mix:ScannerModel" →
      textsAt (u :: p) (if l.isEmpty then [] else [Elem.node "mix:ScannerModel" l]) = [] := by
    intro l u p hu
    refine textsAt_other fun e he => ?_
    split at he
    · cases he
    · simp only [List.mem_singleton] at he
      subst he
      exact hu.symm
  have noneTool : ∀ {tool : Option String} {u p}, u ≠ "mix:ScanningSystemSoftware" →
      textsAt (u :: p) (tool.map softwareOf).toList = [] := by
    intro tool u p hu
    refine textsAt_other fun e he => ?_
    cases tool with
    | none => cases he
    | some s =>
      simp only [Option.map_some, Option.toList_some, List.mem_singleton] at he
      subst he
      exact hu.symm
  constructor
  · intro n1 n2
    unfold mixIcm at h3
    rw [findRDF_none n1 n2] at h3
    cases h3
    refine elemsAt_other ?_
    simp [t1, t2, t3]
  intro rdf hr
  constructor
  · obtain ⟨_, _, _, _, _, _, -, -, -, -, -, -, h, -⟩ := key rdf hr
    exact h
  · intro v hv
    obtain ⟨_, _, _, _, _, _, a1, a2, a3, a4, a5, a6, -, k1, k2⟩ := key rdf hr
    rw [k1, addIfExist_of a1 hv, textsAt_filterless,
      textsAt_other fun e he => by rw [addIfExist_tag a2 e he]; decide, List.append_nil]
  · intro v hv
    obtain ⟨_, _, _, _, _, _, a1, a2, a3, a4, a5, a6, -, k1, k2⟩ := key rdf hr
    rw [k1, addIfExist_of a2 hv, textsAt_filterless,
      textsAt_other fun e he => by rw [addIfExist_tag a1 e he]; decide, List.nil_append]
  · intro v hv
    obtain ⟨_, _, _, _, _, _, a1, a2, a3, a4, a5, a6, -, k1, k2⟩ := key rdf hr
    rw [k2, addIfExist_of a3 hv, textsAt_filterless, noneModel (by decide), noneTool (by decide), List.append_nil,
      List.append_nil]
  · intro v hv
    obtain ⟨_, _, _, _, _, _, a1, a2, a3, a4, a5, a6, -, k1, k2⟩ := key rdf hr
    rw [k2, noneMake a3 (by decide), noneTool (by decide), textsAt_wrap, textsAt_append, addIfExist_of a4 hv,
      textsAt_filterless, textsAt_other fun e he => by rw [addIfExist_tag a5 e he]; decide, List.append_nil,
      List.append_nil, List.nil_append]
  · intro v hv
    obtain ⟨_, _, _, _, _, _, a1, a2, a3, a4, a5, a6, -, k1, k2⟩ := key rdf hr
    rw [k2, noneMake a3 (by decide), noneTool (by decide), textsAt_wrap, textsAt_append, addIfExist_of a5 hv,
      textsAt_filterless, textsAt_other fun e he => by rw [addIfExist_tag a4 e he]; decide, List.append_nil,
      List.nil_append, List.nil_append]
  · intro s hs name version hn
    obtain ⟨_, _, _, _, _, tool, a1, a2, a3, a4, a5, a6, -, k1, k2⟩ := key rdf hr
    rw [findValue_of hs] at a6
    cases tool with
    | none => cases a6
    | some s' =>
      cases a6
      rw [k2, k2, noneMake a3 (by decide), noneModel (by decide), noneMake a3 (by decide), noneModel (by decide)]
      exact mixIcm_software.1 name version hn
  · intro s hs hn
    obtain ⟨_, _, _, _, _, tool, a1, a2, a3, a4, a5, a6, -, k1, k2⟩ := key rdf hr
    rw [findValue_of hs] at a6
    cases tool with
    | none => cases a6
    | some s' =>
      cases a6
      rw [k2, k2, noneMake a3 (by decide), noneModel (by decide), noneMake a3 (by decide), noneModel (by decide)]
      exact mixIcm_software.2 hn
  · intro hs
    obtain ⟨_, _, _, _, _, tool, a1, a2, a3, a4, a5, a6, -, k1, k2⟩ := key rdf hr
    rw [findValue_of hs] at a6
    cases tool with
    | some s' => cases a6
    | none =>
      rw [k2, k2, noneMake a3 (by decide), noneModel (by decide), noneMake a3 (by decide), noneModel (by decide)]
      exact ⟨rfl, rfl⟩

/-- C55 (report): a report of a valid JP2 or JPH file made with MIX output has one MIX element, and its capture
metadata are those of the XMP in the same report. -/
theorem C55_capture_report {env : Env} {me : MixEnv} {fs : FS} {fuel : Nat} {o : Options} {mix : Nat} {path : PyStr}
    (hfmt : o.format = .jp2 ∨ o.format = .jph) (hmix : mix ≠ 0) {rep : Elem}
    (h : checkOneFile env me fs fuel o mix path = .ok rep) (hv : verdict rep = some (.str "True")) :
    ∃ m, contents rep "propertiesExtension" = [m] ∧ m.tag = "mix:mix" ∧
      MixCapture me id (insideOf "xmlBox" (contents rep "properties"))
        (insideOf "uuidBox" (contents rep "properties")) m.children := by
  obtain ⟨info, a, m, h1, h2, h3, rfl⟩ := checkOneFile_ok.1 h
  have hi := fileInfo_tag h1
  rw [verdict_eq hi] at hv
  simp only [Option.some.injEq, PyVal.str.injEq, boolStr_true] at hv
  have hp : contents (buildReport o info a (extensionOf o mix a m)) "properties" = a.props := by
    unfold contents; rw [(report_parts hi).2.2.2.2.1]; rfl
  have he : contents (buildReport o info a (extensionOf o mix a m)) "propertiesExtension" = m := by
    unfold contents
    rw [(report_parts hi).2.2.2.2.2.2, extensionOf, if_pos hmix, if_pos ⟨hfmt, hv⟩]; rfl
  rw [hp, he]
  unfold mixOutput at h3
  rw [if_pos ⟨hmix, hv⟩] at h3
  obtain ⟨x, hx, h3⟩ := Outcome.bind_eq_ok.1 h3
  cases h3
  obtain ⟨-, -, -, -, -, -, -, -, ht, -⟩ := generateMix_parts hx
  exact ⟨x, rfl, ht, C55_capture hx⟩

/-! ## From the report to the file -/

theorem rendered_cons' {env : Env} {e e' : Elem} {raw out : List Elem} (h : Rendered env descriptions e e')
    (hr : RenderedList env raw out) : RenderedList env (e :: raw) (e' :: out) := by
  refine ⟨by simp [hr.1], ?_⟩
  intro i h1 h2
  cases i with
  | zero => exact h
  | succ i => exact hr.2 i (by simpa using h1) (by simpa using h2)

theorem rendered_append {env : Env} : ∀ {r1 o1 r2 o2 : List Elem}, RenderedList env r1 o1 → RenderedList env r2 o2 →
    RenderedList env (r1 ++ r2) (o1 ++ o2)
  | [], _, _, _, h1, h2 => by rw [rendered_nil h1]; exact h2
  | e :: r1, _, _, _, h1, h2 => by
    obtain ⟨e', o1', rfl, h3, h4⟩ := rendered_cons h1
    exact rendered_cons' h3 (rendered_append h4 h2)

theorem rendered_filter {env : Env} {t : String} : ∀ {raw out : List Elem}, RenderedList env raw out →
    RenderedList env (raw.filter fun e => e.tag == t) (out.filter fun e => e.tag == t)
  | [], _, h => by rw [rendered_nil h]; exact ⟨rfl, fun i h => absurd h (by simp)⟩
  | e :: raw, _, h => by
    obtain ⟨e', out', rfl, h1, h2⟩ := rendered_cons h
    obtain ⟨ht, -, -⟩ := rendered_facts h1
    have ih := rendered_filter (t := t) h2
    rw [List.filter_cons, List.filter_cons, ht]
    split
    · exact rendered_cons' h1 ih
    · exact ih

theorem rendered_children {env : Env} : ∀ {raw out : List Elem}, RenderedList env raw out →
    RenderedList env (raw.flatMap (·.children)) (out.flatMap (·.children))
  | [], _, h => by rw [rendered_nil h]; exact ⟨rfl, fun i h => absurd h (by simp)⟩
  | e :: raw, _, h => by
    obtain ⟨e', out', rfl, h1, h2⟩ := rendered_cons h
    rw [List.flatMap_cons, List.flatMap_cons]
    exact rendered_append (rendered_facts h1).2.2 (rendered_children h2)

theorem elemsAt_rendered {env : Env} : ∀ (p : List String) {raw out : List Elem}, RenderedList env raw out →
    RenderedList env (elemsAt p raw) (elemsAt p out)
  | [], _, _, _ => ⟨rfl, fun i h => absurd h (by simp [elemsAt])⟩
  | [_], _, _, h => rendered_filter h
  | _ :: u :: p, _, _, h => elemsAt_rendered (u :: p) (rendered_children (rendered_filter h))

theorem rendered_head {env : Env} {raw out : List Elem} (h : RenderedList env raw out) :
    (raw = [] ∧ out = []) ∨ ∃ e e', raw.head? = some e ∧ out.head? = some e' ∧ Rendered env descriptions e e' := by
  cases raw with
  | nil => exact .inl ⟨rfl, rendered_nil h⟩
  | cons e raw =>
    obtain ⟨e', out', rfl, h1, -⟩ := rendered_cons h
    exact .inr ⟨e, e', rfl, rfl, h1⟩

theorem rendered_attrs {env : Env} {e e' : Elem} (h : Rendered env descriptions e e') : e'.attrs = e.attrs := by
  cases h; rfl

theorem xmpValue_rendered {env : Env} {rdf out : List Elem} (hr : RenderedList env rdf out) {name : String}
    (hd : ∀ d ∈ descriptions, d.1 ≠ name) {v : Option String} (h : XmpValue (fun s => shown env s.toList) rdf name v) :
    XmpValue id out name v := by
  have hp := elemsAt_rendered [rdfDescription, name] hr
  have hq := elemsAt_rendered [rdfDescription] hr
  have hnil : elemsAt [rdfDescription, name] rdf = [] → elemsAt [rdfDescription, name] out = [] := by
    intro e
    rw [e] at hp
    exact rendered_nil hp
  have htag : ∀ e, (elemsAt [rdfDescription, name] rdf).head? = some e → e.tag = name := by
    intro e he
    have hm : e ∈ elemsAt [rdfDescription, name] rdf := List.mem_of_head? he
    simp only [elemsAt, List.mem_filter, beq_iff_eq] at hm
    exact hm.2
  have hdesc : ∀ d, (elemsAt [rdfDescription] rdf).head? = some d →
      ∃ d', (elemsAt [rdfDescription] out).head? = some d' ∧ d'.attrs = d.attrs := by
    intro d hh
    rcases rendered_head hq with ⟨e, -⟩ | ⟨e, e', h1, h2, h3⟩
    · rw [e] at hh; cases hh
    · rw [h1] at hh
      cases hh
      exact ⟨e', h2, rendered_attrs h3⟩
  have htext : ∀ x, (textsAt [rdfDescription, name] rdf).head? = some x →
      ∃ y, (textsAt [rdfDescription, name] out).head? = some y ∧ ShownAs env descriptions name x y := by
    intro x hx
    unfold textsAt at hx ⊢
    rw [List.head?_map] at hx ⊢
    rcases rendered_head hp with ⟨e, -⟩ | ⟨e, e', h1, h2, h3⟩
    · rw [e] at hx; cases hx
    · rw [h1] at hx
      rw [h2]
      have := (rendered_facts h3).2.1
      rw [htag e h1] at this
      cases hx
      exact ⟨_, rfl, this⟩
  cases h with
  | element s h =>
    obtain ⟨y, h1, h2⟩ := htext _ h
    cases h2 with
    | described hm => exact absurd rfl (hd _ hm)
    | text _ => exact .element _ h1
  | emptyElement h =>
    obtain ⟨y, h1, h2⟩ := htext _ h
    cases h2 with
    | described hm => exact absurd rfl (hd _ hm)
    | absent => exact .emptyElement h1
  | fromAttribute d s h1 h2 h3 =>
    obtain ⟨d', h4, h5⟩ := hdesc d h2
    exact .fromAttribute d' s (hnil h1) h4 (by rw [h5]; exact h3)
  | absent d h1 h2 h3 =>
    obtain ⟨d', h4, h5⟩ := hdesc d h2
    exact .absent d' (hnil h1) h4 (by rw [h5]; exact h3)

theorem capturedFrom_rendered {env : Env} {me : MixEnv} {rdf out m : List Elem} (hr : RenderedList env rdf out)
    (h : CapturedFrom me id out m) : CapturedFrom me (fun s => shown env s.toList) rdf m where
  one := h.one
  created v hv := h.created v (xmpValue_rendered hr (by decide +kernel) hv)
  artist v hv := h.artist v (xmpValue_rendered hr (by decide +kernel) hv)
  make v hv := h.make v (xmpValue_rendered hr (by decide +kernel) hv)
  model v hv := h.model v (xmpValue_rendered hr (by decide +kernel) hv)
  serial v hv := h.serial v (xmpValue_rendered hr (by decide +kernel) hv)
  software s hs := h.software s (xmpValue_rendered hr (by decide +kernel) hs)
  softwareName s hs := h.softwareName s (xmpValue_rendered hr (by decide +kernel) hs)
  noSoftware hs := h.noSoftware (xmpValue_rendered hr (by decide +kernel) hs)

theorem xmpIn_rendered {env : Env} {docs out rdf : List Elem} (hr : RenderedList env docs out) (h : XmpIn docs rdf) :
    ∃ rdf', XmpIn out rdf' ∧ RenderedList env rdf rdf' := by
  obtain ⟨hne, h⟩ := h
  obtain ⟨e, he, rfl⟩ := Option.map_eq_some_iff.1 h
  rcases rendered_head (elemsAt_rendered [xmpMeta, rdfRDF] hr) with ⟨e1, -⟩ | ⟨e1, e2, h1, h2, h3⟩
  · rw [e1] at he; cases he
  · rw [h1] at he
    cases he
    have hc := (rendered_facts h3).2.2
    refine ⟨e2.children, ⟨?_, by rw [h2]; rfl⟩, hc⟩
    intro e
    rw [e] at hc
    have := hc.1
    exact hne (List.length_eq_zero_iff.1 this)

theorem noXmpIn_rendered {env : Env} {docs out : List Elem} (hr : RenderedList env docs out) (h : NoXmpIn docs) :
    NoXmpIn out := by
  intro e he
  rcases rendered_head (elemsAt_rendered [xmpMeta, rdfRDF] hr) with ⟨-, e2⟩ | ⟨e1, e2, h1, h2, h3⟩
  · rw [e2] at he; cases he
  · rw [h2] at he
    cases he
    have hc := (rendered_facts h3).2.2
    rw [h e1 h1] at hc
    exact rendered_nil hc

theorem mixCapture_rendered {env : Env} {me : MixEnv} {x x' u u' m : List Elem} (hx : RenderedList env x x')
    (hu : RenderedList env u u') (h : MixCapture me id x' u' m) :
    MixCapture me (fun s => shown env s.toList) x u m where
  absent h1 h2 := h.absent (noXmpIn_rendered hx h1) (noXmpIn_rendered hu h2)
  present rdf hr := by
    rcases hr with hr | ⟨h1, hr⟩
    · obtain ⟨rdf', h2, h3⟩ := xmpIn_rendered hx hr
      exact capturedFrom_rendered h3 (h.present rdf' (.inl h2))
    · obtain ⟨rdf', h2, h3⟩ := xmpIn_rendered hu hr
      exact capturedFrom_rendered h3 (h.present rdf' (.inr ⟨noXmpIn_rendered hx h1, h2⟩))

theorem stripped_unique {b s s' : Bytes} {n n' : Nat} (h : b = s ++ List.replicate n 0) (hs : s.getLast? ≠ some 0)
    (h' : b = s' ++ List.replicate n' 0) (hs' : s'.getLast? ≠ some 0) : s = s' := by
  have key : ∀ {b s : Bytes} {n : Nat}, b = s ++ List.replicate n 0 → s.getLast? ≠ some 0 →
      s = removeNullTerminator b := by
    intro b s n h hs
    unfold removeNullTerminator
    rw [h, List.reverse_append, List.reverse_replicate]
    have h1 : ∀ n (l : Bytes), l.head? ≠ some 0 → (List.replicate n 0 ++ l).dropWhile (· == 0) = l := by
      intro n
      induction n with
      | zero =>
        intro l hl
        cases l with
        | nil => rfl
        | cons a l =>
          rw [List.replicate_zero, List.nil_append, List.dropWhile_cons]
          rw [if_neg]
          intro e
          exact hl (by simpa using e)
      | succ n ih =>
        intro l hl
        rw [List.replicate_succ, List.cons_append, List.dropWhile_cons]
        simp only [beq_self_eq_true, if_true]
        exact ih l hl
    rw [h1 n s.reverse (by rw [List.head?_reverse]; exact hs), List.reverse_reverse]
  rw [key h hs, key h' hs']

theorem showsXml_unique {env : Env} {o : Options} {b : Bytes} {es es' : List Elem} (h : ShowsXml env o b es)
    (h' : ShowsXml env o b es') : es = es' := by
  obtain ⟨a1, a2, a3⟩ := h
  obtain ⟨b1, b2, b3⟩ := h'
  cases hp : env.parseXml b with
  | some d => rw [a1 d hp, b1 d hp]
  | none =>
    cases hn : o.nullxml with
    | false => rw [a2 hp hn, b2 hp hn]
    | true =>
      obtain ⟨s, n, h1, h2, rfl⟩ := a3 hp hn
      obtain ⟨s', n', h3, h4, rfl⟩ := b3 hp hn
      rw [stripped_unique h1 h2 h3 h4]

theorem insideOf_cons {t : String} {e : Elem} {es : List Elem} :
    insideOf t (e :: es) = (if e.tag == t then e.children else []) ++ insideOf t es := by
  unfold insideOf
  rw [List.filter_cons]
  split <;> simp

theorem inside_xml {env : Env} {o : Options} : ∀ {bs : List FoundBox} {raw docs : List Elem},
    ShowsBoxesV env o bs raw → StoredDocs env o xmlDoc bs docs → insideOf "xmlBox" raw = docs
  | [], _, _, .nil, .nil => rfl
  | x :: bs, _, docs, .cons (e := e) (es := es) h1 h2, hd => by
    have ht := showsBoxV_tag h1 (k := ascii "xml ") (s := "xmlBox") (by simp)
    rw [insideOf_cons]
    cases hd with
    | other hn hd =>
      have hx : x.type ≠ ascii "xml " := by
        intro e
        unfold xmlDoc at hn
        rw [if_pos e] at hn
        cases hn
      rw [beq_eq_false_iff_ne.2 fun e => hx (ht.1 e)]
      exact inside_xml h2 hd
    | @here _ _ ds b es' hn hs hd =>
      have hx : x.type = ascii "xml " ∧ x.payload = b := by
        unfold xmlDoc at hn
        split at hn
        · rename_i e; cases hn; exact ⟨e, rfl⟩
        · cases hn
      obtain ⟨hx, rfl⟩ := hx
      rw [beq_iff_eq.2 (ht.2 hx), if_pos rfl, inside_xml h2 hd]
      congr 1
      cases h1 with
      | leaf _ _ _ hv => exact showsXml_unique (hv.xml hx) hs
      | codestream hn _ _ => rw [hx] at hn; exact absurd hn (by decide)
      | super hn _ _ _ => rw [hx] at hn; exact absurd hn (by decide)

theorem inside_uuid {env : Env} {o : Options} : ∀ {bs : List FoundBox} {raw docs : List Elem},
    ShowsBoxesV env o bs raw → StoredDocs env o xmpDoc bs docs →
    (insideOf "uuidBox" raw).filter (fun e => e.tag == xmpMeta) = docs.filter fun e => e.tag == xmpMeta
  | [], _, _, .nil, .nil => rfl
  | x :: bs, _, docs, .cons (e := e) (es := es) h1 h2, hd => by
    have ht := showsBoxV_tag h1 (k := ascii "uuid") (s := "uuidBox") (by simp)
    rw [insideOf_cons, List.filter_append]
    cases hd with
    | other hn hd =>
      rw [inside_uuid h2 hd]
      by_cases hx : x.type = ascii "uuid"
      · rw [beq_iff_eq.2 (ht.2 hx), if_pos rfl]
        have hne : x.payload.take 16 ≠ xmpUuid := by
          intro e
          unfold xmpDoc at hn
          rw [if_pos ⟨hx, e⟩] at hn
          cases hn
        cases h1 with
        | leaf _ _ _ hv =>
          obtain ⟨s, -, hs⟩ := hv.uuid hx hne
          rw [hs]
          simp [xmpMeta]
        | codestream hn _ _ => rw [hx] at hn; exact absurd hn (by decide)
        | super hn _ _ _ => rw [hx] at hn; exact absurd hn (by decide)
      · rw [beq_eq_false_iff_ne.2 fun e => hx (ht.1 e)]
        rfl
    | @here _ _ ds b es' hn hs hd =>
      have hx : x.type = ascii "uuid" ∧ x.payload.take 16 = xmpUuid ∧ x.payload.drop 16 = b := by
        unfold xmpDoc at hn
        split at hn
        · rename_i e; cases hn; exact ⟨e.1, e.2, rfl⟩
        · cases hn
      obtain ⟨hx, hu, rfl⟩ := hx
      rw [beq_iff_eq.2 (ht.2 hx), if_pos rfl, inside_uuid h2 hd, List.filter_append]
      congr 2
      cases h1 with
      | leaf _ _ _ hv => exact showsXml_unique (hv.xmp hx hu) hs
      | codestream hn _ _ => rw [hx] at hn; exact absurd hn (by decide)
      | super hn _ _ _ => rw [hx] at hn; exact absurd hn (by decide)

theorem elemsAt_filter {t u : String} {p : List String} {es es' : List Elem}
    (h : es.filter (fun e => e.tag == t) = es'.filter fun e => e.tag == t) :
    elemsAt (t :: u :: p) es = elemsAt (t :: u :: p) es' := by
  show elemsAt (u :: p) _ = elemsAt (u :: p) _
  rw [h]

/-- C55 (file): in the report of a valid JP2 or JPH file made with MIX output, the capture metadata are those of the
XMP stored in the XML boxes of the file or, if these have none, in its UUID boxes: printable characters of the texts
and the attributes as they are. -/
theorem C55_capture_file {env : Env} (hsane : Sane env) {me : MixEnv} {fs : FS} {fuel : Nat} {o : Options} {mix : Nat}
    {path : PyStr} (hfmt : o.format = .jp2 ∨ o.format = .jph) (hmix : mix ≠ 0) {rep : Elem}
    (h : checkOneFile env me fs fuel o mix path = .ok rep) (hv : verdict rep = some (.str "True"))
    {bs : List FoundBox} (hb : Boxes (bytesRead (fs.read path)) bs) {inXml inUuid : List Elem}
    (hx : StoredDocs env o xmlDoc bs inXml) (hu : StoredDocs env o xmpDoc bs inUuid) :
    ∃ m, contents rep "propertiesExtension" = [m] ∧ m.tag = "mix:mix" ∧
      MixCapture me (fun s => shown env s.toList) inXml inUuid m.children := by
  obtain ⟨m, h1, h2, h3⟩ := C55_capture_report hfmt hmix h hv
  refine ⟨m, h1, h2, ?_⟩
  obtain ⟨raw, more, hr, hshow, -, hmore⟩ := C54_file hsane hfmt h (valid_success h hv) hb
  have hin : ∀ t, t ≠ "compressionRatio" → insideOf t (raw ++ more) = insideOf t raw := by
    intro t ht
    unfold insideOf
    have hnil : more.filter (fun e => e.tag == t) = [] := by
      rw [List.filter_eq_nil_iff]
      intro e he
      rw [hmore e he]
      simpa using ht.symm
    rw [List.filter_append, hnil, List.append_nil]
  have k := mixCapture_rendered (rendered_children (rendered_filter (t := "xmlBox") hr))
    (rendered_children (rendered_filter (t := "uuidBox") hr)) h3
  rw [show (List.filter (fun e => e.tag == "xmlBox") (raw ++ more)).flatMap (·.children) =
    insideOf "xmlBox" (raw ++ more) from rfl, hin _ (by decide), inside_xml hshow hx] at k
  rw [show (List.filter (fun e => e.tag == "uuidBox") (raw ++ more)).flatMap (·.children) =
    insideOf "uuidBox" (raw ++ more) from rfl, hin _ (by decide)] at k
  have e := elemsAt_filter (u := rdfRDF) (p := []) (inside_uuid hshow hu)
  refine ⟨fun n1 n2 => k.absent n1 fun x hx => n2 x (by rw [← e]; exact hx), fun rdf hr => k.present rdf ?_⟩
  rcases hr with hr | ⟨hn, hne, hr⟩
  · exact .inl hr
  · exact .inr ⟨hn, hne, by rw [e]; exact hr⟩

/-- An environment in which all contents are XMP with a date given by an attribute and a tool given by an element. -/
def Sample.envXmp : Env := ⟨fun _ => some (.node xmpMeta [.node rdfRDF [.mk rdfDescription
    [("{http://ns.adobe.com/xap/1.0/}CreateDate", "2020")] .none
    [.leaf "{http://ns.adobe.com/xap/1.0/}CreatorTool" (.str "Scan 1.0")]]]),
  Sample.env0.catC, Sample.env0.floatStr⟩

/-- The children of its `rdf:RDF` element. -/
def Sample.rdf0 : List Elem := [.mk rdfDescription [("{http://ns.adobe.com/xap/1.0/}CreateDate", "2020")] .none
    [.leaf "{http://ns.adobe.com/xap/1.0/}CreatorTool" (.str "Scan 1.0")]]

example : NamesTool "Scan 1.0" "Scan".toList "1.0".toList := ⟨.inl rfl, by decide, by decide⟩

/-- The boxes of the sample file with an XML box. -/
theorem jp2Xml_boxes : Boxes Sample.jp2Xml [⟨0, ascii "jP  ", [0x0d, 0x0a, 0x87, 0x0a]⟩,
    ⟨12, ascii "ftyp", ascii "jp2 " ++ Sample.be32 0 ++ ascii "jp2 "⟩,
    ⟨32, ascii "jp2h", Sample.ihdr 1 1 1 7 ++ Sample.colr 17⟩,
    ⟨77, ascii "jp2c", Sample.cs1⟩, ⟨166, ascii "xml ", ascii "<x/>"⟩] :=
  boxes_of 10 (by decide +kernel)

/-- A valid file with XMP: the date and the tool of the XMP are in the MIX element. -/
example : ∃ rep m, checkOneFile Sample.envXmp Sample.me0 (Sample.fs0 Sample.jp2Xml) 200 (Sample.opts .jp2) 2 [97] = .ok rep ∧
    verdict rep = some (.str "True") ∧ contents rep "propertiesExtension" = [m] ∧
    captureTexts ["mix:GeneralCaptureInformation", "mix:dateTimeCreated"] m.children =
      [.str (Sample.me0.strip "2020")] ∧
    captureTexts ["mix:ScannerCapture", "mix:ScanningSystemSoftware", "mix:scanningSoftwareVersionNo"] m.children =
      [.str "1.0"] := by
  have hsane : Sane Sample.envXmp := ⟨sane_env0.ascii, sane_env0.float⟩
  obtain ⟨rep, h, hv, -⟩ := Sample.saysValid_ok
    (x := checkOneFile Sample.envXmp Sample.me0 (Sample.fs0 Sample.jp2Xml) 200 (Sample.opts .jp2) 2 [97]) (by decide +kernel)
  obtain ⟨m, h1, -, h2⟩ := C55_capture_file hsane (.inl rfl) (by decide) h hv jp2Xml_boxes
    (inXml := [.node xmpMeta [.node rdfRDF Sample.rdf0]] ++ []) (inUuid := [])
    (.other (by decide) (.other (by decide) (.other (by decide) (.other (by decide) (.here (b := ascii "<x/>") rfl
      ⟨fun _ e => by cases e; rfl, (fun e => nomatch e), (fun e => nomatch e)⟩ .nil)))))
    (.other (by decide) (.other (by decide) (.other (by decide) (.other (by decide) (.other (by decide) .nil)))))
  have k := h2.present Sample.rdf0 (.inl ⟨by simp [Sample.rdf0], rfl⟩)
  refine ⟨rep, m, h, hv, h1, ?_, ?_⟩
  · have := k.created (some "2020") (XmpValue.fromAttribute _ "2020" rfl rfl rfl)
    exact this
  · have hs : XmpValue (fun s => shown Sample.envXmp s.toList) Sample.rdf0
        "{http://ns.adobe.com/xap/1.0/}CreatorTool" (some (shown Sample.envXmp "Scan 1.0".toList)) := .element _ rfl
    rw [show shown Sample.envXmp "Scan 1.0".toList = "Scan 1.0" from by decide +kernel] at hs
    exact (k.software _ hs "Scan".toList "1.0".toList ⟨.inl rfl, by decide, by decide⟩).2

end Jpy
