import Verif.Lemmas.Diagnosis
/-! # The tests of superboxes -/

set_option linter.unusedSimpArgs false
set_option linter.unusedVariables false

namespace Jpy
open Spec

/-- No result has the tag of a type that does not occur. -/
theorem lookup_absent {env o fuel} {bs : List FoundBox} {rs}
    (h : inTurn (fun x : FoundBox => validateBox env o fuel x.type x.payload) bs = .ok rs)
    {t : String} (ha : ¬ Has bs t) {bt : BoxType} (hk : typeMap.lookup (ascii t) = some bt)
    (hbt : bt ≠ .unknownBox) : rs.filter (·.tag == bt.name) = [] := by
  have hf := inTurn_filter (p := fun x : FoundBox => x.type == ascii t)
    (q := fun r => r.tag == bt.name) h (fun x y hxy => validateBox_tag_iff hxy hk hbt)
  have hnil : (bs.filter fun x => x.type == ascii t) = [] := by
    rw [List.filter_eq_nil_iff]
    intro y hy e
    exact ha ⟨y, hy, by simpa using e⟩
  rw [hnil] at hf
  exact (Outcome.ok.inj hf).symm

/-- A property of the first image header. -/
theorem firstHeader_text {env o fuel} {bs : List FoundBox} {rs}
    (h : inTurn (fun x : FoundBox => validateBox env o fuel x.type x.payload) bs = .ok rs)
    {ih : FoundBox} (hi : FirstBox bs "ihdr" ih) {s : String} {v : PyVal}
    (hs : repOf s (imageHeaderBox ih.payload) = [v]) :
    Elem.findElementText (rs.map (·.charsElem)) ["imageHeaderBox", s] = some v := by
  obtain ⟨a, z, rfl, h1, h2⟩ := hi
  obtain ⟨r, rs', hr, -, hf⟩ := lookup_first h rfl h1 h2 (bt := .imageHeaderBox) (by decide) (by decide)
  rw [findElementText_eq, findAllText_results]
  have : (rs.filter (·.tag == "imageHeaderBox")) = r :: rs' := hf
  rw [this, List.flatMap_cons, ihdr_result hr, hs]
  rfl

theorem noHeader_text {env o fuel} {bs : List FoundBox} {rs}
    (h : inTurn (fun x : FoundBox => validateBox env o fuel x.type x.payload) bs = .ok rs)
    (hi : ¬ Has bs "ihdr") (s : String) :
    Elem.findElementText (rs.map (·.charsElem)) ["imageHeaderBox", s] = none := by
  rw [findElementText_eq, findAllText_results]
  have : (rs.filter (·.tag == "imageHeaderBox")) = [] :=
    lookup_absent h hi (bt := .imageHeaderBox) (by decide) (by decide)
  rw [this]
  rfl

theorem first_unique {bs : List FoundBox} {t : String} {x y : FoundBox} (hx : FirstBox bs t x)
    (hy : FirstBox bs t y) : x = y := by
  obtain ⟨a, z, h1, h2, h3⟩ := hx
  obtain ⟨a', z', h1', h2', h3'⟩ := hy
  have key : ∀ {bs a z x}, bs = a ++ x :: z → x.type = ascii t → ¬ Has a t →
      bs.find? (fun x : FoundBox => x.type == ascii t) = some x := by
    rintro bs a z x rfl hx ha
    rw [List.find?_append, List.find?_eq_none.2]
    · simp [hx]
    · intro y hy e
      exact ha ⟨y, hy, by simpa using e⟩
  have e1 := key h1 h2 h3
  have e2 := key h1' h2' h3'
  rw [e1] at e2
  exact Option.some.inj e2

theorem first_exists {bs : List FoundBox} {t : String} (h : Has bs t) : ∃ x, FirstBox bs t x := by
  obtain ⟨a, x, z, h1, h2, h3⟩ := split_first h
  exact ⟨x, a, z, h1, h2, h3⟩

theorem has_of_first {bs : List FoundBox} {t : String} {x} (h : FirstBox bs t x) : Has bs t := by
  obtain ⟨a, z, rfl, h2, h3⟩ := h
  exact has_append.2 (.inr (has_cons.2 (.inl h2)))

/-- A condition on a property of the first image header. -/
theorem header_cond {env o fuel} {bs : List FoundBox} {rs}
    (h : inTurn (fun x : FoundBox => validateBox env o fuel x.type x.payload) bs = .ok rs)
    {Q : (String → Option PyVal) → Prop} {R : Bytes → Prop} (h0 : ¬ Q fun _ => none)
    (h1 : ∀ ih : Bytes, ∀ f : String → Option PyVal,
      (∀ s v, repOf s (imageHeaderBox ih) = [v] → f s = some v) → (Q f ↔ R ih)) :
    Q (fun s => Elem.findElementText (rs.map (·.charsElem)) ["imageHeaderBox", s]) ↔
      ∃ ih, FirstBox bs "ihdr" ih ∧ R ih.payload := by
  by_cases hh : Has bs "ihdr"
  · obtain ⟨ih, hi⟩ := first_exists hh
    rw [h1 ih.payload _ fun s v hv => firstHeader_text h hi hv]
    constructor
    · exact fun hr => ⟨ih, hi, hr⟩
    · rintro ⟨ih', hi', hr⟩
      rw [first_unique hi hi']; exact hr
  · have : (fun s => Elem.findElementText (rs.map (·.charsElem)) ["imageHeaderBox", s]) = fun _ => none :=
      funext fun s => noHeader_text h hh s
    rw [this]
    constructor
    · exact fun hq => absurd hq h0
    · rintro ⟨ih, hi, -⟩; exact absurd (has_of_first hi) hh

theorem unkC_cond {env o fuel} {bs : List FoundBox} {rs}
    (h : inTurn (fun x : FoundBox => validateBox env o fuel x.type x.payload) bs = .ok rs) :
    Elem.findElementText (rs.map (·.charsElem)) ["imageHeaderBox", "unkC"] = some (.int 0) ↔
      ∃ ih, FirstBox bs "ihdr" ih ∧ FieldIs ih.payload 12 1 (· = 0) := by
  refine header_cond (Q := fun f => f "unkC" = some (.int 0)) (R := fun p => FieldIs p 12 1 (· = 0)) h
    (by simp) fun ih f hf => ?_
  rw [hf _ _ (ihdr_fields ih).1]
  simp only [Option.some.injEq, PyVal.int.injEq, intOf_eq (k := 0) (by omega), FieldIs, exists_eq_right]
  rfl

theorem bpc_cond {env o fuel} {bs : List FoundBox} {rs}
    (h : inTurn (fun x : FoundBox => validateBox env o fuel x.type x.payload) bs = .ok rs) :
    (Elem.findElementText (rs.map (·.charsElem)) ["imageHeaderBox", "bPCSign"] = some (.int 1) ∧
     Elem.findElementText (rs.map (·.charsElem)) ["imageHeaderBox", "bPCDepth"] = some (.int 128)) ↔
      ∃ ih, FirstBox bs "ihdr" ih ∧ FieldIs ih.payload 10 1 (· = 255) := by
  refine header_cond (Q := fun f => f "bPCSign" = some (.int 1) ∧ f "bPCDepth" = some (.int 128))
    (R := fun p => FieldIs p 10 1 (· = 255)) h (by simp) fun ih f hf => ?_
  rw [hf _ _ (ihdr_fields ih).2.2.2.2.2.1, hf _ _ (ihdr_fields ih).2.2.2.2.2.2]
  simp only [Option.some.injEq, PyVal.int.injEq]
  cases hu : uint ih 10 1 with
  | none => simp [FieldIs, hu, intOf, low, getBitValue]
  | some v =>
    have := bpc255 hu
    rw [hu] at this
    rw [this]
    simp [FieldIs, hu]

/-- The tests of the JP2 header box on colour information. -/
def colourPart (o : Options) (n : Node) (types : List Bytes) : Node :=
  match o.format with
  | .jp2 => n.testFor o.verbose "containsColourSpecificationBox" (decide (tagColourSpecification ∈ types))
  | .jph =>
    let unkC := Elem.findElementText n.chars ["imageHeaderBox", "unkC"]
    let n := n.testIf o.verbose (decide (unkC = some (PyVal.int 0))) "containsColourSpecificationBox"
      (decide (tagColourSpecification ∈ types))
    let cTypes := Elem.findAllText n.chars ["channelDefinitionBox", "cTyp"]
    n.testIf o.verbose (!(decide (tagColourSpecification ∈ types))) "noZeroCTypesIfNoColourBox"
      (decide (PyVal.int 0 ∉ cTypes))
  | _ => n

/-- The other tests of the JP2 header box. -/
def headerRest (o : Options) (n : Node) (types : List Bytes) : Node :=
  let v := o.verbose
  let sign := Elem.findElementText n.chars ["imageHeaderBox", "bPCSign"]
  let depth := Elem.findElementText n.chars ["imageHeaderBox", "bPCDepth"]
  let n := n.testIf v (decide (sign = some (PyVal.int 1) ∧ depth = some (PyVal.int 128)))
    "containsBitsPerComponentBox" (decide (tagBitsPerComponent ∈ types))
  let n := n.testFor v "firstJP2HeaderBoxIsImageHeaderBox"
    (decide (types.head? = some tagImageHeader))
  let n := n.testFor v "noMoreThanOneImageHeaderBox" (decide (types.count tagImageHeader ≤ 1))
  let n := n.testFor v "noMoreThanOneBitsPerComponentBox"
    (decide (types.count tagBitsPerComponent ≤ 1))
  let n := n.testFor v "noMoreThanOnePaletteBox" (decide (types.count tagPalette ≤ 1))
  let n := n.testFor v "noMoreThanOneComponentMappingBox"
    (decide (types.count tagComponentMapping ≤ 1))
  let n := n.testFor v "noMoreThanOneChannelDefinitionBox"
    (decide (types.count tagChannelDefinition ≤ 1))
  let n := n.testFor v "noMoreThanOneResolutionBox" (decide (types.count tagResolution ≤ 1))
  let n := n.testFor v "colourSpecificationBoxesAreContiguous"
    (listOccurrencesAreContiguous types tagColourSpecification)
  n.testFor v "paletteAndComponentMappingBoxesOnlyTogether"
    (if (tagPalette ∈ types ∧ tagComponentMapping ∉ types)
        ∨ (tagComponentMapping ∈ types ∧ tagPalette ∉ types) then false else true)

theorem jp2HeaderFinish_parts (o : Options) (n : Node) (types : List Bytes) :
    jp2HeaderFinish o n types = headerRest o (colourPart o (n.testFor o.verbose "containsImageHeaderBox"
      (decide (tagImageHeader ∈ types))) types) types := rfl

theorem colourPart_chars (o : Options) (n : Node) (types : List Bytes) :
    (colourPart o n types).chars = n.chars := by
  unfold colourPart
  cases o.format <;> simp only [testFor_chars, testIf_chars]

theorem own_colour {env o fuel} {bs : List FoundBox} {rs} {n m : Node} {rules : List Rule}
    (h : inTurn (fun x : FoundBox => validateBox env o fuel x.type x.payload) bs = .ok rs)
    (hm : m.chars = rs.map (·.charsElem)) (ho : OwnTests n m rules) :
    OwnTests n (colourPart o m (bs.map (·.type)))
      (("noZeroCTypesIfNoColourBox", o.format = .jph → ¬ Has bs "colr" →
        ∀ x ∈ bs, x.type = ascii "cdef" → ∀ n i, uint x.payload 0 2 = some n → i < n →
          uint x.payload (2 + 6 * i + 2) 2 ≠ some 0) ::
       ("containsColourSpecificationBox", (o.format = .jp2 → Has bs "colr") ∧
        (o.format = .jph → ∀ ih, FirstBox bs "ihdr" ih → FieldIs ih.payload 12 1 (· = 0) → Has bs "colr")) ::
        rules) := by
  have hc : decide (tagColourSpecification ∈ bs.map (·.type)) = true ↔ Has bs "colr" := by
    rw [decide_eq_true_iff]; exact mem_types rfl
  unfold colourPart
  cases hf : o.format with
  | jp2 =>
    refine own_skip (fun e => nomatch e) (own_test ?_ ho)
    rw [hc]
    exact ⟨fun e => ⟨fun _ => e, fun e => nomatch e⟩, fun e => e.1 rfl⟩
  | jph =>
    simp only [testIf_chars]
    rw [hm]
    refine own_testIf ?_ ?_ (own_testIf ?_ ?_ ho)
    · intro e
      rw [decide_eq_true_iff, zero_cTyp h]
      refine ⟨fun e _ _ => e, fun e' => e' trivial fun hh => ?_⟩
      rw [hc.2 hh] at e
      cases e
    · intro e _ e'
      exact absurd (hc.1 (by simpa using e)) e'
    · intro e
      rw [decide_eq_true_iff, unkC_cond h] at e
      obtain ⟨ih, h1, h2⟩ := e
      rw [hc]
      exact ⟨fun e => ⟨(fun e => absurd e (by decide)), fun _ _ _ _ => e⟩, fun e => e.2 trivial ih h1 h2⟩
    · intro e
      refine ⟨fun e => absurd e (by decide), fun _ ih h1 h2 => ?_⟩
      rw [decide_eq_false_iff_not, unkC_cond h] at e
      exact absurd ⟨ih, h1, h2⟩ e
  | j2c => exact own_skip (fun e => nomatch e) (own_skip ⟨(fun e => nomatch e), fun e => nomatch e⟩ ho)
  | jhc => exact own_skip (fun e => nomatch e) (own_skip ⟨(fun e => nomatch e), fun e => nomatch e⟩ ho)
  | other s => exact own_skip (fun e => nomatch e) (own_skip ⟨(fun e => nomatch e), fun e => nomatch e⟩ ho)

/-- The tests of the JP2 header box on the sequence of its boxes. -/
theorem own_header {env o fuel} {bs : List FoundBox} {rs} {n : Node}
    (h : inTurn (fun x : FoundBox => validateBox env o fuel x.type x.payload) bs = .ok rs)
    (hn : n.chars = rs.map (·.charsElem)) :
    OwnTests n (jp2HeaderFinish o n (bs.map (·.type))) (headerRules o.format bs) := by
  have m : ∀ {k : Bytes} {s : String}, ascii s = k →
      (decide (k ∈ bs.map (·.type)) = true ↔ Has bs s) := fun e => by
    rw [decide_eq_true_iff]; exact mem_types e
  have c : ∀ {k : Bytes} {s : String}, ascii s = k →
      (decide ((bs.map (·.type)).count k ≤ 1) = true ↔ number bs s ≤ 1) := fun e => by
    rw [decide_eq_true_iff, count_types e]
  refine own_reverse ?_
  rw [jp2HeaderFinish_parts]
  have h1 : OwnTests n (n.testFor o.verbose "containsImageHeaderBox"
      (decide (tagImageHeader ∈ bs.map (·.type)))) [("containsImageHeaderBox", Has bs "ihdr")] :=
    own_test (m rfl) (own_refl n)
  have h2 := own_colour h (by rw [testFor_chars]; exact hn) h1
  have hch := colourPart_chars o (n.testFor o.verbose "containsImageHeaderBox"
      (decide (tagImageHeader ∈ bs.map (·.type)))) (bs.map (·.type))
  rw [testFor_chars, hn] at hch
  generalize colourPart o (n.testFor o.verbose "containsImageHeaderBox"
      (decide (tagImageHeader ∈ bs.map (·.type)))) (bs.map (·.type)) = n2 at h2 hch ⊢
  unfold headerRest
  simp only []
  rw [hch]
  refine own_test ?_ (own_test (together_iff rfl) (own_test (c rfl) (own_test (c rfl) (own_test (c rfl)
    (own_test (c rfl) (own_test (c rfl) (own_test (c rfl) (own_test ?_ (own_testIf ?_ ?_ h2)))))))))
  · rw [palette_together, decide_eq_true_iff, mem_types (k := tagPalette) (s := "pclr") rfl,
      mem_types (k := tagComponentMapping) (s := "cmap") rfl]
  · rw [decide_eq_true_iff]
    cases bs with
    | nil => simp
    | cons x bs =>
      simp only [List.map_cons, List.head?_cons, Option.some.injEq, List.cons.injEq]
      constructor
      · exact fun e => ⟨x, bs, ⟨rfl, rfl⟩, e⟩
      · rintro ⟨_, _, ⟨rfl, rfl⟩, e⟩; exact e
  · intro e
    rw [decide_eq_true_iff, bpc_cond h] at e
    obtain ⟨ih, h1, h2⟩ := e
    rw [m (k := tagBitsPerComponent) (s := "bpcc") rfl]
    exact ⟨fun e _ _ _ => e, fun e => e ih h1 h2⟩
  · intro e ih h1 h2
    rw [decide_eq_false_iff_not, bpc_cond h] at e
    exact absurd ⟨ih, h1, h2⟩ e

/-- The tests of a resolution box on the sequence of its boxes. -/
theorem own_resolution (v : Bool) (n : Node) (bs : List FoundBox) :
    OwnTests n (resolutionFinish v n (bs.map (·.type))) (resolutionRules bs) := by
  refine own_reverse ?_
  unfold resolutionFinish
  simp only []
  refine own_test ?_ (own_test ?_ (own_test ?_ (own_refl n)))
  · rw [decide_eq_true_iff, count_types (k := tagDisplayResolution) (s := "resd") rfl]
  · rw [decide_eq_true_iff, count_types (k := tagCaptureResolution) (s := "resc") rfl]
  · rw [decide_eq_true_iff, mem_types (k := tagCaptureResolution) (s := "resc") rfl, mem_types (k := tagDisplayResolution) (s := "resd") rfl]

/-- The tests of a UUID info box on the sequence of its boxes. -/
theorem own_uuidInfo (v : Bool) (n : Node) (bs : List FoundBox) :
    OwnTests n (uuidInfoFinish v n (bs.map (·.type))) (uuidInfoRules bs) := by
  refine own_reverse ?_
  unfold uuidInfoFinish
  simp only []
  refine own_test ?_ (own_test ?_ (own_refl n))
  · rw [decide_eq_true_iff, count_types (k := tagUrl) (s := "url ") rfl]
  · rw [decide_eq_true_iff, count_types (k := tagUuidList) (s := "ulst") rfl]

end Jpy
