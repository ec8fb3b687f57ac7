import Verif.Lemmas.SchemaSegs
import Verif.Lemmas.Cs
import Verif.Props.Walk
/-! # Schema validity of whole property trees -/

set_option linter.unusedSimpArgs false
set_option linter.unusedVariables false

namespace Jpy
open Spec Xsd

variable {env : Env} {s : Bool}

theorem mem_testsOf {n : String} {b : Bool} : ∀ {ss : List Step}, Step.test n b ∈ ss → (n, b) ∈ testsOf ss
  | [], h => nomatch h
  | x :: ss, h => by
    rcases List.mem_cons.1 h with rfl | h
    · exact List.mem_cons_self
    · have := mem_testsOf h
      cases x <;> simp only [testsOf, List.mem_cons] <;> first | exact this | exact .inr this

theorem run_test {v : Bool} {ss : List Step} {n : String} {b : Bool}
    (h : (Node.run v {} ss).isValid = true) (hm : Step.test n b ∈ ss) : b = true := by
  rw [isValid_run] at h
  exact List.all_eq_true.1 h _ (mem_testsOf hm)

/-- What rules out the relaxations of the schema for one leaf. -/
structure PlainLeaf (fmt : Format) (csiz : Option Int) (t : BoxType) (c : Bytes) : Prop where
  ftyp : t = .fileTypeBox → fmt = .jp2 ∨ fmt = .jph
  bpcc : t = .bitsPerComponentBox → c ≠ []
  cmap : t = .componentMappingBox → 4 ≤ c.length
  ulst : t = .uuidListBox → bytesToUShortInt (slice c 0 2) ≠ 0
  colr : t = .colourSpecificationBox → bytesToUnsignedChar (slice c 0 1) ≠ 5
  res : t = .captureResolutionBox ∨ t = .displayResolutionBox → c.length = 10 →
    SmallFloat (resPerMeter (bytesToUShortInt (slice c 0 2)) (bytesToUShortInt (slice c 2 4))
      (bytesToSignedChar (slice c 8 9))) ∧
    SmallFloat (resPerMeter (bytesToUShortInt (slice c 4 6)) (bytesToUShortInt (slice c 6 8))
      (bytesToSignedChar (slice c 9 10)))
  csiz : ∀ n, csiz = some n → 1 ≤ n ∧ n < 257

theorem rangeLen_ne {n : Int} (h : 1 ≤ n) : rangeLen n ≠ 0 := by
  unfold rangeLen
  omega

theorem between_le {a b c : Int} (h : between a b c = true) : a ≤ b := by
  unfold between at h
  simp only [Bool.and_eq_true, decide_eq_true_eq] at h
  exact h.1

/-- The statements of a leaf validator follow the content model of its element. -/
theorem leaf_sm (hf : FloatText env) {o : Options} {fuel csiz t bType c ss}
    (h : leaf env o fuel csiz t bType c = .ok ss)
    (ht : t ∉ [BoxType.jp2HeaderBox, .resolutionBox, .uuidInfoBox, .contiguousCodestreamBox, .tilePart])
    (hs : s = true → (Node.run o.verbose {} ss).isValid = true ∧ PlainLeaf o.format csiz t c) :
    ∃ r, (schema s).lookup t.name = some (.content r) ∧ SM env s r ss := by
  have ok1 : ∀ {a b : List Step}, Outcome.ok a = Outcome.ok b → a = b := fun h => by cases h; rfl
  cases t
  case jp2HeaderBox | resolutionBox | uuidInfoBox | contiguousCodestreamBox | tilePart =>
    exact absurd (by decide) ht
  case intellectualPropertyBox | tlm | ppm | ppt =>
    all_goals
      cases h
      refine ⟨.star .any, ?_, .nil⟩
      cases s <;> decide +kernel
  case xmlBox => cases h; exact ⟨_, by cases s <;> decide +kernel, sm_xml _ _⟩
  case uuidBox => exact ⟨_, by cases s <;> decide +kernel, sm_uuid h⟩
  case signatureBox =>
    cases h
    refine ⟨.empty, by cases s <;> decide +kernel, .empty⟩
  case fileTypeBox =>
    have h := ok1 h; subst h
    refine ⟨_, ?_, sm_ftyp o.format c ?_⟩
    · cases s <;> decide +kernel
    · intro e e2
      obtain ⟨hv, hp⟩ := hs e
      rcases hp.ftyp rfl with hj | hj
      · have := run_test hv (n := "compatibilityListIsValid")
          (b := decide (brandJp2 ∈ (List.range (rangeLen (intDiv ((c.length : Int) - 8) 4))).map fun (i : Nat) =>
            slice c (8 + 4 * i) (8 + 4 * i + 4))) (by unfold fileTypeBox; rw [hj]; simp)
        rw [e2] at this
        simp at this
      · have := run_test hv (n := "compatibilityListIsValid")
          (b := decide (brandJph ∈ (List.range (rangeLen (intDiv ((c.length : Int) - 8) 4))).map fun (i : Nat) =>
            slice c (8 + 4 * i) (8 + 4 * i + 4))) (by unfold fileTypeBox; rw [hj]; simp)
        rw [e2] at this
        simp at this
  case imageHeaderBox => cases h; exact ⟨_, by cases s <;> decide +kernel, sm_ihdr c⟩
  case bitsPerComponentBox =>
    cases h
    refine ⟨_, ?_, sm_bpcc c fun e => (hs e).2.bpcc rfl⟩
    cases s <;> decide +kernel
  case colourSpecificationBox =>
    cases h
    refine ⟨_, ?_, sm_colr hf _ c fun e => (hs e).2.colr rfl⟩
    cases s <;> decide +kernel
  case paletteBox =>
    have h := ok1 h; subst h
    refine ⟨_, ?_, sm_pclr c fun e => rangeLen_ne (between_le (c := 255) (run_test (hs e).1 (n := "nPCIsValid") ?_))⟩
    · cases s <;> decide +kernel
    · unfold paletteBox; simp
  case componentMappingBox =>
    cases h
    refine ⟨_, ?_, sm_cmap c fun e => (hs e).2.cmap rfl⟩
    cases s <;> decide +kernel
  case channelDefinitionBox =>
    have h := ok1 h; subst h
    refine ⟨_, ?_, sm_cdef o.format c fun e => rangeLen_ne (between_le (c := 65535) (run_test (hs e).1 (n := "nIsValid") ?_))⟩
    · cases s <;> decide +kernel
    · unfold channelDefinitionBox; simp
  case captureResolutionBox =>
    have hl : s = true → c.length = 10 := by
      intro e
      have h2 : resolutionLeaf "c" c = .ok ss := h
      unfold resolutionLeaf at h2
      simp only [] at h2
      split at h2
      · cases h2
      · split at h2
        · cases h2
        · have h2 := ok1 h2
          subst h2
          exact of_decide_eq_true (run_test (hs e).1 (n := "boxLengthIsValid") List.mem_cons_self)
    refine ⟨_, ?_, sm_resc hf h (fun e => ((hs e).2.res (.inl rfl) (hl e)).1)
      fun e => ((hs e).2.res (.inl rfl) (hl e)).2⟩
    cases s <;> decide +kernel
  case displayResolutionBox =>
    have hl : s = true → c.length = 10 := by
      intro e
      have h2 : resolutionLeaf "d" c = .ok ss := h
      unfold resolutionLeaf at h2
      simp only [] at h2
      split at h2
      · cases h2
      · split at h2
        · cases h2
        · have h2 := ok1 h2
          subst h2
          exact of_decide_eq_true (run_test (hs e).1 (n := "boxLengthIsValid") List.mem_cons_self)
    refine ⟨_, ?_, sm_resd hf h (fun e => ((hs e).2.res (.inr rfl) (hl e)).1)
      fun e => ((hs e).2.res (.inr rfl) (hl e)).2⟩
    cases s <;> decide +kernel
  case uuidListBox =>
    refine ⟨_, ?_, sm_ulst h fun e => ?_⟩
    · cases s <;> decide +kernel
    · have h2 : uuidListBox c = .ok ss := h
      unfold uuidListBox at h2
      obtain ⟨rest, h3, h2⟩ := Outcome.bind_eq_ok.1 h2
      have h2 := ok1 h2
      subst h2
      have h4 := of_decide_eq_true (run_test (hs e).1 (n := "boxLengthIsValid")
        (b := decide ((c.length : Int) = bytesToUShortInt (slice c 0 2) * 16 + 2)) (by simp))
      have h5 := (hs e).2.ulst rfl
      exact rangeLen_ne (by omega)
  case urlBox => cases h; exact ⟨_, by cases s <;> decide +kernel, sm_url c⟩
  case unknownBox => cases h; exact ⟨_, by cases s <;> decide +kernel, sm_unknown bType⟩
  case cap => cases h; exact ⟨_, by cases s <;> decide +kernel, sm_cap o.format c⟩
  case siz =>
    have h1 : siz o.format c = .ok ss := h
    refine ⟨_, ?_, sm_siz h1 fun e => rangeLen_ne (between_le (c := 16384) (run_test (hs e).1 (n := "csizIsValid") ?_))⟩
    · cases s <;> decide +kernel
    · unfold siz at h1
      simp only [] at h1
      split at h1
      · cases h1
      · have h1 := ok1 h1
        subst h1
        simp
  case prf => cases h; exact ⟨_, by cases s <;> decide +kernel, sm_prf c⟩
  case cpf => cases h; exact ⟨_, by cases s <;> decide +kernel, sm_cpf o.format c⟩
  case cod =>
    have h := ok1 h; subst h
    refine ⟨_, ?_, sm_cod hf o.format c fun e => ⟨?_, ?_⟩⟩
    · cases s <;> decide +kernel
    · have := between_le (run_test (hs e).1 (n := "codeBlockWidthExponentIsValid")
        (b := between 2 (bytesToUnsignedChar (slice c 8 9) + 2) 10) (by unfold cod codeBlockSteps; simp))
      omega
    · have := between_le (run_test (hs e).1 (n := "codeBlockHeightExponentIsValid")
        (b := between 2 (bytesToUnsignedChar (slice c 9 10) + 2) 10) (by unfold cod codeBlockSteps; simp))
      omega
  case coc =>
    refine ⟨_, ?_, sm_coc hf h fun e n hn => ?_⟩
    · cases s <;> decide +kernel
    · subst hn
      have h1 : coc o.format (some n) c = .ok ss := h
      unfold coc withCsiz at h1
      simp only [] at h1
      have h1 := ok1 h1
      generalize (compIndex c n).2.2 = off at h1 ⊢
      have w := fun b hb => between_le (run_test (hs e).1 (n := "codeBlockWidthExponentIsValid")
        (b := between 2 b 10) hb)
      have w' := fun b hb => between_le (run_test (hs e).1 (n := "codeBlockHeightExponentIsValid")
        (b := between 2 b 10) hb)
      have w2 := w (bytesToUnsignedChar (slice c (off + 2) (off + 3)) + 2) (by
        rw [← h1]; unfold codeBlockSteps
        rw [show off + 2 + 1 = off + 3 by omega]; simp)
      have w3 := w' (bytesToUnsignedChar (slice c (off + 3) (off + 4)) + 2) (by
        rw [← h1]; unfold codeBlockSteps
        rw [show off + 2 + 1 = off + 3 by omega, show off + 2 + 2 = off + 4 by omega]; simp)
      omega
  case qcd => cases h; exact ⟨_, by cases s <;> decide +kernel, sm_qcd c⟩
  case com => cases h; exact ⟨_, by cases s <;> decide +kernel, sm_com c⟩
  case rgn => exact ⟨_, by cases s <;> decide +kernel, sm_rgn h⟩
  case qcc => exact ⟨_, by cases s <;> decide +kernel, sm_qcc h⟩
  case poc =>
    refine ⟨_, ?_, sm_poc h fun e n hn => ?_⟩
    · cases s <;> decide +kernel
    · subst hn
      have h1 : poc (some n) c = .ok ss := h
      unfold poc withCsiz at h1
      simp only [] at h1
      have h1 := ok1 h1
      have := between_le (run_test (hs e).1 (n := "lpocIsValid")
        (b := between 9 (bytesToUShortInt (slice c 0 2)) 65535) (by rw [← h1]; simp))
      have hn := (hs e).2.csiz n rfl
      rw [if_pos hn.2]
      obtain ⟨m, hm⟩ := Int.eq_ofNat_of_zero_le (show 0 ≤ bytesToUShortInt (slice c 0 2) by omega)
      rw [hm] at this ⊢
      have h7 := rangeLen_intDiv m 2 7
      rw [show ((2 : Nat) : Int) = 2 from rfl, show ((7 : Nat) : Int) = 7 from rfl] at h7
      rw [h7]
      omega
  case crg =>
    refine ⟨_, ?_, sm_crg h fun e n hn => rangeLen_ne ((hs e).2.csiz n hn).1⟩
    cases s <;> decide +kernel
  case plm => exact ⟨_, by cases s <;> decide +kernel, sm_plm h⟩
  case plt => exact ⟨_, by cases s <;> decide +kernel, sm_plt h⟩

theorem lookup_pair {α β : Type} [BEq α] [LawfulBEq α] {k : α} {v : β} :
    ∀ {l : List (α × β)}, l.lookup k = some v → (k, v) ∈ l
  | [], h => by cases h
  | (k', v') :: l, h => by
    rw [List.lookup_cons] at h
    split at h
    · rename_i hk
      cases h
      rw [beq_iff_eq] at hk
      subst hk
      exact List.mem_cons_self
    · exact List.mem_cons_of_mem _ (lookup_pair h)

/-- An element without text stays without text. -/
theorem readable_none (t : String) : readableText env remapTable t .none = .none := by
  have hall : ∀ p ∈ remapTable, p.2.lookup PyVal.none = none := by decide +kernel
  unfold readableText remapped
  cases h : remapTable.lookup t with
  | none => rfl
  | some m =>
    simp only []
    rw [hall _ (lookup_pair h)]
    rfl

theorem conforms_node {t r es} (hl : (schema s).lookup t = some (.content r))
    (h : Matches s r (makeHumanReadableL env remapTable es)) :
    Conforms s (makeHumanReadable env remapTable (.node t es)) := by
  show Conforms s (.mk t [] (readableText env remapTable t .none) (makeHumanReadableL env remapTable es))
  rw [readable_none]
  exact .content hl h

/-- The element of a leaf is valid. -/
theorem conforms_leaf (hf : FloatText env) {o : Options} {fuel csiz bType c r}
    (h : validateLeaf env o fuel csiz bType c = .ok r)
    (ht : boxTypeOf bType ∉ [BoxType.jp2HeaderBox, .resolutionBox, .uuidInfoBox, .contiguousCodestreamBox, .tilePart])
    (hs : s = true → r.node.isValid = true ∧ PlainLeaf o.format csiz (boxTypeOf bType) c) :
    Conforms s (makeHumanReadable env remapTable r.charsElem) := by
  unfold validateLeaf at h
  obtain ⟨ss, h1, h⟩ := Outcome.bind_eq_ok.1 h
  cases h
  obtain ⟨re, hl, hm⟩ := leaf_sm hf h1 ht hs
  refine conforms_node (t := (boxTypeOf bType).name) hl ?_
  rw [run_chars]
  exact hm

/-- Every element of a list is valid and has one of the given names. -/
def Fits (env : Env) (s : Bool) (names : List String) (es : List Elem) : Prop :=
  ∀ e ∈ es, e.tag ∈ names ∧ Conforms s (makeHumanReadable env remapTable e)

theorem fits_nil {names} : Fits env s names [] := fun _ h => nomatch h

theorem fits_append {names a b} (h1 : Fits env s names a) (h2 : Fits env s names b) :
    Fits env s names (a ++ b) := by
  intro e he
  rcases List.mem_append.1 he with he | he
  · exact h1 e he
  · exact h2 e he

theorem fits_one {names e} (ht : e.tag ∈ names) (h : Conforms s (makeHumanReadable env remapTable e)) :
    Fits env s names [e] := by
  intro x hx
  cases List.mem_singleton.1 hx
  exact ⟨ht, h⟩

theorem matches_star {names} : ∀ {es : List Elem}, Fits env s names es →
    Matches s (.star (.oneOf names)) (makeHumanReadableL env remapTable es)
  | [], _ => .nil
  | e :: es, h => by
    have h1 := h e List.mem_cons_self
    refine Matches.cons (xs := [makeHumanReadable env remapTable e]) (.oneOf ?_ h1.2)
      (matches_star fun x hx => h x (List.mem_cons_of_mem _ hx))
    rw [readable_tag]
    exact h1.1

theorem fits_absorb {names n r} (hn : Fits env s names n.chars) (ht : r.tag ∈ names)
    (h : Conforms s (makeHumanReadable env remapTable r.charsElem)) :
    Fits env s names (Node.absorb n r).chars := fits_append hn (fits_one ht h)

theorem fits_absorbPacket {names n r pm} (hn : Fits env s names n.chars) (ht : r.tag ∈ names)
    (h : Conforms s (makeHumanReadable env remapTable r.charsElem)) :
    Fits env s names (Node.absorbPacket pm n r).chars := by
  unfold Node.absorbPacket
  split
  · exact fits_absorb hn ht h
  · exact hn

theorem fits_int {names n t} {i : Int} (hn : Fits env s names n.chars) (ht : t ∈ names)
    (hi : t ∈ integerNames) : Fits env s names (Node.addChar n t (.int i)).chars :=
  fits_append hn (fits_one ht (leafOk_int hi i))

/-- A list of children that fits a repeated choice makes a valid element. -/
theorem conforms_star {names es t} (hl : (schema s).lookup t = some (.content (.star (.oneOf names))))
    (h : Fits env s names es) : Conforms s (makeHumanReadable env remapTable (.node t es)) :=
  conforms_node hl (matches_star h)

/-! ## Tile-parts -/

theorem plain_marker {fmt csiz t c}
    (ht : t ∉ [BoxType.fileTypeBox, .bitsPerComponentBox, .componentMappingBox, .uuidListBox,
      .colourSpecificationBox, .captureResolutionBox, .displayResolutionBox])
    (hc : ∀ n, csiz = some n → 1 ≤ n ∧ n < 257) : PlainLeaf fmt csiz t c := by
  refine ⟨?_, ?_, ?_, ?_, ?_, ?_, hc⟩
  all_goals
    intro h
    first
    | (subst h; exact absurd (by decide) ht)
    | (rcases h with rfl | rfl <;> exact absurd (by decide) ht)

/-- Facts about the types of markers, checked on the list of markers. -/
theorem marker_type {l : List Bytes} {names : List String} {m : Bytes} (hm : m ∈ l)
    (h : l.all (fun m => decide ((boxTypeOf m).name ∈ names) &&
      decide (boxTypeOf m ∉ [BoxType.jp2HeaderBox, .resolutionBox, .uuidInfoBox, .contiguousCodestreamBox, .tilePart]) &&
      decide (boxTypeOf m ∉ [BoxType.fileTypeBox, .bitsPerComponentBox, .componentMappingBox, .uuidListBox,
        .colourSpecificationBox, .captureResolutionBox, .displayResolutionBox])) = true) :
    (boxTypeOf m).name ∈ names ∧
    boxTypeOf m ∉ [BoxType.jp2HeaderBox, .resolutionBox, .uuidInfoBox, .contiguousCodestreamBox, .tilePart] ∧
    boxTypeOf m ∉ [BoxType.fileTypeBox, .bitsPerComponentBox, .componentMappingBox, .uuidListBox,
        .colourSpecificationBox, .captureResolutionBox, .displayResolutionBox] := by
  have := List.all_eq_true.1 h m hm
  simp only [Bool.and_eq_true, decide_eq_true_eq] at this
  exact ⟨this.1.1, this.1.2, this.2⟩

/-- A segment adds a valid element. -/
theorem conforms_seg (hf : FloatText env) {o : Options} {fuel csiz cs m c r} {l : List Bytes} {names : List String}
    (h : validateLeaf env o fuel cs m c = .ok r) (hm : m ∈ l)
    (hl : l.all (fun m => decide ((boxTypeOf m).name ∈ names) &&
      decide (boxTypeOf m ∉ [BoxType.jp2HeaderBox, .resolutionBox, .uuidInfoBox, .contiguousCodestreamBox, .tilePart]) &&
      decide (boxTypeOf m ∉ [BoxType.fileTypeBox, .bitsPerComponentBox, .componentMappingBox, .uuidListBox,
        .colourSpecificationBox, .captureResolutionBox, .displayResolutionBox])) = true)
    (hcs : cs = csiz ∨ cs = none)
    (hc : s = true → r.node.isValid = true ∧ ∀ n, csiz = some n → 1 ≤ n ∧ n < 257) :
    r.tag ∈ names ∧ Conforms s (makeHumanReadable env remapTable r.charsElem) := by
  obtain ⟨h1, h2, h3⟩ := marker_type hm hl
  refine ⟨?_, conforms_leaf hf h h2 fun e => ⟨(hc e).1, plain_marker h3 ?_⟩⟩
  · unfold validateLeaf at h
    obtain ⟨ss, h4, h⟩ := Outcome.bind_eq_ok.1 h
    cases h
    exact h1
  · intro n hn
    rcases hcs with rfl | rfl
    · exact (hc e).2 n hn
    · cases hn

theorem and_left {a b : Bool} (h : (a && b) = true) : a = true := (Bool.and_eq_true _ _ ▸ h).1
theorem and_right {a b : Bool} (h : (a && b) = true) : b = true := (Bool.and_eq_true _ _ ▸ h).2

theorem tpStep_fits (hf : FloatText env) {o : Options} {fuel csiz b st st'}
    (hc : s = true → ∀ n, csiz = some n → 1 ≤ n ∧ n < 257)
    (h : tpStep (fun mk c cs => validateLeaf env o fuel cs mk c) o.packetmarkers csiz b st = .ok st')
    (hv : s = true → st'.node.isValid = true) :
    (s = true → st.node.isValid = true) ∧
    (Fits env s tilePartNames st.node.chars → Fits env s tilePartNames st'.node.chars) := by
  rw [tpStep_eq] at h
  simp only [] at h
  split at h
  · rename_i hm
    obtain ⟨r, h1, h⟩ := Outcome.bind_eq_ok.1 h
    cases h
    simp only [] at hv ⊢
    have hr : s = true → st.node.isValid = true ∧ r.node.isValid = true := by
      intro e
      have := hv e
      split at this
      · rw [isValid_absorbPacket] at this
        exact ⟨and_left this, and_right this⟩
      · rw [isValid_absorb] at this
        exact ⟨and_left this, and_right this⟩
    refine ⟨fun e => (hr e).1, fun hfit => ?_⟩
    have := conforms_seg (s := s) (csiz := csiz) (names := tilePartNames) hf h1 hm (by decide +kernel)
      (by split; exact .inl rfl; exact .inr rfl) fun e => ⟨(hr e).2, hc e⟩
    split
    · exact fits_absorbPacket hfit this.1 this.2
    · exact fits_absorb hfit this.1 this.2
  · cases h
    exact ⟨hv, id⟩

theorem tpLoop_fits (hf : FloatText env) {o : Options} {fuel csiz b}
    (hc : s = true → ∀ n, csiz = some n → 1 ≤ n ∧ n < 257) : ∀ {k st st'},
    tpLoop (fun mk c cs => validateLeaf env o fuel cs mk c) o.packetmarkers csiz b k st = .ok st' →
    (s = true → st'.node.isValid = true) →
    (s = true → st.node.isValid = true) ∧
    (Fits env s tilePartNames st.node.chars → Fits env s tilePartNames st'.node.chars)
  | 0, _, _, h, _ => by cases h
  | k + 1, st, st', h, hv => by
    unfold tpLoop at h
    split at h
    · obtain ⟨st1, h1, h⟩ := Outcome.bind_eq_ok.1 h
      obtain ⟨v1, f1⟩ := tpLoop_fits hf hc h hv
      obtain ⟨v2, f2⟩ := tpStep_fits hf hc h1 v1
      exact ⟨v2, fun h => f1 (f2 h)⟩
    · cases h
      exact ⟨hv, id⟩

theorem tpFinish_chars' (v : Bool) (st : TPState) : (tpFinish v st).chars =
    st.node.chars ++ [Elem.leaf "pltCount" (.int st.pltCount)] ++ [Elem.leaf "pptCount" (.int st.pptCount)] := by
  simp only [tpFinish, testIf_chars, testFor_chars, Node.addChar]

theorem tpFinish_valid {v : Bool} {st : TPState} (h : (tpFinish v st).isValid = true) :
    st.node.isValid = true := by
  simp only [tpFinish, isValid_testIf, isValid_testFor, isValid_addChar, Bool.and_assoc] at h
  exact and_left h

theorem tilePart_fits (hf : FloatText env) {o : Options} {fuel csiz start b r}
    (hc : s = true → ∀ n, csiz = some n → 1 ≤ n ∧ n < 257)
    (h : tilePart env o fuel csiz start b = .ok r) (hv : s = true → r.node.isValid = true) :
    r.tag = "tilePart" ∧ Conforms s (makeHumanReadable env remapTable r.charsElem) := by
  unfold tilePart at h
  simp only [] at h
  obtain ⟨st, h1, h⟩ := Outcome.bind_eq_ok.1 h
  cases h
  refine ⟨rfl, conforms_star (t := "tilePart") (names := tilePartNames) (by cases s <;> decide +kernel) ?_⟩
  simp only [] at hv ⊢
  have hv1 : s = true → st.node.isValid = true := by
    intro e
    have := hv e
    rw [isValid_testIf] at this
    exact tpFinish_valid (and_left this)
  rw [testIf_chars, tpFinish_chars']
  refine fits_append (fits_append ((tpLoop_fits hf hc h1 hv1).2 ?_) ?_) ?_
  · refine fits_absorb fits_nil (show "sot" ∈ tilePartNames by decide +kernel) ?_
    have hm := sm_sot (env := env) (s := s) (getMarkerSegment b start).contents
    refine conforms_node (t := "sot")
      (r := sequence [el "lsot", el "isot", el "psot", el "tpsot", el "tnsot"])
      (by cases s <;> decide +kernel) ?_
    rw [run_chars]
    exact hm
  · exact fits_one (show "pltCount" ∈ tilePartNames by decide +kernel) (leafOk_int (by decide +kernel) _)
  · exact fits_one (show "pptCount" ∈ tilePartNames by decide +kernel) (leafOk_int (by decide +kernel) _)

theorem tileLoop_fits (hf : FloatText env) {o : Options} {fuel csiz b}
    (hc : s = true → ∀ n, csiz = some n → 1 ≤ n ∧ n < 257) : ∀ {k st st'},
    tileLoop (fun off => tilePart env o fuel csiz off b) b k st = .ok st' →
    (s = true → st'.node.isValid = true) →
    (s = true → st.node.isValid = true) ∧
    (Fits env s ["tilePart"] st.node.chars → Fits env s ["tilePart"] st'.node.chars)
  | 0, _, _, h, _ => by cases h
  | k + 1, st, st', h, hv => by
    unfold tileLoop at h
    split at h
    · simp only [] at h
      split at h
      · obtain ⟨r, h1, h⟩ := Outcome.bind_eq_ok.1 h
        obtain ⟨isot, _, h⟩ := Outcome.bind_eq_ok.1 h
        obtain ⟨tnsot, _, h⟩ := Outcome.bind_eq_ok.1 h
        have key : (s = true → (st.node.absorb r).isValid = true) →
            (s = true → st.node.isValid = true) ∧
            (Fits env s ["tilePart"] st.node.chars → Fits env s ["tilePart"] (st.node.absorb r).chars) := by
          intro hv
          have hr : s = true → st.node.isValid = true ∧ r.node.isValid = true := by
            intro e
            have := hv e
            rw [isValid_absorb] at this
            exact ⟨and_left this, and_right this⟩
          have := tilePart_fits hf hc h1 fun e => (hr e).2
          exact ⟨fun e => (hr e).1, fun h => fits_absorb h (by rw [this.1]; exact List.mem_singleton.2 rfl) this.2⟩
        split at h
        · split at h
          · obtain ⟨v1, f1⟩ := tileLoop_fits hf hc h hv
            obtain ⟨v2, f2⟩ := key v1
            exact ⟨v2, fun h => f1 (f2 h)⟩
          · cases h
            exact key hv
        · cases h
          exact key hv
      · cases h
        exact ⟨hv, id⟩
    · cases h
      exact ⟨hv, id⟩

/-! ## Codestreams -/

theorem mainStep_fits (hf : FloatText env) {o : Options} {fuel csiz b st st'}
    (hc : s = true → ∀ n, csiz = some n → 1 ≤ n ∧ n < 257)
    (h : mainStep (fun mk c cs => validateLeaf env o fuel cs mk c) o.packetmarkers csiz b st = .ok st')
    (hv : s = true → st'.node.isValid = true) :
    (s = true → st.node.isValid = true) ∧
    (Fits env s codestreamNames st.node.chars → Fits env s codestreamNames st'.node.chars) := by
  rw [mainStep_eq] at h
  simp only [] at h
  split at h
  · rename_i hm
    obtain ⟨r, h1, h⟩ := Outcome.bind_eq_ok.1 h
    cases h
    simp only [] at hv ⊢
    have hr : s = true → st.node.isValid = true ∧ r.node.isValid = true := by
      intro e
      have := hv e
      split at this
      · rw [isValid_absorbPacket] at this
        exact ⟨and_left this, and_right this⟩
      · rw [isValid_absorb] at this
        exact ⟨and_left this, and_right this⟩
    refine ⟨fun e => (hr e).1, fun hfit => ?_⟩
    have := conforms_seg (s := s) (csiz := csiz) (names := codestreamNames) hf h1 hm (by decide +kernel)
      (by split; exact .inl rfl; exact .inr rfl) fun e => ⟨(hr e).2, hc e⟩
    split
    · exact fits_absorbPacket hfit this.1 this.2
    · exact fits_absorb hfit this.1 this.2
  · cases h
    exact ⟨hv, id⟩

theorem mainLoop_fits (hf : FloatText env) {o : Options} {fuel csiz b} : ∀ {k st st'},
    mainLoop (fun mk c cs => validateLeaf env o fuel cs mk c) o.packetmarkers csiz b k st = .ok st' →
    (s = true → st'.node.isValid = true) →
    (s = true → st.node.isValid = true) ∧
    ((s = true → ∀ n, csiz = some n → 1 ≤ n ∧ n < 257) →
      Fits env s codestreamNames st.node.chars → Fits env s codestreamNames st'.node.chars)
  | 0, _, _, h, _ => by cases h
  | k + 1, st, st', h, hv => by
    unfold mainLoop at h
    split at h
    · obtain ⟨st1, h1, h⟩ := Outcome.bind_eq_ok.1 h
      obtain ⟨v1, f1⟩ := mainLoop_fits hf h hv
      have v2 : s = true → st.node.isValid = true := by
        intro e
        have := v1 e
        rw [mainStep_eq] at h1
        simp only [] at h1
        split at h1
        · obtain ⟨r, h2, h1⟩ := Outcome.bind_eq_ok.1 h1
          cases h1
          simp only [] at this
          split at this
          · rw [isValid_absorbPacket] at this
            exact and_left this
          · rw [isValid_absorb] at this
            exact and_left this
        · cases h1
          exact this
      exact ⟨v2, fun hc h => f1 hc ((mainStep_fits hf hc h1 v1).2 h)⟩
    · cases h
      exact ⟨hv, fun _ => id⟩

theorem leafOk_ratio (hf : FloatText env) (nb ds h w) :
    LeafOk env s "compressionRatio" (compressionRatio nb ds h w) := by
  have hl : (schema s).lookup "compressionRatio" = some (.text .double) ∧
      remapTable.lookup "compressionRatio" = none := by cases s <;> decide +kernel
  refine .text hl.1 ?_
  unfold compressionRatio
  split
  · rw [sm_readable_flt hl.2]
    exact hf.double _
  · rw [readable_int hl.2]
    exact isDouble_of_decimal (isDecimal_of_integer (isInteger_int _))

/-- The statements after the tile-part loop. -/
theorem codestreamFinish_fits (hf : FloatText env) {o : Options} {b sc nt n t m}
    (h : codestreamFinish o b sc nt n t = .ok m) :
    ∃ more, m.chars = n.chars ++ [(BoxResult.mk "tileParts" t.node none).charsElem] ++ more ∧
      (m.isValid = true → n.isValid = true ∧ t.node.isValid = true) ∧
      ((o.format = .j2c ∨ o.format = .jhc) ∧ (∃ nb ds h w, more = [Elem.leaf "compressionRatio" (compressionRatio nb ds h w)])
        ∨ ¬ (o.format = .j2c ∨ o.format = .jhc) ∧ more = []) := by
  unfold codestreamFinish at h
  simp only [] at h
  split at h
  · rename_i hj
    obtain ⟨d, _, h⟩ := Outcome.bind_eq_ok.1 h
    obtain ⟨y, _, h⟩ := Outcome.bind_eq_ok.1 h
    obtain ⟨yo, _, h⟩ := Outcome.bind_eq_ok.1 h
    obtain ⟨x, _, h⟩ := Outcome.bind_eq_ok.1 h
    obtain ⟨xo, _, h⟩ := Outcome.bind_eq_ok.1 h
    cases h
    refine ⟨[Elem.leaf "compressionRatio" (compressionRatio b.length d (y - yo) (x - xo))], ?_, ?_,
      .inl ⟨hj, _, _, _, _, rfl⟩⟩
    · simp only [Node.addChar, testFor_chars, testIf_chars, absorb_chars]
    · simp only [isValid_addChar, isValid_testFor, isValid_testIf, isValid_absorb, Bool.and_eq_true]
      intro h
      simp only [h, and_self]
  · rename_i hj
    cases h
    refine ⟨[], ?_, ?_, .inr ⟨hj, rfl⟩⟩
    · simp only [testFor_chars, testIf_chars, absorb_chars, List.append_nil]
    · simp only [isValid_testFor, isValid_testIf, isValid_absorb, Bool.and_eq_true]
      intro h
      simp only [h, and_self]

/-- The number of components in a valid SIZ segment. -/
theorem sm_siz_csiz {o : Options} {fuel cs c r csiz} (h : validateLeaf env o fuel cs mSIZ c = .ok r)
    (hc : needInt (Elem.findElementText r.node.chars ["csiz"]) = .ok csiz) (hv : r.node.isValid = true) :
    1 ≤ csiz ∧ uint c 36 2 = some csiz.toNat := by
  have h3 := (siz_text h).2.2.2.2.2.2.1
  rw [reported_text h3] at hc
  cases hc
  have h1 : 1 ≤ intOf (uint c 36 2) := by
    have ht : boxTypeOf mSIZ = .siz := by decide
    obtain ⟨ss, h1, rfl⟩ := (validateLeaf_ok ht).1 h
    simp only [leaf, siz] at h1
    split at h1
    · cases h1
    · cases h1
      rw [← u16_at c 36 (x := 36) (y := 38) rfl rfl]
      exact between_le (c := 16384) (run_test hv (n := "csizIsValid") (by simp))
  refine ⟨h1, ?_⟩
  cases hu : uint c 36 2 with
  | none => rw [hu] at h1; exact absurd h1 (by decide)
  | some v => rfl

/-- The children of a codestream element: segments and tile-parts, and for a raw codestream the compression
ratio. -/
theorem codestream_fits (hf : FloatText env) {o : Options} {fuel b n}
    (h : codestream env o fuel b = .ok n) (hs : s = true → n.isValid = true ∧ FewComponents b) :
    ∃ es more, n.chars = es ++ more ∧ Fits env s codestreamNames es ∧
      (more = [] ∨ (o.format = .j2c ∨ o.format = .jhc) ∧ ∃ v, more = [Elem.leaf "compressionRatio" v] ∧
        LeafOk env s "compressionRatio" v) := by
  unfold codestream at h
  simp only [] at h
  split at h
  · rename_i hm1
    obtain ⟨rSiz, h1, h⟩ := Outcome.bind_eq_ok.1 h
    obtain ⟨csiz, h2, h⟩ := Outcome.bind_eq_ok.1 h
    obtain ⟨st, h3, h⟩ := Outcome.bind_eq_ok.1 h
    obtain ⟨rsiz, h4, h⟩ := Outcome.bind_eq_ok.1 h
    obtain ⟨tiles, h5, h⟩ := Outcome.bind_eq_ok.1 h
    obtain ⟨t, h6, h⟩ := Outcome.bind_eq_ok.1 h
    obtain ⟨more, hch, hval, hmore⟩ := codestreamFinish_fits hf h
    have hvn : s = true → st.node.isValid = true := by
      intro e
      have := (hval (hs e).1).1
      simp only [isValid_testIf, isValid_testFor, isValid_addChar, Bool.and_eq_true] at this
      simp only [this]
    obtain ⟨v3, f3⟩ := mainLoop_fits hf h3 hvn
    simp only [] at v3 f3
    have hv3 : s = true → decide ((getMarkerSegment b 0).marker = mSOC) = true ∧ rSiz.node.isValid = true := by
      intro e
      have := v3 e
      simp only [isValid_absorb, isValid_testFor, Bool.and_eq_true] at this
      exact ⟨this.1.1.2, this.2⟩
    have hcs : s = true → ∀ n, some csiz = some n → 1 ≤ n ∧ n < 257 := by
      intro e n hn
      cases hn
      obtain ⟨h0, hz⟩ := hv3 e
      have h0 := of_decide_eq_true h0
      rw [hm1] at h1
      obtain ⟨hge, hu⟩ := sm_siz_csiz h1 h2 hz
      refine ⟨hge, ?_⟩
      obtain ⟨n0, hs0, hn0⟩ := getMarkerSegment_spec b 0
      rw [show ((0 : Nat) : Int) = 0 from rfl, h0] at hs0
      rw [show ((0 : Nat) : Int) = 0 from rfl] at hn0
      have e2 : (getMarkerSegment b 0).next = ((2 : Nat) : Int) := by
        generalize hm : mSOC = mm at hs0
        generalize (getMarkerSegment b 0).contents = cc at hs0
        cases hs0 with
        | alone => exact hn0
        | seg hd => exact absurd (by rw [← hm]; decide) hd
        | noLength hd => exact absurd (by rw [← hm]; decide) hd
      rw [e2] at hu hm1
      obtain ⟨n1, hs1, -⟩ := getMarkerSegment_spec b 2
      generalize (getMarkerSegment b (2 : Nat)).contents = cc at hs1 hu
      rw [hm1] at hs1
      have hu2 : uint b 40 2 = some csiz.toNat := by
        generalize hm : mSIZ = mm at hs1
        cases hs1 with
        | alone hd => exact absurd hd (by rw [← hm]; decide)
        | noLength => simp [uint] at hu
        | @seg L hd hL =>
          have : 38 ≤ L := by
            have := uint_some_le hu
            rw [length_sub] at this
            omega
          rw [uint_sub (by omega) (by omega)] at hu
          exact hu
      have := (hs e).2 _ hu2
      omega
    have f3 := f3 hcs (by
      refine fits_absorb ?_ ?_ ?_
      · simp only [testFor_chars]; exact fits_nil
      · rw [hm1] at h1
        rw [(siz_text h1).1]
        decide +kernel
      · rw [hm1] at h1
        refine conforms_leaf hf h1 (by decide) fun e => ⟨(hv3 e).2, plain_marker (by decide) fun n hn => by cases hn⟩)
    have f6 := (tileLoop_fits hf hcs h6 fun e => (hval (hs e).1).2).2 fits_nil
    refine ⟨_, more, hch, ?_, ?_⟩
    · simp only [testIf_chars, testFor_chars, Node.addChar]
      refine fits_append (fits_append (fits_append f3 ?_) ?_) ?_
      · exact fits_one (show "ppmCount" ∈ codestreamNames by decide +kernel) (leafOk_int (by decide +kernel) _)
      · exact fits_one (show "plmCount" ∈ codestreamNames by decide +kernel) (leafOk_int (by decide +kernel) _)
      · exact fits_one (show "tileParts" ∈ codestreamNames by decide +kernel)
          (conforms_star (t := "tileParts") (names := ["tilePart"]) (by cases s <;> decide +kernel) f6)
    · rcases hmore with ⟨hj, nb, ds, hh, w, rfl⟩ | ⟨_, rfl⟩
      · exact .inr ⟨hj, _, rfl, leafOk_ratio hf _ _ _ _⟩
      · exact .inl rfl
  · cases h
    refine ⟨[], [], ?_, fits_nil, .inl rfl⟩
    simp only [testFor_chars]
    rfl

end Jpy
