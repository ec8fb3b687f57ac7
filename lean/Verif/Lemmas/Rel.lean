import Verif.Model.CheckFile
import Verif.Spec.Basic
/-!
# Relational reasoning about two runs of the validator

A `NodeRel env o1 o2` is a relation between the element trees built by two runs with different options,
closed under everything the validators do to those trees. `validateBox_rel`, `codestream_rel` and
`validateJP2_rel` lift it to whole runs: both give related results, raise the same exception, or both
run out of fuel.
-/

namespace Jpy

theorem OutRel.bind {α β γ δ : Type} {R : α → β → Prop} {S : γ → δ → Prop}
    {x : Outcome α} {y : Outcome β} {f : α → Outcome γ} {g : β → Outcome δ}
    (h : OutRel R x y) (hf : ∀ a b, x = .ok a → y = .ok b → R a b → OutRel S (f a) (g b)) :
    OutRel S (x >>= f) (y >>= g) := by
  cases h with
  | ok hr => exact hf _ _ rfl rfl hr
  | raised e => exact .raised e
  | timeout => exact .timeout

theorem OutRel.refl {α : Type} {R : α → α → Prop} (hR : ∀ a, R a a) (x : Outcome α) :
    OutRel R x x := by
  cases x with
  | ok a => exact .ok (hR a)
  | raised e => exact .raised e
  | timeout => exact .timeout

theorem OutRel.mono {α β : Type} {R S : α → β → Prop} (h : ∀ a b, R a b → S a b)
    {x : Outcome α} {y : Outcome β} (hx : OutRel R x y) : OutRel S x y := by
  cases hx with
  | ok hr => exact .ok (h _ _ hr)
  | raised e => exact .raised e
  | timeout => exact .timeout

/-- Where in the validator a tree is being built. -/
inductive Ctx where
  | box | main | tiles | tp
  deriving DecidableEq

/-- The paths whose elements the validator reads back, per context. -/
def Ctx.paths : Ctx → List (List String)
  | .box => [ ["imageHeaderBox", "unkC"], ["channelDefinitionBox", "cTyp"],
      ["imageHeaderBox", "bPCSign"], ["imageHeaderBox", "bPCDepth"],
      ["jp2HeaderBox", "imageHeaderBox", "iPR"], ["jp2HeaderBox", "imageHeaderBox"],
      ["contiguousCodestreamBox", "siz"], ["jp2HeaderBox", "bitsPerComponentBox"] ]
  | .main => [ ["siz", "rsiz"], ["siz", "numberOfTiles"], ["coc", "ccoc"], ["qcc", "cqcc"] ]
  | .tiles => []
  | .tp => [ ["sot", "tpsot"], ["sot", "isot"], ["sot", "tnsot"], ["cod"], ["coc"], ["qcd"], ["qcc"],
      ["rgn"], ["coc", "ccoc"], ["qcc", "cqcc"] ]

/-- The packet marker tags that are reported only with `--packetmarkers`, per context. -/
def Ctx.packet : Ctx → List String
  | .main => ["plm", "ppm"]
  | .tp => ["plt", "ppt"]
  | _ => []

/-- The leaf types that can occur in a context. -/
def Ctx.allows : Ctx → BoxType → Bool
  | .box, t => t ∉ [.jp2HeaderBox, .resolutionBox, .uuidInfoBox, .contiguousCodestreamBox, .tilePart]
  | .main, t => t ∈ [.siz, .cod, .coc, .qcd, .qcc, .rgn, .poc, .crg, .com, .cap, .prf, .cpf, .tlm,
      .plm, .ppm]
  | .tp, t => t ∈ [.cod, .coc, .qcd, .qcc, .rgn, .poc, .com, .plt, .ppt]
  | .tiles, _ => false

/-- Absorb a packet marker segment's result. -/
def Node.absorbPacket (pm : Bool) (n : Node) (r : BoxResult) : Node :=
  if pm then n.absorb r else n.absorbQuiet r

/-- The names of the tests that are not performed by leaves. -/
def structureTests : List String := [
  "foundSODMarker", "foundExpectedNumberOfTiles", "foundEOCMarker",
  "codestreamStartsWithSOCMarker", "foundSIZMarker", "foundCODMarker",
  "foundQCDMarker", "CODAllowed", "COCAllowed",
  "QCDAllowed", "QCCAllowed", "RGNAllowed",
  "maxOneCcocPerComponentTP", "maxOneCqccPerComponentTP", "foundNextTilePartOrEOC",
  "foundExpectedNumberOfTileParts", "maxOneCcocPerComponentMain", "maxOneCqccPerComponentMain",
  "foundCAPMarker", "containsImageHeaderBox", "containsColourSpecificationBox",
  "firstJP2HeaderBoxIsImageHeaderBox", "noMoreThanOneImageHeaderBox", "noMoreThanOneBitsPerComponentBox",
  "noMoreThanOnePaletteBox", "noMoreThanOneComponentMappingBox", "noMoreThanOneChannelDefinitionBox",
  "noMoreThanOneResolutionBox", "colourSpecificationBoxesAreContiguous", "paletteAndComponentMappingBoxesOnlyTogether",
  "containsCaptureOrDisplayResolutionBox", "noMoreThanOneCaptureResolutionBox", "noMoreThanOneDisplayResolutionBox",
  "containsOneListBox", "containsOneURLBox", "heightConsistentWithSIZ",
  "widthConsistentWithSIZ", "nCConsistentWithSIZ", "bPCSignConsistentWithSIZ",
  "bPCDepthConsistentWithSIZ", "containsSignatureBox", "containsFileTypeBox",
  "containsJP2HeaderBox", "containsContiguousCodestreamBox", "firstBoxIsSignatureBox",
  "secondBoxIsFileTypeBox", "locationJP2HeaderBoxIsValid", "noMoreThanOneSignatureBox",
  "noMoreThanOneFileTypeBox", "noMoreThanOneJP2HeaderBox", "noZeroCTypesIfNoColourBox",
  "containsBitsPerComponentBox", "containsIntellectualPropertyBox" ]

/-- A relation between the trees of two runs, closed under the operations of the validators. -/
structure NodeRel (env : Env) (o1 o2 : Options) where
  R : Ctx → Node → Node → Prop
  L : Ctx → BoxResult → BoxResult → Prop
  empty : ∀ k, R k {} {}
  test : ∀ {k n1 n2} (name : String) (r : Bool), R k n1 n2 → (_ : name ∈ structureTests := by decide) →
    R k (n1.testFor o1.verbose name r) (n2.testFor o2.verbose name r)
  char : ∀ {k n1 n2} (name : String) (v : PyVal), name ∈ ["pltCount", "pptCount", "plmCount",
      "ppmCount", "compressionRatio"] → R k n1 n2 → R k (n1.addChar name v) (n2.addChar name v)
  absorb : ∀ {k n1 n2 r1 r2}, R k n1 n2 → L k r1 r2 → r1.tag ∉ k.packet →
    R k (n1.absorb r1) (n2.absorb r2)
  packet : ∀ {k n1 n2 r1 r2}, R k n1 n2 → L k r1 r2 → r1.tag ∈ k.packet →
    R k (n1.absorbPacket o1.packetmarkers r1) (n2.absorbPacket o2.packetmarkers r2)
  leaf : ∀ {k t fuel csiz bType c ss1 ss2}, leaf env o1 fuel csiz t bType c = .ok ss1 →
    Jpy.leaf env o2 fuel csiz t bType c = .ok ss2 → Ctx.allows k t = true → t = boxTypeOf bType →
    L k ⟨t.name, Node.run o1.verbose {} ss1, none⟩ ⟨t.name, Node.run o2.verbose {} ss2, none⟩
  sot : ∀ (c : Bytes), L .tp ⟨"sot", Node.run o1.verbose {} (sot c), none⟩
    ⟨"sot", Node.run o2.verbose {} (Jpy.sot c), none⟩
  super : ∀ {n1 n2} (tag : String), tag ∈ ["jp2HeaderBox", "resolutionBox", "uuidInfoBox"] →
    R .box n1 n2 → L .box ⟨tag, n1, none⟩ ⟨tag, n2, none⟩
  code : ∀ {n1 n2}, R .main n1 n2 →
    L .box ⟨"contiguousCodestreamBox", n1, none⟩ ⟨"contiguousCodestreamBox", n2, none⟩
  tile : ∀ {n1 n2 off}, R .tp n1 n2 → L .tiles ⟨"tilePart", n1, off⟩ ⟨"tilePart", n2, off⟩
  tiles : ∀ {n1 n2}, R .tiles n1 n2 → L .main ⟨"tileParts", n1, none⟩ ⟨"tileParts", n2, none⟩
  look : ∀ {k n1 n2} {p : List String}, R k n1 n2 → p ∈ k.paths →
    Elem.findall n1.chars p = Elem.findall n2.chars p

/-! ## Steps and leaves -/

/-- The characteristics a list of statements adds. -/
def charsOf : List Step → List Elem
  | [] => []
  | .char name v :: ss => Elem.leaf name v :: charsOf ss
  | .elem e :: ss => e :: charsOf ss
  | .test _ _ :: ss => charsOf ss
  | .warn _ :: ss => charsOf ss

/-- The warnings a list of statements adds. -/
def warningsOf : List Step → List Elem
  | [] => []
  | .warn m :: ss => Elem.leaf "warning" (.str m) :: warningsOf ss
  | .char _ _ :: ss => warningsOf ss
  | .elem _ :: ss => warningsOf ss
  | .test _ _ :: ss => warningsOf ss

/-- The tests a list of statements performs, in order. -/
def testsOf : List Step → List (String × Bool)
  | [] => []
  | .test n r :: ss => (n, r) :: testsOf ss
  | .char _ _ :: ss => testsOf ss
  | .elem _ :: ss => testsOf ss
  | .warn _ :: ss => testsOf ss

theorem testFor_chars (v n name r) : (Node.testFor v n name r).chars = n.chars := by
  unfold Node.testFor; repeat' split
  all_goals rfl

theorem testFor_warnings (v n name r) : (Node.testFor v n name r).warnings = n.warnings := by
  unfold Node.testFor; repeat' split
  all_goals rfl

theorem testIf_chars (v n c name r) : (Node.testIf v n c name r).chars = n.chars := by
  unfold Node.testIf; split
  · exact testFor_chars ..
  · rfl

theorem testIf_warnings (v n c name r) : (Node.testIf v n c name r).warnings = n.warnings := by
  unfold Node.testIf; split
  · exact testFor_warnings ..
  · rfl

/-- The elements recorded for a list of test results. -/
def testElems (v : Bool) (ts : List (String × Bool)) : List Elem :=
  (ts.filter fun t => v || !t.2).map fun t => Elem.leaf t.1 (.bool t.2)

theorem testFor_tests (v n name r) :
    (Node.testFor v n name r).tests = n.tests ++ testElems v [(name, r)] := by
  unfold Node.testFor testElems
  cases v <;> cases r <;> simp

theorem run_chars (v : Bool) (ss : List Step) (n : Node) :
    (Node.run v n ss).chars = n.chars ++ charsOf ss := by
  induction ss generalizing n with
  | nil => simp [Node.run, charsOf]
  | cons s ss ih =>
    rw [Node.run, List.foldl_cons, ← Node.run, ih]
    cases s <;> simp [Node.step, charsOf, testFor_chars, Node.addChar, Node.addWarning]

theorem run_warnings (v : Bool) (ss : List Step) (n : Node) :
    (Node.run v n ss).warnings = n.warnings ++ warningsOf ss := by
  induction ss generalizing n with
  | nil => simp [Node.run, warningsOf]
  | cons s ss ih =>
    rw [Node.run, List.foldl_cons, ← Node.run, ih]
    cases s <;> simp [Node.step, warningsOf, testFor_warnings, Node.addChar, Node.addWarning]

theorem testElems_cons (v : Bool) (t : String × Bool) (ts) :
    testElems v (t :: ts) = testElems v [t] ++ testElems v ts := by
  unfold testElems
  rw [← List.map_append, ← List.filter_append]; rfl

theorem run_tests (v : Bool) (ss : List Step) (n : Node) :
    (Node.run v n ss).tests = n.tests ++ testElems v (testsOf ss) := by
  induction ss generalizing n with
  | nil => simp [Node.run, testsOf, testElems]
  | cons s ss ih =>
    rw [Node.run, List.foldl_cons, ← Node.run, ih]
    cases s with
    | test name r =>
      rw [Node.step, testFor_tests, testsOf, testElems_cons v (name, r) (testsOf ss),
        List.append_assoc]
    | char => simp [Node.step, testsOf, Node.addChar]
    | warn => simp [Node.step, testsOf, Node.addWarning]
    | elem => simp [Node.step, testsOf]

theorem charsOf_append (a b : List Step) : charsOf (a ++ b) = charsOf a ++ charsOf b := by
  induction a with
  | nil => rfl
  | cons s a ih => cases s <;> simp [charsOf, ih]

theorem warningsOf_append (a b : List Step) : warningsOf (a ++ b) = warningsOf a ++ warningsOf b := by
  induction a with
  | nil => rfl
  | cons s a ih => cases s <;> simp [warningsOf, ih]

theorem testsOf_append (a b : List Step) : testsOf (a ++ b) = testsOf a ++ testsOf b := by
  induction a with
  | nil => rfl
  | cons s a ih => cases s <;> simp [testsOf, ih]

/-- Leaf validators depend on the options only through the format and `nullxml`. -/
theorem leaf_congr (env : Env) {o1 o2 : Options} (hf : o1.format = o2.format)
    (hn : o1.nullxml = o2.nullxml) (fuel csiz t bType c) :
    leaf env o1 fuel csiz t bType c = leaf env o2 fuel csiz t bType c := by
  cases t <;> simp [leaf, hf, hn]

/-- Leaf validators of two runs with the same format raise the same exceptions. -/
theorem leaf_shape (env : Env) {o1 o2 : Options} (hf : o1.format = o2.format) (fuel csiz t bType c) :
    OutRel (fun _ _ => True) (leaf env o1 fuel csiz t bType c) (leaf env o2 fuel csiz t bType c) := by
  cases t
  case uuidBox =>
    simp only [leaf, uuidBox]
    cases uuidStr (slice c 0 16) with
    | ok u => exact .ok trivial
    | raised e => exact .raised e
    | timeout => exact .timeout
  all_goals
    simp only [leaf, hf]
    first
    | exact .ok trivial
    | exact OutRel.refl (fun _ => trivial) _

theorem boxTypeOf_marker {m : Bytes} {t : BoxType} (h : typeMap.lookup m = some t) :
    boxTypeOf m = t := by
  simp [boxTypeOf, h]

/-- Markers handled in a tile-part header. -/
def tpMarkers : List Bytes := [mCOD, mCOC, mQCD, mQCC, mRGN, mPOC, mCOM, mPLT, mPPT]
/-- Markers handled in the main header. -/
def mainMarkers : List Bytes :=
  [mCOD, mCOC, mQCD, mQCC, mRGN, mPOC, mCRG, mCOM, mCAP, mPRF, mCPF, mTLM, mPLM, mPPM]
/-- Markers whose validator gets the number of components. -/
def csizMarkers : List Bytes := [mCOC, mQCC, mRGN, mPOC, mCRG]

/-- `tpStep` in uniform form. -/
theorem tpStep_eq (seg : Bytes → Bytes → Option Int → Outcome BoxResult) (pm csiz b s0) :
    tpStep seg pm csiz b s0 =
      let m := getMarkerSegment b s0.offset
      if m.marker ∈ tpMarkers then
        seg m.marker m.contents (if m.marker ∈ csizMarkers then csiz else none) >>= fun r =>
          .ok { node := if m.marker ∈ [mPLT, mPPT] then s0.node.absorbPacket pm r
                  else s0.node.absorb r
                pltCount := if m.marker = mPLT then s0.pltCount + 1 else s0.pltCount
                pptCount := if m.marker = mPPT then s0.pptCount + 1 else s0.pptCount
                marker := m.marker, offset := m.next, offsetNext := m.next }
      else .ok { s0 with marker := m.marker, offset := m.next, offsetNext := m.next } := by
  unfold tpStep
  generalize getMarkerSegment b s0.offset = m
  obtain ⟨mk, c, nx⟩ := m
  simp only
  by_cases h1 : mk = mCOD
  · subst h1; rfl
  by_cases h2 : mk = mCOC
  · subst h2; rfl
  by_cases h3 : mk = mQCD
  · subst h3; rfl
  by_cases h4 : mk = mQCC
  · subst h4; rfl
  by_cases h5 : mk = mRGN
  · subst h5; rfl
  by_cases h6 : mk = mPOC
  · subst h6; rfl
  by_cases h7 : mk = mCOM
  · subst h7; rfl
  by_cases h8 : mk = mPLT
  · subst h8; rfl
  by_cases h9 : mk = mPPT
  · subst h9; rfl
  simp [h1, h2, h3, h4, h5, h6, h7, h8, h9, tpMarkers]

/-- `mainStep` in uniform form. -/
theorem mainStep_eq (seg : Bytes → Bytes → Option Int → Outcome BoxResult) (pm csiz b s0) :
    mainStep seg pm csiz b s0 =
      let m := getMarkerSegment b s0.offset
      if m.marker ∈ mainMarkers then
        seg m.marker m.contents (if m.marker ∈ csizMarkers then csiz else none) >>= fun r =>
          .ok { node := if m.marker ∈ [mPLM, mPPM] then s0.node.absorbPacket pm r
                  else s0.node.absorb r
                foundCOD := if m.marker = mCOD then true else s0.foundCOD
                foundQCD := if m.marker = mQCD then true else s0.foundQCD
                foundCAP := if m.marker = mCAP then true else s0.foundCAP
                foundPRF := if m.marker = mPRF then true else s0.foundPRF
                foundCPF := if m.marker = mCPF then true else s0.foundCPF
                plmCount := if m.marker = mPLM then s0.plmCount + 1 else s0.plmCount
                ppmCount := if m.marker = mPPM then s0.ppmCount + 1 else s0.ppmCount
                marker := m.marker, offset := m.next, offsetNext := m.next }
      else .ok { s0 with
        marker := m.marker, offsetNext := m.next
        offset := if m.marker = mSOT then s0.offset else m.next } := by
  unfold mainStep
  generalize getMarkerSegment b s0.offset = m
  obtain ⟨mk, c, nx⟩ := m
  simp only
  by_cases h1 : mk = mCOD
  · subst h1; rfl
  by_cases h2 : mk = mCOC
  · subst h2; rfl
  by_cases h3 : mk = mQCD
  · subst h3; rfl
  by_cases h4 : mk = mQCC
  · subst h4; rfl
  by_cases h5 : mk = mRGN
  · subst h5; rfl
  by_cases h6 : mk = mPOC
  · subst h6; rfl
  by_cases h7 : mk = mCRG
  · subst h7; rfl
  by_cases h8 : mk = mCOM
  · subst h8; rfl
  by_cases h9 : mk = mCAP
  · subst h9; rfl
  by_cases h10 : mk = mPRF
  · subst h10; rfl
  by_cases h11 : mk = mCPF
  · subst h11; rfl
  by_cases h12 : mk = mSOT
  · subst h12; rfl
  by_cases h13 : mk = mTLM
  · subst h13; rfl
  by_cases h14 : mk = mPLM
  · subst h14; rfl
  by_cases h15 : mk = mPPM
  · subst h15; rfl
  simp [h1, h2, h3, h4, h5, h6, h7, h8, h9, h10, h11, h12, h13, h14, h15, mainMarkers]

/-- Every marker handled in a header is a leaf. -/
theorem boxTypeOf_tpMarkers {m : Bytes} (h : m ∈ tpMarkers) :
    Ctx.allows .tp (boxTypeOf m) = true := by
  simp only [tpMarkers, List.mem_cons, List.not_mem_nil, or_false] at h
  rcases h with h | h | h | h | h | h | h | h | h <;> subst h <;> decide

theorem boxTypeOf_mainMarkers {m : Bytes} (h : m ∈ mainMarkers) :
    Ctx.allows .main (boxTypeOf m) = true := by
  simp only [mainMarkers, List.mem_cons, List.not_mem_nil, or_false] at h
  rcases h with h | h | h | h | h | h | h | h | h | h | h | h | h | h <;> subst h <;> decide

section
variable {env : Env} {o1 o2 : Options} (N : NodeRel env o1 o2) (hf : o1.format = o2.format)

theorem NodeRel.testIf {k n1 n2} (c : Bool) (name : String) (r : Bool) (h : N.R k n1 n2)
    (hn : name ∈ structureTests := by decide) :
    N.R k (n1.testIf o1.verbose c name r) (n2.testIf o2.verbose c name r) := by
  unfold Node.testIf
  split
  · exact N.test name r h hn
  · exact h

theorem NodeRel.find {k n1 n2 p} (h : N.R k n1 n2) (hp : p ∈ k.paths) :
    Elem.find n1.chars p = Elem.find n2.chars p := by
  simp only [Elem.find, N.look h hp]

theorem NodeRel.text {k n1 n2 p} (h : N.R k n1 n2) (hp : p ∈ k.paths) :
    Elem.findElementText n1.chars p = Elem.findElementText n2.chars p := by
  simp only [Elem.findElementText, N.find h hp]

theorem NodeRel.allText {k n1 n2 p} (h : N.R k n1 n2) (hp : p ∈ k.paths) :
    Elem.findAllText n1.chars p = Elem.findAllText n2.chars p := by
  simp only [Elem.findAllText, N.look h hp]

include hf

theorem validateLeaf_rel (k : Ctx) (fuel csiz) (bType c : Bytes)
    (ht : Ctx.allows k (boxTypeOf bType) = true) :
    OutRel (fun r1 r2 => N.L k r1 r2 ∧ r1.tag = (boxTypeOf bType).name)
      (validateLeaf env o1 fuel csiz bType c) (validateLeaf env o2 fuel csiz bType c) := by
  unfold validateLeaf
  refine (leaf_shape env hf fuel csiz (boxTypeOf bType) bType c).bind ?_
  intro a b ha hb _
  exact .ok ⟨N.leaf ha hb ht rfl, rfl⟩

omit hf in
/-- Related states of the tile-part header loop. -/
def TPRel (s1 s2 : TPState) : Prop :=
  N.R .tp s1.node s2.node ∧ s1.pltCount = s2.pltCount ∧ s1.pptCount = s2.pptCount ∧
    s1.marker = s2.marker ∧ s1.offset = s2.offset ∧ s1.offsetNext = s2.offsetNext

theorem tpStep_rel (fuel csiz b) {s1 s2 : TPState} (h : TPRel N s1 s2) :
    OutRel (TPRel N)
      (tpStep (fun mk c cs => validateLeaf env o1 fuel cs mk c) o1.packetmarkers csiz b s1)
      (tpStep (fun mk c cs => validateLeaf env o2 fuel cs mk c) o2.packetmarkers csiz b s2) := by
  obtain ⟨hn, h1, h2, h3, h4, h5⟩ := h
  rw [tpStep_eq, tpStep_eq, ← h4]
  generalize getMarkerSegment b s1.offset = m
  simp only
  by_cases hm : m.marker ∈ tpMarkers
  · rw [if_pos hm, if_pos hm]
    refine (validateLeaf_rel N hf .tp fuel _ m.marker m.contents (boxTypeOf_tpMarkers hm)).bind ?_
    rintro a b - - ⟨hL, htag⟩
    refine .ok ⟨?_, by simp only [h1], by simp only [h2], rfl, rfl, rfl⟩
    simp only
    by_cases hp : m.marker ∈ [mPLT, mPPT]
    · rw [if_pos hp, if_pos hp]
      refine N.packet hn hL ?_
      rw [htag]
      simp only [List.mem_cons, List.not_mem_nil, or_false] at hp
      rcases hp with hp | hp <;> rw [hp] <;> decide
    · rw [if_neg hp, if_neg hp]
      refine N.absorb hn hL ?_
      rw [htag]
      revert hp
      simp only [tpMarkers, List.mem_cons, List.not_mem_nil, or_false] at hm
      rcases hm with h | h | h | h | h | h | h | h | h <;> rw [h] <;> decide
  · rw [if_neg hm, if_neg hm]
    exact .ok ⟨hn, h1, h2, rfl, rfl, rfl⟩

theorem tpLoop_rel (lf csiz b) (fuel : Nat) {s1 s2 : TPState} (h : TPRel N s1 s2) :
    OutRel (TPRel N)
      (tpLoop (fun mk c cs => validateLeaf env o1 lf cs mk c) o1.packetmarkers csiz b fuel s1)
      (tpLoop (fun mk c cs => validateLeaf env o2 lf cs mk c) o2.packetmarkers csiz b fuel s2) := by
  induction fuel generalizing s1 s2 with
  | zero => exact .timeout
  | succ fuel ih =>
    unfold tpLoop
    have h3 := h.2.2.2.1
    have h5 := h.2.2.2.2.2
    rw [← h3, ← h5]
    split
    · exact (tpStep_rel N hf lf csiz b h).bind fun _ _ _ _ hr => ih hr
    · exact .ok h

omit hf in
theorem tpFinish_rel {s1 s2 : TPState} (h : TPRel N s1 s2) :
    N.R .tp (tpFinish o1.verbose s1) (tpFinish o2.verbose s2) := by
  obtain ⟨hn, h1, h2, h3, -, -⟩ := h
  unfold tpFinish
  simp only
  have hA := N.char "pptCount" (.int s1.pptCount) (by decide)
    (N.char "pltCount" (.int s1.pltCount) (by decide)
      (N.test "foundSODMarker" (decide (s1.marker = mSOD)) hn))
  rw [← h1, ← h2, ← h3]
  have e1 := N.text hA (p := ["sot", "tpsot"]) (by decide)
  have e2 := N.look hA (p := ["cod"]) (by decide)
  have e3 := N.look hA (p := ["coc"]) (by decide)
  have e4 := N.look hA (p := ["qcd"]) (by decide)
  have e5 := N.look hA (p := ["qcc"]) (by decide)
  have e6 := N.look hA (p := ["rgn"]) (by decide)
  have e7 := N.allText hA (p := ["coc", "ccoc"]) (by decide)
  have e8 := N.allText hA (p := ["qcc", "cqcc"]) (by decide)
  rw [e1, e2, e3, e4, e5, e6, e7, e8]
  repeat' first | decide | refine N.testIf _ _ _ ?_ ?_
  exact hA

/-- Related results of tile-parts. -/
def TPRes (r1 r2 : BoxResult) : Prop :=
  N.L .tiles r1 r2 ∧ N.R .tp r1.node r2.node ∧ r1.returnOffset = r2.returnOffset

theorem tilePart_rel (fuel csiz start b) :
    OutRel (TPRes N) (tilePart env o1 fuel csiz start b) (tilePart env o2 fuel csiz start b) := by
  unfold tilePart
  refine OutRel.bind (tpLoop_rel N hf fuel csiz b fuel ?_) ?_
  · exact ⟨N.absorb (N.empty .tp) (N.sot _) (by simp [Ctx.packet]), rfl, rfl, rfl, rfl, rfl⟩
  · rintro s1 s2 - - h
    have := N.testIf (decide (bytesToUInt (slice (getMarkerSegment b start).contents 4 8) ≠ 0))
      "foundNextTilePartOrEOC" (decide (slice b
        (start + bytesToUInt (slice (getMarkerSegment b start).contents 4 8))
        (start + bytesToUInt (slice (getMarkerSegment b start).contents 4 8) + 2) ∈ [mSOT, mEOC]))
      (tpFinish_rel N h)
    exact .ok ⟨N.tile this, this, rfl⟩

omit hf in
/-- Related states of the main header loop. -/
def MainRel (s1 s2 : MainState) : Prop :=
  N.R .main s1.node s2.node ∧ s1.foundCOD = s2.foundCOD ∧ s1.foundQCD = s2.foundQCD ∧
    s1.foundCAP = s2.foundCAP ∧ s1.foundPRF = s2.foundPRF ∧ s1.foundCPF = s2.foundCPF ∧
    s1.plmCount = s2.plmCount ∧ s1.ppmCount = s2.ppmCount ∧
    s1.marker = s2.marker ∧ s1.offset = s2.offset ∧ s1.offsetNext = s2.offsetNext

theorem mainStep_rel (fuel csiz b) {s1 s2 : MainState} (h : MainRel N s1 s2) :
    OutRel (MainRel N)
      (mainStep (fun mk c cs => validateLeaf env o1 fuel cs mk c) o1.packetmarkers csiz b s1)
      (mainStep (fun mk c cs => validateLeaf env o2 fuel cs mk c) o2.packetmarkers csiz b s2) := by
  obtain ⟨hn, h1, h2, h3, h4, h5, h6, h7, h8, h9, h10⟩ := h
  rw [mainStep_eq, mainStep_eq, ← h9]
  generalize getMarkerSegment b s1.offset = m
  simp only
  by_cases hm : m.marker ∈ mainMarkers
  · rw [if_pos hm, if_pos hm]
    refine (validateLeaf_rel N hf .main fuel _ m.marker m.contents
      (boxTypeOf_mainMarkers hm)).bind ?_
    rintro a b - - ⟨hL, htag⟩
    refine .ok ⟨?_, by simp only [h1], by simp only [h2], by simp only [h3], by simp only [h4],
      by simp only [h5], by simp only [h6], by simp only [h7], rfl, rfl, rfl⟩
    simp only
    by_cases hp : m.marker ∈ [mPLM, mPPM]
    · rw [if_pos hp, if_pos hp]
      refine N.packet hn hL ?_
      rw [htag]
      simp only [List.mem_cons, List.not_mem_nil, or_false] at hp
      rcases hp with hp | hp <;> rw [hp] <;> decide
    · rw [if_neg hp, if_neg hp]
      refine N.absorb hn hL ?_
      rw [htag]
      revert hp
      simp only [mainMarkers, List.mem_cons, List.not_mem_nil, or_false] at hm
      rcases hm with h | h | h | h | h | h | h | h | h | h | h | h | h | h <;> rw [h] <;> decide
  · rw [if_neg hm, if_neg hm]
    exact .ok ⟨hn, h1, h2, h3, h4, h5, h6, h7, rfl, by simp only [h9], rfl⟩

theorem mainLoop_rel (lf csiz b) (fuel : Nat) {s1 s2 : MainState} (h : MainRel N s1 s2) :
    OutRel (MainRel N)
      (mainLoop (fun mk c cs => validateLeaf env o1 lf cs mk c) o1.packetmarkers csiz b fuel s1)
      (mainLoop (fun mk c cs => validateLeaf env o2 lf cs mk c) o2.packetmarkers csiz b fuel s2) := by
  induction fuel generalizing s1 s2 with
  | zero => exact .timeout
  | succ fuel ih =>
    unfold mainLoop
    have h8 := h.2.2.2.2.2.2.2.2.1
    have h10 := h.2.2.2.2.2.2.2.2.2.2
    rw [← h8, ← h10]
    split
    · exact (mainStep_rel N hf lf csiz b h).bind fun _ _ _ _ hr => ih hr
    · exact .ok h

omit hf in
/-- Related states of the tile-part loop. -/
def TileRel (s1 s2 : TileState) : Prop :=
  N.R .tiles s1.node s2.node ∧ s1.tileIndices = s2.tileIndices ∧ s1.expected = s2.expected ∧
    s1.found = s2.found ∧ s1.marker = s2.marker ∧ s1.offset = s2.offset

omit hf in
theorem tilesTag_rel (r : BoxResult) : r.tag ∉ Ctx.packet .tiles := by simp [Ctx.packet]

omit hf in
theorem boxTag_rel (r : BoxResult) : r.tag ∉ Ctx.packet .box := by simp [Ctx.packet]

omit hf in
theorem tileLoop_rel (tp1 tp2 : Int → Outcome BoxResult) (b)
    (htp : ∀ off, OutRel (TPRes N) (tp1 off) (tp2 off)) (fuel : Nat) {s1 s2 : TileState}
    (h : TileRel N s1 s2) :
    OutRel (TileRel N) (tileLoop tp1 b fuel s1) (tileLoop tp2 b fuel s2) := by
  induction fuel generalizing s1 s2 with
  | zero => exact .timeout
  | succ fuel ih =>
    unfold tileLoop
    obtain ⟨h1, h2, h3, h4, h5, h6⟩ := h
    rw [← h5, ← h6]
    split
    · simp only
      split
      · refine (htp s1.offset).bind ?_
        rintro r1 r2 - - ⟨hL, hR, hoff⟩
        rw [N.text hR (p := ["sot", "isot"]) (by decide),
          N.text hR (p := ["sot", "tnsot"]) (by decide), ← hoff, ← h2, ← h3, ← h4]
        refine OutRel.bind (R := Eq) (OutRel.refl (fun _ => rfl) _) ?_
        rintro isot _ - - rfl
        refine OutRel.bind (R := Eq) (OutRel.refl (fun _ => rfl) _) ?_
        rintro tnsot _ - - rfl
        have hN := N.absorb h1 hL (tilesTag_rel r1)
        split
        · split
          · exact ih ⟨hN, rfl, rfl, rfl, rfl, rfl⟩
          · exact .ok ⟨hN, rfl, rfl, rfl, rfl, rfl⟩
        · exact .ok ⟨hN, rfl, rfl, rfl, rfl, rfl⟩
      · exact .ok ⟨h1, h2, h3, h4, rfl, rfl⟩
    · exact .ok ⟨h1, h2, h3, h4, h5, h6⟩

theorem codestreamFinish_rel (b sizChars nTiles) {n1 n2 : Node} {t1 t2 : TileState}
    (hn : N.R .main n1 n2) (ht : TileRel N t1 t2) :
    OutRel (N.R .main) (codestreamFinish o1 b sizChars nTiles n1 t1)
      (codestreamFinish o2 b sizChars nTiles n2 t2) := by
  obtain ⟨h1, h2, h3, h4, -, -⟩ := ht
  unfold codestreamFinish
  simp only
  rw [← h2, ← h3, ← h4, ← hf]
  have hA := N.absorb (N.testIf (!t1.expected.isEmpty) "foundExpectedNumberOfTileParts"
    (dictEqFound t1.expected t1.found) (N.test "foundExpectedNumberOfTiles"
      (decide ((t1.tileIndices.length : Int) = nTiles)) hn)) (N.tiles h1) (by simp [Ctx.packet])
  rw [N.allText hA (p := ["coc", "ccoc"]) (by decide)]
  have hB := N.testIf (!(Elem.findAllText (((n2.testFor o2.verbose "foundExpectedNumberOfTiles"
      (decide ((t1.tileIndices.length : Int) = nTiles))).testIf o2.verbose (!t1.expected.isEmpty)
        "foundExpectedNumberOfTileParts" (dictEqFound t1.expected t1.found)).absorb
      { tag := "tileParts", node := t2.node }).chars ["coc", "ccoc"]).isEmpty)
    "maxOneCcocPerComponentMain" (decide (Elem.findAllText (((n2.testFor o2.verbose
      "foundExpectedNumberOfTiles" (decide ((t1.tileIndices.length : Int) = nTiles))).testIf
        o2.verbose (!t1.expected.isEmpty) "foundExpectedNumberOfTileParts"
        (dictEqFound t1.expected t1.found)).absorb
      { tag := "tileParts", node := t2.node }).chars ["coc", "ccoc"]).Nodup) hA
  rw [N.allText hB (p := ["qcc", "cqcc"]) (by decide)]
  split
  · refine OutRel.bind (R := Eq) (OutRel.refl (fun _ => rfl) _) ?_
    rintro a1 _ - - rfl
    refine OutRel.bind (R := Eq) (OutRel.refl (fun _ => rfl) _) ?_
    rintro a2 _ - - rfl
    refine OutRel.bind (R := Eq) (OutRel.refl (fun _ => rfl) _) ?_
    rintro a3 _ - - rfl
    refine OutRel.bind (R := Eq) (OutRel.refl (fun _ => rfl) _) ?_
    rintro a4 _ - - rfl
    refine OutRel.bind (R := Eq) (OutRel.refl (fun _ => rfl) _) ?_
    rintro a5 _ - - rfl
    refine .ok (N.char _ _ (by decide) (N.test _ _ (N.testIf _ _ _ hB)))
  · exact .ok (N.test _ _ (N.testIf _ _ _ hB))

theorem codestream_rel (fuel b) :
    OutRel (N.R .main) (codestream env o1 fuel b) (codestream env o2 fuel b) := by
  unfold codestream
  simp only
  have h0 := N.test "foundSIZMarker"
    (decide ((getMarkerSegment b (getMarkerSegment b 0).next).marker = mSIZ))
    (N.test "codestreamStartsWithSOCMarker" (decide ((getMarkerSegment b 0).marker = mSOC))
      (N.empty .main))
  split
  next hs =>
    rw [hs] at h0 ⊢
    have hsiz : OutRel (fun r1 r2 => N.L .main r1 r2 ∧ r1.node.chars = r2.node.chars ∧
        r1.tag ∉ Ctx.packet .main)
        (validateLeaf env o1 fuel none mSIZ
          (getMarkerSegment b (getMarkerSegment b 0).next).contents)
        (validateLeaf env o2 fuel none mSIZ
          (getMarkerSegment b (getMarkerSegment b 0).next).contents) := by
      have hb : boxTypeOf mSIZ = .siz := by decide
      unfold validateLeaf
      have e : leaf env o1 fuel none (boxTypeOf mSIZ) mSIZ
          (getMarkerSegment b (getMarkerSegment b 0).next).contents =
          leaf env o2 fuel none (boxTypeOf mSIZ) mSIZ
          (getMarkerSegment b (getMarkerSegment b 0).next).contents := by
        simp only [hb, leaf, hf]
      refine OutRel.bind (R := Eq) ?_ ?_
      · rw [e]; exact OutRel.refl (fun _ => rfl) _
      · rintro a _ ha hb' rfl
        exact .ok ⟨N.leaf ha hb' (by rw [hb]; decide) rfl, by simp [run_chars],
          by rw [hb]; simp [Ctx.packet, BoxType.name]⟩
    refine hsiz.bind ?_
    rintro r1 r2 - - ⟨hL, hC, htag⟩
    rw [hC]
    refine OutRel.bind (R := Eq) (OutRel.refl (fun _ => rfl) _) ?_
    rintro csiz _ - - rfl
    refine OutRel.bind (mainLoop_rel N hf fuel (some csiz) b fuel ?_) ?_
    · exact ⟨N.absorb h0 hL htag, rfl, rfl, rfl, rfl, rfl, rfl, rfl, rfl, rfl, rfl⟩
    rintro s1 s2 - - ⟨hn, h1, h2, h3, h4, h5, h6, h7, h8, h9, h10⟩
    rw [← h1, ← h2, ← h3, ← h6, ← h7, ← h8, ← h9]
    have hA := N.test "foundQCDMarker" s1.foundQCD (N.test "foundCODMarker" s1.foundCOD
      (N.char "plmCount" (.int s1.plmCount) (by decide)
        (N.char "ppmCount" (.int s1.ppmCount) (by decide) hn)))
    rw [N.text hA (p := ["siz", "rsiz"]) (by decide)]
    refine OutRel.bind (R := Eq) (OutRel.refl (fun _ => rfl) _) ?_
    rintro rsiz _ - - rfl
    have hB := N.testIf (decide (low (shr rsiz 14) 4 = 1)) "foundCAPMarker" s1.foundCAP hA
    rw [N.text hB (p := ["siz", "numberOfTiles"]) (by decide)]
    refine OutRel.bind (R := Eq) (OutRel.refl (fun _ => rfl) _) ?_
    rintro tiles _ - - rfl
    refine OutRel.bind (tileLoop_rel N _ _ b (fun off => tilePart_rel N hf fuel (some csiz) off b)
      fuel ?_) ?_
    · exact ⟨N.empty .tiles, rfl, rfl, rfl, rfl, rfl⟩
    · rintro t1 t2 - - ht
      exact codestreamFinish_rel N hf b _ _ hB ht
  next => exact .ok h0

omit hf in
theorem boxLoop_rel (sub1 sub2 : Bytes → Bytes → Outcome BoxResult) (b)
    (hsub : ∀ t c, OutRel (N.L .box) (sub1 t c) (sub2 t c)) (fuel : Nat) (start len : Int)
    {n1 n2 : Node} (types : List Bytes) (hn : N.R .box n1 n2) :
    OutRel (fun a b => N.R .box a.1 b.1 ∧ a.2 = b.2) (boxLoop sub1 b fuel start len n1 types)
      (boxLoop sub2 b fuel start len n2 types) := by
  induction fuel generalizing start len n1 n2 types with
  | zero => exact .timeout
  | succ fuel ih =>
    unfold boxLoop
    split
    · refine (hsub _ _).bind ?_
      rintro r1 r2 - - hL
      exact ih _ _ _ (N.absorb hn hL (boxTag_rel r1))
    · exact .ok ⟨hn, rfl⟩

omit hf in
theorem walkBoxes_rel (sub1 sub2 : Bytes → Bytes → Outcome BoxResult) (b)
    (hsub : ∀ t c, OutRel (N.L .box) (sub1 t c) (sub2 t c)) (fuel : Nat) :
    OutRel (fun a b => N.R .box a.1 b.1 ∧ a.2 = b.2) (walkBoxes sub1 b fuel)
      (walkBoxes sub2 b fuel) :=
  boxLoop_rel N sub1 sub2 b hsub fuel 0 10 [] (N.empty .box)

theorem jp2HeaderFinish_rel {n1 n2 : Node} (types : List Bytes) (hn : N.R .box n1 n2) :
    N.R .box (jp2HeaderFinish o1 n1 types) (jp2HeaderFinish o2 n2 types) := by
  unfold jp2HeaderFinish
  have e1 := N.text hn (p := ["imageHeaderBox", "unkC"]) (by decide)
  have e2 := N.text hn (p := ["imageHeaderBox", "bPCSign"]) (by decide)
  have e3 := N.text hn (p := ["imageHeaderBox", "bPCDepth"]) (by decide)
  have e4 := N.allText hn (p := ["channelDefinitionBox", "cTyp"]) (by decide)
  rw [← hf]
  cases o1.format <;> simp only [testFor_chars, testIf_chars, e1, e2, e3, e4] <;>
    repeat' first | exact hn | decide | refine N.test _ _ ?_ ?_ | refine N.testIf _ _ _ ?_ ?_

omit hf in
theorem resolutionFinish_rel {n1 n2 : Node} (types : List Bytes) (hn : N.R .box n1 n2) :
    N.R .box (resolutionFinish o1.verbose n1 types) (resolutionFinish o2.verbose n2 types) :=
  N.test _ _ (N.test _ _ (N.test _ _ hn))

omit hf in
theorem uuidInfoFinish_rel {n1 n2 : Node} (types : List Bytes) (hn : N.R .box n1 n2) :
    N.R .box (uuidInfoFinish o1.verbose n1 types) (uuidInfoFinish o2.verbose n2 types) :=
  N.test _ _ (N.test _ _ hn)

theorem validateBox_rel (fuel : Nat) (bType c : Bytes) :
    OutRel (N.L .box) (validateBox env o1 fuel bType c) (validateBox env o2 fuel bType c) := by
  induction fuel generalizing bType c with
  | zero => exact .timeout
  | succ fuel ih =>
    unfold validateBox
    split
    · refine (walkBoxes_rel N _ _ c ih fuel).bind ?_
      rintro ⟨a1, a2⟩ ⟨b1, b2⟩ - - ⟨h, rfl⟩
      exact .ok (N.super _ (by decide) (jp2HeaderFinish_rel N hf a2 h))
    · refine (walkBoxes_rel N _ _ c ih fuel).bind ?_
      rintro ⟨a1, a2⟩ ⟨b1, b2⟩ - - ⟨h, rfl⟩
      exact .ok (N.super _ (by decide) (resolutionFinish_rel N a2 h))
    · refine (walkBoxes_rel N _ _ c ih fuel).bind ?_
      rintro ⟨a1, a2⟩ ⟨b1, b2⟩ - - ⟨h, rfl⟩
      exact .ok (N.super _ (by decide) (uuidInfoFinish_rel N a2 h))
    · refine (codestream_rel N hf fuel c).bind ?_
      rintro a b - - h
      exact .ok (N.code h)
    · exact .raised _
    · rename_i h1 h2 h3 h4 h5
      refine (validateLeaf_rel N hf .box fuel none bType c ?_).mono fun _ _ h => h.1
      simpa [Ctx.allows] using ⟨h1, h2, h3, h4, h5⟩

theorem sizConsistency_rel (noBytes : Int) {n1 n2 : Node} (ih sz : List Elem)
    (hn : N.R .box n1 n2) :
    OutRel (N.R .box) (sizConsistency o1 noBytes n1 ih sz) (sizConsistency o2 noBytes n2 ih sz) := by
  unfold sizConsistency bpcValues
  have e := N.find hn (p := ["jp2HeaderBox", "bitsPerComponentBox"]) (by decide)
  simp only [testFor_chars, e, ← hf]
  refine OutRel.bind (R := Eq) (OutRel.refl (fun _ => rfl) _) ?_
  rintro ysiz _ - - rfl
  refine OutRel.bind (R := Eq) (OutRel.refl (fun _ => rfl) _) ?_
  rintro yOsiz _ - - rfl
  refine OutRel.bind (R := Eq) (OutRel.refl (fun _ => rfl) _) ?_
  rintro xsiz _ - - rfl
  refine OutRel.bind (R := Eq) (OutRel.refl (fun _ => rfl) _) ?_
  rintro xOsiz _ - - rfl
  refine OutRel.bind (R := Eq) (OutRel.refl (fun _ => rfl) _) ?_
  rintro ⟨signs, depths⟩ _ - - rfl
  simp only
  split
  · refine OutRel.bind (R := Eq) (OutRel.refl (fun _ => rfl) _) ?_
    rintro a1 _ - - rfl
    refine OutRel.bind (R := Eq) (OutRel.refl (fun _ => rfl) _) ?_
    rintro a2 _ - - rfl
    refine OutRel.bind (R := Eq) (OutRel.refl (fun _ => rfl) _) ?_
    rintro a3 _ - - rfl
    exact .ok (N.char _ _ (by decide) (N.test _ _ (N.test _ _ (N.test _ _ (N.test _ _
      (N.test _ _ hn))))))
  · exact .ok (N.test _ _ (N.test _ _ (N.test _ _ (N.test _ _ (N.test _ _ hn)))))

theorem jp2Finish_rel (noBytes : Int) {n1 n2 : Node} (types : List Bytes) (hn : N.R .box n1 n2) :
    OutRel (N.R .box) (jp2Finish o1 noBytes n1 types) (jp2Finish o2 noBytes n2 types) := by
  unfold jp2Finish
  have e1 := N.text hn (p := ["jp2HeaderBox", "imageHeaderBox", "iPR"]) (by decide)
  have e2 := N.find hn (p := ["jp2HeaderBox", "imageHeaderBox"]) (by decide)
  have e3 := N.find hn (p := ["contiguousCodestreamBox", "siz"]) (by decide)
  simp only [testFor_chars, testIf_chars, e1, e2, e3]
  split
  · apply sizConsistency_rel N hf
    repeat' first | exact hn | decide | refine N.test _ _ ?_ ?_ | refine N.testIf _ _ _ ?_ ?_
  · apply OutRel.ok
    repeat' first | exact hn | decide | refine N.test _ _ ?_ ?_ | refine N.testIf _ _ _ ?_ ?_

theorem validateJP2_rel (fuel : Nat) (b : Bytes) :
    OutRel (N.R .box) (validateJP2 env o1 fuel b) (validateJP2 env o2 fuel b) := by
  unfold validateJP2
  refine (walkBoxes_rel N _ _ b (validateBox_rel N hf fuel) fuel).bind ?_
  rintro ⟨a1, a2⟩ ⟨b1, b2⟩ - - ⟨h, rfl⟩
  exact jp2Finish_rel N hf _ a2 h

omit hf in
/-- Where the root of a file is validated. -/
def rootCtx : Format → Ctx
  | .j2c | .jhc => .main
  | _ => .box

/-- Related results of a whole run, whatever the format. -/
theorem validateRoot_rel (fuel : Nat) (b : Bytes) :
    OutRel (N.R (rootCtx o1.format)) (validateRoot env o1 fuel b) (validateRoot env o2 fuel b) := by
  unfold validateRoot
  rw [← hf]
  split
  · rename_i h; rw [h]; exact validateJP2_rel N hf fuel b
  · rename_i h; rw [h]; exact validateJP2_rel N hf fuel b
  · rename_i h; rw [h]; exact codestream_rel N hf fuel b
  · rename_i h; rw [h]; exact codestream_rel N hf fuel b
  · exact .raised _

end
end Jpy
