import Verif.Spec.Fields
import Verif.Props.SegmentValues
import Verif.Props.Uuid
/-!
# C53: reported values are the values stored in the file
-/

namespace Jpy
open Spec

theorem gives_u8 (c : Bytes) {o : Nat} {x y : Int} (hx : x = o) (hy : y = x + 1) :
    (Reads.num o 1).Gives c (.int (bytesToUnsignedChar (slice c x y))) := by
  rw [u8_at c o hx hy]
  cases h : uint c o 1 with
  | none => exact .inr ⟨h, rfl⟩
  | some v => exact .inl ⟨v, h, rfl⟩

theorem gives_u16 (c : Bytes) {o : Nat} {x y : Int} (hx : x = o) (hy : y = x + 2) :
    (Reads.num o 2).Gives c (.int (bytesToUShortInt (slice c x y))) := by
  rw [u16_at c o hx hy]
  cases h : uint c o 2 with
  | none => exact .inr ⟨h, rfl⟩
  | some v => exact .inl ⟨v, h, rfl⟩

theorem gives_u32 (c : Bytes) {o : Nat} {x y : Int} (hx : x = o) (hy : y = x + 4) :
    (Reads.num o 4).Gives c (.int (bytesToUInt (slice c x y))) := by
  rw [u32_at c o hx hy]
  cases h : uint c o 4 with
  | none => exact .inr ⟨h, rfl⟩
  | some v => exact .inl ⟨v, h, rfl⟩

theorem gives_bit (c : Bytes) {o lo p : Nat} {x y : Int} (hx : x = o) (hy : y = x + 1) (hp : p + lo = 8) :
    (Reads.bits o 1 lo 1).Gives c (.int (getBitValue (bytesToUnsignedChar (slice c x y)) p)) := by
  intro v h
  rw [u8_at c o hx hy, h]
  show PyVal.int (getBitValue ((v : Nat) : Int) p 8) = _
  rw [getBitValue_nat, bit]
  have : 8 - p = lo := by omega
  rw [this]

theorem gives_low (c : Bytes) {o k : Nat} {x y : Int} (hx : x = o) (hy : y = x + 1) :
    (Reads.bits o 1 0 k).Gives c (.int (low (bytesToUnsignedChar (slice c x y)) k)) := by
  intro v h
  rw [u8_at c o hx hy, h]
  show PyVal.int (low ((v : Nat) : Int) k) = _
  rw [low_mod, Nat.pow_zero, Nat.div_one]

theorem gives_high (c : Bytes) {o lo k : Nat} {x y : Int} (hx : x = o) (hy : y = x + 1) :
    (Reads.bits o 1 lo k).Gives c (.int (low (shr (bytesToUnsignedChar (slice c x y)) lo) k)) := by
  intro v h
  rw [u8_at c o hx hy, h]
  show PyVal.int (low (shr ((v : Nat) : Int) lo) k) = _
  rw [shr_div, low_mod]

theorem gives_depth (c : Bytes) {o : Nat} {x y : Int} (hx : x = o) (hy : y = x + 1) :
    (Reads.depth o).Gives c (.int (low (bytesToUnsignedChar (slice c x y)) 7 + 1)) := by
  intro v h
  rw [u8_at c o hx hy, h]
  show PyVal.int (low ((v : Nat) : Int) 7 + 1) = _
  rw [low_mod]; rfl

theorem gives_power (c : Bytes) {o : Nat} {x y : Int} (hx : x = o) (hy : y = x + 1) :
    (Reads.power o).Gives c (pow2 (bytesToUnsignedChar (slice c x y) + 2)) := by
  intro v h
  rw [u8_at c o hx hy, h]
  show pow2 (((v : Nat) : Int) + 2) = _
  rw [pow2, if_pos (by omega)]
  have : (((v : Nat) : Int) + 2).toNat = v + 2 := by omega
  rw [this]; simp

theorem gives_signed (c : Bytes) {o : Nat} {x y : Int} (hx : x = o) (hy : y = x + 1) :
    (Reads.signed o).Gives c (.int (bytesToSignedChar (slice c x y))) := by
  intro v h
  subst hx hy
  have hl : o < c.length := by
    unfold uint at h; split at h
    · omega
    · cases h
  rw [signed_slice c o hl]
  rw [uint_getElem hl] at h
  cases h
  simp only [signedByte]

theorem gives_raw (c : Bytes) {o n : Nat} {x y : Int} (hx : x = o) (hy : y = x + n) :
    (Reads.raw o n).Gives c (.bytes (slice c x y)) := by
  rw [slice_at c o n hx hy]; rfl

theorem gives_hex (c : Bytes) {o n : Nat} {x y : Int} (hx : x = o) (hy : y = x + n) :
    (Reads.hex o n).Gives c (.bytes (bytesToHex (slice c x y))) := by
  rw [slice_at c o n hx hy]; exact ⟨_, isHex_bytesToHex _, rfl⟩

theorem gives_fixed (c : Bytes) {o : Nat} {x y : Int} (hx : x = o) (hy : y = x + 4) :
    (Reads.fixed o).Gives c (iccIlluminant (slice c x y)) := by
  intro v h
  rw [iccIlluminant, u32_at c o hx hy, h]; rfl

theorem valuesOf_run (v : Bool) (ss : List Step) (tag : String) :
    valuesOf (Node.run v {} ss).chars tag = repOf tag ss := reported_run v ss tag

theorem showsEach_of {es : List Elem} {c : Bytes} {count stride : Nat} {f : Field} {g : Nat → PyVal}
    (h : valuesOf es f.tag = (List.range count).map g)
    (hg : ∀ i < count, (f.reads.shift (stride * i)).Gives c (g i)) : ShowsEach es c count stride f := by
  refine ⟨by simp [h], fun i hi => ⟨g i, by simp [h, hi], hg i hi⟩⟩

theorem showsEach_ex {es : List Elem} {c : Bytes} {count stride : Nat} {f : Field}
    (h : ∃ g : Nat → PyVal, valuesOf es f.tag = (List.range count).map g ∧
      ∀ i < count, (f.reads.shift (stride * i)).Gives c (g i)) : ShowsEach es c count stride f :=
  let ⟨_, h1, h2⟩ := h
  showsEach_of h1 h2

/-- Close a goal about the value of one field. -/
macro "gives" : tactic => `(tactic|
  (try simp only [Reads.shift]
   first
    | assumption
    | exact gives_u8 _ (by omega) (by omega)
    | exact gives_u16 _ (by omega) (by omega)
    | exact gives_u32 _ (by omega) (by omega)
    | exact gives_bit _ (by omega) (by omega) (by omega)
    | exact gives_depth _ (by omega) (by omega)
    | exact gives_power _ (by omega) (by omega)
    | exact gives_signed _ (by omega) (by omega)
    | exact gives_raw _ (by omega) (by omega)
    | exact gives_hex _ (by omega) (by omega)
    | exact gives_fixed _ (by omega) (by omega)
    | exact gives_low _ (by omega) (by omega)
    | exact gives_high _ (by omega) (by omega)))

/-- Prove that each field of a table is reported. -/
macro "fields" "[" hs:Lean.Parser.Tactic.simpLemma,* "]" : tactic => `(tactic|
  (simp only [$hs,*, List.forall_mem_cons, ShowsField, valuesOf_run, repOf_append, repOf_nil, repOf_char,
    repOf_test, repOf_warn, repOf_ite, repOf_flatMap, repOf_map, String.reduceBEq, cond_true, cond_false,
    flatMap_const_nil, flatMap_singleton, List.nil_append, List.append_nil, List.append_assoc,
    List.cons_append, List.cons.injEq, and_true, exists_eq_left', List.not_mem_nil, false_implies,
    implies_true, ite_self]
   and_intros <;> gives))

/-- C53 (image header box). -/
theorem C53_ihdr (env : Env) (o : Options) (fuel : Nat) (c : Bytes) (r : BoxResult)
    (h : validateBox env o (fuel + 1) (ascii "ihdr") c = .ok r) :
    ∀ f ∈ ihdrFields, ShowsField r.node.chars c f := by
  obtain ⟨ss, h1, rfl⟩ := (validateBox_ok (t := .imageHeaderBox) (by decide) rfl).1 h
  cases h1
  fields [ihdrFields, imageHeaderBox]

/-- Prove that each field of a table is reported for each entry. -/
macro "entries" "[" hs:Lean.Parser.Tactic.simpLemma,* "]" : tactic => `(tactic|
  (simp only [$hs,*, List.forall_mem_cons, List.not_mem_nil, false_implies, implies_true, and_true]
   and_intros <;> apply showsEach_ex <;> simp only [valuesOf_run] <;> rep <;>
     exact ⟨_, rfl, fun i hi => by gives⟩))

theorem rangeLen_div {n : Int} {k : Nat} : rangeLen (intDiv n k) = n.toNat / k := by
  unfold rangeLen intDiv
  obtain h | h : 0 ≤ n ∨ n < 0 := by omega
  · obtain ⟨m, rfl⟩ := Int.eq_ofNat_of_zero_le h
    rw [← Int.ofNat_tdiv]; rfl
  · obtain ⟨m, rfl⟩ : ∃ m : Nat, n = -m := ⟨n.natAbs, by omega⟩
    rw [Int.neg_tdiv, ← Int.ofNat_tdiv]
    have : (-(m : Int)).toNat = 0 := by omega
    have h2 : (0 : Int) ≤ ((m / k : Nat) : Int) := Int.natCast_nonneg _
    rw [this, Nat.zero_div]; omega

/-- C53 (file type box): brand, minor version and compatibility list. -/
theorem C53_ftyp (env : Env) (o : Options) (fuel : Nat) (c : Bytes) (r : BoxResult)
    (h : validateBox env o (fuel + 1) (ascii "ftyp") c = .ok r) :
    (∀ f ∈ ftypFields, ShowsField r.node.chars c f) ∧
    ∀ f ∈ ftypEntry, ShowsEach r.node.chars c ((c.length - 8) / 4) 4 f := by
  obtain ⟨ss, h1, rfl⟩ := (validateBox_ok (t := .fileTypeBox) (by decide) rfl).1 h
  cases h1
  have e : rangeLen (intDiv ((c.length : Int) - 8) 4) = (c.length - 8) / 4 := by
    rw [show (4 : Int) = (4 : Nat) from rfl, rangeLen_div]
    congr 1; omega
  simp only [fileTypeBox, e, List.map_map, Function.comp_def]
  constructor
  · cases o.format <;> fields [ftypFields]
  · cases o.format <;> entries [ftypEntry]

/-- C53 (bits per component box): one entry for each byte. -/
theorem C53_bpcc (env : Env) (o : Options) (fuel : Nat) (c : Bytes) (r : BoxResult)
    (h : validateBox env o (fuel + 1) (ascii "bpcc") c = .ok r) :
    ∀ f ∈ bpccEntry, ShowsEach r.node.chars c c.length 1 f := by
  obtain ⟨ss, h1, rfl⟩ := (validateBox_ok (t := .bitsPerComponentBox) (by decide) rfl).1 h
  cases h1
  unfold bitsPerComponentBox
  entries [bpccEntry]

/-- C53 (component mapping box): one entry for each four bytes. -/
theorem C53_cmap (env : Env) (o : Options) (fuel : Nat) (c : Bytes) (r : BoxResult)
    (h : validateBox env o (fuel + 1) (ascii "cmap") c = .ok r) :
    ∀ f ∈ cmapEntry, ShowsEach r.node.chars c (c.length / 4) 4 f := by
  obtain ⟨ss, h1, rfl⟩ := (validateBox_ok (t := .componentMappingBox) (by decide) rfl).1 h
  cases h1
  unfold componentMappingBox
  entries [cmapEntry]

/-- C53 (channel definition box). -/
theorem C53_cdef (env : Env) (o : Options) (fuel : Nat) (c : Bytes) (r : BoxResult)
    (h : validateBox env o (fuel + 1) (ascii "cdef") c = .ok r) :
    (∀ f ∈ cdefFields, ShowsField r.node.chars c f) ∧
    ∀ n, uint c 0 2 = some n → ∀ f ∈ cdefEntry, ShowsEach r.node.chars c n 6 f := by
  obtain ⟨ss, h1, rfl⟩ := (validateBox_ok (t := .channelDefinitionBox) (by decide) rfl).1 h
  cases h1
  have ha : ∀ (tag : String) (l : List Int), repOf tag (l.map fun a =>
      Step.test "cAssocAlphaChannelIsZero" (decide (a = 0))) = [] := by
    intro tag l
    induction l with
    | nil => rfl
    | cons a l ih => exact ih
  constructor
  · cases o.format <;>
      fields [cdefFields, channelDefinitionBox, reduceCtorEq, if_false, if_true, ha]
  · intro n hn
    have e : rangeLen (bytesToUShortInt (slice c 0 2)) = n := by
      rw [u16_at c 0 (x := 0) (y := 2) rfl rfl, hn]; rfl
    unfold channelDefinitionBox
    simp only [e]
    cases o.format <;> entries [cdefEntry, reduceCtorEq, if_false, if_true, ha, ite_self]

/-- C53 (palette box): the numbers of entries and columns, and the bit depth of each column. -/
theorem C53_pclr (env : Env) (o : Options) (fuel : Nat) (c : Bytes) (r : BoxResult)
    (h : validateBox env o (fuel + 1) (ascii "pclr") c = .ok r) :
    (∀ f ∈ pclrFields, ShowsField r.node.chars c f) ∧
    ∀ n, uint c 2 1 = some n → ∀ f ∈ pclrEntry, ShowsEach r.node.chars c n 1 f := by
  obtain ⟨ss, h1, rfl⟩ := (validateBox_ok (t := .paletteBox) (by decide) rfl).1 h
  cases h1
  constructor
  · fields [pclrFields, paletteBox]
  · intro n hn
    have e : rangeLen (bytesToUnsignedChar (slice c 2 3)) = n := by
      rw [u8_at c 2 (x := 2) (y := 3) rfl rfl, hn]; rfl
    simp only [paletteBox, e]
    entries [pclrEntry]

/-- C53 (capture resolution box). -/
theorem C53_resc (env : Env) (o : Options) (fuel : Nat) (c : Bytes) (r : BoxResult)
    (h : validateBox env o (fuel + 1) (ascii "resc") c = .ok r) :
    ∀ f ∈ rescFields, ShowsField r.node.chars c f := by
  obtain ⟨ss, h1, rfl⟩ := (validateBox_ok (t := .captureResolutionBox) (by decide) rfl).1 h
  simp only [leaf, resolutionLeaf] at h1
  split at h1
  · cases h1
  split at h1
  · cases h1
  cases h1
  fields [rescFields, String.reduceAppend]

/-- C53 (default display resolution box). -/
theorem C53_resd (env : Env) (o : Options) (fuel : Nat) (c : Bytes) (r : BoxResult)
    (h : validateBox env o (fuel + 1) (ascii "resd") c = .ok r) :
    ∀ f ∈ resdFields, ShowsField r.node.chars c f := by
  obtain ⟨ss, h1, rfl⟩ := (validateBox_ok (t := .displayResolutionBox) (by decide) rfl).1 h
  simp only [leaf, resolutionLeaf] at h1
  split at h1
  · cases h1
  split at h1
  · cases h1
  cases h1
  fields [resdFields, String.reduceAppend]

/-- C53 (data entry URL box): the version. -/
theorem C53_url (env : Env) (o : Options) (fuel : Nat) (c : Bytes) (r : BoxResult)
    (h : validateBox env o (fuel + 1) (ascii "url ") c = .ok r) :
    ∀ f ∈ urlFields, ShowsField r.node.chars c f := by
  obtain ⟨ss, h1, rfl⟩ := (validateBox_ok (t := .urlBox) (by decide) rfl).1 h
  cases h1
  fields [urlFields, urlBox]

theorem repOf_quantSteps {tag : String} (c : Bytes) (q l o : Int) (h1 : ("mu" == tag) = false)
    (h2 : ("epsilon" == tag) = false) : repOf tag (quantSteps c q l o) = [] := by
  simp only [quantSteps, repOf_ite, repOf_map, repOf_flatMap, repOf_char, repOf_nil, h1, h2, cond_false,
    flatMap_const_nil, ite_self]

theorem repOf_precinctSteps {tag : String} (c : Bytes) (o p l : Int) (h1 : ("precinctSizeX" == tag) = false)
    (h2 : ("precinctSizeY" == tag) = false) : repOf tag (precinctSteps c o p l) = [] := by
  simp only [precinctSteps, repOf_ite, repOf_flatMap, repOf_char, repOf_test, repOf_nil, h1, h2,
    cond_false, flatMap_const_nil, ite_self]

/-- C53 (SOT): the fields of the tile-part header. -/
theorem C53_sot (verbose : Bool) (c : Bytes) :
    ∀ f ∈ sotFields, ShowsField (Node.run verbose {} (sot c)).chars c f := by
  fields [sotFields, sot]

/-- C53 (QCD). -/
theorem C53_qcd (env : Env) (o : Options) (fuel : Nat) (csiz : Option Int) (c : Bytes) (r : BoxResult)
    (h : validateLeaf env o fuel csiz QCD c = .ok r) :
    ∀ f ∈ qcdFields, ShowsField r.node.chars c f := by
  obtain ⟨ss, h1, rfl⟩ := (validateLeaf_ok (t := .qcd) (by decide)).1 h
  cases h1
  fields [qcdFields, qcd, repOf_quantSteps]

/-- C53 (QCC). -/
theorem C53_qcc (env : Env) (o : Options) (fuel : Nat) (csiz : Int) (c : Bytes) (r : BoxResult)
    (h : validateLeaf env o fuel (some csiz) QCC c = .ok r) :
    ∀ f ∈ qccFields (compWidth csiz), ShowsField r.node.chars c f := by
  obtain ⟨ss, h1, rfl⟩ := (validateLeaf_ok (t := .qcc) (by decide)).1 h
  cases h1
  by_cases hc : csiz < 257
  · fields [qccFields, qcc, compWidth, hc, if_true, repOf_quantSteps]
  · fields [qccFields, qcc, compWidth, hc, if_false, repOf_quantSteps]


/-- Whether the code blocks are high-throughput only. -/
def onlyHT (fmt : Format) (style : Int) : Bool :=
  if fmt.isHT then decide (maskAt style 6 2 = 64) else false

/-- The code block part of COD and COC. -/
theorem codeBlock_fields (fmt : Format) (c : Bytes) (o : Nat) {x : Int} (hx : x = o) :
    ∀ f ∈ codeBlockFields o, ∃ v, repOf f.tag (codeBlockSteps fmt c x) = [v] ∧ f.reads.Gives c v := by
  simp only [codeBlockFields, codeBlockSteps]
  generalize (if fmt.isHT = true then
    decide (maskAt (bytesToUnsignedChar (slice c (x + 2) (x + 3))) 6 2 = 64) else false) = b
  cases b <;> simp only [Bool.not_true, Bool.not_false, Bool.false_eq_true, if_false, if_true] <;>
    fields [if_true]

theorem codeBlock_more (fmt : Format) (c : Bytes) (o : Nat) {x : Int} (hx : x = o)
    (h : onlyHT fmt (bytesToUnsignedChar (slice c (x + 2) (x + 3))) = false) :
    ∀ f ∈ codeBlockMoreFields o, ∃ v, repOf f.tag (codeBlockSteps fmt c x) = [v] ∧ f.reads.Gives c v := by
  unfold onlyHT at h
  simp only [codeBlockMoreFields, codeBlockSteps, h]
  simp only [Bool.not_false, if_true]
  fields [if_true]

theorem codeBlock_none (fmt : Format) (c : Bytes) {x : Int} {o : Nat}
    (h : onlyHT fmt (bytesToUnsignedChar (slice c (x + 2) (x + 3))) = true) :
    ∀ f ∈ codeBlockMoreFields o, repOf f.tag (codeBlockSteps fmt c x) = [] := by
  unfold onlyHT at h
  simp only [codeBlockMoreFields, codeBlockSteps, h]
  simp only [Bool.not_true, Bool.false_eq_true, if_false, List.forall_mem_cons]
  rep
  simp

theorem onlyHT_eq (fmt : Format) (c : Bytes) (o s : Nat) {x y : Int} (hx : x = o) (hy : y = x + 1)
    (h : uint c o 1 = some s) :
    onlyHT fmt (bytesToUnsignedChar (slice c x y)) = true ↔ fmt.isHT = true ∧ s / 64 = 1 := by
  have hs := uint_lt h
  rw [u8_at c o hx hy, h]
  unfold onlyHT maskAt
  show (if fmt.isHT = true then decide (low (shr ((s : Nat) : Int) 6) 2 * 2 ^ 6 = 64) else false) = true ↔ _
  rw [shr_div, low_mod]
  cases fmt.isHT
  · simp
  · simp only [if_true, decide_eq_true_eq, true_and]
    omega

/-- The tags of the code block part. -/
def codeBlockTags : List String :=
  ["codeBlockWidth", "codeBlockHeight", "codingBypass", "resetOnBoundaries", "termOnEachPass",
   "vertCausalContext", "predTermination", "segmentationSymbols", "transformation"]

theorem repOf_codeBlockSteps {tag : String} (fmt : Format) (c : Bytes) (x : Int)
    (h : codeBlockTags.contains tag = false) : repOf tag (codeBlockSteps fmt c x) = [] := by
  simp only [codeBlockTags, List.contains_cons, Bool.or_eq_false_iff] at h
  obtain ⟨h1, h2, h3, h4, h5, h6, h7, h8, h9, -⟩ := h
  rw [BEq.comm] at h1 h2 h3 h4 h5 h6 h7 h8 h9
  simp only [codeBlockSteps, repOf_append, repOf_char, repOf_test, repOf_nil, h1, h2, h3, h5, h6, h9,
    cond_false]
  generalize (if fmt.isHT = true then
    decide (maskAt (bytesToUnsignedChar (slice c (x + 2) (x + 3))) 6 2 = 64) else false) = b
  cases b <;> simp [repOf_char, repOf_nil, *]

theorem codeBlockTags_cases {tag : String} : codeBlockTags.contains tag = true ↔
    tag = "codeBlockWidth" ∨ tag = "codeBlockHeight" ∨ tag = "codingBypass" ∨ tag = "resetOnBoundaries" ∨
    tag = "termOnEachPass" ∨ tag = "vertCausalContext" ∨ tag = "predTermination" ∨
    tag = "segmentationSymbols" ∨ tag = "transformation" := by
  simp [codeBlockTags]

theorem codeBlockFields_tags {o : Nat} : ∀ f ∈ codeBlockFields o, codeBlockTags.contains f.tag = true := by
  simp [codeBlockFields, codeBlockTags]

theorem codeBlockMoreFields_tags {o : Nat} :
    ∀ f ∈ codeBlockMoreFields o, codeBlockTags.contains f.tag = true := by
  simp [codeBlockMoreFields, codeBlockTags]

theorem slice_slice (c : Bytes) (a b i j : Nat) (hj : a + j ≤ b) :
    slice (slice c (a : Int) (b : Int)) (i : Int) (j : Int) = slice c ((a + i : Nat) : Int) ((a + j : Nat) : Int) := by
  rw [slice_nat, slice_nat, slice_nat]
  unfold Spec.sub
  rw [List.drop_take, List.drop_drop, List.take_take]
  congr 1
  omega

theorem cod_mct (fmt : Format) (c : Bytes) : ∃ v, repOf "multipleComponentTransformation" (cod fmt c) = [v] ∧
    (Reads.num 6 1).Gives c v := by
  have mct : ("multipleComponentTransformation" == "multipleComponentTransformation") = true := BEq.rfl
  have e := repOf_codeBlockSteps (tag := "multipleComponentTransformation") fmt c 8 (by decide)
  have s3 : slice (slice c 3 7) 3 4 = slice c 6 7 := slice_slice c 3 7 3 4 (by decide)
  simp only [↓mct, cod, repOf_append, repOf_char, repOf_test, repOf_nil, String.reduceBEq, cond_true,
    cond_false]
  rw [e, repOf_precinctSteps _ _ _ _ (by decide) (by decide), s3]
  exact ⟨_, rfl, by gives⟩

/-- The other fields before the code block part. -/
def codHead : List Field :=
  [⟨"lcod", .num 0 2⟩, ⟨"precincts", .bits 2 1 0 1⟩, ⟨"sop", .bits 2 1 1 1⟩, ⟨"eph", .bits 2 1 2 1⟩,
   ⟨"order", .num 3 1⟩, ⟨"layers", .num 4 2⟩, ⟨"levels", .num 7 1⟩]

theorem cod_head (fmt : Format) (c : Bytes) : ∀ f ∈ codHead,
    ∃ v, repOf f.tag (cod fmt c) = [v] ∧ f.reads.Gives c v := by
  have s0 : slice (slice c 3 7) 0 1 = slice c 3 4 := slice_slice c 3 7 0 1 (by decide)
  have s1 : slice (slice c 3 7) 1 3 = slice c 4 6 := slice_slice c 3 7 1 3 (by decide)
  have s3 : slice (slice c 3 7) 3 4 = slice c 6 7 := slice_slice c 3 7 3 4 (by decide)
  fields [codHead, cod, s0, s1, s3, repOf_precinctSteps, repOf_codeBlockSteps, codeBlockTags,
    List.contains_cons, List.contains_nil, Bool.or_false]

/-- C53 (COD). The bits for context reset, predictable termination and segmentation symbols are reported
unless the code blocks are high-throughput code blocks only. -/
theorem C53_cod (env : Env) (o : Options) (fuel : Nat) (csiz : Option Int) (c : Bytes) (r : BoxResult)
    (h : validateLeaf env o fuel csiz COD c = .ok r) :
    (∀ f ∈ codFields, ShowsField r.node.chars c f) ∧
    ∀ s, uint c 10 1 = some s → ∀ f ∈ codeBlockMoreFields 8,
      if o.format.isHT = true ∧ s / 64 = 1 then valuesOf r.node.chars f.tag = []
      else ShowsField r.node.chars c f := by
  obtain ⟨ss, h1, rfl⟩ := (validateLeaf_ok (t := .cod) (by decide)).1 h
  cases h1
  have hother : ∀ tag, codeBlockTags.contains tag = true →
      repOf tag (cod o.format c) = repOf tag (codeBlockSteps o.format c 8) := by
    intro tag ht
    rw [codeBlockTags_cases] at ht
    unfold cod
    simp only [repOf_append]
    rcases ht with rfl | rfl | rfl | rfl | rfl | rfl | rfl | rfl | rfl <;>
      (rw [repOf_precinctSteps _ _ _ _ (by decide) (by decide)]; rep)
  constructor
  · simp only [codFields, List.forall_mem_append]
    constructor
    · intro f hf
      unfold ShowsField
      rw [valuesOf_run]
      by_cases hm : f = ⟨"multipleComponentTransformation", .num 6 1⟩
      · rw [hm]; exact cod_mct o.format c
      · refine cod_head o.format c f ?_
        simp only [List.mem_cons, List.not_mem_nil, or_false, hm, false_or, codHead] at hf ⊢
        exact hf
    · intro f hf
      unfold ShowsField
      rw [valuesOf_run, hother _ (codeBlockFields_tags f hf)]
      exact codeBlock_fields o.format c 8 rfl f hf
  · intro s hs f hf
    have ho := onlyHT_eq o.format c 10 s (x := 10) (y := 11) rfl rfl hs
    unfold ShowsField
    rw [valuesOf_run, hother _ (codeBlockMoreFields_tags f hf)]
    split
    · next hh => exact codeBlock_none o.format c (x := 8) (ho.2 hh) f hf
    · next hh => exact codeBlock_more o.format c 8 rfl (by simpa using mt ho.1 hh) f hf

theorem compIndex_off (c : Bytes) (csiz : Int) : (compIndex c csiz).2.2 = ((2 + compWidth csiz : Nat) : Int) := by
  unfold compIndex compWidth
  split <;> simp

theorem compIndex_gives (c : Bytes) (csiz : Int) :
    (Reads.num 2 (compWidth csiz)).Gives c (.int (compIndex c csiz).1) := by
  unfold compIndex compWidth
  split <;> gives

/-- C53 (COC). -/
theorem C53_coc (env : Env) (o : Options) (fuel : Nat) (csiz : Int) (c : Bytes) (r : BoxResult)
    (h : validateLeaf env o fuel (some csiz) COC c = .ok r) :
    (∀ f ∈ cocFields (compWidth csiz), ShowsField r.node.chars c f) ∧
    ∀ s, uint c (6 + compWidth csiz) 1 = some s → ∀ f ∈ codeBlockMoreFields (4 + compWidth csiz),
      if o.format.isHT = true ∧ s / 64 = 1 then valuesOf r.node.chars f.tag = []
      else ShowsField r.node.chars c f := by
  obtain ⟨ss, h1, rfl⟩ := (validateLeaf_ok (t := .coc) (by decide)).1 h
  simp only [leaf, coc, withCsiz, Outcome.ok.injEq] at h1
  subst h1
  have ho := compIndex_off c csiz
  have hg := compIndex_gives c csiz
  generalize compIndex c csiz = ci at ho hg
  obtain ⟨a, b, off⟩ := ci
  simp only at ho hg
  generalize compWidth csiz = w at *
  have hother : ∀ tag, codeBlockTags.contains tag = true → ∀ l1 l2 x y z u v k,
      repOf tag ([Step.char "lcoc" (.int l1), Step.test "lcocIsValid" l2, Step.char "ccoc" (.int a),
        Step.test "ccocIsValid" b, Step.char "precincts" (.int x), Step.char "levels" (.int y),
        Step.test "levelsIsValid" z, Step.test "lcocConsistencyCheck" k] ++
        codeBlockSteps o.format c (off + 2) ++ precinctSteps c (off + 6) u v)
        = repOf tag (codeBlockSteps o.format c (off + 2)) := by
    intro tag ht l1 l2 x y z u v k
    rw [codeBlockTags_cases] at ht
    simp only [repOf_append]
    rcases ht with rfl | rfl | rfl | rfl | rfl | rfl | rfl | rfl | rfl <;>
      (rw [repOf_precinctSteps _ _ _ _ (by decide) (by decide)]; rep)
  constructor
  · simp only [cocFields, List.forall_mem_append]
    constructor
    · fields [repOf_precinctSteps, repOf_codeBlockSteps, codeBlockTags, List.contains_cons,
        List.contains_nil, Bool.or_false]
    · intro f hf
      unfold ShowsField
      rw [valuesOf_run, hother _ (codeBlockFields_tags f hf)]
      exact codeBlock_fields o.format c (4 + w) (by omega) f hf
  · intro s hs f hf
    have ho := onlyHT_eq o.format c (6 + w) s (x := off + 2 + 2) (y := off + 2 + 3) (by omega) (by omega) hs
    unfold ShowsField
    rw [valuesOf_run, hother _ (codeBlockMoreFields_tags f hf)]
    split
    · next hh => exact codeBlock_none o.format c (x := off + 2) (ho.2 hh) f hf
    · next hh => exact codeBlock_more o.format c (4 + w) (by omega) (by simpa using mt ho.1 hh) f hf

/-- C53 (RGN). -/
theorem C53_rgn (env : Env) (o : Options) (fuel : Nat) (csiz : Int) (c : Bytes) (r : BoxResult)
    (h : validateLeaf env o fuel (some csiz) RGN c = .ok r) :
    ∀ f ∈ rgnFields (compWidth csiz), ShowsField r.node.chars c f := by
  obtain ⟨ss, h1, rfl⟩ := (validateLeaf_ok (t := .rgn) (by decide)).1 h
  simp only [leaf, rgn, withCsiz, Outcome.ok.injEq] at h1
  subst h1
  have ho := compIndex_off c csiz
  have hg := compIndex_gives c csiz
  generalize compIndex c csiz = ci at ho hg
  obtain ⟨a, b, off⟩ := ci
  simp only at ho hg
  generalize compWidth csiz = w at *
  fields [rgnFields]

/-- C53 (POC): the entries are 7 or 9 bytes long, depending on the number of components. -/
theorem C53_poc (env : Env) (o : Options) (fuel : Nat) (csiz : Int) (c : Bytes) (r : BoxResult)
    (h : validateLeaf env o fuel (some csiz) POC c = .ok r) :
    (∀ f ∈ pocFields, ShowsField r.node.chars c f) ∧
    ∀ l, uint c 0 2 = some l → ∀ f ∈ pocFieldsEach (compWidth csiz),
      ShowsEach r.node.chars c ((l - 2) / (5 + 2 * compWidth csiz)) (5 + 2 * compWidth csiz) f := by
  obtain ⟨ss, h1, rfl⟩ := (validateLeaf_ok (t := .poc) (by decide)).1 h
  simp only [leaf, poc, withCsiz, Outcome.ok.injEq] at h1
  subst h1
  constructor
  · fields [pocFields, pocEntry]
  · intro l hl
    have e : bytesToUShortInt (slice c 0 2) = (l : Int) := by
      rw [u16_at c 0 (x := 0) (y := 2) rfl rfl, hl]; rfl
    have e7 := rangeLen_intDiv l 2 7
    have e9 := rangeLen_intDiv l 2 9
    rw [e]
    by_cases hc : csiz < 257
    · simp only [compWidth, hc, if_true, Nat.reduceMul, Nat.reduceAdd, pocEntry]
      rw [show ((l : Int) - 2) = (l : Int) - (2 : Nat) from rfl, show (7 : Int) = (7 : Nat) from rfl, e7]
      entries [pocFieldsEach]
    · simp only [compWidth, hc, if_false, Nat.reduceMul, Nat.reduceAdd, pocEntry]
      rw [show ((l : Int) - 2) = (l : Int) - (2 : Nat) from rfl, show (9 : Int) = (9 : Nat) from rfl, e9]
      entries [pocFieldsEach]

/-- C53 (CRG). -/
theorem C53_crg (env : Env) (o : Options) (fuel : Nat) (csiz : Nat) (c : Bytes) (r : BoxResult)
    (h : validateLeaf env o fuel (some (csiz : Int)) CRG c = .ok r) :
    (∀ f ∈ crgFields, ShowsField r.node.chars c f) ∧ ∀ f ∈ crgEntry, ShowsEach r.node.chars c csiz 4 f := by
  obtain ⟨ss, h1, rfl⟩ := (validateLeaf_ok (t := .crg) (by decide)).1 h
  simp only [leaf, crg, withCsiz, Outcome.ok.injEq] at h1
  subst h1
  constructor
  · fields [crgFields]
  · have e : rangeLen (csiz : Int) = csiz := rfl
    rw [e]
    entries [crgEntry]

/-- C53 (COM): length and registration value. -/
theorem C53_com (env : Env) (o : Options) (fuel : Nat) (csiz : Option Int) (c : Bytes) (r : BoxResult)
    (h : validateLeaf env o fuel csiz COM c = .ok r) :
    ∀ f ∈ comFields, ShowsField r.node.chars c f := by
  obtain ⟨ss, h1, rfl⟩ := (validateLeaf_ok (t := .com) (by decide)).1 h
  simp only [leaf, com, Outcome.ok.injEq] at h1
  subst h1
  fields [comFields]

/-- C53 (CAP): length. -/
theorem C53_cap (env : Env) (o : Options) (fuel : Nat) (csiz : Option Int) (c : Bytes) (r : BoxResult)
    (h : validateLeaf env o fuel csiz CAP c = .ok r) :
    ∀ f ∈ capFields, ShowsField r.node.chars c f := by
  obtain ⟨ss, h1, rfl⟩ := (validateLeaf_ok (t := .cap) (by decide)).1 h
  simp only [leaf, cap, Outcome.ok.injEq] at h1
  subst h1
  fields [capFields]

/-- C53 (PLM): length and sequence numbers. -/
theorem C53_plm (env : Env) (o : Options) (fuel : Nat) (csiz : Option Int) (c : Bytes) (r : BoxResult)
    (h : validateLeaf env o fuel csiz PLM c = .ok r) :
    ∀ f ∈ plmFields, ShowsField r.node.chars c f := by
  obtain ⟨ss, h1, rfl⟩ := (validateLeaf_ok (t := .plm) (by decide)).1 h
  obtain ⟨s, -, h3⟩ := Outcome.bind_eq_ok.1 h1
  cases h3
  fields [plmFields]

/-- C53 (PLT): length and sequence number. -/
theorem C53_plt (env : Env) (o : Options) (fuel : Nat) (csiz : Option Int) (c : Bytes) (r : BoxResult)
    (h : validateLeaf env o fuel csiz PLT c = .ok r) :
    ∀ f ∈ pltFields, ShowsField r.node.chars c f := by
  obtain ⟨ss, h1, rfl⟩ := (validateLeaf_ok (t := .plt) (by decide)).1 h
  obtain ⟨s, -, h3⟩ := Outcome.bind_eq_ok.1 h1
  cases h3
  fields [pltFields]

/-- C53 (SIZ). -/
theorem C53_siz (env : Env) (o : Options) (fuel : Nat) (csiz : Option Int) (c : Bytes) (r : BoxResult)
    (h : validateLeaf env o fuel csiz SIZ c = .ok r) :
    (∀ f ∈ sizFields, ShowsField r.node.chars c f) ∧
    ∀ n, uint c 36 2 = some n → ∀ f ∈ sizEntry, ShowsEach r.node.chars c n 3 f := by
  obtain ⟨ss, h1, rfl⟩ := (validateLeaf_ok (t := .siz) (by decide)).1 h
  simp only [leaf, siz] at h1
  split at h1
  · cases h1
  cases h1
  constructor
  · cases o.format <;> fields [sizFields, Format.isPart1, Format.isHT, Bool.false_eq_true, if_true, if_false]
  · intro n hn
    have e : rangeLen (bytesToUShortInt (slice c 36 38)) = n := by
      rw [u16_at c 36 (x := 36) (y := 38) rfl rfl, hn]; rfl
    rw [e]
    cases o.format <;> entries [sizEntry, Format.isPart1, Format.isHT, Bool.false_eq_true, if_true, if_false]

/-- The text reported for a capabilities field. -/
theorem capability_text {n : Nat} {s t : String} (hc : CapabilityText n s) (h : sizCapability (n : Int) = some t) :
    t = s := by
  have hs : ∀ a b c d : Nat, n / 2 ^ 14 % 2 ^ 4 = a → n / 2 ^ 8 % 2 ^ 4 = b → n / 2 ^ 4 % 2 ^ 4 = c → n % 2 ^ 4 = d →
      low (shr (n : Int) 14) 4 = (a : Int) ∧ low (shr (n : Int) 8) 4 = (b : Int) ∧ low (shr (n : Int) 4) 4 = (c : Int) ∧
      low (n : Int) 4 = (d : Int) := by
    intro a b c d ha hb hc hd
    simp only [shr_div, low_mod, ha, hb, hc, hd, and_self]
  cases hc with
  | plain _ _ hm =>
    simp only [List.mem_cons, Prod.mk.injEq, List.not_mem_nil, or_false] at hm
    rcases hm with ⟨rfl, rfl⟩ | ⟨rfl, rfl⟩ | ⟨rfl, rfl⟩ | ⟨rfl, rfl⟩ | ⟨rfl, rfl⟩ | ⟨rfl, rfl⟩ | ⟨rfl, rfl⟩ | ⟨rfl, rfl⟩ <;>
      exact (Option.some.inj h).symm
  | broadcast p l s hl hm =>
    simp only [List.mem_cons, Prod.mk.injEq, List.not_mem_nil, or_false] at hm
    rcases hm with ⟨rfl, rfl⟩ | ⟨rfl, rfl⟩ | ⟨rfl, rfl⟩
    · obtain ⟨h1, h2, h3, h4⟩ := hs 0 1 0 l (by omega) (by omega) (by omega) (by omega)
      simp only [sizCapability, h1, h2, h3, h4] at h
      exact (Option.some.inj h).symm
    · obtain ⟨h1, h2, h3, h4⟩ := hs 0 2 0 l (by omega) (by omega) (by omega) (by omega)
      simp only [sizCapability, h1, h2, h3, h4] at h
      exact (Option.some.inj h).symm
    · obtain ⟨h1, h2, h3, h4⟩ := hs 0 3 0 l (by omega) (by omega) (by omega) (by omega)
      simp only [sizCapability, h1, h2, h3, h4] at h
      exact (Option.some.inj h).symm
  | imf p u l s hl hu hm =>
    have hb : ∀ s s' : String, s ++ " Profile, Mainlevel " = s' →
        s' ++ (toString ((l : Nat) : Int) ++ "; Sublevel " ++ toString ((u : Nat) : Int)) =
        s ++ " Profile, Mainlevel " ++ toString l ++ "; Sublevel " ++ toString u := by
      intro s s' hs
      rw [← hs]
      simp only [String.append_assoc]; rfl
    simp only [List.mem_cons, Prod.mk.injEq, List.not_mem_nil, or_false] at hm
    rcases hm with ⟨rfl, rfl⟩ | ⟨rfl, rfl⟩ | ⟨rfl, rfl⟩ | ⟨rfl, rfl⟩ | ⟨rfl, rfl⟩ | ⟨rfl, rfl⟩
    · obtain ⟨h1, h2, h3, h4⟩ := hs 0 4 u l (by omega) (by omega) (by omega) (by omega)
      simp only [sizCapability, h1, h2, h3, h4] at h
      exact (Option.some.inj h).symm.trans (hb _ _ (by decide))
    · obtain ⟨h1, h2, h3, h4⟩ := hs 0 5 u l (by omega) (by omega) (by omega) (by omega)
      simp only [sizCapability, h1, h2, h3, h4] at h
      exact (Option.some.inj h).symm.trans (hb _ _ (by decide))
    · obtain ⟨h1, h2, h3, h4⟩ := hs 0 6 u l (by omega) (by omega) (by omega) (by omega)
      simp only [sizCapability, h1, h2, h3, h4] at h
      exact (Option.some.inj h).symm.trans (hb _ _ (by decide))
    · obtain ⟨h1, h2, h3, h4⟩ := hs 0 7 u l (by omega) (by omega) (by omega) (by omega)
      simp only [sizCapability, h1, h2, h3, h4] at h
      exact (Option.some.inj h).symm.trans (hb _ _ (by decide))
    · obtain ⟨h1, h2, h3, h4⟩ := hs 0 8 u l (by omega) (by omega) (by omega) (by omega)
      simp only [sizCapability, h1, h2, h3, h4] at h
      cases h
    · obtain ⟨h1, h2, h3, h4⟩ := hs 0 9 u l (by omega) (by omega) (by omega) (by omega)
      simp only [sizCapability, h1, h2, h3, h4] at h
      exact (Option.some.inj h).symm.trans (hb _ _ (by decide))
  | marker => exact (Option.some.inj h).symm
  | cap k hk =>
    obtain ⟨h1, -, -, -⟩ := hs 1 _ _ _ (by omega) rfl rfl rfl
    simp only [sizCapability, h1] at h
    exact (Option.some.inj h).symm
  | part2 k hk =>
    obtain ⟨h1, -, -, -⟩ := hs 2 _ _ _ (by omega) rfl rfl rfl
    simp only [sizCapability, h1] at h
    exact (Option.some.inj h).symm
  | both k hk =>
    obtain ⟨h1, -, -, -⟩ := hs 3 _ _ _ (by omega) rfl rfl rfl
    simp only [sizCapability, h1] at h
    exact (Option.some.inj h).symm

/-- C53 (SIZ): the capabilities in words, for the values that the standard defines. -/
theorem C53_capability (env : Env) (o : Options) (fuel : Nat) (csiz : Option Int) (c : Bytes) (r : BoxResult)
    (h : validateLeaf env o fuel csiz SIZ c = .ok r) {n : Nat} {s : String} (hn : uint c 2 2 = some n)
    (hs : CapabilityText n s) : valuesOf r.node.chars "capability" = [.str s] := by
  obtain ⟨ss, h1, rfl⟩ := (validateLeaf_ok (t := .siz) (by decide)).1 h
  simp only [leaf, siz] at h1
  split at h1
  · cases h1
  next t ht =>
  cases h1
  have e : bytesToUShortInt (slice c 2 4) = (n : Int) := by rw [u16_at c 2 (x := 2) (y := 4) rfl rfl, hn]; rfl
  rw [e] at ht
  have := capability_text hs ht
  subst this
  cases o.format <;>
    simp only [valuesOf_run, Format.isPart1, Format.isHT, Bool.false_eq_true, if_true, if_false, repOf_append, repOf_nil, repOf_char,
      repOf_test, repOf_warn, repOf_ite, repOf_flatMap, repOf_map, String.reduceBEq, cond_true, cond_false,
      flatMap_const_nil, flatMap_singleton, List.nil_append, List.append_nil, List.append_assoc,
      List.cons_append, ite_self]

/-- A 2K IMF profile of main level 3 and sublevel 1. -/
example : CapabilityText 0x0413 "2k IMF Single Tile Lossy Profile, Mainlevel 3; Sublevel 1" :=
  .imf 4 1 3 "2k IMF Single Tile Lossy" (by decide) (by decide) (by simp)

/-- C53 (ICC profile): the header fields and the tag table. At most 4096 tags are examined. -/
theorem iccElem_fields (p : Bytes) :
    (∀ f ∈ iccFields ++ iccTopFlagFields, ShowsField (iccElem p).children p f) ∧
    ∀ n, uint p 128 4 = some n → ∀ f ∈ iccEntry, ShowsEach (iccElem p).children p (min n 4096) 12 f := by
  have hch : (iccElem p).children = (Node.run true {} (icc p)).chars := rfl
  rw [hch]
  constructor
  · fields [iccFields, iccTopFlagFields, List.cons_append, List.nil_append, icc, iccTags]
  · intro n hn
    have e : rangeLen (min (bytesToUInt (slice p 128 132)) 4096) = min n 4096 := by
      rw [u32_at p 128 (x := 128) (y := 132) rfl rfl, hn]
      show (min ((n : Nat) : Int) 4096).toNat = _
      omega
    simp only [icc, iccTags, e, List.map_map, Function.comp_def]
    entries [iccEntry]

/-- The elements reported for a colour specification box. -/
theorem colr_chars (fmt : Format) (c : Bytes) : charsOf (colourSpecificationBox fmt c) =
    [.leaf "meth" (.int (bytesToUnsignedChar (slice c 0 1))),
      .leaf "prec" (.int (bytesToUnsignedChar (slice c 1 2))),
      .leaf "approx" (.int (bytesToUnsignedChar (slice c 2 3)))] ++
    (if bytesToUnsignedChar (slice c 0 1) = 1 then [.leaf "enumCS" (.int (bytesToUInt (slice c 3 c.length)))]
     else if bytesToUnsignedChar (slice c 0 1) = 2 then [iccElem (slice c 3 c.length)]
     else if bytesToUnsignedChar (slice c 0 1) = 3 then [iccElem (slice c 3 c.length)]
     else if bytesToUnsignedChar (slice c 0 1) = 5 then
      [.leaf "colPrims" (.int (bytesToUShortInt (slice c 3 5))),
       .leaf "transfC" (.int (bytesToUShortInt (slice c 5 7))),
       .leaf "matCoeffs" (.int (bytesToUShortInt (slice c 7 9))),
       .leaf "vidFRng" (.int (getBitValue (bytesToUnsignedChar (slice c 9 10)) 1))]
     else []) := by
  unfold colourSpecificationBox
  simp only [charsOf_append]
  generalize bytesToUnsignedChar (slice c 0 1) = m
  by_cases h1 : m = 1
  · subst h1; cases fmt <;> rfl
  by_cases h2 : m = 2
  · subst h2; cases fmt <;> rfl
  by_cases h3 : m = 3
  · subst h3; cases fmt <;> rfl
  by_cases h5 : m = 5
  · subst h5; cases fmt <;> rfl
  rw [if_neg h1, if_neg h2, if_neg h3, if_neg h5, if_neg h1, if_neg h2, if_neg h3, if_neg h5]
  cases fmt <;> rfl

theorem valuesOf_cons (tag : String) (e : Elem) (es : List Elem) :
    valuesOf (e :: es) tag = bif e.tag == tag then e.text :: valuesOf es tag else valuesOf es tag := by
  unfold valuesOf
  rw [List.filter_cons]
  cases e.tag == tag <;> rfl

theorem valuesOf_leaf (tag t : String) (v : PyVal) (es : List Elem) :
    valuesOf (.leaf t v :: es) tag = bif t == tag then v :: valuesOf es tag else valuesOf es tag := by
  rw [valuesOf_cons]; rfl

theorem valuesOf_icc (tag : String) (p : Bytes) (es : List Elem) :
    valuesOf (iccElem p :: es) tag = bif "icc" == tag then .none :: valuesOf es tag else valuesOf es tag := by
  rw [valuesOf_cons]; rfl

/-- C53 (colour specification box): the method, precedence and approximation; the enumerated colour
space; the parameters; and an embedded ICC profile, whose fields are children of an element `icc` (its flags
are counted from the wrong end, see `C53_icc_flags_false`). -/
theorem C53_colr (env : Env) (o : Options) (fuel : Nat) (c : Bytes) (r : BoxResult)
    (h : validateBox env o (fuel + 1) (ascii "colr") c = .ok r) :
    (∀ f ∈ colrFields, ShowsField r.node.chars c f) ∧
    (uint c 0 1 = some 1 → c.length = 7 → ShowsField r.node.chars c ⟨"enumCS", .num 3 4⟩) ∧
    (uint c 0 1 = some 5 → ∀ f ∈ colrParameterFields, ShowsField r.node.chars c f) ∧
    (uint c 0 1 = some 2 ∨ uint c 0 1 = some 3 → ∃ e, (r.node.chars.filter fun e => e.tag == "icc") = [e] ∧
      (∀ f ∈ iccFields ++ iccTopFlagFields, ShowsField e.children (c.drop 3) f) ∧
      ∀ n, uint c 131 4 = some n → ∀ f ∈ iccEntry, ShowsEach e.children (c.drop 3) (min n 4096) 12 f) := by
  obtain ⟨ss, h1, rfl⟩ := (validateBox_ok (t := .colourSpecificationBox) (by decide) rfl).1 h
  cases h1
  have hs : slice c 3 c.length = c.drop 3 := by
    rw [show (3 : Int) = (3 : Nat) from rfl, slice_nat]
    unfold Spec.sub
    rw [List.take_of_length_le (by simp)]
  have hcs : (Node.run o.verbose {} (colourSpecificationBox o.format c)).chars =
      charsOf (colourSpecificationBox o.format c) := by rw [run_chars]; rfl
  have hm : ∀ k : Nat, uint c 0 1 = some k → bytesToUnsignedChar (slice c 0 1) = (k : Int) := by
    intro k hk; rw [u8_at c 0 (x := 0) (y := 1) rfl rfl, hk]; rfl
  simp only [hcs, colr_chars, hs]
  refine ⟨?_, fun h1 hl => ?_, fun h5 => ?_, fun h2 => ?_⟩
  · have hv : ∀ tag ∈ ["meth", "prec", "approx"], valuesOf (if bytesToUnsignedChar (slice c 0 1) = 1 then
        [Elem.leaf "enumCS" (.int (bytesToUInt (c.drop 3)))]
      else if bytesToUnsignedChar (slice c 0 1) = 2 then [iccElem (c.drop 3)]
      else if bytesToUnsignedChar (slice c 0 1) = 3 then [iccElem (c.drop 3)]
      else if bytesToUnsignedChar (slice c 0 1) = 5 then
        [.leaf "colPrims" (.int (bytesToUShortInt (slice c 3 5))),
         .leaf "transfC" (.int (bytesToUShortInt (slice c 5 7))),
         .leaf "matCoeffs" (.int (bytesToUShortInt (slice c 7 9))),
         .leaf "vidFRng" (.int (getBitValue (bytesToUnsignedChar (slice c 9 10)) 1))]
      else []) tag = [] := by
      intro tag ht
      simp only [List.mem_cons, List.not_mem_nil, or_false] at ht
      split
      · rcases ht with rfl | rfl | rfl <;> rfl
      split
      · rcases ht with rfl | rfl | rfl <;> rfl
      split
      · rcases ht with rfl | rfl | rfl <;> rfl
      split
      · rcases ht with rfl | rfl | rfl <;> rfl
      · rfl
    generalize (if bytesToUnsignedChar (slice c 0 1) = 1 then
        [Elem.leaf "enumCS" (.int (bytesToUInt (c.drop 3)))]
      else _) = rest at hv ⊢
    have e1 := hv "meth" (by simp)
    have e2 := hv "prec" (by simp)
    have e3 := hv "approx" (by simp)
    fields [colrFields, valuesOf_leaf, e1, e2, e3]
  · rw [hm 1 h1, if_pos (by rfl)]
    refine ⟨_, rfl, ?_⟩
    have : c.drop 3 = slice c 3 7 := by
      rw [slice_at c 3 4 (x := 3) (y := 7) rfl rfl]
      unfold Spec.sub
      rw [List.take_of_length_le (by simp; omega)]
    rw [this]
    gives
  · rw [hm 5 h5]
    simp only [Int.cast_ofNat_Int, Int.reduceEq, if_false, if_true]
    have hnil : ∀ tag, valuesOf [] tag = [] := fun _ => rfl
    fields [colrParameterFields, valuesOf_leaf, hnil]
  · refine ⟨iccElem (c.drop 3), ?_, (iccElem_fields _).1, fun n hn => (iccElem_fields _).2 n ?_⟩
    · rcases h2 with h2 | h2 <;> rw [hm _ h2] <;> rfl
    · rw [← hn]
      unfold uint Spec.sub
      rw [List.length_drop, List.drop_drop]
      by_cases hl : 131 + 4 ≤ c.length
      · rw [if_pos hl, if_pos (by omega)]
      · rw [if_neg hl, if_neg (by omega)]

theorem pad2_nat (n : Nat) : pad2 (n : Int) = twoDigits n := by
  unfold pad2 twoDigits
  by_cases h : n < 10
  · rw [if_pos ⟨by omega, by omega⟩, if_pos h]; rfl
  · rw [if_neg (by omega), if_neg h, String.empty_append]; rfl

theorem low_byte {p : Bytes} {o v : Nat} (h : uint p o 2 = some v) (hv : v < 256) {x y : Int}
    (hx : x = o + 1) (hy : y = x + 1) : bytesToUnsignedChar (slice p x y) = (v : Int) := by
  rw [u8_at p (o + 1) (by omega) hy]
  unfold uint at h ⊢
  split at h
  · next hl =>
    injection h with h
    rw [if_pos (by omega)]
    unfold Spec.sub at h ⊢
    rw [List.drop_eq_getElem_cons (by omega), List.drop_eq_getElem_cons (by omega)] at h
    rw [List.drop_eq_getElem_cons (by omega)]
    simp only [List.take_succ_cons, List.take_zero, be, List.length_cons, List.length_nil] at h ⊢
    show ((_ : Nat) : Int) = _
    have := (p[o + 1]'(by omega)).toNat_lt
    have := (p[o]'(by omega)).toNat_lt
    omega
  · cases h

/-- The text properties of an ICC profile. -/
theorem iccElem_text (p : Bytes) :
    (∀ major minor, uint p 8 1 = some major → uint p 9 1 = some minor →
      valuesOf (iccElem p).children "profileVersion" = [.str (iccVersion major minor)]) ∧
    (∀ y mo d h mi s, uint p 24 2 = some y → uint p 26 2 = some mo → uint p 28 2 = some d →
      uint p 30 2 = some h → uint p 32 2 = some mi → uint p 34 2 = some s →
      mo < 256 → d < 256 → h < 256 → mi < 256 → s < 256 →
      valuesOf (iccElem p).children "dateTimeString" = [.str (iccDateTime y mo d h mi s)]) ∧
    ∀ n i off size count, uint p 128 4 = some n → n ≤ 4096 → FirstDesc p n i off size →
      uint p (off + 8) 4 = some count → 1 ≤ count → 12 + count ≤ size → 
      valuesOf (iccElem p).children "description" = [.bytes (sub p (off + 12) (count - 1))] := by
  have hch : (iccElem p).children = (Node.run true {} (icc p)).chars := rfl
  rw [hch]
  refine ⟨fun major minor h1 h2 => ?_, fun y mo d h mi s h1 h2 h3 h4 h5 h6 g2 g3 g4 g5 g6 => ?_,
    fun n i off size count hn hle hd hc h1 hs => ?_⟩
  · rw [valuesOf_run]
    have e1 : bytesToUnsignedChar (slice p 8 9) = major := by
      rw [u8_at p 8 (x := 8) (y := 9) rfl rfl, h1]; rfl
    have e2 : bytesToUnsignedChar (slice p 9 10) = minor := by
      rw [u8_at p 9 (x := 9) (y := 10) rfl rfl, h2]; rfl
    simp only [icc, e1, e2, iccTags, shr_div, low_mod]
    rep
    rfl
  · rw [valuesOf_run]
    have e1 : bytesToUShortInt (slice p 24 26) = y := by
      rw [u16_at p 24 (x := 24) (y := 26) rfl rfl, h1]; rfl
    have e2 := low_byte h2 g2 (x := 27) (y := 28) rfl rfl
    have e3 := low_byte h3 g3 (x := 29) (y := 30) rfl rfl
    have e4 := low_byte h4 g4 (x := 31) (y := 32) rfl rfl
    have e5 := low_byte h5 g5 (x := 33) (y := 34) rfl rfl
    have e6 := low_byte h6 g6 (x := 35) (y := 36) rfl rfl
    simp only [icc, e1, e2, e3, e4, e5, e6, iccTags, pad2_nat]
    rep
    rfl
  · rw [valuesOf_run]
    have e : rangeLen (min (bytesToUInt (slice p 128 132)) 4096) = n := by
      rw [u32_at p 128 (x := 128) (y := 132) rfl rfl, hn]
      show (min ((n : Nat) : Int) 4096).toNat = _
      omega
    have ht : iccTags p = (List.range n).map fun (i : Nat) =>
        (sub p (132 + 12 * i) 4, intOf (uint p (136 + 12 * i) 4), intOf (uint p (140 + 12 * i) 4)) := by
      simp only [iccTags, e]
      refine List.map_congr_left fun j _ => ?_
      rw [slice_at p (132 + 12 * j) 4 (by omega) (by omega),
        u32_at p (136 + 12 * j) (by omega) (by omega), u32_at p (140 + 12 * j) (by omega) (by omega)]
    have hf : (iccTags p).find? (fun t => t.1 == tagDesc) = some (tagDesc, (off : Int), (size : Int)) := by
      rw [ht, List.find?_map]
      have : (List.range n).find? ((fun t : Bytes × Int × Int => t.1 == tagDesc) ∘ fun (i : Nat) =>
        (sub p (132 + 12 * i) 4, intOf (uint p (136 + 12 * i) 4), intOf (uint p (140 + 12 * i) 4))) = some i := by
        rw [List.find?_range_eq_some]
        refine ⟨?_, by simpa using hd.lt, fun j hj => ?_⟩
        · simp only [Function.comp_def, hd.tag]; decide
        · have := hd.first j hj
          rw [show ascii "desc" = tagDesc from by decide] at this
          simpa using this
      rw [this]
      simp only [Option.map_some, hd.tag, hd.off, hd.size]
      rfl
    simp only [icc, iccDescription, hf]
    rep
    have h8 : bytesToUInt (slice (slice p (off : Int) ((off : Int) + size)) 8 12) = count := by
      have := slice_slice p off (off + size) 8 12 (by omega)
      rw [show ((off + size : Nat) : Int) = (off : Int) + size by omega] at this
      rw [show (8 : Int) = ((8 : Nat) : Int) from rfl, show (12 : Int) = ((12 : Nat) : Int) from rfl, this,
        u32_at p (off + 8) (by omega) (by omega), hc]; rfl
    have h12 : slice (slice p (off : Int) ((off : Int) + size)) 12 (12 + (count : Int) - 1)
        = sub p (off + 12) (count - 1) := by
      have := slice_slice p off (off + size) 12 (12 + count - 1) (by omega)
      rw [show ((off + size : Nat) : Int) = (off : Int) + size by omega] at this
      rw [show (12 : Int) = ((12 : Nat) : Int) from rfl,
        show ((12 : Nat) : Int) + (count : Int) - 1 = ((12 + count - 1 : Nat) : Int) by omega, this]
      exact slice_at p (off + 12) (count - 1) (by omega) (by omega)
    rw [h8, h12]

theorem colr_icc (fmt : Format) (c : Bytes) (h : uint c 0 1 = some 2 ∨ uint c 0 1 = some 3) :
    ((charsOf (colourSpecificationBox fmt c)).filter fun e => e.tag == "icc") = [iccElem (c.drop 3)] := by
  have hs : slice c 3 c.length = c.drop 3 := by
    rw [show (3 : Int) = ((3 : Nat) : Int) from rfl, slice_nat]
    unfold Spec.sub
    rw [List.take_of_length_le (by simp)]
  rw [colr_chars, hs, u8_at c 0 (x := 0) (y := 1) rfl rfl]
  rcases h with h | h <;> rw [h] <;> rfl

/-- C53 (embedded ICC profile): the version, the date and time of creation, and the description, when the
profile has at most 4096 tags and the description tag lies within its size. -/
theorem C53_icc_text (env : Env) (o : Options) (fuel : Nat) (c : Bytes) (r : BoxResult)
    (h : validateBox env o (fuel + 1) (ascii "colr") c = .ok r)
    (hm : uint c 0 1 = some 2 ∨ uint c 0 1 = some 3) :
    ∃ e, (r.node.chars.filter fun e => e.tag == "icc") = [e] ∧
    (∀ major minor, uint (c.drop 3) 8 1 = some major → uint (c.drop 3) 9 1 = some minor →
      valuesOf e.children "profileVersion" = [.str (iccVersion major minor)]) ∧
    (∀ y mo d h mi s, uint (c.drop 3) 24 2 = some y → uint (c.drop 3) 26 2 = some mo →
      uint (c.drop 3) 28 2 = some d → uint (c.drop 3) 30 2 = some h → uint (c.drop 3) 32 2 = some mi →
      uint (c.drop 3) 34 2 = some s → mo < 256 → d < 256 → h < 256 → mi < 256 → s < 256 →
      valuesOf e.children "dateTimeString" = [.str (iccDateTime y mo d h mi s)]) ∧
    ∀ n i off size count, uint (c.drop 3) 128 4 = some n → n ≤ 4096 → FirstDesc (c.drop 3) n i off size →
      uint (c.drop 3) (off + 8) 4 = some count → 1 ≤ count → 12 + count ≤ size →
      valuesOf e.children "description" = [.bytes (sub (c.drop 3) (off + 12) (count - 1))] := by
  obtain ⟨ss, h1, rfl⟩ := (validateBox_ok (t := .colourSpecificationBox) (by decide) rfl).1 h
  cases h1
  refine ⟨iccElem (c.drop 3), ?_, iccElem_text _⟩
  rw [run_chars]
  exact colr_icc o.format c hm

/-- A colour specification box with an ICC profile whose flags say that it is embedded. -/
def embeddedProfile : Bytes := [2, 0, 0] ++ List.replicate 47 0 ++ [1] ++ List.replicate 80 0

/-- C53 fails for the flags of an ICC profile: the flag `embedded` is set, and reported as 0. -/
theorem C53_icc_flags_false (env : Env) (o : Options) (fuel : Nat) : ∃ (c : Bytes) (r : BoxResult),
    validateBox env o (fuel + 1) (ascii "colr") c = .ok r ∧
    ∃ e, (r.node.chars.filter fun e => e.tag == "icc") = [e] ∧
      ∃ f ∈ iccFlagFields, f.tag = "embeddedProfile" ∧ f.reads = .bits 44 4 0 1 ∧
        uint (c.drop 3) 44 4 = some 1 ∧ valuesOf e.children f.tag = [.int 0] ∧
        ¬ ShowsField e.children (c.drop 3) f := by
  have hv : valuesOf (iccElem (embeddedProfile.drop 3)).children "embeddedProfile" = [.int 0] := by
    decide +kernel
  have hu : uint (embeddedProfile.drop 3) 44 4 = some 1 := by decide +kernel
  refine ⟨embeddedProfile, _, (validateBox_ok (t := .colourSpecificationBox) (by decide) rfl).2 ⟨_, rfl, rfl⟩,
    iccElem (embeddedProfile.drop 3), ?_, ⟨"embeddedProfile", .bits 44 4 0 1⟩, by simp [iccFlagFields], rfl,
    rfl, hu, hv, ?_⟩
  · rw [run_chars]
    exact colr_icc o.format _ (.inl (by decide +kernel))
  · rintro ⟨v, h1, h2⟩
    rw [hv] at h1
    injection h1 with h1
    subst h1
    exact absurd (h2 1 hu) (by decide)

/-- C53 (PRF): the length. -/
theorem C53_prf (env : Env) (o : Options) (fuel : Nat) (csiz : Option Int) (c : Bytes) (r : BoxResult)
    (h : validateLeaf env o fuel csiz PRF c = .ok r) :
    ∀ f ∈ prfFields, ShowsField r.node.chars c f := by
  obtain ⟨ss, h1, rfl⟩ := (validateLeaf_ok (t := .prf) (by decide)).1 h
  simp only [leaf, prf, Outcome.ok.injEq] at h1
  subst h1
  have ht : ∀ tag n k, repOf tag (profileLoop c "pprfIsValid" true n k).2 = [] := by
    intro tag n k; rw [profileLoop_eq]; rfl
  fields [prfFields, ht]

/-- C53 (CPF): the length. -/
theorem C53_cpf (env : Env) (o : Options) (fuel : Nat) (csiz : Option Int) (c : Bytes) (r : BoxResult)
    (h : validateLeaf env o fuel csiz CPF c = .ok r) :
    ∀ f ∈ cpfFields, ShowsField r.node.chars c f := by
  obtain ⟨ss, h1, rfl⟩ := (validateLeaf_ok (t := .cpf) (by decide)).1 h
  simp only [leaf, cpf, Outcome.ok.injEq] at h1
  subst h1
  have ht : ∀ tag b n k, repOf tag (profileLoop c "pcpfIsValid" b n k).2 = [] := by
    intro tag b n k; rw [profileLoop_eq]; rfl
  fields [cpfFields, ht]

/-! ## The hypotheses are met -/

/-- Every image header box has a result: the theorem says what it shows, here for a 3 × 2 image. -/
example (env : Env) (o : Options) : ∃ r, validateBox env o 1 (ascii "ihdr")
    [0, 0, 0, 2, 0, 0, 0, 3, 0, 1, 7, 7, 0, 0] = .ok r ∧
    valuesOf r.node.chars "height" = [.int 2] ∧ valuesOf r.node.chars "width" = [.int 3] := by
  have h : validateBox env o 1 (ascii "ihdr") [0, 0, 0, 2, 0, 0, 0, 3, 0, 1, 7, 7, 0, 0] = _ :=
    (validateBox_ok (t := .imageHeaderBox) (by decide) rfl).2 ⟨_, rfl, rfl⟩
  refine ⟨_, h, ?_, ?_⟩
  · obtain ⟨v, h1, ⟨x, h2, h3⟩ | ⟨h2, -⟩⟩ := C53_ihdr env o 0 _ _ h ⟨"height", .num 0 4⟩ (by simp [ihdrFields])
    · rw [h1, h3, Option.some.inj (h2.symm.trans (by decide : uint _ _ _ = some 2))]; rfl
    · exact absurd h2 (by decide)
  · obtain ⟨v, h1, ⟨x, h2, h3⟩ | ⟨h2, -⟩⟩ := C53_ihdr env o 0 _ _ h ⟨"width", .num 4 4⟩ (by simp [ihdrFields])
    · rw [h1, h3, Option.some.inj (h2.symm.trans (by decide : uint _ _ _ = some 3))]; rfl
    · exact absurd h2 (by decide)

/-- A profile with one tag, `desc`, whose text is `sRGB`. -/
def describedProfile : Bytes := List.replicate 8 0 ++ [2, 0x40, 0, 0] ++ List.replicate 119 0 ++ [1] ++
  ascii "desc" ++ [0, 0, 0, 144, 0, 0, 0, 17] ++ ascii "desc" ++ [0, 0, 0, 0, 0, 0, 0, 5] ++ ascii "sRGB" ++ [0]

example : describedProfile.length = 161 ∧ uint describedProfile 128 4 = some 1 ∧
    FirstDesc describedProfile 1 0 144 17 ∧ uint describedProfile 152 4 = some 5 ∧
    sub describedProfile 156 4 = ascii "sRGB" ∧
    valuesOf (iccElem describedProfile).children "profileVersion" = [.str "2.4.0"] := by
  refine ⟨by decide +kernel, by decide +kernel, ⟨by decide, by decide +kernel, fun j hj => absurd hj (by omega),
    by decide +kernel, by decide +kernel⟩, by decide +kernel, by decide +kernel, ?_⟩
  exact (iccElem_text describedProfile).1 2 64 (by decide +kernel) (by decide +kernel)

end Jpy
