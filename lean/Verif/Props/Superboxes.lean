import Verif.Lemmas.Witness
import Verif.Lemmas.Super
import Verif.Props.Values
import Verif.Props.Boxes
/-! # Superboxes: C18, C34, C37 -/

set_option linter.unusedSimpArgs false

namespace Jpy
open Spec

/-- C34 (superbox): a resolution box passes exactly when its boxes pass and it has at most one capture
and at most one display resolution box, and at least one of them. -/
theorem C34_superbox (env : Env) (o : Options) (p : Bytes) :
    BoxPasses env o (ascii "res ") p ↔
      ∃ bs, Boxes p bs ∧ (∀ x ∈ bs, BoxPasses env o x.type x.payload) ∧ ResolutionOk bs := by
  obtain ⟨bs, hb⟩ := boxes_exists p
  rw [super_passes_types (tag := "resolutionBox") (finish := resolutionFinish o.verbose)
    (fun fuel => by
      have : boxTypeOf (ascii "res ") = .resolutionBox := by decide
      conv => lhs; unfold validateBox
      rw [this]) hb
    (ok := decide (tagCaptureResolution ∈ bs.map (·.type) ∨ tagDisplayResolution ∈ bs.map (·.type)) &&
      (decide ((bs.map (·.type)).count tagCaptureResolution ≤ 1) &&
       decide ((bs.map (·.type)).count tagDisplayResolution ≤ 1)))
    (fun n types ht => by
      subst ht
      simp only [resolutionFinish, isValid_testFor, Bool.and_assoc])]
  simp only [Bool.and_eq_true, decide_eq_true_eq, mem_types (k := tagCaptureResolution) (s := "resc") rfl,
    mem_types (k := tagDisplayResolution) (s := "resd") rfl,
    count_types (k := tagCaptureResolution) (s := "resc") rfl,
    count_types (k := tagDisplayResolution) (s := "resd") rfl]
  constructor
  · rintro ⟨h1, h2⟩; exact ⟨bs, hb, h1, h2⟩
  · rintro ⟨bs', hb', h1, h2⟩
    have := boxes_unique hb hb'
    subst this
    exact ⟨h1, h2⟩

/-- C37 (superbox): a UUID info box passes exactly when its boxes pass and it has exactly one UUID list
box and exactly one URL box. -/
theorem C37_uinf (env : Env) (o : Options) (p : Bytes) :
    BoxPasses env o (ascii "uinf") p ↔
      ∃ bs, Boxes p bs ∧ (∀ x ∈ bs, BoxPasses env o x.type x.payload) ∧ UuidInfoOk bs := by
  obtain ⟨bs, hb⟩ := boxes_exists p
  rw [super_passes_types (tag := "uuidInfoBox") (finish := uuidInfoFinish o.verbose)
    (fun fuel => by
      have : boxTypeOf (ascii "uinf") = .uuidInfoBox := by decide
      conv => lhs; unfold validateBox
      rw [this]) hb
    (ok := decide ((bs.map (·.type)).count tagUuidList = 1) &&
       decide ((bs.map (·.type)).count tagUrl = 1))
    (fun n types ht => by
      subst ht
      simp only [uuidInfoFinish, isValid_testFor, Bool.and_assoc])]
  simp only [Bool.and_eq_true, decide_eq_true_eq, count_types (k := tagUuidList) (s := "ulst") rfl,
    count_types (k := tagUrl) (s := "url ") rfl]
  constructor
  · rintro ⟨h1, h2⟩; exact ⟨bs, hb, h1, h2⟩
  · rintro ⟨bs', hb', h1, h2⟩
    have := boxes_unique hb hb'
    subst this
    exact ⟨h1, h2⟩

/-! ## The JP2 header box -/

/-- The tests on colour information: `c` there is a colour specification box, `u` UnkC is zero, `z` no
channel type is zero. -/
def colrOk : Format → Bool → Bool → Bool → Bool
  | .jp2, c, _, _ => c
  | .jph, c, u, z => (!u || c) && (c || z)
  | _, _, _, _ => true

theorem colrOk_iff (fmt : Format) (c u z : Bool) : colrOk fmt c u z = true ↔
    (fmt = .jp2 → c = true) ∧ (fmt = .jph → u = true → c = true) ∧
      (fmt = .jph → ¬ c = true → z = true) := by
  cases fmt <;> cases c <;> cases u <;> cases z <;> simp [colrOk]

/-- The final tests of the JP2 header box as one condition. -/
def jp2hOk (fmt : Format) (types : List Bytes) (chars : List Elem) : Bool :=
  decide (tagImageHeader ∈ types) &&
  (colrOk fmt (decide (tagColourSpecification ∈ types))
    (decide (Elem.findElementText chars ["imageHeaderBox", "unkC"] = some (PyVal.int 0)))
    (decide (PyVal.int 0 ∉ Elem.findAllText chars ["channelDefinitionBox", "cTyp"])) &&
  ((!decide (Elem.findElementText chars ["imageHeaderBox", "bPCSign"] = some (PyVal.int 1) ∧
      Elem.findElementText chars ["imageHeaderBox", "bPCDepth"] = some (PyVal.int 128)) ||
    decide (tagBitsPerComponent ∈ types)) &&
  (decide (types.head? = some tagImageHeader) &&
  (decide (types.count tagImageHeader ≤ 1) &&
  (decide (types.count tagBitsPerComponent ≤ 1) &&
  (decide (types.count tagPalette ≤ 1) &&
  (decide (types.count tagComponentMapping ≤ 1) &&
  (decide (types.count tagChannelDefinition ≤ 1) &&
  (decide (types.count tagResolution ≤ 1) &&
  (listOccurrencesAreContiguous types tagColourSpecification &&
  (decide (tagPalette ∈ types ↔ tagComponentMapping ∈ types))))))))))))

theorem palette_together (p c : Prop) [Decidable p] [Decidable c] :
    (if (p ∧ ¬ c) ∨ (c ∧ ¬ p) then false else true) = decide (p ↔ c) := by
  by_cases hp : p <;> by_cases hc : c <;> simp [hp, hc]

theorem isValid_jp2HeaderFinish (o : Options) (n : Node) (types : List Bytes) :
    (jp2HeaderFinish o n types).isValid = (n.isValid && jp2hOk o.format types n.chars) := by
  unfold jp2HeaderFinish jp2hOk
  rw [← palette_together]
  cases o.format <;>
    simp only [isValid_testFor, isValid_testIf, testFor_chars, testIf_chars, Bool.and_assoc,
      Bool.true_and, colrOk, Bool.not_not]

theorem ihdr_fields (c : Bytes) :
    repOf "unkC" (imageHeaderBox c) = [.int (intOf (uint c 12 1))] ∧
    repOf "iPR" (imageHeaderBox c) = [.int (intOf (uint c 13 1))] ∧
    repOf "height" (imageHeaderBox c) = [.int (intOf (uint c 0 4))] ∧
    repOf "width" (imageHeaderBox c) = [.int (intOf (uint c 4 4))] ∧
    repOf "nC" (imageHeaderBox c) = [.int (intOf (uint c 8 2))] ∧
    repOf "bPCSign" (imageHeaderBox c) = [.int (getBitValue (intOf (uint c 10 1)) 1)] ∧
    repOf "bPCDepth" (imageHeaderBox c) = [.int (low (intOf (uint c 10 1)) 7 + 1)] := by
  unfold imageHeaderBox
  rw [u32_at c 0 (x := 0) (y := 4) rfl rfl, u32_at c 4 (x := 4) (y := 8) rfl rfl,
    u16_at c 8 (x := 8) (y := 10) rfl rfl, u8_at c 10 (x := 10) (y := 11) rfl rfl,
    u8_at c 11 (x := 11) (y := 12) rfl rfl, u8_at c 12 (x := 12) (y := 13) rfl rfl,
    u8_at c 13 (x := 13) (y := 14) rfl rfl]
  refine ⟨?_, ?_, ?_, ?_, ?_, ?_, ?_⟩ <;> rep

/-- The characteristics of an image header box. -/
theorem ihdr_result {env o fuel c r} (h : validateBox env o fuel tagImageHeader c = .ok r) (s : String) :
    Elem.findAllText r.node.chars [s] = repOf s (imageHeaderBox c) := by
  cases fuel with
  | zero => cases h
  | succ fuel =>
    obtain ⟨ss, h1, rfl⟩ := (validateBox_ok (t := .imageHeaderBox) (by decide) rfl).1 h
    cases h1
    exact findAllText_run ..

/-- The first image header is looked up first. -/
theorem header_text {env o fuel ih rest rs}
    (h : inTurn (fun x : FoundBox => validateBox env o fuel x.type x.payload) (ih :: rest) = .ok rs)
    (hi : ih.type = tagImageHeader) {s : String} {v : PyVal}
    (hs : repOf s (imageHeaderBox ih.payload) = [v]) :
    Elem.findElementText (rs.map (·.charsElem)) ["imageHeaderBox", s] = some v := by
  obtain ⟨r, rs', rfl, hr, -⟩ := inTurn_cons.1 h
  simp only [hi] at hr
  have ht := validateBox_tag hr
  have : r.tag = "imageHeaderBox" := by rw [ht]; rfl
  rw [findElementText_eq, findAllText_results, List.filter_cons, if_pos (by simp [this]),
    List.flatMap_cons, ihdr_result hr, hs]
  rfl

theorem cdef_types (fmt : Format) (c : Bytes) :
    repOf "cTyp" (channelDefinitionBox fmt c) =
      (List.range (rangeLen (bytesToUShortInt (slice c 0 2)))).map fun (i : Nat) =>
        .int (bytesToUShortInt (slice c (2 + 6 * i + 2) (2 + 6 * i + 4))) := by
  unfold channelDefinitionBox
  cases fmt <;> rep <;> simp

theorem cdef_result {env o fuel c r} (h : validateBox env o fuel tagChannelDefinition c = .ok r) :
    Elem.findAllText r.node.chars ["cTyp"] = repOf "cTyp" (channelDefinitionBox o.format c) := by
  cases fuel with
  | zero => cases h
  | succ fuel =>
    obtain ⟨ss, h1, rfl⟩ := (validateBox_ok (t := .channelDefinitionBox) (by decide) rfl).1 h
    cases h1
    exact findAllText_run ..

/-- A reported channel type of zero is a zero channel type field of some channel definition box. -/
theorem zero_cTyp {env o fuel} {bs : List FoundBox} {rs}
    (h : inTurn (fun x : FoundBox => validateBox env o fuel x.type x.payload) bs = .ok rs) :
    PyVal.int 0 ∉ Elem.findAllText (rs.map (·.charsElem)) ["channelDefinitionBox", "cTyp"] ↔
      ∀ x ∈ bs, x.type = ascii "cdef" → ∀ n i, uint x.payload 0 2 = some n → i < n →
        uint x.payload (2 + 6 * i + 2) 2 ≠ some 0 := by
  rw [findAllText_results]
  have hf := inTurn_filter (p := fun x : FoundBox => x.type == tagChannelDefinition)
    (q := fun r => r.tag == BoxType.channelDefinitionBox.name) h
    (fun x y hxy => validateBox_tag_iff hxy (by decide) (by decide))
  have key : ∀ x : FoundBox, ∀ r, x.type = tagChannelDefinition →
      validateBox env o fuel x.type x.payload = .ok r →
      (PyVal.int 0 ∈ Elem.findAllText r.node.chars ["cTyp"] ↔ ∃ n i, uint x.payload 0 2 = some n ∧
        i < n ∧ uint x.payload (2 + 6 * i + 2) 2 = some 0) := by
    intro x r hx hr
    rw [hx] at hr
    rw [cdef_result hr, cdef_types, u16_at x.payload 0 (x := 0) (y := 2) rfl rfl]
    simp only [List.mem_map, List.mem_range, PyVal.int.injEq]
    have hi : ∀ i : Nat, bytesToUShortInt (slice x.payload (2 + 6 * (i : Int) + 2) (2 + 6 * (i : Int) + 4)) =
        intOf (uint x.payload (2 + 6 * i + 2) 2) := fun i =>
      u16_at x.payload (2 + 6 * i + 2) (by omega) (by omega)
    simp only [hi, intOf_eq (k := 0) (by omega)]
    constructor
    · rintro ⟨i, h1, h2⟩
      cases hn : uint x.payload 0 2 with
      | none => rw [hn] at h1; simp [intOf, rangeLen] at h1
      | some n => rw [hn] at h1; exact ⟨n, i, rfl, by simpa [intOf, rangeLen] using h1, h2⟩
    · rintro ⟨n, i, h1, h2, h3⟩
      exact ⟨i, by rw [h1]; simpa [intOf, rangeLen] using h2, h3⟩
  constructor
  · intro hn x hx hxt n i h1 h2 h3
    obtain ⟨r, hr, hxr⟩ := inTurn_mem hf (x := x) (by
      rw [List.mem_filter]; exact ⟨hx, by rw [hxt]; decide⟩)
    exact hn (List.mem_flatMap.2 ⟨r, hr, (key x r hxt hxr).2 ⟨n, i, h1, h2, h3⟩⟩)
  · intro hn hm
    obtain ⟨r, hr, h0⟩ := List.mem_flatMap.1 hm
    obtain ⟨x, hx, hxr⟩ := inTurn_mem' hf hr
    rw [List.mem_filter, beq_iff_eq] at hx
    obtain ⟨n, i, h1, h2, h3⟩ := (key x r hx.2 hxr).1 h0
    exact hn x hx.1 hx.2 n i h1 h2 h3

theorem together_iff {bs : List FoundBox} {k : Bytes} {s : String} (h : ascii s = k) :
    listOccurrencesAreContiguous (bs.map (·.type)) k = true ↔ Together bs s := by
  rw [C49_contiguous]
  subst h
  constructor
  · rintro ⟨a, n, c, h1, h2, h3⟩
    obtain ⟨am, c', rfl, h4, rfl⟩ := List.map_eq_append_iff.1 h1
    obtain ⟨a', m', rfl, rfl, h5⟩ := List.map_eq_append_iff.1 h4
    refine ⟨a', m', c', rfl, fun ⟨x, hx, he⟩ => h2 (List.mem_map.2 ⟨x, hx, he⟩), fun x hx => ?_,
      fun ⟨x, hx, he⟩ => h3 (List.mem_map.2 ⟨x, hx, he⟩)⟩
    exact List.eq_of_mem_replicate (n := n) (by rw [← h5]; exact List.mem_map.2 ⟨x, hx, rfl⟩)
  · rintro ⟨a, m, z, rfl, h1, h2, h3⟩
    refine ⟨a.map (·.type), m.length, z.map (·.type), ?_, fun h => ?_, fun h => ?_⟩
    · rw [List.map_append, List.map_append]
      congr 2
      rw [List.eq_replicate_iff]
      refine ⟨by simp, fun t ht => ?_⟩
      obtain ⟨x, hx, rfl⟩ := List.mem_map.1 ht
      exact h2 x hx
    · obtain ⟨x, hx, he⟩ := List.mem_map.1 h
      exact h1 ⟨x, hx, he⟩
    · obtain ⟨x, hx, he⟩ := List.mem_map.1 h
      exact h3 ⟨x, hx, he⟩

/-- Sign bit 1 and depth 128 are the byte 255. -/
theorem bpc255 {c : Bytes} {k v : Nat} (h : uint c k 1 = some v) :
    ((getBitValue (intOf (uint c k 1)) 1 = 1 ∧ low (intOf (uint c k 1)) 7 + 1 = 128) ↔ v = 255) := by
  have := uint_lt h
  rw [h]
  unfold getBitValue
  simp only [intOf, shr_div, low_mod]
  omega

/-- The final tests of the JP2 header box are those of the specification, for boxes that pass. -/
theorem jp2hOk_iff {env o fuel} {bs : List FoundBox} {rs}
    (h : inTurn (fun x : FoundBox => validateBox env o fuel x.type x.payload) bs = .ok rs)
    (ha : ∀ x ∈ bs, Accepted (validateBox env o fuel x.type x.payload)) :
    jp2hOk o.format (bs.map (·.type)) (rs.map (·.charsElem)) = true ↔
      ∃ ih rest, bs = ih :: rest ∧ HeaderOk o.format ih rest := by
  unfold jp2hOk
  simp only [Bool.and_eq_true, Bool.or_eq_true, Bool.not_eq_true', decide_eq_true_eq, colrOk_iff,
    decide_eq_false_iff_not, mem_types (k := tagImageHeader) (s := "ihdr") rfl,
    mem_types (k := tagColourSpecification) (s := "colr") rfl,
    mem_types (k := tagBitsPerComponent) (s := "bpcc") rfl,
    mem_types (k := tagPalette) (s := "pclr") rfl,
    mem_types (k := tagComponentMapping) (s := "cmap") rfl,
    count_types (k := tagImageHeader) (s := "ihdr") rfl,
    count_types (k := tagBitsPerComponent) (s := "bpcc") rfl,
    count_types (k := tagPalette) (s := "pclr") rfl,
    count_types (k := tagComponentMapping) (s := "cmap") rfl,
    count_types (k := tagChannelDefinition) (s := "cdef") rfl,
    count_types (k := tagResolution) (s := "res ") rfl,
    together_iff (k := tagColourSpecification) (s := "colr") rfl, zero_cTyp h]
  cases bs with
  | nil => simp
  | cons ih rest =>
    by_cases hih : ih.type = tagImageHeader
    · have hacc := ha ih (by simp)
      rw [hih] at hacc
      have hI : IhdrOthersOk ih.payload := by
        cases fuel with
        | zero => obtain ⟨r, hr, -⟩ := hacc; cases hr
        | succ fuel => exact (C19_ihdr_accepted env o fuel ih.payload).1 hacc
      obtain ⟨-, -, -, -, -, ⟨u, hu, -⟩, -⟩ := hI
      obtain ⟨bp, hbp⟩ := uint_exists (off' := 10) (n' := 1) hu (by omega)
      obtain ⟨f1, -, -, -, -, f2, f3⟩ := ihdr_fields ih.payload
      rw [header_text h hih f1, header_text h hih f2, header_text h hih f3]
      simp only [Option.some.injEq, PyVal.int.injEq, bpc255 hbp, intOf_eq (k := 0) (by omega),
        List.map_cons, List.head?_cons, hih, true_and]
      have hnum : number (ih :: rest) "ihdr" ≤ 1 ↔ ¬ Has rest "ihdr" := by
        have h1 : number (ih :: rest) "ihdr" = number rest "ihdr" + 1 := by
          unfold number
          rw [List.filter_cons, if_pos (by rw [hih]; decide), List.length_cons]
        rw [h1]
        unfold number Has
        constructor
        · rintro hn ⟨x, hx, hxt⟩
          have : x ∈ rest.filter fun x => x.type == ascii "ihdr" :=
            List.mem_filter.2 ⟨hx, by simpa using hxt⟩
          have := List.length_pos_of_mem this
          omega
        · intro hn
          have : (rest.filter fun x => x.type == ascii "ihdr") = [] := by
            rw [List.filter_eq_nil_iff]
            intro x hx hxt
            exact hn ⟨x, hx, by simpa using hxt⟩
          rw [this]; simp
      have hhas : Has (ih :: rest) "ihdr" := ⟨ih, by simp, hih⟩
      have h255 : FieldIs ih.payload 10 1 (· = 255) ↔ bp = 255 := by
        simp [FieldIs, hbp]
      have h0 : uint ih.payload 12 1 = some (Int.toNat 0) ↔ FieldIs ih.payload 12 1 (· = 0) := by
        simp [FieldIs]
      simp only [hnum, h0, hhas, true_and]
      constructor
      · rintro ⟨⟨k1, k2, k3⟩, g2, g3, g4, g5, g6, g7, g8, g9, g10⟩
        exact ⟨ih, rest, rfl, hih, g3, g4, g5, g6, g7, g8, g10, g9, k1, k2, k3,
          fun e => g2.resolve_left (fun hn => hn (h255.1 e))⟩
      · rintro ⟨ih', rest', hcons, g⟩
        cases hcons
        obtain ⟨-, g3, g4, g5, g6, g7, g8, g10, g9, k1, k2, k3, k4⟩ := g
        refine ⟨⟨k1, k2, k3⟩, ?_, g3, g4, g5, g6, g7, g8, g9, g10⟩
        by_cases hz : bp = 255
        · exact .inr (k4 (h255.2 hz))
        · exact .inl hz
    · constructor
      · rintro ⟨-, -, -, hh, -⟩
        simp at hh
        exact absurd hh hih
      · rintro ⟨ih', rest', hcons, g⟩
        cases hcons
        exact absurd g.1 hih

/-- C18: a JP2 header box passes exactly when its boxes pass and it has the structure required for the
format: it starts with its only image header box, has at most one bpcc, pclr, cmap, cdef and res box,
pclr if and only if cmap, contiguous colour specification boxes and the colour information the format
requires, and a bpcc box if the image header announces varying depths. -/
theorem C18_header (env : Env) (o : Options) (p : Bytes) :
    BoxPasses env o (ascii "jp2h") p ↔
      ∃ ih rest, Boxes p (ih :: rest) ∧ (∀ x ∈ ih :: rest, BoxPasses env o x.type x.payload) ∧
        HeaderOk o.format ih rest := by
  obtain ⟨bs, hb⟩ := boxes_exists p
  rw [super_passes (tag := "jp2HeaderBox") (finish := jp2HeaderFinish o)
    (fun fuel => by
      have : boxTypeOf (ascii "jp2h") = .jp2HeaderBox := by decide
      conv => lhs; unfold validateBox
      rw [this]) hb (ok := jp2hOk o.format (bs.map (·.type)))
    (fun n types ht => by rw [isValid_jp2HeaderFinish, ht])]
  constructor
  · rintro ⟨fuel, rs, h1, h2, h3⟩
    obtain ⟨ih, rest, rfl, hh⟩ := (jp2hOk_iff h1 h2).1 h3
    exact ⟨ih, rest, hb, fun x hx => ⟨fuel, h2 x hx⟩, hh⟩
  · rintro ⟨ih, rest, hb', h1, h2⟩
    have := boxes_unique hb hb'
    subst this
    obtain ⟨k, hk⟩ := fuel_forall
      (P := fun (x : FoundBox) k => Accepted (validateBox env o k x.type x.payload))
      (fun _ _ _ h ha => validateBox_accepted_mono h ha) _ h1
    obtain ⟨rs, hrs⟩ := inTurn_exists (f := fun x : FoundBox => validateBox env o k x.type x.payload)
      (xs := ih :: rest) fun x hx => let ⟨r, hr, _⟩ := hk x hx; ⟨r, hr⟩
    exact ⟨k, rs, hrs, hk, (jp2hOk_iff hrs hk).2 ⟨ih, rest, rfl, h2⟩⟩

/-! ## Concrete cases -/

/-- C34: a resolution box with both resolutions; an empty one does not pass. -/
example : BoxPasses Sample.env0 (Sample.opts .jp2) (ascii "res ")
      (Sample.box "resc" (Sample.be16 300 ++ Sample.be16 1 ++ Sample.be16 300 ++ Sample.be16 1 ++ [2, 2]) ++
       Sample.box "resd" (Sample.be16 72 ++ Sample.be16 1 ++ Sample.be16 72 ++ Sample.be16 1 ++ [2, 2])) ∧
    ¬ BoxPasses Sample.env0 (Sample.opts .jp2) (ascii "res ") [] := by
  refine ⟨⟨20, accepted_of (by decide +kernel)⟩, fun h => ?_⟩
  obtain ⟨bs, hb, -, ⟨x, hx, -⟩ | ⟨x, hx, -⟩, -⟩ := (C34_superbox ..).1 h <;>
  · cases boxes_unique hb (.done (Nat.le_refl _))
    cases hx

/-- C37: a UUID info box. -/
example : BoxPasses Sample.env0 (Sample.opts .jp2) (ascii "uinf")
    (Sample.box "ulst" (Sample.be16 1 ++ List.replicate 16 5) ++
     Sample.box "url " ([0, 0, 0, 0] ++ ascii "http:" ++ [0])) :=
  ⟨20, accepted_of (by decide +kernel)⟩

/-- C18: a header with a palette, and one of a JPH file without colour specification. -/
example : BoxPasses Sample.env0 (Sample.opts .jp2) (ascii "jp2h")
      (Sample.ihdr 1 2 1 7 ++ Sample.colr 16 ++ Sample.box "pclr" (Sample.be16 2 ++ [3, 7, 7, 7, 1, 2, 3, 4, 5, 6]) ++
       Sample.box "cmap" [0, 0, 1, 0, 0, 0, 1, 1, 0, 0, 1, 2]) ∧
    BoxPasses Sample.env0 (Sample.opts .jph) (ascii "jp2h")
      (Sample.box "ihdr" (Sample.be32 1 ++ Sample.be32 1 ++ Sample.be16 1 ++ [7, 7, 1, 0])) :=
  ⟨⟨20, accepted_of (by decide +kernel)⟩, ⟨20, accepted_of (by decide +kernel)⟩⟩

end Jpy
