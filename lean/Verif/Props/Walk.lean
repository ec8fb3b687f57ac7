import Verif.Props.Files
/-! # The walk over boxes and segments: C08, C09, C10, C23 -/

set_option linter.unusedSimpArgs false

namespace Jpy
open Spec

/-! ## C08 -/

/-- Boxes inside a superbox that passes pass. -/
theorem inner_pass {env : Env} {o : Options} {t p : Bytes} (ht : t ∈ superboxTypes)
    (h : BoxPasses env o t p) {bs x} (hb : Boxes p bs) (hx : x ∈ bs) : BoxPasses env o x.type x.payload := by
  have : t = ascii "jp2h" ∨ t = ascii "res " ∨ t = ascii "uinf" := by
    simpa [superboxTypes] using ht
  rcases this with rfl | rfl | rfl
  · obtain ⟨ih, rest, hb', hp, -⟩ := (C18_header env o p).1 h
    have := boxes_unique hb hb'
    subst this
    exact hp x hx
  · obtain ⟨bs', hb', hp, -⟩ := (C34_superbox env o p).1 h
    have := boxes_unique hb hb'
    subst this
    exact hp x hx
  · obtain ⟨bs', hb', hp, -⟩ := (C37_uinf env o p).1 h
    have := boxes_unique hb hb'
    subst this
    exact hp x hx

/-- All boxes of a valid file pass. -/
theorem boxes_pass {env : Env} {o : Options} {b : Bytes} (hfmt : o.format = .jp2 ∨ o.format = .jph)
    (h : FileValid env o b) {d : Nat} {t p : Bytes} (hb : HasBox b d t p) : BoxPasses env o t p := by
  obtain ⟨l, hl⟩ := (C17_layout env o _ hfmt).1 h
  induction hb with
  | top hb hx =>
    have := boxes_unique hb hl.boxes
    subst this
    exact hl.passes _ hx
  | inside _ ht hb hx ih => exact inner_pass ht ih hb hx

/-- The codestreams of a valid file pass. -/
theorem codestreams_pass {env : Env} {o : Options} {b cs : Bytes} (h : FileValid env o b)
    (hc : IsCodestream o.format b cs) : CodestreamPasses env o cs := by
  cases hf : o.format with
  | jp2 =>
    rw [hf] at hc
    obtain ⟨bs, x, hb, hx, ht, rfl⟩ := hc
    have := boxes_pass (.inl hf) h (.top hb hx)
    rw [ht] at this
    exact passes_cs this
  | jph =>
    rw [hf] at hc
    obtain ⟨bs, x, hb, hx, ht, rfl⟩ := hc
    have := boxes_pass (.inr hf) h (.top hb hx)
    rw [ht] at this
    exact passes_cs this
  | j2c => rw [hf] at hc; cases hc; exact (C23_file env o _ (.inl hf)).1 h
  | jhc => rw [hf] at hc; cases hc; exact (C23_file env o _ (.inr hf)).1 h
  | other s =>
    obtain ⟨fuel, n, h, -⟩ := h
    unfold validateRoot at h
    rw [hf] at h
    cases h

/-- The segments visited in a codestream that passes pass. -/
theorem segs_pass {env : Env} {o : Options} {b : Bytes} (h : CodestreamPasses env o b) {csiz : Option Int}
    {m c : Bytes} (hs : VisitedSeg b csiz m c) : SegPasses env o csiz m c := by
  have h' := h
  obtain ⟨p, hp⟩ := (C23_codestream env o b).1 h
  cases hs with
  | siz hs =>
    have := (segAt_unique hs hp.sizAt).2.1
    subst this
    exact hp.sizPasses
  | main hm hx hmk =>
    obtain ⟨rfl, rfl, rfl, rfl⟩ := mainHeader_unique hm (mainHeader_of hp)
    exact hp.mainPasses _ hx hmk
  | tilePart hm hn hr hs hx hmk =>
    obtain ⟨t, rfl, ht⟩ := C25_tileparts_partial h' hm hn hr
    obtain ⟨ss, k, h1, h2, -⟩ := ht.header
    obtain ⟨rfl, -⟩ := segsTo_unique hs h1
    exact h2 _ hx hmk

section
variable {env : Env} {me : MixEnv} {fs : FS} {fuel : Nat} {o : Options} {mix : Nat} {path : PyStr}

/-- C08 (boxes): if some box at any nesting depth does not pass, the file is not reported valid. -/
theorem C08_boxes (hfmt : o.format = .jp2 ∨ o.format = .jph) {d : Nat} {t p : Bytes}
    (hb : HasBox (bytesRead (fs.read path)) d t p) (hf : ¬ BoxPasses env o t p) :
    ¬ ReportedValid env me fs fuel o mix path :=
  fun h => hf (boxes_pass hfmt (reported_fileValid h) hb)

/-- C08 (segments): if some marker segment that is visited in a codestream of the file does not pass,
the file is not reported valid. -/
theorem C08_segments {cs : Bytes} (hc : IsCodestream o.format (bytesRead (fs.read path)) cs)
    {csiz : Option Int} {m c : Bytes} (hs : VisitedSeg cs csiz m c) (hf : ¬ SegPasses env o csiz m c) :
    ¬ ReportedValid env me fs fuel o mix path :=
  fun h => hf (segs_pass (codestreams_pass (reported_fileValid h) hc) hs)

/-- C23 (files): every codestream of a file reported valid passes. -/
theorem C23_reported (h : ReportedValid env me fs fuel o mix path) {cs : Bytes}
    (hc : IsCodestream o.format (bytesRead (fs.read path)) cs) : CodestreamPasses env o cs :=
  codestreams_pass (reported_fileValid h) hc

end

/-! ## C09 -/

/-- C09: there is exactly one way to walk over the boxes of a byte string. The boxes start at strictly
increasing offsets, there are no more of them than bytes, and their payloads are shorter than the whole.
The validator hands exactly these boxes, in order, to the validator of sub-boxes. -/
theorem C09_walk (b : Bytes) : ∃ bs, Boxes b bs ∧ (∀ bs', Boxes b bs' → bs' = bs) ∧
    bs.Pairwise (fun x y => x.start < y.start) ∧ bs.length ≤ b.length ∧
    (∀ x ∈ bs, x.start + x.payload.length < b.length) ∧
    ∀ (validate : Bytes → Bytes → Outcome BoxResult) (fuel : Nat), bs.length < fuel →
      walkBoxes validate b fuel = inTurn (fun x => validate x.type x.payload) bs >>= fun rs =>
        .ok (rs.foldl Node.absorb {}, bs.map (·.type)) := by
  obtain ⟨bs, hb⟩ := boxes_exists b
  refine ⟨bs, hb, fun bs' h => boxes_unique h hb, boxesFrom_increasing hb, ?_, ?_, ?_⟩
  · have := boxesFrom_length hb; omega
  · intro x hx; exact (boxesFrom_mem hb hx).2.1
  · intro v fuel hf; exact walkBoxes_eq hb hf

/-- C09 (depth): nesting depth is bounded by the size of the file. -/
theorem C09_depth {b : Bytes} {d : Nat} {t p : Bytes} (h : HasBox b d t p) : d + p.length ≤ b.length :=
  hasBox_small h

/-- A box of unknown type. -/
theorem boxName_unknown {t : Bytes} (h : boxTypeOf t = .unknownBox) : boxName t = "unknownBox" := by
  have hu : ∀ k v, (k, v) ∈ typeMap → t ≠ k := by
    intro k v hk e
    subst e
    have hall : ∀ x ∈ typeMap, boxTypeOf x.1 ≠ .unknownBox := by decide
    exact hall _ hk h
  rw [boxName]
  have : List.find? (fun x : String × String => ascii x.1 == t)
      [("jP  ", "signatureBox"), ("ftyp", "fileTypeBox"), ("jp2h", "jp2HeaderBox"),
    ("ihdr", "imageHeaderBox"), ("bpcc", "bitsPerComponentBox"), ("colr", "colourSpecificationBox"),
    ("pclr", "paletteBox"), ("cmap", "componentMappingBox"), ("cdef", "channelDefinitionBox"),
    ("res ", "resolutionBox"), ("resc", "captureResolutionBox"), ("resd", "displayResolutionBox"),
    ("jp2c", "contiguousCodestreamBox"), ("jp2i", "intellectualPropertyBox"), ("xml ", "xmlBox"),
    ("uuid", "uuidBox"), ("uinf", "uuidInfoBox"), ("ulst", "uuidListBox"),
    ("url ", "urlBox")] = none := by
    rw [List.find?_eq_none]
    intro x hx he
    rw [beq_iff_eq] at he
    have hall : ∀ x ∈ [("jP  ", "signatureBox"), ("ftyp", "fileTypeBox"), ("jp2h", "jp2HeaderBox"),
      ("ihdr", "imageHeaderBox"), ("bpcc", "bitsPerComponentBox"), ("colr", "colourSpecificationBox"),
      ("pclr", "paletteBox"), ("cmap", "componentMappingBox"), ("cdef", "channelDefinitionBox"),
      ("res ", "resolutionBox"), ("resc", "captureResolutionBox"), ("resd", "displayResolutionBox"),
      ("jp2c", "contiguousCodestreamBox"), ("jp2i", "intellectualPropertyBox"), ("xml ", "xmlBox"),
      ("uuid", "uuidBox"), ("uinf", "uuidInfoBox"), ("ulst", "uuidListBox"),
      ("url ", "urlBox")], ascii x.1 ∈ typeMap.map (·.1) := by decide +kernel
    obtain ⟨y, hy, e⟩ := List.mem_map.1 (hall x hx)
    exact hu y.1 y.2 hy (by rw [e, he])
  rw [this]

/-- Names of the box types are those of the specification. -/
theorem boxName_eq {t : Bytes} (ht : t.length = 4) : (boxTypeOf t).name = boxName t := by
  by_cases h : boxTypeOf t = .unknownBox
  · rw [boxName_unknown h, h]; rfl
  · have h1 := boxTypeOf_mem rfl h
    have hall : ∀ x ∈ typeMap, x.1.length = 4 → x.2.name = boxName x.1 := by decide +kernel
    exact hall _ h1 ht

theorem superboxTypes_cases {t : Bytes} : t ∈ superboxTypes ↔
    boxTypeOf t = .jp2HeaderBox ∨ boxTypeOf t = .resolutionBox ∨ boxTypeOf t = .uuidInfoBox := by
  rw [boxTypeOf_iff (k := tagJp2Header) rfl (by decide), boxTypeOf_iff (k := tagResolution) rfl (by decide),
    boxTypeOf_iff (k := tagUuidInfo) rfl (by decide)]
  show t ∈ [tagJp2Header, tagResolution, tagUuidInfo] ↔ _
  simp

theorem shows_inTurn {f : FoundBox → Outcome BoxResult} {g : BoxResult → Elem} :
    ∀ {bs : List FoundBox} {rs}, inTurn f bs = .ok rs →
    (∀ x ∈ bs, ∀ r, f x = .ok r → ShowsBox x.type x.payload (g r)) → ShowsBoxes bs (rs.map g)
  | [], rs, h, _ => by cases h; exact .nil
  | x :: xs, rs, h, hx => by
    obtain ⟨y, hy, h⟩ := Outcome.bind_eq_ok.1 h
    obtain ⟨ys, hys, h⟩ := Outcome.bind_eq_ok.1 h
    cases h
    exact .cons (hx x (by simp) y hy) (shows_inTurn hys fun z hz => hx z (by simp [hz]))

theorem jp2HeaderFinish_chars (o n types) : (jp2HeaderFinish o n types).chars = n.chars := by
  unfold jp2HeaderFinish
  cases o.format <;> simp only [testFor_chars, testIf_chars]

theorem shows_box (env : Env) (o : Options) (tbl : RemapTable) : ∀ (fuel : Nat) (t p : Bytes) (r : BoxResult),
    validateBox env o fuel t p = .ok r → ShowsBox t p (makeHumanReadable env tbl r.charsElem)
  | 0, _, _, _, h => by cases h
  | fuel + 1, t, p, r, h => by
    have htag : (makeHumanReadable env tbl r.charsElem).tag = (boxTypeOf t).name := by
      rw [readable_tag, ← validateBox_tag h]; rfl
    by_cases hs : t ∈ superboxTypes
    · obtain ⟨bs, hb⟩ := boxes_exists p
      have h4 : t.length = 4 := by
        have : ∀ x ∈ superboxTypes, x.length = 4 := by decide
        exact this t hs
      refine .super hs (by rw [htag, boxName_eq h4]) hb ?_
      have key : ∀ n types, walkBoxes (validateBox env o fuel) p fuel = .ok (n, types) →
          ShowsBoxes bs (makeHumanReadableL env tbl n.chars) := by
        intro n types hw
        obtain ⟨rs, hr, rfl, -⟩ := walkBoxes_ok hb hw
        rw [chars_foldl_absorb, readableL_map]
        show ShowsBoxes bs (([] ++ rs.map _).map _)
        rw [List.nil_append, List.map_map]
        exact shows_inTurn hr fun x _ r hr => shows_box env o tbl fuel _ _ r hr
      rw [readable_children]
      unfold validateBox at h
      rcases superboxTypes_cases.1 hs with e | e | e <;> rw [e] at h <;> simp only at h
      · obtain ⟨⟨n, ts⟩, hw, h⟩ := Outcome.bind_eq_ok.1 h
        cases h
        have := key n ts hw
        rw [← jp2HeaderFinish_chars o n ts] at this
        exact this
      · obtain ⟨⟨n, ts⟩, hw, h⟩ := Outcome.bind_eq_ok.1 h
        cases h
        have := key n ts hw
        have e2 : (resolutionFinish o.verbose n ts).chars = n.chars := by
          unfold resolutionFinish; simp only [testFor_chars]
        rw [← e2] at this
        exact this
      · obtain ⟨⟨n, ts⟩, hw, h⟩ := Outcome.bind_eq_ok.1 h
        cases h
        have := key n ts hw
        have e2 : (uuidInfoFinish o.verbose n ts).chars = n.chars := by
          unfold uuidInfoFinish; simp only [testFor_chars]
        rw [← e2] at this
        exact this
    · exact .leaf hs fun h4 => by rw [htag, boxName_eq h4]

theorem sizConsistency_chars {o : Options} {nb : Int} {n m : Node} {ih sz}
    (h : sizConsistency o nb n ih sz = .ok m) :
    ∃ more : List Elem, m.chars = n.chars ++ more ∧ more.length ≤ 1 ∧ ∀ e ∈ more, e.tag = "compressionRatio" := by
  unfold sizConsistency at h
  obtain ⟨_, _, h⟩ := Outcome.bind_eq_ok.1 h
  obtain ⟨_, _, h⟩ := Outcome.bind_eq_ok.1 h
  obtain ⟨_, _, h⟩ := Outcome.bind_eq_ok.1 h
  obtain ⟨_, _, h⟩ := Outcome.bind_eq_ok.1 h
  obtain ⟨⟨_, _⟩, _, h⟩ := Outcome.bind_eq_ok.1 h
  simp only at h
  split at h
  · obtain ⟨ds, _, h⟩ := Outcome.bind_eq_ok.1 h
    obtain ⟨hh, _, h⟩ := Outcome.bind_eq_ok.1 h
    obtain ⟨ww, _, h⟩ := Outcome.bind_eq_ok.1 h
    cases h
    refine ⟨[Elem.leaf "compressionRatio" (compressionRatio nb ds hh ww)], ?_, by simp, by simp [Elem.leaf]⟩
    simp only [Node.addChar, testFor_chars]
  · cases h
    exact ⟨[], by simp only [testFor_chars, List.append_nil], by simp, by simp⟩

theorem jp2Last_chars {o : Options} {nb : Int} {n m : Node} (h : jp2Last o nb n = .ok m) :
    ∃ more : List Elem, m.chars = n.chars ++ more ∧ more.length ≤ 1 ∧ ∀ e ∈ more, e.tag = "compressionRatio" := by
  unfold jp2Last at h
  split at h
  · exact sizConsistency_chars h
  · cases h; exact ⟨[], by simp, by simp, by simp⟩

/-- C09 (report): if the analysis of a JP2 or JPH file succeeds, the properties in the report are one
element for each box of the file, in order, with the boxes inside superboxes shown as children of the
element for the superbox; at most a compression ratio follows. -/
theorem C09_report {env : Env} {me : MixEnv} {fs : FS} {fuel : Nat} {o : Options} {mix : Nat} {path : PyStr}
    (hfmt : o.format = .jp2 ∨ o.format = .jph) {rep : Elem}
    (h : checkOneFile env me fs fuel o mix path = .ok rep) (hs : status rep "success" = [.str "True"])
    {bs} (hb : Boxes (bytesRead (fs.read path)) bs) :
    ∃ shown more, contents rep "properties" = shown ++ more ∧ ShowsBoxes bs shown ∧
      more.length ≤ 1 ∧ ∀ e ∈ more, e.tag = "compressionRatio" := by
  obtain ⟨info, a, m, h1, h2, h3, rfl⟩ := checkOneFile_ok.1 h
  have hi := fileInfo_tag h1
  have hp : contents (buildReport o info a (extensionOf o mix a m)) "properties" = a.props := by
    unfold contents; rw [(report_parts hi).2.2.2.2.1]; rfl
  rw [hp]
  rcases analyse_cases h2 with ⟨b, fmm, n, h4, h5, rfl⟩ | ⟨e, h4, rfl⟩
  · obtain ⟨rfl, -⟩ := fileToMemoryMap_ok h4
    have h6 : validateJP2 env o fuel (bytesRead (fs.read path)) = .ok n := by
      unfold validateRoot at h5
      rcases hfmt with hf | hf <;> rw [hf] at h5 <;> exact h5
    obtain ⟨⟨n0, types⟩, hw, h6⟩ := Outcome.bind_eq_ok.1 h6
    obtain ⟨rs, hr, rfl, -⟩ := walkBoxes_ok hb hw
    have hc : ∃ more : List Elem, n.chars = (rs.foldl Node.absorb {}).chars ++ more ∧ more.length ≤ 1 ∧
        ∀ e ∈ more, e.tag = "compressionRatio" := by
      simp only [jp2Finish_eq] at h6
      rw [← jp2Mid_chars o (rs.foldl Node.absorb {}) types]
      exact jp2Last_chars h6
    obtain ⟨more, e1, e2, e3⟩ := hc
    refine ⟨rs.map (fun r => makeHumanReadable env remapTable r.charsElem), makeHumanReadableL env remapTable more,
      ?_, shows_inTurn hr fun x _ r hr => shows_box env o _ _ _ _ r hr, ?_, ?_⟩
    · show makeHumanReadableL env remapTable n.chars = _
      rw [e1, chars_foldl_absorb, readableL_map, readableL_map, List.map_append]
      show List.map _ ([] ++ _) ++ _ = _
      rw [List.nil_append, List.map_map]; rfl
    · rw [readableL_map, List.length_map]; exact e2
    · intro e he
      rw [readableL_map, List.mem_map] at he
      obtain ⟨x, hx, rfl⟩ := he
      rw [readable_tag]; exact e3 x hx
  · unfold status at hs
    rw [(report_parts hi).2.1] at hs
    simp [analysisFailed, Elem.node, Elem.leaf, boolStr, Elem.children] at hs

/-! ## C10 -/

theorem sub_mid (pre x post : Bytes) : sub (pre ++ (x ++ post)) pre.length x.length = x := by
  unfold sub; simp

theorem uint_mid (pre x post : Bytes) : uint (pre ++ (x ++ post)) pre.length x.length = some (be x) := by
  unfold uint
  rw [if_pos (by simp), sub_mid]

theorem sub_mid' {b pre x post : Bytes} {off n : Nat} (hb : b = pre ++ (x ++ post))
    (ho : off = pre.length) (hn : n = x.length) : sub b off n = x := by
  subst hb ho hn; exact sub_mid ..

theorem uint_mid' {b pre x post : Bytes} {off n : Nat} (hb : b = pre ++ (x ++ post))
    (ho : off = pre.length) (hn : n = x.length) : uint b off n = some (be x) := by
  subst hb ho hn; exact uint_mid ..

theorem encodes_from {l : List (Bytes × Bytes)} {enc : Bytes} (h : EncodesBoxes l enc) :
    ∀ pre : Bytes, ∃ bs, BoxesFrom (pre ++ enc) pre.length bs ∧ bs.map (fun x => (x.type, x.payload)) = l := by
  induction h with
  | nil => intro pre; exact ⟨[], .done (by simp), rfl⟩
  | @cons t p e rest es ht he _ ih =>
    intro pre
    obtain ⟨bs, hbs, hl⟩ := ih (pre ++ e)
    refine ⟨⟨pre.length, t, p⟩ :: bs, ?_, by simp [hl]⟩
    cases he with
    | @short L hL hv =>
      have e1 : uint (pre ++ (L ++ t ++ p ++ es)) pre.length 4 = some (8 + p.length) := by
        rw [← hv]; exact uint_mid' (post := t ++ p ++ es) (by simp) rfl hL.symm
      have e2 : sub (pre ++ (L ++ t ++ p ++ es)) (pre.length + 4) 4 = t :=
        sub_mid' (pre := pre ++ L) (post := p ++ es) (by simp) (by simp [hL]) ht.symm
      have e3 : sub (pre ++ (L ++ t ++ p ++ es)) (pre.length + 8) (8 + p.length - 8) = p :=
        sub_mid' (pre := pre ++ L ++ t) (post := es) (by simp) (by simp [hL, ht]) (by omega)
      have hb := BoxAt.short e1 (by omega)
      rw [e2, e3] at hb
      refine .step (n := pre.length + (8 + p.length)) (by simp [hL]; omega) hb ?_
      have : (pre ++ (L ++ t ++ p)).length = pre.length + (8 + p.length) := by simp [hL, ht]; omega
      rw [this, List.append_assoc] at hbs
      exact hbs
    | @long one x h1 hv1 hx hv =>
      have e0 : uint (pre ++ (one ++ t ++ x ++ p ++ es)) pre.length 4 = some 1 := by
        rw [← hv1]; exact uint_mid' (post := t ++ x ++ p ++ es) (by simp) rfl h1.symm
      have e1 : uint (pre ++ (one ++ t ++ x ++ p ++ es)) (pre.length + 8) 8 = some (16 + p.length) := by
        rw [← hv]
        exact uint_mid' (pre := pre ++ one ++ t) (post := p ++ es) (by simp) (by simp [h1, ht]) hx.symm
      have e2 : sub (pre ++ (one ++ t ++ x ++ p ++ es)) (pre.length + 4) 4 = t :=
        sub_mid' (pre := pre ++ one) (post := x ++ p ++ es) (by simp) (by simp [h1]) ht.symm
      have e3 : sub (pre ++ (one ++ t ++ x ++ p ++ es)) (pre.length + 16) (16 + p.length - 16) = p :=
        sub_mid' (pre := pre ++ one ++ t ++ x) (post := es) (by simp) (by simp [h1, ht, hx]) (by omega)
      have hb := BoxAt.long e0 e1 (by omega)
      rw [e2, e3] at hb
      refine .step (n := pre.length + (16 + p.length)) (by simp [h1]; omega) hb ?_
      have : (pre ++ (one ++ t ++ x ++ p)).length = pre.length + (16 + p.length) := by
        simp [h1, ht, hx]; omega
      rw [this, List.append_assoc] at hbs
      exact hbs
  | @toEnd t p ht =>
    intro pre
    refine ⟨[⟨pre.length, t, p⟩], ?_, rfl⟩
    have e1 : uint (pre ++ ([0, 0, 0, 0] ++ t ++ p)) pre.length 4 = some 0 :=
      uint_mid' (x := [0, 0, 0, 0]) (post := t ++ p) (by simp) rfl rfl
    have e2 : sub (pre ++ ([0, 0, 0, 0] ++ t ++ p)) (pre.length + 4) 4 = t :=
      sub_mid' (pre := pre ++ [0, 0, 0, 0]) (post := p) (by simp) (by simp) ht.symm
    have e3 : (pre ++ ([0, 0, 0, 0] ++ t ++ p)).drop (pre.length + 8) = p := by
      have : pre ++ ([0, 0, 0, 0] ++ t ++ p) = (pre ++ [0, 0, 0, 0] ++ t) ++ p := by simp
      rw [this]
      exact List.drop_left' (by simp [ht])
    have hb := BoxAt.toEnd e1
    rw [e2, e3] at hb
    exact .step (by simp) hb (.done (Nat.le_refl _))

/-- C10: the walk over an encoding of boxes recovers exactly their types and payloads, in order. -/
theorem C10_roundtrip {l : List (Bytes × Bytes)} {enc : Bytes} (h : EncodesBoxes l enc) :
    (∃ bs, Boxes enc bs ∧ bs.map (fun x => (x.type, x.payload)) = l) ∧
    ∀ (validate : Bytes → Bytes → Outcome BoxResult) (fuel : Nat), l.length < fuel →
      walkBoxes validate enc fuel = inTurn (fun x => validate x.1 x.2) l >>= fun rs =>
        .ok (rs.foldl Node.absorb {}, l.map (·.1)) := by
  obtain ⟨bs, hb, rfl⟩ := encodes_from h []
  replace hb : Boxes enc bs := hb
  refine ⟨⟨bs, hb, rfl⟩, fun v fuel hf => ?_⟩
  rw [walkBoxes_eq hb (by simpa using hf)]
  have : inTurn (fun x => v x.1 x.2) (bs.map fun x => (x.type, x.payload)) =
      inTurn (fun x => v x.type x.payload) bs := by
    clear hb hf h
    induction bs with
    | nil => rfl
    | cons x xs ih => simp only [List.map_cons, inTurn, ih]
  rw [this, List.map_map]
  rfl

/-- Two boxes, the first with a 64-bit length and the second extending to the end. -/
example : EncodesBoxes [(ascii "abcd", [1, 2]), (ascii "jp2c", [7])]
    (([0, 0, 0, 1] ++ ascii "abcd" ++ [0, 0, 0, 0, 0, 0, 0, 18] ++ [1, 2]) ++ ([0, 0, 0, 0] ++ ascii "jp2c" ++ [7])) :=
  .cons (by decide) (.long (by decide) (by decide) (by decide) (by decide)) (.toEnd (by decide))

/-! ## Concrete cases -/

/-- C08, C09: a signature box inside a resolution box does not pass, since its payload is wrong; its depth
is two. -/
example : HasBox (Sample.box "res " (Sample.box "jP  " [1, 2, 3, 4])) 2 (ascii "jP  ") [1, 2, 3, 4] ∧
    ¬ BoxPasses Sample.env0 (Sample.opts .jp2) (ascii "jP  ") [1, 2, 3, 4] := by
  have inner : Boxes (Sample.box "jP  " [1, 2, 3, 4]) [⟨0, ascii "jP  ", [1, 2, 3, 4]⟩] :=
    .step (n := 12) (by decide) (.short (L := 12) (by decide) (by decide)) (.done (by decide))
  have outer : Boxes (Sample.box "res " (Sample.box "jP  " [1, 2, 3, 4]))
      [⟨0, ascii "res ", Sample.box "jP  " [1, 2, 3, 4]⟩] :=
    .step (n := 20) (by decide) (.short (L := 20) (by decide) (by decide)) (.done (by decide))
  refine ⟨.inside (x := ⟨0, ascii "jP  ", [1, 2, 3, 4]⟩)
    (.top (x := ⟨0, ascii "res ", Sample.box "jP  " [1, 2, 3, 4]⟩) outer (List.mem_singleton.2 rfl)) (by decide) inner
    (List.mem_singleton.2 rfl), ?_⟩
  rintro ⟨fuel, h⟩
  cases fuel with
  | zero => exact not_accepted_of (by decide +kernel) h
  | succ k => exact absurd ((C16_signature _ _ _ _).1 h) (show ¬ _ = _ from by decide)

end Jpy
