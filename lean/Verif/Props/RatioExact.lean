import Verif.Spec.RatioShown
import Verif.Props.Ratio
import Verif.Props.FileRules
/-!
# C39: which number is printed as compression ratio, for every file

Without any restriction on the file, except that its analysis is successful.
-/

namespace Jpy
open Spec

theorem ratioFrom_intro {d h w : Int} {size : Nat} (hs : size ≠ 0) :
    RatioFrom d h w size ⟨d * h * w, 8 * size, 2⟩ :=
  ⟨by show (0 : Int) < 8 * size; omega, rfl, rfl⟩

theorem needInts_ints (l : List Int) : needInts (l.map PyVal.int) = .ok l := by
  induction l with
  | nil => rfl
  | cons a l ih => rw [List.map_cons, needInts, ih]; rfl

/-- The ratio is computed from the image header. -/
theorem image_ratio {o : Options} {nb : Int} {n m : Node} {ihc szc : List Elem} {ih siz : Bytes}
    {hs : List FoundBox} {comps : List (Option Nat)} (hfmt : o.format = .jp2 ∨ o.format = .jph)
    (h : sizConsistency o nb n ihc szc = .ok m)
    (hih : ∀ s v, repOf s (imageHeaderBox ih) = [v] → Elem.findElementText ihc [s] = some v)
    (z1 : Elem.findElementText szc ["xsiz"] = some (.int (intOf (uint siz 4 4))))
    (z2 : Elem.findElementText szc ["ysiz"] = some (.int (intOf (uint siz 8 4))))
    (z3 : Elem.findElementText szc ["xOsiz"] = some (.int (intOf (uint siz 12 4))))
    (z4 : Elem.findElementText szc ["yOsiz"] = some (.int (intOf (uint siz 16 4))))
    (hb : ∀ x, FirstBox hs "bpcc" x → ∃ e, Elem.find n.chars ["jp2HeaderBox", "bitsPerComponentBox"] = some e ∧
      ∀ s, Elem.findAllText e.children [s] = repOf s (bitsPerComponentBox x.payload))
    (hnb : ¬ Has hs "bpcc" → Elem.find n.chars ["jp2HeaderBox", "bitsPerComponentBox"] = none)
    (hcomps : ComponentBytes hs ih comps) :
    m.chars = n.chars ++ [Elem.leaf "compressionRatio" (compressionRatio nb (comps.map shownDepth)
      (shownNum (uint ih 0 4)) (shownNum (uint ih 4 4)))] := by
  obtain ⟨-, -, f3, f4, f5, f6, f7⟩ := ihdr_fields ih
  have g3 := hih _ _ f3
  have g4 := hih _ _ f4
  have g5 := hih _ _ f5
  have g6 := hih _ _ f6
  have g7 := hih _ _ f7
  have hcv : bpcValues n.chars (some (.int (intOf (uint ih 8 2))))
      (some (.int (getBitValue (intOf (uint ih 10 1)) 1))) (some (.int (low (intOf (uint ih 10 1)) 7 + 1))) =
      .ok (comps.map fun v => PyVal.int (shownSign v), comps.map fun v => PyVal.int (shownDepth v)) := by
    unfold bpcValues
    cases hcomps with
    | same hne =>
      rw [if_neg (fun e => hne (byte255.1 e))]
      simp only [needInt, Outcome.bind_ok, Option.getD_some, sign_shown, depth_shown,
        List.map_replicate, rangeLen]
      rw [num_shown]
    | listed he hx =>
      obtain ⟨e, h1, h2⟩ := hb _ hx
      rw [if_pos (byte255.2 he), h1]
      simp only [h2, (bpcc_fields _).1, (bpcc_fields _).2, sign_shown, depth_shown, List.map_map]
      rfl
    | none he hx =>
      rw [if_pos (byte255.2 he), hnb hx]
      rfl
  have hd : (comps.map fun v => PyVal.int (shownDepth v)) = (comps.map shownDepth).map PyVal.int := by
    rw [List.map_map]; rfl
  unfold sizConsistency at h
  rw [g3, g4, g5, g6, g7, z1, z2, z3, z4] at h
  simp only [needInt, Outcome.bind_ok, testFor_chars, hcv] at h
  rw [if_pos hfmt, hd, needInts_ints] at h
  simp only [Outcome.bind_ok] at h
  cases h
  simp only [Node.addChar, testFor_chars, num_shown]

theorem ratios_none {o info mix m env n fmm} (hi : info.tag = "fileInfo")
    (hc : ∀ e ∈ n.chars, e.tag ≠ "compressionRatio") :
    ratios (buildReport o info (analysisOf env n fmm) (extensionOf o mix (analysisOf env n fmm) m)) = [] := by
  unfold ratios contents
  rw [(report_parts hi).2.2.2.2.1]
  show ((makeHumanReadableL env remapTable n.chars).filter _).map _ = _
  rw [readableL_map, List.map_eq_nil_iff, List.filter_eq_nil_iff]
  intro e he
  obtain ⟨x, hx, rfl⟩ := List.mem_map.1 he
  rw [readable_tag]
  simpa using hc x hx

theorem boxResults_tags {env o fuel} {bs : List FoundBox} {rs : List BoxResult}
    (h : inTurn (fun x : FoundBox => validateBox env o fuel x.type x.payload) bs = .ok rs) :
    ∀ e ∈ rs.map (·.charsElem), e.tag ≠ "compressionRatio" := by
  intro e he
  obtain ⟨r, hr, rfl⟩ := List.mem_map.1 he
  obtain ⟨x, -, hx⟩ := inTurn_mem' h hr
  show r.tag ≠ _
  rw [validateBox_tag hx]
  cases boxTypeOf x.type <;> decide

/-- The ratio in the analysis of a file. -/
theorem jp2_ratio (env : Env) (o : Options) (fuel : Nat) (b : Bytes) (n : Node)
    (hfmt : o.format = .jp2 ∨ o.format = .jph)
    (h : validateJP2 env o fuel b = .ok n) {bs hs} (hb : Boxes b bs) (hc : HeaderContents bs hs) :
    ∃ pre, (∀ e ∈ pre, e.tag ≠ "compressionRatio") ∧
    (∀ ih siz comps, FirstBox hs "ihdr" ih → FirstSiz bs siz → ComponentBytes hs ih.payload comps →
      n.chars = pre ++ [Elem.leaf "compressionRatio" (compressionRatio b.length (comps.map shownDepth)
        (shownNum (uint ih.payload 0 4)) (shownNum (uint ih.payload 4 4)))]) ∧
    (¬ Has hs "ihdr" ∨ (¬ ∃ siz, FirstSiz bs siz) → n.chars = pre) := by
  obtain ⟨⟨n0, types⟩, hw, h⟩ := Outcome.bind_eq_ok.1 h
  obtain ⟨rs, hr, rfl, rfl⟩ := walkBoxes_ok hb hw
  simp only [jp2Finish_eq] at h
  have hch : (rs.foldl Node.absorb {}).chars = rs.map (·.charsElem) := by rw [chars_foldl_absorb]; rfl
  have hmid := jp2Mid_chars o (rs.foldl Node.absorb {}) (bs.map (·.type))
  obtain ⟨hrs, g1, g2⟩ := header_lookup hc hr
  have g3 : ∀ u, Elem.find (jp2Mid o (rs.foldl Node.absorb {}) (bs.map (·.type))).chars ["jp2HeaderBox", u] =
      Elem.find (hrs.map (·.charsElem)) [u] := by
    intro u
    unfold Elem.find
    rw [hmid, hch, g2]
  obtain ⟨s1, s2⟩ := siz_element_lookup hr
  rw [← hch, ← hmid] at s1 s2
  unfold jp2Last at h
  rw [g3] at h
  have htags := boxResults_tags hr
  rw [← hch, ← hmid] at htags
  generalize hmd : jp2Mid o (rs.foldl Node.absorb {}) (bs.map (·.type)) = mid at *
  refine ⟨mid.chars, htags, ?_, ?_⟩
  · intro ih siz0 comps hx hz hcomps
    obtain ⟨r, hv, hf⟩ := find_first g1 hx (bt := .imageHeaderBox) (by decide) (by decide)
    obtain ⟨k, rz, es, hz1, hz2⟩ := s1 siz0 hz
    have hf' : Elem.find (hrs.map (·.charsElem)) ["imageHeaderBox"] = some r.charsElem := hf
    rw [hf', find_of_findall hz2] at h
    simp only at h
    obtain ⟨-, -, z1, z2, z3, z4, -, -, -⟩ := siz_text hz1
    have one : ∀ {s v}, reported rz.node s = [v] → Elem.findElementText rz.charsElem.children [s] = some v := by
      intro s v e
      rw [findElementText_eq]
      show ((reported rz.node s).head?) = some v
      rw [e]; rfl
    refine image_ratio hfmt h ?_ (one z1) (one z2) (one z3) (one z4) ?_ ?_ hcomps
    · intro s v e
      rw [findElementText_eq]
      show (Elem.findAllText r.node.chars [s]).head? = some v
      rw [ihdr_result hv, e]; rfl
    · intro x hx
      obtain ⟨rb, hv, hf⟩ := find_first g1 hx (bt := .bitsPerComponentBox) (by decide) (by decide)
      exact ⟨rb.charsElem, (g3 _).trans hf, fun s => bpcc_result hv s⟩
    · intro hx
      exact (g3 _).trans (find_absent g1 hx (bt := .bitsPerComponentBox) (by decide) (by decide))
  · intro hno
    have hn : n = mid := by
      rcases hno with hi | hz
      · have e : Elem.find (hrs.map (·.charsElem)) ["imageHeaderBox"] = none :=
          find_absent g1 hi (bt := .imageHeaderBox) (by decide) (by decide)
        rw [e] at h
        split at h
        · contradiction
        · exact (Outcome.ok.inj h).symm
      · have e : Elem.find mid.chars ["contiguousCodestreamBox", "siz"] = none := by
          unfold Elem.find
          rw [s2 hz]; rfl
        rw [e] at h
        split at h
        · contradiction
        · exact (Outcome.ok.inj h).symm
    rw [hn]

/-- The ratio in the analysis of a codestream by itself. -/
theorem codestream_ratio' {env : Env} {o : Options} {fuel : Nat} {b siz : Bytes} {next} {n : Node}
    (hfmt : o.format = .j2c ∨ o.format = .jhc) (hs : SecondIsSiz b siz next)
    (h : codestream env o fuel b = .ok n) :
    ∃ pre, (∀ e ∈ pre, e.tag ≠ "compressionRatio") ∧
      n.chars = pre ++ [Elem.leaf "compressionRatio" (compressionRatio b.length ((sizBytes siz).map shownDepth)
        (shownNum (uint siz 8 4) - shownNum (uint siz 12 4)) (shownNum (uint siz 4 4) - shownNum (uint siz 12 4)))] := by
  obtain ⟨m0, c0, k, h0, hsz⟩ := hs
  rw [codestream_eq h0 rfl hsz] at h
  obtain ⟨r, h1, h⟩ := Outcome.bind_eq_ok.1 h
  obtain ⟨csiz, h2, h⟩ := Outcome.bind_eq_ok.1 h
  obtain ⟨s, h3, h⟩ := Outcome.bind_eq_ok.1 h
  obtain ⟨rsiz, h4, h⟩ := Outcome.bind_eq_ok.1 h
  obtain ⟨tiles, h5, h⟩ := Outcome.bind_eq_ok.1 h
  obtain ⟨t, h6, h⟩ := Outcome.bind_eq_ok.1 h
  obtain ⟨rtag, -, z1, z2, z3, z4, z5, -, z7⟩ := siz_text h1
  have hst : ∀ e ∈ (headNode o b r).chars, e.tag ≠ "compressionRatio" := by
    intro e he
    rw [headNode_chars, List.mem_singleton] at he
    subst he
    show r.tag ≠ _
    rw [rtag]; decide
  have htags := mainLoop_tags (t := "compressionRatio")
    (fun m c k r hr => by rw [validateLeaf_tag hr]; cases boxTypeOf m <;> decide) h3 hst
  have hd : ((List.range (rangeLen (intOf (uint siz 36 2)))).map fun i =>
      PyVal.int (low (intOf (uint siz (38 + 3 * i) 1)) 7 + 1)) = ((sizBytes siz).map shownDepth).map PyVal.int := by
    unfold sizBytes
    rw [List.map_map, List.map_map, num_shown]
    simp only [depth_shown]
    rfl
  unfold codestreamFinish at h
  simp only at h
  rw [if_pos hfmt, reported_all z7, hd, needInts_ints, reported_text z1, reported_text z2, reported_text z3] at h
  simp only [needInt, Outcome.bind_ok] at h
  cases h
  refine ⟨(mainNode o s rsiz).chars ++ [({ tag := "tileParts", node := t.node } : BoxResult).charsElem], ?_, ?_⟩
  · intro e he
    rcases List.mem_append.1 he with he | he
    · unfold mainNode at he
      simp only [testIf_chars, testFor_chars, Node.addChar, List.mem_append, List.mem_singleton] at he
      rcases he with (he | rfl) | rfl
      · exact htags e he
      · exact (show "ppmCount" ≠ "compressionRatio" by decide)
      · exact (show "plmCount" ≠ "compressionRatio" by decide)
    · rw [List.mem_singleton] at he
      subst he
      show "tileParts" ≠ _
      decide
  · simp only [Node.addChar, testFor_chars, testIf_chars, absorb_chars, num_shown]

section
variable {env : Env} {me : MixEnv} {fs : FS} {fuel : Nat} {o : Options} {mix : Nat} {path : PyStr}

/-- C39, exactly, for every JP2 or JPH file, valid or not, whose analysis succeeds: the ratio is that of the image
described by the first image header box, with the depths it gives for its components (all values as shown),
over the size of the file. There is none if the file has no image header box or no SIZ segment. -/
theorem C39_jp2_exact (hfmt : o.format = .jp2 ∨ o.format = .jph) {rep : Elem}
    (h : checkOneFile env me fs fuel o mix path = .ok rep) (hsucc : status rep "success" = [.str "True"])
    {bs hs} (hb : Boxes (bytesRead (fs.read path)) bs) (hc : HeaderContents bs hs) :
    (∀ ih siz comps, FirstBox hs "ihdr" ih → FirstSiz bs siz → ComponentBytes hs ih.payload comps →
      ∃ q, RatioFrom (comps.map shownDepth).sum (shownNum (uint ih.payload 0 4)) (shownNum (uint ih.payload 4 4))
        (bytesRead (fs.read path)).length q ∧ ratios rep = [.str (env.floatStr q)]) ∧
    (¬ Has hs "ihdr" ∨ (¬ ∃ siz, FirstSiz bs siz) → ratios rep = []) := by
  obtain ⟨info, a, m, h1, h2, h3, rfl⟩ := checkOneFile_ok.1 h
  have hi := fileInfo_tag h1
  rcases analyse_cases h2 with ⟨b, fmm, n, h4, h5, rfl⟩ | ⟨e, -, rfl⟩
  rotate_left
  · unfold status at hsucc
    rw [(report_parts hi).2.1] at hsucc
    simp [analysisFailed, Elem.node, Elem.leaf, boolStr, Elem.children] at hsucc
  obtain ⟨rfl, -⟩ := fileToMemoryMap_ok h4
  have h6 : validateJP2 env o fuel (bytesRead (fs.read path)) = .ok n := by
    unfold validateRoot at h5
    rcases hfmt with hf | hf <;> rw [hf] at h5 <;> exact h5
  obtain ⟨pre, hpre, h7, h8⟩ := jp2_ratio env o fuel _ n hfmt h6 hb hc
  refine ⟨fun ih siz comps a b c => ?_, fun hno => ratios_none hi (by rw [h8 hno]; exact hpre)⟩
  have hlen : (bytesRead (fs.read path)).length ≠ 0 := by
    intro h0
    rw [List.eq_nil_of_length_eq_zero h0] at hb
    have := boxes_unique hb (.done (Nat.le_refl 0))
    subst this
    obtain ⟨x, y, z, e, -⟩ := b
    cases x <;> cases e
  have h9 := h7 ih siz comps a b c
  rw [compressionRatio_pos hlen] at h9
  exact ⟨_, ratioFrom_intro hlen, ratios_eq hi hpre h9⟩

/-- C39, exactly, for every codestream by itself, valid or not, whose analysis succeeds: the ratio is computed with
the horizontal offset XOsiz in place of the vertical offset YOsiz, from the values of the SIZ segment as shown.
There is none if the second segment is not SIZ. -/
theorem C39_codestream_exact (hfmt : o.format = .j2c ∨ o.format = .jhc) {rep : Elem}
    (h : checkOneFile env me fs fuel o mix path = .ok rep) (hsucc : status rep "success" = [.str "True"]) :
    (∀ siz next, SecondIsSiz (bytesRead (fs.read path)) siz next →
      ∃ q, RatioFrom ((sizBytes siz).map shownDepth).sum (shownNum (uint siz 8 4) - shownNum (uint siz 12 4))
        (shownNum (uint siz 4 4) - shownNum (uint siz 12 4)) (bytesRead (fs.read path)).length q ∧
        ratios rep = [.str (env.floatStr q)]) ∧
    ((¬ ∃ siz next, SecondIsSiz (bytesRead (fs.read path)) siz next) → ratios rep = []) := by
  obtain ⟨info, a, m, h1, h2, h3, rfl⟩ := checkOneFile_ok.1 h
  have hi := fileInfo_tag h1
  rcases analyse_cases h2 with ⟨b, fmm, n, h4, h5, rfl⟩ | ⟨e, -, rfl⟩
  rotate_left
  · unfold status at hsucc
    rw [(report_parts hi).2.1] at hsucc
    simp [analysisFailed, Elem.node, Elem.leaf, boolStr, Elem.children] at hsucc
  obtain ⟨rfl, -⟩ := fileToMemoryMap_ok h4
  have h6 : codestream env o fuel (bytesRead (fs.read path)) = .ok n := by
    unfold validateRoot at h5
    rcases hfmt with hf | hf <;> rw [hf] at h5 <;> exact h5
  refine ⟨fun siz next hs => ?_, fun hno => ratios_none hi (by rw [codestream_empty h6 hno]; simp)⟩
  obtain ⟨pre, hpre, hch⟩ := codestream_ratio' hfmt hs h6
  have hlen : (bytesRead (fs.read path)).length ≠ 0 := by
    intro h0
    rw [List.eq_nil_of_length_eq_zero h0] at hs
    obtain ⟨m0, c0, k, g0, g1⟩ := hs
    have := segAt_marker g1
    simp [sub] at this
    exact absurd this (by decide)
  rw [compressionRatio_pos hlen] at hch
  exact ⟨_, ratioFrom_intro hlen, ratios_eq hi hpre hch⟩

end

/-! ## The hypotheses are met -/

theorem componentBytes_exists (hs : List FoundBox) (ih : Bytes) : ∃ comps, ComponentBytes hs ih comps := by
  by_cases e : uint ih 10 1 = some 255
  · by_cases hb : Has hs "bpcc"
    · obtain ⟨y, hy⟩ := first_exists hb
      exact ⟨_, .listed e hy⟩
    · exact ⟨_, .none e hb⟩
  · exact ⟨_, .same e⟩

/-- The sample JP2 file without its first box is not valid, and has a ratio. -/
example : ∃ rep bs hs ih siz comps,
    checkOneFile Sample.env0 Sample.me0 (Sample.fs0 (Sample.jp2b.drop 12)) 200 (Sample.opts .jp2) 0 [97] = .ok rep ∧
    status rep "success" = [.str "True"] ∧ verdict rep = some (.str "False") ∧
    Boxes (Sample.jp2b.drop 12) bs ∧ HeaderContents bs hs ∧ FirstBox hs "ihdr" ih ∧ FirstSiz bs siz ∧
    ComponentBytes hs ih.payload comps := by
  have key : (match checkOneFile Sample.env0 Sample.me0 (Sample.fs0 (Sample.jp2b.drop 12)) 200 (Sample.opts .jp2) 0 [97]
    with | .ok rep => decide (status rep "success" = [.str "True"]) && decide (verdict rep = some (.str "False")) &&
            ! (ratios rep).isEmpty
         | _ => false) = true := by decide +kernel
  cases h : checkOneFile Sample.env0 Sample.me0 (Sample.fs0 (Sample.jp2b.drop 12)) 200 (Sample.opts .jp2) 0 [97] with
  | ok rep =>
    rw [h] at key
    simp only [Bool.and_eq_true, decide_eq_true_eq, Bool.not_eq_true', List.isEmpty_eq_false_iff] at key
    obtain ⟨⟨k1, k2⟩, k3⟩ := key
    obtain ⟨bs, hb⟩ := boxes_exists (Sample.jp2b.drop 12)
    obtain ⟨hs, hc⟩ := headerContents_exists bs
    have hx := (C39_jp2_exact (.inl rfl) h k1 hb hc).2
    have h1 : Has hs "ihdr" := Classical.byContradiction fun hn => k3 (hx (.inl hn))
    have h2 : ∃ siz, FirstSiz bs siz := Classical.byContradiction fun hn => k3 (hx (.inr hn))
    obtain ⟨ih, h1⟩ := first_exists h1
    obtain ⟨siz, h2⟩ := h2
    obtain ⟨comps, h3⟩ := componentBytes_exists hs ih.payload
    exact ⟨rep, bs, hs, ih, siz, comps, rfl, k1, k2, hb, hc, h1, h2, h3⟩
  | raised e => rw [h] at key; exact nomatch key
  | timeout => rw [h] at key; exact nomatch key

/-- A codestream that is cut off within a tile-part is not valid, and has a ratio. -/
example : ∃ rep siz next,
    checkOneFile Sample.env0 Sample.me0 (Sample.fs0 (Sample.csOffset.take (Sample.csOffset.length - 3))) 200
      (Sample.opts .j2c) 0 [97] = .ok rep ∧
    status rep "success" = [.str "True"] ∧ verdict rep = some (.str "False") ∧
    SecondIsSiz (Sample.csOffset.take (Sample.csOffset.length - 3)) siz next := by
  have key : (match checkOneFile Sample.env0 Sample.me0 (Sample.fs0 (Sample.csOffset.take (Sample.csOffset.length - 3))) 200
        (Sample.opts .j2c) 0 [97]
    with | .ok rep => decide (status rep "success" = [.str "True"]) && decide (verdict rep = some (.str "False")) &&
            ! (ratios rep).isEmpty
         | _ => false) = true := by decide +kernel
  cases h : checkOneFile Sample.env0 Sample.me0 (Sample.fs0 (Sample.csOffset.take (Sample.csOffset.length - 3))) 200
      (Sample.opts .j2c) 0 [97] with
  | ok rep =>
    rw [h] at key
    simp only [Bool.and_eq_true, decide_eq_true_eq, Bool.not_eq_true', List.isEmpty_eq_false_iff] at key
    obtain ⟨⟨k1, k2⟩, k3⟩ := key
    have hx := (C39_codestream_exact (.inl rfl) h k1).2
    obtain ⟨siz, next, h1⟩ : ∃ siz next, SecondIsSiz _ siz next :=
      Classical.byContradiction fun hn => k3 (hx hn)
    exact ⟨rep, siz, next, rfl, k1, k2, h1⟩
  | raised e => rw [h] at key; exact nomatch key
  | timeout => rw [h] at key; exact nomatch key

end Jpy
