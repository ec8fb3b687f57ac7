import Verif.Spec.Ratio
import Verif.Props.Files
import Verif.Props.Walk
import Verif.Lemmas.Sample
/-!
# C39: the compression ratio
-/

set_option linter.unusedSimpArgs false

namespace Jpy
open Spec

theorem readable_ratio (env : Env) (q : PyFloat) :
    makeHumanReadable env remapTable (Elem.leaf "compressionRatio" (.flt q)) =
      Elem.leaf "compressionRatio" (.str (env.floatStr q)) := by
  unfold Elem.leaf
  rw [makeHumanReadable]
  have : readableText env remapTable "compressionRatio" (.flt q) = .str (env.floatStr q) := by
    unfold readableText remapped
    have : remapTable.lookup "compressionRatio" = none := by decide +kernel
    rw [this]; rfl
  rw [this]; rfl

/-- The ratios of a report of a successful analysis. -/
theorem ratios_eq {o info mix m env n fmm} (hi : info.tag = "fileInfo") {pre : List Elem} {q : PyFloat}
    (hpre : ∀ e ∈ pre, e.tag ≠ "compressionRatio")
    (hc : n.chars = pre ++ [Elem.leaf "compressionRatio" (.flt q)]) :
    ratios (buildReport o info (analysisOf env n fmm) (extensionOf o mix (analysisOf env n fmm) m)) =
      [.str (env.floatStr q)] := by
  unfold ratios contents
  rw [(report_parts hi).2.2.2.2.1]
  show ((makeHumanReadableL env remapTable n.chars).filter _).map _ = _
  rw [hc, readableL_map, List.map_append, List.filter_append]
  have : (List.map (makeHumanReadable env remapTable) pre).filter (fun e => e.tag == "compressionRatio") = [] := by
    rw [List.filter_eq_nil_iff]
    intro e he
    obtain ⟨x, hx, rfl⟩ := List.mem_map.1 he
    rw [readable_tag]
    simpa using hpre x hx
  rw [this, List.map_cons, List.map_nil, readable_ratio]
  rfl

theorem sum_depths (siz : Bytes) (nc : Nat) :
    ((List.range nc).map fun i => low (((uint siz (38 + 3 * i) 1).getD 0 : Nat) : Int) 7 + 1).sum =
      ((((List.range nc).map fun i => (uint siz (38 + 3 * i) 1).getD 0).map depth).sum : Nat) := by
  induction nc with
  | zero => rfl
  | succ n ih =>
    rw [List.range_succ, List.map_append, List.sum_append, ih, List.map_append, List.map_append,
      List.sum_append, Int.natCast_add]
    congr 1

/-- The value computed from the fields is the ratio. -/
theorem ratioOf_intro {siz : Bytes} {size x y x0 y0 nc : Nat} {h w : Int} (hs : size ≠ 0)
    (h1 : uint siz 4 4 = some x) (h2 : uint siz 8 4 = some y) (h3 : uint siz 12 4 = some x0)
    (h4 : uint siz 16 4 = some y0) (h5 : uint siz 36 2 = some nc)
    (h6 : ∀ i < nc, ∃ s, uint siz (38 + 3 * i) 1 = some s) (hh : h = (y : Int) - y0) (hw : w = (x : Int) - x0) :
    RatioOf siz size ⟨((List.range nc).map fun i =>
      low (((uint siz (38 + 3 * i) 1).getD 0 : Nat) : Int) 7 + 1).sum * h * w, 8 * size, 2⟩ := by
  refine ⟨x, y, x0, y0, nc, (List.range nc).map fun i => (uint siz (38 + 3 * i) 1).getD 0, h1, h2, h3, h4, h5,
    by simp, fun i hi => ?_, ?_, ?_, rfl⟩
  · obtain ⟨s, hs⟩ := h6 i hi
    rw [List.getElem?_map, List.getElem?_range hi, hs]
    simp [hs]
  · show (0 : Int) < 8 * size
    omega
  · rw [sum_depths, hh, hw]

theorem compressionRatio_pos {size : Nat} (h : size ≠ 0) (d : List Int) (hh w : Int) :
    compressionRatio size d hh w = .flt ⟨d.sum * hh * w, 8 * size, 2⟩ := by
  unfold compressionRatio
  rw [if_pos (by omega)]

section
variable {env : Env} {me : MixEnv} {fs : FS} {fuel : Nat} {o : Options} {mix : Nat} {path : PyStr}

/-- C39 (JP2 and JPH): a file reported valid has one compression ratio in its report: the samples of its
first codestream over the size of the file. -/
theorem C39_jp2 (hfmt : o.format = .jp2 ∨ o.format = .jph) {rep : Elem}
    (h : checkOneFile env me fs fuel o mix path = .ok rep) (hv : verdict rep = some (.str "True")) :
    ∃ cs siz q, CodestreamOf (bytesRead (fs.read path)) cs ∧ SizOf cs siz ∧
      RatioOf siz (bytesRead (fs.read path)).length q ∧ ratios rep = [.str (env.floatStr q)] := by
  have hval : ReportedValid env me fs fuel o mix path := ⟨rep, h, hv⟩
  obtain ⟨info, a, m, h1, h2, h3, rfl⟩ := checkOneFile_ok.1 h
  have hi := fileInfo_tag h1
  rw [verdict_eq hi] at hv
  rcases analyse_cases h2 with ⟨b, fmm, n, h4, h5, rfl⟩ | ⟨e, -, rfl⟩
  rotate_left
  · simp [analysisFailed, boolStr] at hv
  obtain ⟨rfl, -⟩ := fileToMemoryMap_ok h4
  have hn : n.isValid = true := by simpa [analysisOf, boolStr_true] using hv
  have h6 : validateJP2 env o fuel (bytesRead (fs.read path)) = .ok n := by
    unfold validateRoot at h5
    rcases hfmt with hf | hf <;> rw [hf] at h5 <;> exact h5
  obtain ⟨l, hl, hh, w, nc, rs, hrs, q1, q2, q3, q4⟩ := jp2_forward' hfmt h6 hn
  have hcs := hl.passes l.cs mem_boxes.2.2.2
  rw [hl.cs] at hcs
  obtain ⟨p, hp⟩ := (C23_codestream env o l.cs.payload).1 (passes_cs hcs)
  obtain ⟨h', w', nc', x, y, x0, y0, bpc, g1, g2, g3, g4, g5, g6, g7, g8, g9, g10, g11, g12, g13⟩ := hl.image
  rw [q1] at g1; cases g1
  rw [q2] at g2; cases g2
  rw [q3] at g11; cases g11
  have hlen : (bytesRead (fs.read path)).length ≠ 0 := by
    intro h0
    have e : bytesRead (fs.read path) = [] := List.eq_nil_of_length_eq_zero h0
    have hb := hl.boxes
    rw [e] at hb
    exact absurd (boxes_unique hb (.done (Nat.le_refl 0))) (by simp)
  rw [compressionRatio_pos hlen] at q4
  refine ⟨l.cs.payload, l.siz, _, layout_cs hl, ⟨hp.soc, hl.siz⟩, ?_, ratios_eq hi ?_ q4⟩
  · refine ratioOf_intro hlen g5 g6 g7 g8 q3 (fun i hi => ?_) (by omega) (by omega)
    by_cases hb : bpc = 255
    · obtain ⟨xb, -, -, hxl, hxv⟩ := g13 hb
      rw [hxv i hi, uint_pos (by omega)]
      exact ⟨_, rfl⟩
    · exact ⟨bpc, g12 hb i hi⟩
  · intro e he
    obtain ⟨r, hr, rfl⟩ := List.mem_map.1 he
    exact hrs r hr

end

/-- A file with three components meets the hypotheses. -/
example : ∃ rep, checkOneFile Sample.env0 Sample.me0 (Sample.fs0 Sample.jp2b) 200 (Sample.opts .jp2) 0 [97] = .ok rep ∧
    verdict rep = some (.str "True") :=
  let ⟨rep, h, hv, _⟩ := Sample.saysValid_ok Sample.jp2b_report
  ⟨rep, h, hv⟩

/-! ## Codestreams -/

theorem absorb_tags {n : Node} {r : BoxResult} {t : String} (hn : ∀ e ∈ n.chars, e.tag ≠ t) (hr : r.tag ≠ t) :
    ∀ e ∈ (n.absorb r).chars, e.tag ≠ t := by
  intro e he
  rw [absorb_chars, List.mem_append] at he
  rcases he with he | he
  · exact hn e he
  · rw [List.mem_singleton] at he
    subst he
    exact hr

theorem mainStep_tags {seg : Bytes → Bytes → Option Int → Outcome BoxResult} {pm csiz b t}
    (hseg : ∀ m c k r, seg m c k = .ok r → r.tag ≠ t) {s s' : MainState}
    (h : mainStep seg pm csiz b s = .ok s') (hs : ∀ e ∈ s.node.chars, e.tag ≠ t) :
    ∀ e ∈ s'.node.chars, e.tag ≠ t := by
  rw [mainStep_eq] at h
  simp only at h
  split at h
  · obtain ⟨r, hr, h⟩ := Outcome.bind_eq_ok.1 h
    cases h
    simp only
    split
    · unfold Node.absorbPacket
      split
      · exact absorb_tags hs (hseg _ _ _ _ hr)
      · exact hs
    · exact absorb_tags hs (hseg _ _ _ _ hr)
  · cases h; exact hs

theorem mainLoop_tags {seg : Bytes → Bytes → Option Int → Outcome BoxResult} {pm csiz b t}
    (hseg : ∀ m c k r, seg m c k = .ok r → r.tag ≠ t) : ∀ {fuel : Nat} {s s' : MainState},
    mainLoop seg pm csiz b fuel s = .ok s' → (∀ e ∈ s.node.chars, e.tag ≠ t) →
    ∀ e ∈ s'.node.chars, e.tag ≠ t
  | 0, s, s', h, _ => by cases h
  | fuel + 1, s, s', h, hs => by
    rw [mainLoop] at h
    split at h
    · obtain ⟨s1, h1, h2⟩ := Outcome.bind_eq_ok.1 h
      exact mainLoop_tags hseg h2 (mainStep_tags hseg h1 hs)
    · cases h; exact hs

/-- The codestream alone: the last property is the ratio computed with XOsiz in place of YOsiz. -/
theorem codestream_ratio {env : Env} {o : Options} {fuel : Nat} {b siz : Bytes} {n : Node}
    (hfmt : o.format = .j2c ∨ o.format = .jhc) (hs : SizOf b siz) (hc : SizComplete siz)
    (h : codestream env o fuel b = .ok n) :
    ∃ pre x y x0 nc, (∀ e ∈ pre, e.tag ≠ "compressionRatio") ∧
      uint siz 4 4 = some x ∧ uint siz 8 4 = some y ∧ uint siz 12 4 = some x0 ∧ uint siz 36 2 = some nc ∧
      n.chars = pre ++ [Elem.leaf "compressionRatio" (compressionRatio b.length
        ((List.range nc).map fun i => low (((uint siz (38 + 3 * i) 1).getD 0 : Nat) : Int) 7 + 1)
        ((y : Int) - x0) ((x : Int) - x0))] := by
  obtain ⟨hsoc, nn, hsz⟩ := hs
  have h0 : SegAt b 0 (sub b 0 2) [] (some (0 + 2)) := .alone (by rw [hsoc]; decide)
  rw [codestream_eq h0 rfl hsz] at h
  obtain ⟨r, h1, h⟩ := Outcome.bind_eq_ok.1 h
  obtain ⟨csiz, h2, h⟩ := Outcome.bind_eq_ok.1 h
  obtain ⟨s, h3, h⟩ := Outcome.bind_eq_ok.1 h
  obtain ⟨rsiz, h4, h⟩ := Outcome.bind_eq_ok.1 h
  obtain ⟨tiles, h5, h⟩ := Outcome.bind_eq_ok.1 h
  obtain ⟨t, h6, h⟩ := Outcome.bind_eq_ok.1 h
  obtain ⟨rtag, -, z1, z2, z3, z4, z5, -, z7⟩ := siz_text h1
  obtain ⟨nc, e5, hlen⟩ := hc
  obtain ⟨x, e1⟩ : ∃ x, uint siz 4 4 = some x := ⟨_, uint_pos (by omega)⟩
  obtain ⟨y, e2⟩ : ∃ x, uint siz 8 4 = some x := ⟨_, uint_pos (by omega)⟩
  obtain ⟨x0, e3⟩ : ∃ x, uint siz 12 4 = some x := ⟨_, uint_pos (by omega)⟩
  rw [e1] at z1; rw [e2] at z2; rw [e3] at z3; rw [e5] at z7
  have hst : ∀ e ∈ (headNode o b r).chars, e.tag ≠ "compressionRatio" := by
    intro e he
    rw [headNode_chars, List.mem_singleton] at he
    subst he
    show r.tag ≠ _
    rw [rtag]; decide
  have htags := mainLoop_tags (t := "compressionRatio")
    (fun m c k r hr => by rw [validateLeaf_tag hr]; cases boxTypeOf m <;> decide) h3 hst
  unfold codestreamFinish at h
  simp only at h
  rw [if_pos hfmt, reported_all z7, needInts_map, reported_text z1, reported_text z2, reported_text z3] at h
  simp only [needInt, Outcome.bind_ok] at h
  cases h
  refine ⟨(mainNode o s rsiz).chars ++ [({ tag := "tileParts", node := t.node } : BoxResult).charsElem],
    x, y, x0, nc, ?_, e1, e2, e3, e5, ?_⟩
  · intro e he
    rcases List.mem_append.1 he with he | he
    · unfold mainNode at he
      simp only [testIf_chars, testFor_chars, Node.addChar, List.mem_append, List.mem_singleton] at he
      rcases he with (he | rfl) | rfl
      · exact htags e he
      · exact (show "ppmCount" ≠ "compressionRatio" by decide)
      · exact (show "plmCount" ≠ "compressionRatio" by decide)
    · rw [List.mem_singleton] at he
      subst he
      show "tileParts" ≠ _
      decide
  · simp only [Node.addChar, testFor_chars, testIf_chars, absorb_chars]
    congr 4
    simp only [intOf, rangeLen, Int.toNat_natCast]
    apply List.map_congr_left
    intro i hi
    rw [List.mem_range] at hi
    rw [uint_pos (by omega)]
    rfl

section
variable {env : Env} {me : MixEnv} {fs : FS} {fuel : Nat} {o : Options} {mix : Nat} {path : PyStr}

/-- C39 (codestreams): for an image whose two offsets are equal, the report of a successful analysis has
one compression ratio, the samples over the size. Missing: images with different offsets, for which the
ratio is wrong (`C39_false`). -/
theorem C39_codestream_partial (hfmt : o.format = .j2c ∨ o.format = .jhc) {rep : Elem}
    (h : checkOneFile env me fs fuel o mix path = .ok rep) (hsucc : status rep "success" = [.str "True"])
    {siz : Bytes} (hs : SizOf (bytesRead (fs.read path)) siz) (hc : SizComplete siz)
    (hoff : uint siz 12 4 = uint siz 16 4) :
    ∃ q, RatioOf siz (bytesRead (fs.read path)).length q ∧ ratios rep = [.str (env.floatStr q)] := by
  obtain ⟨info, a, m, h1, h2, h3, rfl⟩ := checkOneFile_ok.1 h
  have hi := fileInfo_tag h1
  rcases analyse_cases h2 with ⟨b, fmm, n, h4, h5, rfl⟩ | ⟨e, -, rfl⟩
  rotate_left
  · unfold status at hsucc
    rw [(report_parts hi).2.1] at hsucc
    simp [analysisFailed, Elem.node, Elem.leaf, boolStr, Elem.children] at hsucc
  obtain ⟨rfl, -⟩ := fileToMemoryMap_ok h4
  have h6 : codestream env o fuel (bytesRead (fs.read path)) = .ok n := by
    unfold validateRoot at h5
    rcases hfmt with hf | hf <;> rw [hf] at h5 <;> exact h5
  obtain ⟨pre, x, y, x0, nc, hpre, e1, e2, e3, e5, hch⟩ := codestream_ratio hfmt hs hc h6
  have hlen : (bytesRead (fs.read path)).length ≠ 0 := by
    intro h0
    have e := hs.1
    rw [List.eq_nil_of_length_eq_zero h0] at e
    exact absurd e (by decide)
  rw [compressionRatio_pos hlen] at hch
  refine ⟨_, ?_, ratios_eq hi hpre hch⟩
  obtain ⟨nc', e5', hle⟩ := hc
  rw [e5] at e5'; cases e5'
  exact ratioOf_intro hlen e1 e2 e3 (hoff ▸ e3) e5 (fun i hi => ⟨_, uint_pos (by omega)⟩) rfl rfl

theorem depths_pos {ss : List Nat} (h : ss ≠ []) : 0 < (ss.map depth).sum := by
  cases ss with
  | nil => exact absurd rfl h
  | cons a l => simp only [List.map_cons, List.sum_cons, depth]; omega

/-- C39 does not hold for codestreams: for every image whose two offsets differ (and that has a column
and a component) the number printed is not the compression ratio. -/
theorem C39_false (hfmt : o.format = .j2c ∨ o.format = .jhc) {rep : Elem}
    (h : checkOneFile env me fs fuel o mix path = .ok rep) (hsucc : status rep "success" = [.str "True"])
    {siz : Bytes} (hs : SizOf (bytesRead (fs.read path)) siz) (hc : SizComplete siz)
    (hoff : uint siz 12 4 ≠ uint siz 16 4) (hx : uint siz 4 4 ≠ uint siz 12 4) (hn : uint siz 36 2 ≠ some 0) :
    ∃ q, ratios rep = [.str (env.floatStr q)] ∧ ¬ RatioOf siz (bytesRead (fs.read path)).length q := by
  obtain ⟨info, a, m, h1, h2, h3, rfl⟩ := checkOneFile_ok.1 h
  have hi := fileInfo_tag h1
  rcases analyse_cases h2 with ⟨b, fmm, n, h4, h5, rfl⟩ | ⟨e, -, rfl⟩
  rotate_left
  · unfold status at hsucc
    rw [(report_parts hi).2.1] at hsucc
    simp [analysisFailed, Elem.node, Elem.leaf, boolStr, Elem.children] at hsucc
  obtain ⟨rfl, -⟩ := fileToMemoryMap_ok h4
  have h6 : codestream env o fuel (bytesRead (fs.read path)) = .ok n := by
    unfold validateRoot at h5
    rcases hfmt with hf | hf <;> rw [hf] at h5 <;> exact h5
  obtain ⟨pre, x, y, x0, nc, hpre, e1, e2, e3, e5, hch⟩ := codestream_ratio hfmt hs hc h6
  have hlen : (bytesRead (fs.read path)).length ≠ 0 := by
    intro h0
    have e := hs.1
    rw [List.eq_nil_of_length_eq_zero h0] at e
    exact absurd e (by decide)
  rw [compressionRatio_pos hlen] at hch
  refine ⟨_, ratios_eq hi hpre hch, ?_⟩
  generalize (bytesRead (fs.read path)).length = size at *
  rintro ⟨x', y', x0', y0, nc', ss, f1, f2, f3, f4, f5, f6, f7, -, f9, -⟩
  rw [e1] at f1; cases f1
  rw [e2] at f2; cases f2
  rw [e3] at f3; cases f3
  rw [e5] at f5; cases f5
  rw [e3, f4] at hoff
  rw [e1, e3] at hx
  rw [e5] at hn
  have hss : (List.range nc).map (fun i => (uint siz (38 + 3 * i) 1).getD 0) = ss := by
    apply List.ext_getElem (by simp [f6])
    intro i h1 h2
    have := f7 i (by simpa using h1)
    rw [List.getElem_map, List.getElem_range, this]
    simp [h2]
  simp only at f9
  rw [sum_depths, hss] at f9
  have hpos : 0 < (ss.map depth).sum := depths_pos (by
    intro e
    rw [e] at f6
    exact hn (by rw [← f6]; rfl))
  generalize (ss.map depth).sum = D at f9 hpos
  have f9 := Int.eq_of_mul_eq_mul_right (by omega) f9
  have f9 := Int.eq_of_mul_eq_mul_right (show (x : Int) - x0 ≠ 0 by
    intro e; exact hx (by congr 1; omega)) f9
  have f9 := Int.eq_of_mul_eq_mul_left (show (D : Int) ≠ 0 by omega) f9
  exact hoff (by congr 1; omega)

end

/-- Three components, equal offsets. -/
example : ∃ rep siz,
    checkOneFile Sample.env0 Sample.me0 (Sample.fs0 Sample.cs2) 200 (Sample.opts .j2c) 0 [97] = .ok rep ∧
    status rep "success" = [.str "True"] ∧ SizOf Sample.cs2 siz ∧ SizComplete siz ∧
    uint siz 12 4 = uint siz 16 4 := by
  obtain ⟨rep, h, -, hs⟩ := Sample.saysValid_ok Sample.cs2_report
  refine ⟨rep, sub Sample.cs2 4 47, h, hs, ⟨by decide, _, .seg (b := Sample.cs2) (off := 2) (L := 47) (by decide +kernel) (by decide +kernel)⟩,
    ⟨3, by decide, by decide⟩, by decide⟩

/-- A codestream that is reported valid and whose two offsets differ. -/
example : ∃ rep siz,
    checkOneFile Sample.env0 Sample.me0 (Sample.fs0 Sample.csOffset) 200 (Sample.opts .j2c) 0 [97] = .ok rep ∧
    verdict rep = some (.str "True") ∧ status rep "success" = [.str "True"] ∧ SizOf Sample.csOffset siz ∧
    SizComplete siz ∧ uint siz 12 4 ≠ uint siz 16 4 ∧ uint siz 4 4 ≠ uint siz 12 4 ∧ uint siz 36 2 ≠ some 0 := by
  obtain ⟨rep, h, hv, hs⟩ := Sample.saysValid_ok Sample.csOffset_report
  refine ⟨rep, sub Sample.csOffset 4 41, h, hv, hs,
    ⟨by decide, _, .seg (b := Sample.csOffset) (off := 2) (L := 41) (by decide) (by decide)⟩,
    ⟨1, by decide, by decide⟩, by decide, by decide, by decide⟩

end Jpy
