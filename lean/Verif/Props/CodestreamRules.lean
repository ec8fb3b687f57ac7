import Verif.Props.TilePartRules
/-! # The tests of a codestream -/

set_option linter.unusedSimpArgs false
set_option linter.unusedVariables false

namespace Jpy
open Spec

/-- The second marker is SIZ. -/
theorem second_siz {b : Bytes} : (getMarkerSegment b (getMarkerSegment b 0).next).marker = mSIZ ↔
    ∃ siz next, SecondIsSiz b siz next := by
  obtain ⟨n0, hs0, hn0⟩ := getMarkerSegment_spec b 0
  rw [show ((0 : Nat) : Int) = 0 from rfl] at hs0 hn0
  rw [hn0]
  constructor
  · intro h
    cases n0 with
    | some k =>
      obtain ⟨n1, hs1, -⟩ := getMarkerSegment_spec b k
      simp only [intOf] at h
      rw [h] at hs1
      exact ⟨_, n1, _, _, k, hs0, hs1⟩
    | none =>
      exfalso
      have hu : uint b 2 2 = none := by
        generalize (getMarkerSegment b 0).marker = mm at hs0
        generalize (getMarkerSegment b 0).contents = cc at hs0
        cases hs0 with
        | noLength _ h => exact h
      have hlen : b.length < 4 := by
        refine Classical.byContradiction fun hh => ?_
        rw [uint_pos (by omega)] at hu
        cases hu
      have h2 : (getMarkerSegment b (intOf none)).marker = slice b (-9999) (-9997) := by
        unfold getMarkerSegment; rfl
      rw [h2] at h
      have h3 : (slice b (-9999) (-9997)).length = 2 := by rw [h]; rfl
      have h4 : sliceIdx b.length (-9997) = 0 := by unfold sliceIdx; rw [if_pos (by omega)]; omega
      unfold slice at h3
      rw [h4] at h3
      simp at h3
  · rintro ⟨siz, next, m, c, k, h0, h1⟩
    obtain ⟨-, -, e⟩ := segAt_unique h0 hs0
    subst e
    obtain ⟨n1, hs1, -⟩ := getMarkerSegment_spec b k
    exact (segAt_unique h1 hs1).1.symm

/-- The tests of the start of a codestream. -/
theorem own_start (v : Bool) (b : Bytes) : OwnTests {}
    ((({} : Node).testFor v "codestreamStartsWithSOCMarker" (decide (sub b 0 2 = mSOC))).testFor v
      "foundSIZMarker" (decide ((getMarkerSegment b (getMarkerSegment b 0).next).marker = mSIZ)))
    (startRules b).reverse := by
  refine own_test ?_ (own_test ?_ (own_refl _))
  · rw [decide_eq_true_iff]; exact second_siz
  · rw [decide_eq_true_iff]; exact Iff.rfl

theorem siz_tiles_value {env o fuel csiz c r} (h : validateLeaf env o fuel csiz mSIZ c = .ok r)
    {k : Nat} (hk : uint c 36 2 = some k) {n : Int} (hn : ExpectedTiles c n) :
    ∃ v, reported r.node "numberOfTiles" = [.int v] ∧ n = min v 65535 := by
  have hlen := uint_some_le hk
  obtain ⟨v4, h4⟩ : ∃ v, uint c 4 4 = some v := ⟨_, uint_pos (by omega)⟩
  obtain ⟨v8, h8⟩ : ∃ v, uint c 8 4 = some v := ⟨_, uint_pos (by omega)⟩
  obtain ⟨v20, h20⟩ : ∃ v, uint c 20 4 = some v := ⟨_, uint_pos (by omega)⟩
  obtain ⟨v24, h24⟩ : ∃ v, uint c 24 4 = some v := ⟨_, uint_pos (by omega)⟩
  obtain ⟨v28, h28⟩ : ∃ v, uint c 28 4 = some v := ⟨_, uint_pos (by omega)⟩
  obtain ⟨v32, h32⟩ : ∃ v, uint c 32 4 = some v := ⟨_, uint_pos (by omega)⟩
  obtain ⟨v, hv, hv'⟩ := siz_shows_tiles h hk
  refine ⟨v, hv, ?_⟩
  cases hn with
  | tiles hx hy ht => rw [tileCount_unique hx hy ht (hv' hx hy)]
  | none hne =>
    obtain ⟨ss, h1, rfl⟩ := (validateLeaf_ok (t := .siz) (by decide)).1 h
    have hz : sizTiles v4 v8 v20 v24 v28 v32 = 0 := by
      unfold sizTiles
      rw [if_neg]
      intro hh
      exact hne ⟨⟨v20, h20, by omega⟩, ⟨v24, h24, by omega⟩⟩
    simp only [leaf, siz] at h1
    split at h1
    · cases h1
    · cases h1
      rw [reported_run] at hv
      revert hv
      rep
      simp only [ite_self, List.nil_append]
      simp (disch := omega) only [u32_slice]
      simp only [Int.reduceToNat, h4, h8, h20, h24, h28, h32, intOf, hz]
      intro hv
      simp only [List.cons.injEq, PyVal.int.injEq, and_true] at hv
      omega

/-- The tests made after the tile-parts. -/
theorem cs_finish_tests {o : Options} {b : Bytes} {sizChars : List Elem} {nTiles : Int} {node : Node}
    {t : TileState} {n : Node} (h : codestreamFinish o b sizChars nTiles node t = .ok n) {r1 r2 r3 r4 r5 : Prop}
    (h1 : (t.tileIndices.length : Int) = nTiles ↔ r1)
    (h2 : (!(!t.expected.isEmpty) || dictEqFound t.expected t.found) = true ↔ r2)
    (h3 : ∀ inst, (!(!(Elem.findAllText (node.chars ++
        [({ tag := "tileParts", node := t.node } : BoxResult).charsElem]) ["coc", "ccoc"]).isEmpty) ||
        @decide (Elem.findAllText (node.chars ++ [({ tag := "tileParts", node := t.node } : BoxResult).charsElem])
        ["coc", "ccoc"]).Nodup inst) = true ↔ r3)
    (h4 : ∀ inst, (!(!(Elem.findAllText (node.chars ++
        [({ tag := "tileParts", node := t.node } : BoxResult).charsElem]) ["qcc", "cqcc"]).isEmpty) ||
        @decide (Elem.findAllText (node.chars ++ [({ tag := "tileParts", node := t.node } : BoxResult).charsElem])
        ["qcc", "cqcc"]).Nodup inst) = true ↔ r4)
    (h5 : slice b ((b.length : Int) - 2) b.length = mEOC ↔ r5) :
    ∃ m, OwnTests node m [("foundExpectedNumberOfTileParts", r2), ("foundExpectedNumberOfTiles", r1)] ∧
      OwnTests (m.absorb { tag := "tileParts", node := t.node }) n
        [("foundEOCMarker", r5), ("maxOneCqccPerComponentMain", r4), ("maxOneCcocPerComponentMain", r3)] := by
  unfold codestreamFinish at h
  simp only at h
  have hc : (((node.testFor o.verbose "foundExpectedNumberOfTiles"
      (decide ((t.tileIndices.length : Int) = nTiles))).testIf o.verbose (!t.expected.isEmpty)
      "foundExpectedNumberOfTileParts" (dictEqFound t.expected t.found)).absorb
      { tag := "tileParts", node := t.node }).chars =
      node.chars ++ [({ tag := "tileParts", node := t.node } : BoxResult).charsElem] := by
    simp only [absorb_chars, testFor_chars, testIf_chars]
  simp only [testIf_chars] at h
  rw [hc] at h
  split at h
  · obtain ⟨depths, g1, h⟩ := Outcome.bind_eq_ok.1 h
    obtain ⟨y, g2, h⟩ := Outcome.bind_eq_ok.1 h
    obtain ⟨y', g3, h⟩ := Outcome.bind_eq_ok.1 h
    obtain ⟨x, g4, h⟩ := Outcome.bind_eq_ok.1 h
    obtain ⟨x', g5, h⟩ := Outcome.bind_eq_ok.1 h
    cases h
    refine ⟨_, own_imp (v := o.verbose) h2 (own_test (v := o.verbose) (decide_eq_true_iff.trans h1) (own_refl _)), ?_⟩
    exact own_addChar (own_test (decide_eq_true_iff.trans h5) (own_imp (h4 _) (own_imp (h3 _) (own_refl _))))
  · cases h
    refine ⟨_, own_imp (v := o.verbose) h2 (own_test (v := o.verbose) (decide_eq_true_iff.trans h1) (own_refl _)), ?_⟩
    exact own_test (decide_eq_true_iff.trans h5) (own_imp (h4 _) (own_imp (h3 _) (own_refl _)))

theorem declared_rule {ts : List TilePartInfo} {n : Int} :
    (!(!(ts.foldl addDeclared []).isEmpty) ||
      dictEqFound (ts.foldl addDeclared []) (ts.foldl addFound (List.replicate (rangeLen n) 0))) = true ↔
    ((∃ t ∈ ts, t.parts ≠ 0) → (∀ i : Nat, (i : Int) < n → declared ts i = some (partCount ts i)) ∧
      ∀ t ∈ ts, t.parts ≠ 0 → (t.index : Int) < n) := by
  rw [← declared_any ts, ← dictEq_spec ts n]
  cases (ts.foldl addDeclared []).isEmpty <;> simp [rangeLen]

/-- C56 (codestream): the tests of a codestream name exactly the violated rules: those on its start, on
each segment of its main header, on the main header, on each tile-part, on the set of tile-parts and on its
end. -/
theorem C56_codestream (env : Env) (o : Options) (fuel : Nat) (b : Bytes) (n : Node)
    (h : codestream env o fuel b = .ok n) : DiagnosesCodestream env.catC o.format b n.tests := by
  constructor
  · intro hno
    have hne : (getMarkerSegment b (getMarkerSegment b 0).next).marker ≠ mSIZ := fun e => hno (second_siz.1 e)
    obtain ⟨own, h1, h2⟩ := own_reverse (own_start o.verbose b)
    unfold codestream at h
    simp only [hne, if_false, decide_false] at h
    cases h
    obtain ⟨n0, hs0, -⟩ := getMarkerSegment_spec b 0
    have em := segAt_marker hs0
    rw [show ((0 : Nat) : Int) = 0 from rfl] at em
    rw [em]
    simp only [hne, decide_false] at h1
    rw [h1]
    exact h2
  · rintro siz first main sot ⟨m0, c0, k, hs0, hs1⟩ hse
    have hstart := own_reverse (own_start o.verbose b)
    rw [decide_eq_true (second_siz.2 ⟨siz, _, m0, c0, k, hs0, hs1⟩)] at hstart
    obtain ⟨start, hst, dst⟩ := hstart
    rw [codestream_eq hs0 rfl hs1] at h
    obtain ⟨r, h1, h⟩ := Outcome.bind_eq_ok.1 h
    obtain ⟨cs, h2, h⟩ := Outcome.bind_eq_ok.1 h
    obtain ⟨s, h3, h⟩ := Outcome.bind_eq_ok.1 h
    obtain ⟨rsiz, h4, h⟩ := Outcome.bind_eq_ok.1 h
    obtain ⟨tiles, h5, h⟩ := Outcome.bind_eq_ok.1 h
    obtain ⟨t, h6, hend⟩ := Outcome.bind_eq_ok.1 h
    obtain ⟨htag, trsiz, -, -, -, -, tcsiz, -⟩ := siz_text h1
    rw [reported_text tcsiz] at h2
    cases h2
    have h3' := (mainLoop_le (seg1 := segV env o fuel) (fun _ _ _ => .refl _) o.packetmarkers
      (some (intOf (uint siz 36 2))) b _ (show fuel ≤ fuel + main.length + 2 by omega)).ok h3
    rw [mainLoop_eq hse (by omega) (show mSIZ ≠ mSOT by decide) (by simp [mainStart, intOf]) rfl] at h3'
    obtain ⟨rs, hrs, hs⟩ := Outcome.bind_eq_ok.1 h3'
    cases hs
    obtain ⟨segs, hsegs, hdiag⟩ := diagnoses_segs (l := mainSegments) (q := [mPLM, mPPM]) (fun m hm => Or.inl hm)
      main rs (headNode o b r) hrs
    have hnode : (mainEnd b o.packetmarkers (mainStart o b r (intOf (some first))) main sot rs).node.tests =
        start ++ entry "siz" r.node.tests ++ segs := by
      show (absorbSegs o.packetmarkers [mPLM, mPPM] (headNode o b r) rs).tests = _
      rw [hsegs]
      unfold headNode
      rw [absorb_tests, hst, htag]
      rfl
    have h1' : validateLeaf env o fuel (some (intOf (uint siz 36 2))) SIZ siz = .ok r := by
      rw [← h1]; exact validateLeaf_csiz (by decide) _ _
    have hnum : intOf (uint siz 36 2) = shownNum (uint siz 36 2) := by cases uint siz 36 2 <;> rfl
    have hrest : ∃ rest, n.tests = (mainEnd b o.packetmarkers (mainStart o b r (intOf (some first)))
        main sot rs).node.tests ++ rest := by
      have gen : ∀ (l : List PyVal) inst,
          (!(!l.isEmpty) || @decide l.Nodup inst) = true ↔ (l.isEmpty = true ∨ l.Nodup) := by
        intro l inst
        simp only [Bool.not_not, Bool.or_eq_true, decide_eq_true_eq]
      obtain ⟨m, ⟨own, g1, -⟩, ⟨last, g2, -⟩⟩ := cs_finish_tests hend Iff.rfl Iff.rfl (fun _ => gen _ _)
        (fun _ => gen _ _) Iff.rfl
      have hmain : OwnTests (mainEnd b o.packetmarkers (mainStart o b r (intOf (some first))) main sot rs).node
          (mainNode o (mainEnd b o.packetmarkers (mainStart o b r (intOf (some first))) main sot rs) rsiz)
          [("foundCAPMarker", low (shr rsiz 14) 4 = 1 → HasSeg main CAP),
            ("foundQCDMarker", HasSeg main QCD), ("foundCODMarker", HasSeg main COD)] := by
        refine own_testIf ?_ ?_ (own_test hasSeg_any (own_test hasSeg_any (own_addChar (own_addChar (own_refl _)))))
        · intro hc
          have hc := of_decide_eq_true hc
          refine hasSeg_any.trans ?_
          exact ⟨fun a _ => a, fun a => a hc⟩
        · intro hc hh
          exact absurd hh (of_decide_eq_false hc)
      obtain ⟨own', g3, -⟩ := hmain
      exact ⟨own' ++ own ++ entry "tileParts" t.node.tests ++ last, by
        rw [g2, absorb_tests, g1, g3]; simp only [List.append_assoc]⟩
    obtain ⟨rest, hrest⟩ := hrest
    rw [hnum] at hdiag h1'
    exact ⟨start, _, segs, rest, by rw [hrest, hnode], dst, C56_segment env o fuel _ SIZ siz r (.head _) h1', hdiag⟩
  · rintro siz first csiz main sot nt ts ⟨m0, c0, k, hs0, hs1⟩ hcs hse hnt hts
    have hstart := own_reverse (own_start o.verbose b)
    rw [decide_eq_true (second_siz.2 ⟨siz, _, m0, c0, k, hs0, hs1⟩)] at hstart
    obtain ⟨start, hst, dst⟩ := hstart
    rw [codestream_eq hs0 rfl hs1] at h
    obtain ⟨r, h1, h⟩ := Outcome.bind_eq_ok.1 h
    obtain ⟨cs, h2, h⟩ := Outcome.bind_eq_ok.1 h
    obtain ⟨s, h3, h⟩ := Outcome.bind_eq_ok.1 h
    obtain ⟨rsiz, h4, h⟩ := Outcome.bind_eq_ok.1 h
    obtain ⟨tiles, h5, h⟩ := Outcome.bind_eq_ok.1 h
    obtain ⟨t, h6, hend⟩ := Outcome.bind_eq_ok.1 h
    obtain ⟨htag, trsiz, -, -, -, -, tcsiz, -⟩ := siz_text h1
    rw [reported_text tcsiz, hcs] at h2
    cases h2
    have h3' := (mainLoop_le (seg1 := segV env o fuel) (fun _ _ _ => .refl _) o.packetmarkers
      (some (csiz : Int)) b _ (show fuel ≤ fuel + main.length + 2 by omega)).ok h3
    rw [mainLoop_eq hse (by omega) (show mSIZ ≠ mSOT by decide) (by simp [mainStart, intOf]) rfl] at h3'
    obtain ⟨rs, hrs, hs⟩ := Outcome.bind_eq_ok.1 h3'
    cases hs
    obtain ⟨segs, hsegs, hdiag⟩ := diagnoses_segs (l := mainSegments) (q := [mPLM, mPPM]) (fun m hm => Or.inl hm)
      main rs (headNode o b r) hrs
    obtain ⟨rest, hch⟩ := mainNode_chars (o := o) (b := b) (ss := main) (e := sot) (rs := rs) (r := r)
      (next := intOf (some first)) rsiz
    obtain ⟨rz, hrz⟩ : ∃ rz, uint siz 2 2 = some rz := ⟨_, uint_pos (by have := uint_some_le hcs; omega)⟩
    have h4' : rsiz = (rz : Int) := by
      have : Elem.findElementText (mainNode o (mainEnd b o.packetmarkers (mainStart o b r
          (intOf (some first))) main sot rs) rsiz).chars ["siz", "rsiz"] = some (.int (rz : Int)) := by
        rw [hch, first_text htag trsiz, hrz]; rfl
      rw [show (mainNode o (mainEnd b o.packetmarkers (mainStart o b r
          (intOf (some first))) main sot rs) rsiz).chars = _ from testIf_chars ..] at this
      rw [this] at h4
      cases h4; rfl
    subst h4'
    obtain ⟨v, hv, hnv⟩ := siz_tiles_value h1 hcs hnt
    rw [hch, first_text htag hv] at h5
    cases h5
    rw [← hnv] at h6 hend
    -- the tile-parts
    obtain ⟨hrun, tps, htp, htd⟩ : TileRun (tileStart nt main sot) t (ts.map (·.toTilePartInfo)) ∧
        ∃ es, t.node.tests = es ∧ DiagnosesTileParts env.catC o.format csiz b ts es := by
      cases sot with
      | none =>
        subst hts
        have hne : lastMarker mSOT main none ≠ mSOT := by
          intro hh
          have := (lastMarker_eq hse).1 hh
          cases this
        cases fuel with
        | zero => cases h6
        | succ fuel =>
          have h6' := (tileLoop_stop (s := tileStart nt main none) hne).symm.trans h6
          cases h6'
          exact ⟨⟨rfl, rfl, rfl⟩, [], rfl, .nil⟩
      | some k =>
        have hm : lastMarker mSOT main (some k) = mSOT := (lastMarker_eq hse).2 rfl
        obtain ⟨h7, es, h8, h9⟩ := diagnoses_tileParts hts _ _ _ h6 hm rfl (by simp [rangeLen])
        exact ⟨h7, es, by simpa using h8, h9⟩
    have e1 := hrun.indices
    have e2 := hrun.expected
    have e3 := hrun.found
    simp only [tileStart] at e1 e2 e3
    have g2 := declared_rule (ts := ts.map (·.toTilePartInfo)) (n := nt)
    rw [← e2, ← e3] at g2
    have g1 := indices_spec (ts.map (·.toTilePartInfo)) nt
    rw [← e1] at g1
    obtain ⟨m, hm1, hm2⟩ := cs_finish_tests hend g1 g2
      (fun _ => onePer_test (main_coc hrs htag _ _)) (fun _ => onePer_test (main_qcc hrs htag _ _)) eoc_test
    have hmain : OwnTests (mainEnd b o.packetmarkers (mainStart o b r (intOf (some first))) main sot rs).node
        (mainNode o (mainEnd b o.packetmarkers (mainStart o b r (intOf (some first))) main sot rs) rz)
        [("foundCAPMarker", FieldIs siz 2 2 (fun r => bit 14 r = 1 ∧ bit 15 r = 0) → HasSeg main CAP),
          ("foundQCDMarker", HasSeg main QCD), ("foundCODMarker", HasSeg main COD)] := by
      refine own_testIf ?_ ?_ (own_test hasSeg_any (own_test hasSeg_any (own_addChar (own_addChar (own_refl _)))))
      · intro hc
        have hc := (cap_test hrz).1 (of_decide_eq_true hc)
        refine hasSeg_any.trans ?_
        exact ⟨fun a _ => a, fun a => a hc⟩
      · intro hc hh
        exact absurd ((cap_test hrz).2 hh) (of_decide_eq_false hc)
    obtain ⟨own, ho1, ho2⟩ := own_reverse (rs := mainRules siz main nt (ts.map (·.toTilePartInfo))) (own_trans' hm1 hmain)
    obtain ⟨last, hl1, hl2⟩ := own_reverse (rs := endRules csiz b main) hm2
    have hnode : (mainEnd b o.packetmarkers (mainStart o b r (intOf (some first))) main sot rs).node.tests =
        start ++ entry "siz" r.node.tests ++ segs := by
      show (absorbSegs o.packetmarkers [mPLM, mPPM] (headNode o b r) rs).tests = _
      rw [hsegs]
      unfold headNode
      rw [absorb_tests, hst, htag]
      rfl
    rw [hl1, absorb_tests, ho1, hnode, htp]
    have h1' : validateLeaf env o fuel (some (csiz : Int)) SIZ siz = .ok r := by
      rw [← h1]; exact validateLeaf_csiz (by decide) _ _
    exact .mk dst (C56_segment env o fuel csiz SIZ siz r (.head _) h1') hdiag ho2 htd hl2

end Jpy
