import Verif.Lemmas.Ends
import Verif.Lemmas.Report
import Verif.Props.Codestream
/-! # The analysis ends: C11, C14 -/

set_option linter.unusedSimpArgs false

namespace Jpy
open Spec

theorem boxAt_short_type {b : Bytes} {off : Nat} {t p n} (h : BoxAt b off t p n) (ht : t.length < 4) :
    p = [] := by
  cases h <;> first
    | rfl
    | (simp only [length_sub] at ht
       apply List.eq_nil_of_length_eq_zero
       simp only [length_sub, List.length_drop]
       omega)

theorem hasBox_short_type {b : Bytes} {d t p} (h : HasBox b d t p) (ht : t.length < 4) : p = [] := by
  cases h with
  | top hb hx => obtain ⟨n, hn⟩ := (boxesFrom_mem hb hx).2.2; exact boxAt_short_type hn ht
  | inside _ _ hb hx => obtain ⟨n, hn⟩ := (boxesFrom_mem hb hx).2.2; exact boxAt_short_type hn ht

theorem validateRoot_ends {env o fuel} {b : Bytes} (h : ∀ p, FollowedIn o.format b p → Followable p)
    (hf : b.length + 4 < fuel) : Ends (validateRoot env o fuel b) := by
  have hjp2 : (o.format = .jp2 ∨ o.format = .jph) → Ends (validateJP2 env o fuel b) := by
    intro hfm
    have h' : ∀ d p, HasBox b d (ascii "jp2c") p → Followable p := by
      intro d p hb
      apply h
      rcases hfm with e | e <;> rw [e] <;> exact ⟨d, hb⟩
    refine Ends.bind (walk_ends (by omega) fun bs hb x hx => ?_) fun _ _ => jp2Finish_ends _ _ _ _
    refine validateBox_ends h' (fun d t p hp => ⟨fun e ho => ?_, fun e ho => ?_⟩) fuel 1 _ _ (.top hb hx)
      (by have := (boxesFrom_mem hb hx).2.1; omega)
    · have := hasBox_short_type hp (by rw [e]; decide)
      rw [this] at ho
      exact absurd ho.1 (by simp)
    · have := hasBox_short_type hp (by rw [e]; decide)
      rw [this] at ho
      exact absurd ho.1 (by simp)
  unfold validateRoot
  cases hfm : o.format <;> simp only
  · exact hjp2 (.inl hfm)
  · exact hjp2 (.inr hfm)
  · exact codestream_ends (h b (by rw [hfm]; rfl)) (by omega)
  · exact codestream_ends (h b (by rw [hfm]; rfl)) (by omega)
  · exact Ends.raised _

theorem fileToMemoryMap_ends (fs path) : Ends (fileToMemoryMap fs path) := by
  unfold fileToMemoryMap; ends

theorem fileToMemoryMap_bytes {fs path b w} (h : fileToMemoryMap fs path = .ok (b, w)) :
    b = bytesRead (fs.read path) := by
  unfold fileToMemoryMap at h
  split at h <;> cases h <;> simp_all [bytesRead]

/-- C11: the analysis of a file ends if every codestream in it can be followed to its end. No loop runs
more often, and no recursion goes deeper, than the number of bytes of the file plus five. Missing from
the full property: files with other codestreams (`C11_false`, `C14_false`). The hypotheses on `getsize`
and `modified` say that the operating system answers. -/
theorem C11_partial (env : Env) (me : MixEnv) (fs : FS) (o : Options) (mix : Nat) (path : PyStr)
    (hs : fs.getsize path ≠ .timeout) (hm : fs.modified path ≠ .timeout)
    (h : ∀ p, FollowedIn o.format (bytesRead (fs.read path)) p → Followable p) (fuel : Nat)
    (hf : (bytesRead (fs.read path)).length + 5 ≤ fuel) :
    checkOneFile env me fs fuel o mix path ≠ .timeout := by
  rw [checkOneFile_eq]
  refine Ends.bind (Ends.bind hs fun _ _ => Ends.bind hm fun _ _ => Ends.ok _) fun info _ =>
    Ends.bind ?_ fun a _ => Ends.bind ?_ fun m _ => Ends.ok _
  · have : Ends (analyseTry env fs o fuel path) := by
      refine Ends.bind (fileToMemoryMap_ends fs path) fun x hx => ?_
      obtain ⟨b, w⟩ := x
      have := fileToMemoryMap_bytes hx
      subst this
      exact Ends.bind (validateRoot_ends h (by omega)) fun _ _ => Ends.ok _
    unfold analyse
    cases ha : analyseTry env fs o fuel path with
    | ok a => exact Ends.ok _
    | raised e => exact Ends.ok _
    | timeout => exact absurd ha this
  · unfold mixOutput
    split
    · exact Ends.bind (generateMix_ends _ _ _) fun _ _ => Ends.ok _
    · exact Ends.ok _


/-- The codestream of the sample file can be followed. -/
example : Followable Sample.cs1 := by
  have hms : ∀ first, MainStart Sample.cs1 first → first = 45 := by
    rintro first ⟨m, c, k, siz, h0, h1⟩
    have h0' : SegAt Sample.cs1 0 (sub Sample.cs1 0 2) [] (some 2) := .alone (by decide)
    cases (segAt_unique h0 h0').2.2
    have h1' : SegAt Sample.cs1 2 SIZ (sub Sample.cs1 4 41) (some 45) :=
      segAt_mk (L := 41) (by decide) (by decide) (by decide) rfl rfl
    cases (segAt_unique h1 h1').2.2
    rfl
  have hA : SegAt Sample.cs1 65 SOT (sub Sample.cs1 67 10) (some 77) :=
    segAt_mk (L := 10) (by decide) (by decide) (by decide) rfl rfl
  have hmain : SegsTo Sample.cs1 SOT 45 [⟨45, COD, sub Sample.cs1 47 12⟩, ⟨59, QCD, sub Sample.cs1 61 4⟩]
      (some 65) :=
    .step (n := 59) (segAt_mk (L := 12) (by decide) (by decide) (by decide) rfl rfl) (by decide)
      (.step (n := 65) (segAt_mk (L := 4) (by decide) (by decide) (by decide) rfl rfl) (by decide) (.found hA))
  have hreach : ∀ off, SotReached Sample.cs1 65 off → off = 65 := by
    intro off h
    induction h with
    | first => rfl
    | @next off len _ hl _ hm ih =>
      subst ih
      have : uint Sample.cs1 (65 + 6) 4 = some 14 := by decide
      rw [this] at hl
      cases hl
      exact absurd hm (by decide)
  refine ⟨fun first main e h1 h2 x hx hp => ?_, fun first main k off h1 h2 h3 => ?_,
    fun first main k off c n ss e h1 h2 h3 h4 h5 x hx => ?_⟩
  · cases hms first h1
    rw [(segsTo_unique h2 hmain).1] at hx
    simp only [List.mem_cons, List.not_mem_nil, or_false] at hx
    rcases hx with rfl | rfl <;> exact absurd hp (by decide)
  · cases hms first h1
    cases (segsTo_unique h2 hmain).2
    cases hreach off h3
    exact ⟨_, _, hA, by decide⟩
  · cases hms first h1
    cases (segsTo_unique h2 hmain).2
    cases hreach off h3
    obtain ⟨-, -, hn⟩ := segAt_unique h4 hA
    cases hn
    have hS : SegAt Sample.cs1 77 SOD [] (some 79) := SegAt.alone (b := Sample.cs1) (off := 77) (by decide)
    rw [(segsTo_unique h5 (.found hS)).1] at hx
    cases hx

/-! ## Codestreams that are never followed to their end -/

theorem checkOneFile_timeout {env me fs fuel o mix path s m} (hs : fs.getsize path = .ok s)
    (hm : fs.modified path = .ok m)
    (h : ∀ data fmm, fileToMemoryMap fs path = .ok (data, fmm) → validateRoot env o fuel data = .timeout)
    (hr : ∀ e, fs.read path ≠ .error e) :
    checkOneFile env me fs fuel o mix path = .timeout := by
  have hinfo : ∃ info, fileInfo fs path = .ok info := by unfold fileInfo; rw [hs, hm]; exact ⟨_, rfl⟩
  obtain ⟨info, hinfo⟩ := hinfo
  have hmap : ∃ x, fileToMemoryMap fs path = .ok x := by
    unfold fileToMemoryMap
    cases hread : fs.read path with
    | error e => exact absurd hread (hr e)
    | tooLarge g => exact ⟨_, rfl⟩
    | data b => cases b <;> exact ⟨_, rfl⟩
  obtain ⟨⟨data, fmm⟩, hmap⟩ := hmap
  rw [checkOneFile_eq, hinfo, Outcome.bind_ok]
  unfold analyse analyseTry
  rw [hmap]
  simp only [Outcome.bind_ok, h data fmm hmap]
  rfl

theorem siz_ok {env o fuel csiz c} (h : FieldIs c 2 2 RsizDefined) :
    ∃ r, validateLeaf env o fuel csiz mSIZ c = .ok r := by
  obtain ⟨v, hv, hd⟩ := h
  have hcap := (sizCapability_isSome v (by have := uint_lt hv; omega)).2 hd
  rcases hs : sizCapability (v : Int) with _ | s
  · rw [hs] at hcap; cases hcap
  · have : ∃ ss, leaf env o fuel csiz .siz mSIZ c = .ok ss := by
      simp only [leaf, siz]
      rw [u16_at c 2 (x := 2) (y := 4) rfl rfl, hv]
      simp only [intOf, hs]
      exact ⟨_, rfl⟩
    obtain ⟨ss, hss⟩ := this
    exact ⟨_, (validateLeaf_ok (t := .siz) (by decide)).2 ⟨ss, hss, rfl⟩⟩

theorem siz_tiles {env o fuel csiz c r} (h : validateLeaf env o fuel csiz mSIZ c = .ok r) :
    reported r.node "numberOfTiles" = [.int (sizTiles (intOf (uint c 4 4)) (intOf (uint c 8 4))
      (intOf (uint c 20 4)) (intOf (uint c 24 4)) (intOf (uint c 28 4)) (intOf (uint c 32 4)))] := by
  have ht : boxTypeOf mSIZ = .siz := by decide
  obtain ⟨ss, h1, rfl⟩ := (validateLeaf_ok ht).1 h
  simp only [leaf, siz] at h1
  split at h1
  · cases h1
  · cases h1
    rw [reported_run]
    rep
    simp only [ite_self, List.nil_append]
    simp (disch := omega) only [u32_slice]
    simp only [Int.reduceToNat]

/-- A codestream whose first segment after SIZ is an open-ended PLM is never followed to its end. -/
theorem plm_endless {env o} {b m0 c0 : Bytes} {k first : Nat} {siz c : Bytes} {n}
    (h0 : SegAt b 0 m0 c0 (some k)) (h1 : SegAt b k SIZ siz (some first))
    (hr : FieldIs siz 2 2 RsizDefined) (h2 : SegAt b first PLM c n) (hc : FieldIs c 0 2 (c.length ≤ ·))
    (ho : OpenEnded c 4) : ∀ fuel, codestream env o fuel b = .timeout := by
  intro fuel
  rw [codestream_eq h0 rfl h1]
  obtain ⟨r, hr⟩ := siz_ok (env := env) (o := o) (fuel := fuel) (csiz := none) hr
  obtain ⟨-, -, -, -, -, -, hcs, -⟩ := siz_text hr
  rw [hr, Outcome.bind_ok, reported_text hcs]
  have hl : validateLeaf env o fuel none mPLM c = .timeout := by
    obtain ⟨x, hx, h128⟩ := ho.2
    obtain ⟨l, hl, hle⟩ := hc
    have : iplLoop c (bytesToUShortInt (slice c 0 2)) fuel 4 = .timeout := by
      rw [u16_at c 0 (x := 0) (y := 2) rfl rfl, hl]
      exact iplLoop_hangs (by simp only [intOf]; omega) hx h128 fuel 4 ho.1
    have e : leaf env o fuel none .plm mPLM c = .timeout := by
      simp only [leaf, plm, parseIpl, this, Outcome.bind_timeout]
    unfold validateLeaf
    rw [show boxTypeOf mPLM = .plm by decide, e, Outcome.bind_timeout]
  have : mainLoop (segV env o fuel) o.packetmarkers (some (intOf (uint siz 36 2))) b fuel
      (mainStart o b r (intOf (some first))) = .timeout := by
    cases fuel with
    | zero => rfl
    | succ f =>
      obtain ⟨n', h2', hn'⟩ := getMarkerSegment_spec b first
      obtain ⟨e1, e2, -⟩ := segAt_unique h2 h2'
      rw [mainLoop, if_pos ⟨by simp only [mainStart]; decide, by simp only [mainStart, intOf]; omega⟩,
        mainStep_eq]
      have hoff : (mainStart o b r (intOf (some first))).offset = (first : Int) := rfl
      simp only [hoff, ← e1, ← e2]
      rw [if_pos (show PLM ∈ mainMarkers by decide), if_neg (show PLM ∉ csizMarkers by decide)]
      have : segV env o (f + 1) PLM c none = .timeout := hl
      rw [this]
      rfl
  simp only [needInt, Outcome.bind_ok, this, Outcome.bind_timeout]

/-- C11, negation: the analysis of this 52 byte file never ends, whatever the environment and the other
options. -/
theorem C11_false (env : Env) (me : MixEnv) (fs : FS) (o : Options) (mix : Nat) (path : PyStr) {s m}
    (hf : o.format = .j2c ∨ o.format = .jhc) (hb : fs.read path = .data Sample.endlessPlm)
    (hs : fs.getsize path = .ok s) (hm : fs.modified path = .ok m) (fuel : Nat) :
    checkOneFile env me fs fuel o mix path = .timeout := by
  refine checkOneFile_timeout hs hm (fun data fmm h => ?_) (fun e he => by rw [hb] at he; cases he)
  have := fileToMemoryMap_bytes h
  rw [hb] at this
  subst this
  have hcs : codestream env o fuel Sample.endlessPlm = .timeout :=
    plm_endless (m0 := SOC) (c0 := []) (k := 2) (first := 45) (siz := sub Sample.endlessPlm 4 41)
      (c := [0, 5, 0, 1, 0x80]) (n := some 52)
      (.alone (by decide)) (segAt_mk (L := 41) (by decide) (by decide) (by decide) rfl rfl)
      ⟨0, by decide, by unfold RsizDefined; decide⟩
      (segAt_mk (L := 5) (by decide) (by decide) (by decide) (by decide) rfl)
      ⟨5, by decide, by decide⟩ ⟨by decide, 0x80, rfl, by decide⟩ fuel
  unfold validateRoot
  rcases hf with e | e <;> rw [e] <;> exact hcs

/-! ## C14 -/

/-- C14: the tile-part after one with a complete SOT segment and tile-part length `len` is looked for at
`len` bytes after its start, and the chain ends if `len` is 0: so the chain advances as long as the SOT
segments are complete. Missing from the full property: SOT segments that end before the tile-part length
(`C14_false`). -/
theorem C14_partial (env : Env) (o : Options) (fuel : Nat) (csiz : Option Int) (b : Bytes) (off L len : Nat)
    (r : BoxResult) (hm : sub b off 2 = SOT) (hL : uint b (off + 2) 2 = some L) (h8 : 8 ≤ L)
    (hlen : uint b (off + 6) 4 = some len) (h : tilePart env o fuel csiz off b = .ok r) :
    r.returnOffset = some (((off + len : Nat)) : Int) := by
  have hs : SegAt b off mSOT (sub b (off + 2) L) (some (off + 2 + L)) := segAt_mk hm (by decide) hL rfl rfl
  rw [tilePart_unfold hs] at h
  obtain ⟨s, -, h⟩ := Outcome.bind_eq_ok.1 h
  cases h
  simp only [tpResult]
  rw [uint_sub (by omega) (by omega), show off + 2 + 4 = off + 6 from rfl, hlen]
  simp [intOf]

theorem sub_append_right (a b : Bytes) (k n : Nat) : sub (a ++ b) (a.length + k) n = sub b k n := by
  unfold sub
  rw [List.drop_append, List.drop_eq_nil_of_le (by omega), List.nil_append]
  congr 2
  omega

theorem uint_append_right (a b : Bytes) (k n : Nat) : uint (a ++ b) (a.length + k) n = uint b k n := by
  unfold uint
  rw [sub_append_right, List.length_append]
  by_cases h : k + n ≤ b.length
  · rw [if_pos h, if_pos (by omega)]
  · rw [if_neg h, if_neg (by omega)]

theorem sub_append_left (a b : Bytes) {k n : Nat} (h : k + n ≤ a.length) : sub (a ++ b) k n = sub a k n := by
  unfold sub
  rw [List.drop_append_of_le_length (by omega), List.take_append_of_le_length (by simp; omega)]

theorem uint_append_left (a b : Bytes) {k n : Nat} (h : k + n ≤ a.length) :
    uint (a ++ b) k n = uint a k n := by
  unfold uint
  rw [sub_append_left a b h, if_pos h, if_pos (by rw [List.length_append]; omega)]

/-- A tile-part without segments: result for enough fuel. -/
theorem tilePart_empty {env o csiz} {b : Bytes} {off n : Nat} {c : Bytes}
    (hs : SegAt b off mSOT c (some n)) (hd : sub b n 2 = mSOD) {fuel : Nat} (hf : 2 ≤ fuel) :
    ∃ r, tilePart env o fuel (some csiz) off b = .ok r ∧
      Elem.findElementText r.node.chars ["sot", "isot"] = some (.int (intOf (uint c 2 2))) ∧
      Elem.findElementText r.node.chars ["sot", "tnsot"] = some (.int (intOf (uint c 9 1))) ∧
      r.returnOffset = some (off + intOf (uint c 4 4)) := by
  have hse : SegsTo b mSOD n [] (some n) := by
    obtain ⟨n', h, -⟩ := getMarkerSegment_spec b n
    rw [segAt_marker h, hd] at h
    exact .found h
  rw [tilePart_unfold hs]
  obtain ⟨s0, hs0, e⟩ : ∃ s0 : TPState, s0.node = sotNode o.verbose c ∧
      (tpLoop (segV env o fuel) o.packetmarkers (some csiz) b fuel
        { node := sotNode o.verbose c, pltCount := 0, pptCount := 0, marker := mSOT, offset := n,
          offsetNext := n }) =
      inTurn (segRun (segV env o fuel) (some csiz))
        (([] : List FoundSeg).filter fun x => decide (x.marker ∈ tpMarkers)) >>= fun rs =>
          .ok (tpEnd o.packetmarkers s0 [] (some n) rs) :=
    ⟨_, rfl, tpLoop_eq hse hf (by simp only; decide) (by simp only; omega) rfl⟩
  simp only [intOf]
  rw [e]
  obtain ⟨f1, -, -, f4⟩ := sot_fields c
  exact ⟨_, rfl, tpResult_text (env := env) (o := o) (fuel := fuel) (csiz := csiz) rfl hs0 f1,
    tpResult_text (env := env) (o := o) (fuel := fuel) (csiz := csiz) rfl hs0 f4, rfl⟩

/-- The first tile-part of the sample codestream meets the hypotheses of `C14_partial`. -/
example : sub Sample.cs1 65 2 = SOT ∧ uint Sample.cs1 67 2 = some 10 ∧ uint Sample.cs1 71 4 = some 14 ∧
    ∃ r, tilePart Sample.env0 (Sample.opts .j2c) 10 (some 1) 65 Sample.cs1 = .ok r := by
  refine ⟨by decide, by decide, by decide, ?_⟩
  obtain ⟨r, h, -⟩ := tilePart_empty (env := Sample.env0) (o := Sample.opts .j2c) (csiz := 1)
    (segAt_mk (b := Sample.cs1) (off := 65) (L := 10) (n := 77) (by decide) (by decide) (by decide) rfl rfl)
    (by decide) (show 2 ≤ 10 by decide)
  exact ⟨r, h⟩

/-- Two tile-parts of tile 0, each followed by the other. -/
theorem cycle_endless {env o f csiz} {b : Bytes} {p q n n' : Nat} {c c' : Bytes}
    (hs : SegAt b p mSOT c (some n)) (hd : sub b n 2 = mSOD) (hi : uint c 2 2 = some 0)
    (hn : (p : Int) + intOf (uint c 4 4) = q)
    (hs' : SegAt b q mSOT c' (some n')) (hd' : sub b n' 2 = mSOD) (hi' : uint c' 2 2 = some 0)
    (hn' : (q : Int) + intOf (uint c' 4 4) = p) (hpq : p ≠ q) (hf : 2 ≤ f) :
    ∀ (fuel : Nat) (s : TileState), s.marker = mSOT → s.offset = p ∨ s.offset = q → 0 < s.found.length →
      tileLoop (fun x => tilePart env o f (some csiz) x b) b fuel s = .timeout := by
  intro fuel
  induction fuel with
  | zero => intros; rfl
  | succ fuel ih =>
    intro s hm ho hl
    have main : ∀ {x y nx : Nat} {cx : Bytes}, s.offset = x → SegAt b x mSOT cx (some nx) →
        sub b nx 2 = mSOD → uint cx 2 2 = some 0 → (x : Int) + intOf (uint cx 4 4) = y → x ≠ y →
        (y = p ∨ y = q) → tileLoop (fun x => tilePart env o f (some csiz) x b) b (fuel + 1) s = .timeout := by
      intro x y nx cx hx hsx hdx hix hnx hne hy
      obtain ⟨r, hr, t1, t2, t3⟩ := tilePart_empty (env := env) (o := o) (csiz := csiz) hsx hdx hf
      rw [tileLoop, if_pos hm, hx, slice2]
      have : sub b x 2 = mSOT := (segAt_marker hsx).symm
      simp only [this, if_true, hr, Outcome.bind_ok, t1, t2, t3, needInt, hix, intOf, Option.getD_some]
      rw [if_pos ⟨by omega, by omega⟩]
      simp only [intOf] at hnx
      rw [hnx, if_pos (by omega)]
      refine ih _ rfl ?_ (by simpa using hl)
      rcases hy with rfl | rfl
      · exact .inl rfl
      · exact .inr rfl
    rcases ho with ho | ho
    · exact main ho hs hd hi hn hpq (.inr rfl)
    · exact main ho hs' hd' hi' hn' hpq.symm (.inl rfl)

theorem chain_length : (Sample.chainHead ++ List.replicate 9985 0).length = 10044 := by
  rw [List.length_append, List.length_replicate]
  rfl

theorem chain_tail_sub (k n : Nat) : sub Sample.endlessChain (10044 + k) n = sub Sample.chainTail k n := by
  have := sub_append_right (Sample.chainHead ++ List.replicate 9985 0) Sample.chainTail k n
  rwa [chain_length] at this

theorem chain_tail_uint (k n : Nat) : uint Sample.endlessChain (10044 + k) n = uint Sample.chainTail k n := by
  have := uint_append_right (Sample.chainHead ++ List.replicate 9985 0) Sample.chainTail k n
  rwa [chain_length] at this

theorem chain_head_sub {k n : Nat} (h : k + n ≤ 59) : sub Sample.endlessChain k n = sub Sample.chainHead k n := by
  unfold Sample.endlessChain
  rw [List.append_assoc]
  exact sub_append_left _ _ h

theorem chain_head_uint {k n : Nat} (h : k + n ≤ 59) :
    uint Sample.endlessChain k n = uint Sample.chainHead k n := by
  unfold Sample.endlessChain
  rw [List.append_assoc]
  exact uint_append_left _ _ h

theorem chain_endless (env : Env) (o : Options) (fuel : Nat) :
    codestream env o fuel Sample.endlessChain = .timeout := by
  have hbig : codestream env o (fuel + 10) Sample.endlessChain = .timeout := by
    have h1 : SegAt Sample.endlessChain 2 mSIZ (sub Sample.chainHead 4 41) (some 45) :=
      segAt_mk (L := 41) (by rw [chain_head_sub (by decide)]; decide) (by decide)
        (by rw [chain_head_uint (by decide)]; decide) (chain_head_sub (by decide)) rfl
    rw [codestream_eq (m0 := sub Sample.endlessChain 0 2) (c0 := []) (k := 2) (n0 := some 2)
      (.alone (by rw [chain_head_sub (by decide)]; decide)) rfl h1]
    have hA : SegAt Sample.endlessChain 45 mSOT (sub Sample.chainHead 47 10) (some 57) :=
      segAt_mk (L := 10) (by rw [chain_head_sub (by decide)]; decide) (by decide)
        (by rw [chain_head_uint (by decide)]; decide) (chain_head_sub (by decide)) rfl
    have hB : SegAt Sample.endlessChain 10044 mSOT (sub Sample.chainTail 2 4) (some 10050) :=
      segAt_mk (L := 4) (by rw [chain_tail_sub 0]; decide) (by decide)
        (by rw [chain_tail_uint 2]; decide) (chain_tail_sub 2 4) rfl
    obtain ⟨r, hr⟩ := siz_ok (env := env) (o := o) (fuel := fuel + 10) (csiz := none)
      (c := sub Sample.chainHead 4 41) ⟨0, by decide, by unfold RsizDefined; decide⟩
    obtain ⟨htag, hrs, -, -, -, -, hcs, -⟩ := siz_text hr
    have hti := siz_tiles hr
    rw [hr, Outcome.bind_ok, reported_text hcs]
    simp only [needInt, Outcome.bind_ok]
    have hse : SegsTo Sample.endlessChain mSOT 45 [] (some 45) := .found hA
    rw [mainLoop_eq hse (by simp) (show mSIZ ≠ mSOT by decide) (by simp [mainStart, intOf]) rfl]
    simp only [List.filter_nil, inTurn, Outcome.bind_ok]
    generalize hst : mainEnd Sample.endlessChain o.packetmarkers (mainStart o Sample.endlessChain r
      (intOf (some 45))) [] (some 45) [] = st
    obtain ⟨rest, hch⟩ := mainNode_chars (o := o) (b := Sample.endlessChain) (ss := []) (e := some 45)
      (rs := []) (r := r) (next := intOf (some 45)) 0
    have hch' : ∀ z, (mainNode o st z).chars = r.charsElem :: rest := by
      intro z
      rw [← hch, hst]
      unfold mainNode
      simp only [testIf_chars]
    have e1 : ((((st.node.addChar "ppmCount" (.int st.ppmCount)).addChar "plmCount" (.int st.plmCount)).testFor
          o.verbose "foundCODMarker" st.foundCOD).testFor o.verbose "foundQCDMarker" st.foundQCD).chars =
        r.charsElem :: rest := by
      rw [← hch' 0]
      unfold mainNode
      simp only [testIf_chars]
    rw [e1, first_text htag hrs]
    simp only [Outcome.bind_ok]
    rw [hch', first_text htag hti]
    simp only [Outcome.bind_ok]
    have hcyc := cycle_endless (env := env) (o := o) (f := fuel + 10)
      (csiz := intOf (uint (sub Sample.chainHead 4 41) 36 2)) hA
      (by rw [chain_head_sub (by decide)]; decide) (by decide) (q := 10044) (by decide) hB
      (by rw [show 10050 = 10044 + 6 from rfl, chain_tail_sub 6]; decide) (by decide) (by decide)
      (by decide) (by omega) (fuel + 10)
    rw [hcyc _ (by rw [← hst]; rfl) (.inl (by rw [← hst]; rfl)) (by simp only [List.length_replicate]; decide)]
    rfl
  have := codestream_le env o (show fuel ≤ fuel + 10 by omega) Sample.endlessChain
  rcases this with h | h
  · exact h
  · rw [h, hbig]

/-- C14, negation: the tile-parts of this codestream are followed forever: the second one, whose SOT
segment ends before the tile-part length, leads back to the first one. -/
theorem C14_false (env : Env) (me : MixEnv) (fs : FS) (o : Options) (mix : Nat) (path : PyStr) {s m}
    (hf : o.format = .j2c ∨ o.format = .jhc) (hb : fs.read path = .data Sample.endlessChain)
    (hs : fs.getsize path = .ok s) (hm : fs.modified path = .ok m) (fuel : Nat) :
    checkOneFile env me fs fuel o mix path = .timeout := by
  refine checkOneFile_timeout hs hm (fun data fmm h => ?_) (fun e he => by rw [hb] at he; cases he)
  have := fileToMemoryMap_bytes h
  rw [hb] at this
  subst this
  unfold validateRoot
  rcases hf with e | e <;> rw [e] <;> exact chain_endless env o fuel

end Jpy
