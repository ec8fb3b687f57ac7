import Verif.Lemmas.SizeWalk
import Verif.Props.Endless
import Verif.Props.Shows
import Verif.Props.Generate
import Verif.Props.Exact
/-! # The size of a report: C69 -/

namespace Jpy
open Spec

theorem csSizes (env : Env) (o : Options) : CsSizes env o := by
  intro fuel c n h
  have h1 : ¬ Endless c := by
    rcases (C14_exact env o c).1 ⟨fuel, by rw [h]; exact fun e => nomatch e⟩ with h1 | h1
    · exact absurd h1 (codestream_ok_safe h)
    · exact h1
  have h2 : codestream env o (2 * c.length + 5) c ≠ .timeout := codestream_ends_py h1 (Nat.le_refl _)
  have h3 : codestream env o (2 * c.length + 5) c = .ok n := by
    rcases codestream_le env o (Nat.le_max_left (2 * c.length + 5) fuel) c with h4 | h4
    · exact absurd h4 h2
    · rcases codestream_le env o (Nat.le_max_right (2 * c.length + 5) fuel) c with h5 | h5
      · rw [h] at h5; cases h5
      · rw [h4, ← h5, h]
  have h4 := size_codestream_fuel h3
  have e : (2 * c.length + 5 + 1) ^ 2 = 4 * (c.length + 3) ^ 2 := by
    rw [show 2 * c.length + 5 + 1 = 2 * (c.length + 3) by omega, Nat.mul_pow]
  rw [e, ← Nat.mul_assoc] at h4
  exact h4

mutual
theorem elements_readable (env : Env) (tbl : RemapTable) : ∀ e : Elem, elements (makeHumanReadable env tbl e) = elements e
  | .mk _ _ _ c _ => by rw [makeHumanReadable, elements, elements, elementsL_readable env tbl c]
theorem elementsL_readable (env : Env) (tbl : RemapTable) : ∀ es : List Elem,
    elementsL (makeHumanReadableL env tbl es) = elementsL es
  | [] => by rw [makeHumanReadableL]
  | e :: es => by rw [makeHumanReadableL, elementsL, elementsL, elements_readable env tbl e, elementsL_readable env tbl es]
end

/-- What an analysis contributes to a report. -/
theorem size_analysis {env : Env} (hx : XmlSizes env) {fs : FS} {o : Options} {fuel path a}
    (h : analyse env fs o fuel path = .ok a) :
    elementsL a.tests + elementsL a.props + elementsL a.warnings ≤ 2 ^ 26 * ((bytesRead (fs.read path)).length + 1) ^ 2 + 1 ∧
    (a.failure ≠ none → elementsL a.tests + elementsL a.props + elementsL a.warnings = 1) := by
  rcases analyse_cases h with ⟨b, fmm, n, h4, h5, rfl⟩ | ⟨e, h4, rfl⟩
  · have h7 : elementsL (fmm.map fun w => Elem.leaf "warning" (.str w)) ≤ 1 := by
      unfold fileToMemoryMap at h4
      split at h4 <;> cases h4 <;> simp [elementsL, elements_leaf]
    obtain ⟨rfl, hf⟩ := fileToMemoryMap_ok h4
    have h6 := size_root hx (csSizes env o) h5
    refine ⟨?_, fun hn => absurd rfl hn⟩
    simp only [analysisOf, elementsL_readable, elementsL_append]
    unfold Node.size at h6
    omega
  · have h7 : elementsL (analysisFailed e).tests + elementsL (analysisFailed e).props + elementsL (analysisFailed e).warnings = 1 := by
      simp [analysisFailed, elementsL, elements_leaf]
    exact ⟨by omega, fun _ => h7⟩

/-- C69 (partial): the report for a file of `n` bytes has at most `2 ^ 26 * (n + 1) ^ 2 + 13` elements.
Missing: a bound that is proportional to the size of the file, which is false (`C69_false`). With
`--mix` see `C69_mix_partial`. The assumption about the XML parser is that a document has at most
one element for each byte. -/
theorem C69_partial {env : Env} (hx : XmlSizes env) {me : MixEnv} {fs : FS} {fuel : Nat} {o : Options}
    {path : PyStr} {rep : Elem} (h : checkOneFile env me fs fuel o 0 path = .ok rep) :
    elements rep ≤ 2 ^ 26 * ((bytesRead (fs.read path)).length + 1) ^ 2 + 13 := by
  obtain ⟨info, a, m, h1, h2, h3, rfl⟩ := checkOneFile_ok.1 h
  obtain ⟨h4, h5⟩ := size_analysis hx h2
  have h6 : elements info = 5 := by
    unfold fileInfo at h1
    obtain ⟨_, -, h1⟩ := Outcome.bind_eq_ok.1 h1
    obtain ⟨_, -, h1⟩ := Outcome.bind_eq_ok.1 h1
    cases h1
    simp [elements_node, elementsL, elements_leaf]
  have h7 : 1 ≤ 2 ^ 26 * ((bytesRead (fs.read path)).length + 1) ^ 2 :=
    Nat.mul_pos (by decide) (Nat.pow_pos (Nat.succ_pos _))
  cases hf : a.failure with
  | none =>
    simp [buildReport, extensionOf, hf, elements_node, elementsL, elements_leaf, elements, h6]
    omega
  | some x =>
    have h8 := h5 (by rw [hf]; exact fun e => nomatch e)
    simp [buildReport, extensionOf, hf, elements_node, elementsL, elements_leaf, elements, h6]
    omega

/-! ## Tile-parts that share a header -/

theorem shared_segs (m : Nat) : ∀ (k : Nat) (s : Bytes × Bytes), s ∈ sharedSegs k m →
    s.1.length = 2 ∧ s.1 ∉ delimiters ∧ s.1 ≠ SOD ∧ FieldIs s.2 0 2 (· = s.2.length) ∧
      (s.1 ∈ tilePartSegments → s = (COM, [0, 5, 0, 0, 0x41]))
  | 0, s, h => by
    rw [sharedSegs, List.mem_append] at h
    rcases h with h | h
    · simp only [sharedStart, List.mem_cons, List.not_mem_nil, or_false] at h
      rcases h with rfl | rfl
      · exact ⟨by decide, by decide, by decide, ⟨10, by decide, by decide⟩, fun h => absurd h (by decide)⟩
      · exact ⟨by decide, by decide, by decide, ⟨2, by decide, by decide⟩, fun h => absurd h (by decide)⟩
    · obtain ⟨-, rfl⟩ := List.mem_replicate.1 h
      exact ⟨by decide, by decide, by decide, ⟨5, by decide, by decide⟩, fun _ => rfl⟩
  | k + 1, s, h => by
    rw [sharedSegs, List.mem_append] at h
    rcases h with h | h
    · simp only [sharedStart, List.mem_cons, List.not_mem_nil, or_false] at h
      rcases h with rfl | rfl
      · exact ⟨by decide, by decide, by decide, ⟨10, by decide, by decide⟩, fun h => absurd h (by decide)⟩
      · exact ⟨by decide, by decide, by decide, ⟨2, by decide, by decide⟩, fun h => absurd h (by decide)⟩
    · exact shared_segs m k s h

theorem shared_coms (m : Nat) :
    ((List.replicate m ((COM, [0, 5, 0, 0, 0x41]) : Bytes × Bytes)).filter fun s => s.1 == COM).length = m := by
  rw [List.filter_eq_self.2, List.length_replicate]
  intro a ha
  obtain ⟨-, rfl⟩ := List.mem_replicate.1 ha
  decide

theorem shared_count (m : Nat) : ∀ k, ((sharedSegs k m).filter fun s => s.1 == COM).length = m
  | 0 => by
    rw [sharedSegs, List.filter_append]
    have : ((sharedStart 0).filter fun s => s.1 == COM) = [] := by decide
    rw [this, List.nil_append, shared_coms m]
  | k + 1 => by
    rw [sharedSegs, List.filter_append]
    have : ((sharedStart 16).filter fun s => s.1 == COM) = [] := by decide
    rw [this, List.nil_append, shared_count m k]

theorem segBytes_append (a b : List (Bytes × Bytes)) : segBytes (a ++ b) = segBytes a ++ segBytes b := by
  simp [segBytes]

theorem com_binary (env : Env) (o : Options) (csiz : Nat) : SegPasses env o (some csiz) COM [0, 5, 0, 0, 0x41] :=
  conforming_passes (.com ⟨5, by decide, by decide, 0, by decide, .inl rfl⟩)

/-- A tile-part at the start of bytes that begin with `sharedStart`. -/
theorem shared_one {env : Env} {o : Options} {m : Nat} {l : UInt8} {rest : List (Bytes × Bytes)} {b pre : Bytes}
    (hb : b = pre ++ (segBytes (sharedStart l ++ rest) ++ (SOD ++ EOC)))
    (hrest : ∀ s ∈ rest, s.1.length = 2 ∧ s.1 ∉ delimiters ∧ s.1 ≠ SOD ∧ FieldIs s.2 0 2 (· = s.2.length) ∧
      (s.1 ∈ tilePartSegments → s = (COM, [0, 5, 0, 0, 0x41])))
    (hm : (rest.filter fun s => s.1 == COM).length = m) (hl : l = 0 ∨ l = 16)
    (hnext : l ≠ 0 → sub b (pre.length + 16) 2 = SOT) :
    (TilePartInfo.mk pre.length 0 l.toNat 0 0).Ok env o 1 b ∧
      ∃ ss k, SegsTo b SOD (pre.length + 12) ss (some k) ∧ segNumber COM ss = m := by
  have e : segBytes (sharedStart l ++ rest) = SOT ++ [0, 10, 0, 0, 0, 0, 0, l, 0, 0] ++
      segBytes (([0xff, 0x65], [0, 2]) :: rest) := by
    rw [segBytes_append, segBytes_cons]
    simp [segBytes, sharedStart]
  rw [e] at hb
  have part : ∀ {off w v : Nat}, uint (SOT ++ [0, 10, 0, 0, 0, 0, 0, l, 0, 0]) off w = some v → off + w ≤ 12 →
      uint b (pre.length + off) w = some v := by
    intro off w v hv ho
    exact uint_part (pre := pre) (c := SOT ++ [0, 10, 0, 0, 0, 0, 0, l, 0, 0])
      (post := segBytes (([0xff, 0x65], [0, 2]) :: rest) ++ (SOD ++ EOC)) (by rw [hb]; simp) (by simpa [SOT] using ho) hv
  have hat : (TilePartInfo.mk pre.length 0 l.toNat 0 0).At b := by
    constructor
    · exact sub_mid' (x := SOT) (post := [0, 10, 0, 0, 0, 0, 0, l, 0, 0] ++
        segBytes (([0xff, 0x65], [0, 2]) :: rest) ++ (SOD ++ EOC)) (by rw [hb]; simp) rfl rfl
    · exact part (by (try dsimp only); rcases hl with rfl | rfl <;> decide) (by decide)
    · exact part (by (try dsimp only); rcases hl with rfl | rfl <;> decide) (by decide)
    · exact part (by (try dsimp only); rcases hl with rfl | rfl <;> decide) (by decide)
    · exact part (by (try dsimp only); rcases hl with rfl | rfl <;> decide) (by decide)
    · exact part (by (try dsimp only); rcases hl with rfl | rfl <;> decide) (by decide)
  have hpre : (pre ++ (SOT ++ [0, 10, 0, 0, 0, 0, 0, l, 0, 0])).length = pre.length + 12 := by simp [SOT]
  have hall : ∀ s ∈ (([0xff, 0x65], [0, 2]) :: rest : List (Bytes × Bytes)),
      s.1.length = 2 ∧ s.1 ∉ delimiters ∧ s.1 ≠ SOD ∧ FieldIs s.2 0 2 (· = s.2.length) ∧
      (s.1 ∈ tilePartSegments → s = (COM, [0, 5, 0, 0, 0x41])) := by
    intro s hs
    rcases List.mem_cons.1 hs with rfl | hs
    · exact ⟨by decide, by decide, by decide, ⟨2, by decide, by decide⟩, fun h => absurd h (by decide)⟩
    · exact hrest s hs
  obtain ⟨ss, hs1, hs2⟩ := segsTo_gen (stop := SOD) (([0xff, 0x65], [0, 2]) :: rest) (b := b)
    (pre := pre ++ (SOT ++ [0, 10, 0, 0, 0, 0, 0, l, 0, 0])) (rest := SOD ++ EOC) (by rw [hb]; simp)
    (fun s hs => let h := hall s hs; ⟨h.1, h.2.1, h.2.2.1, h.2.2.2.1⟩) (by
      have h1 : sub b ((pre ++ (SOT ++ [0, 10, 0, 0, 0, 0, 0, l, 0, 0])).length +
          (segBytes (([0xff, 0x65], [0, 2]) :: rest)).length) 2 = SOD :=
        sub_mid' (x := SOD) (pre := pre ++ (SOT ++ [0, 10, 0, 0, 0, 0, 0, l, 0, 0]) ++
          segBytes (([0xff, 0x65], [0, 2]) :: rest)) (post := EOC) (by rw [hb]; simp)
          (by simp only [List.length_append]) rfl
      have h2 := SegAt.alone (b := b) (off := (pre ++ (SOT ++ [0, 10, 0, 0, 0, 0, 0, l, 0, 0])).length +
          (segBytes (([0xff, 0x65], [0, 2]) :: rest)).length) (by rw [h1]; decide)
      rw [h1] at h2
      exact ⟨_, _, h2⟩)
  rw [hpre] at hs1
  have hss : ∀ x ∈ ss, x.marker ∈ tilePartSegments → x.marker = COM ∧ x.contents = [0, 5, 0, 0, 0x41] := by
    intro x hx hm
    have h1 : (x.marker, x.contents) ∈ (([0xff, 0x65], [0, 2]) :: rest : List (Bytes × Bytes)) :=
      hs2 ▸ List.mem_map.2 ⟨x, hx, rfl⟩
    have h2 := (hall _ h1).2.2.2.2 hm
    exact Prod.mk.inj h2
  have hno : ∀ c : Bytes, c ∈ tilePartSegments → c ≠ COM → (ss.filter fun x => x.marker == c) = [] := by
    intro c hc hne
    rw [List.filter_eq_nil_iff]
    intro x hx hxc
    have hxc : x.marker = c := by simpa using hxc
    exact hne (hxc ▸ (hss x hx (hxc ▸ hc)).1)
  refine ⟨⟨hat, by simp, ?_, by simp, ⟨ss, _, hs1, ?_, ?_, ?_, ?_⟩, ?_⟩, ss, _, hs1, ?_⟩
  · rcases hl with rfl | rfl
    · exact .inl rfl
    · exact .inr (show 14 ≤ (16 : UInt8).toNat by decide)
  · intro x hx hm
    obtain ⟨h1, h2⟩ := hss x hx hm
    rw [h1, h2]
    exact com_binary env o 1
  · intro c _ _
    rfl
  · unfold OnePerComponent
    rw [hno COC (by decide) (by decide)]
    exact List.nodup_nil
  · unfold OnePerComponent
    rw [hno QCC (by decide) (by decide)]
    exact List.nodup_nil
  · intro h0
    rcases hl with rfl | rfl
    · exact absurd rfl h0
    · exact .inl (hnext (by decide))
  · unfold segNumber
    have h1 := congrArg (fun l => (l.filter fun s => s.1 == COM).length) hs2
    simp only [List.filter_map, List.length_map] at h1
    refine Eq.trans h1 ?_
    rw [List.filter_cons_of_neg (by decide)]
    exact hm

theorem shared_starts (k m : Nat) : ∃ r, segBytes (sharedSegs k m) = SOT ++ r := by
  cases k <;> exact ⟨_, by rw [sharedSegs, segBytes_append]; simp only [sharedStart, segBytes_cons, List.append_assoc]; rfl⟩

theorem shared_visited (env : Env) (o : Options) (m : Nat) : ∀ (k : Nat) {b pre : Bytes}
    (_ : b = pre ++ (segBytes (sharedSegs k m) ++ (SOD ++ EOC))),
    ∃ ts, Visited b 1 pre.length ts ∧ ts.length = k + 1 ∧ ∀ t ∈ ts, t.Ok env o 1 b ∧ t.index = 0 ∧ t.parts = 0 ∧
      ∃ ss e, SegsTo b SOD (t.start + 12) ss (some e) ∧ segNumber COM ss = m
  | 0, b, pre, hb => by
    obtain ⟨h1, h2⟩ := shared_one (env := env) (o := o) (l := 0) (rest := List.replicate m (COM, [0, 5, 0, 0, 0x41])) hb
      (fun s hs => shared_segs m 0 s (by rw [sharedSegs]; exact List.mem_append_right _ hs))
      (shared_coms m) (.inl rfl) (fun h => absurd rfl h)
    refine ⟨[⟨pre.length, 0, 0, 0, 0⟩], .last (t := ⟨pre.length, 0, 0, 0, 0⟩) h1.at_ (.inr rfl), rfl, fun t ht => ?_⟩
    obtain rfl := List.mem_singleton.1 ht
    exact ⟨h1, rfl, rfl, h2⟩
  | k + 1, b, pre, hb => by
    obtain ⟨r, hr⟩ := shared_starts k m
    have hb' : b = (pre ++ segBytes (sharedStart 16)) ++ (segBytes (sharedSegs k m) ++ (SOD ++ EOC)) := by
      rw [hb, sharedSegs, segBytes_append]; simp only [List.append_assoc]
    have hlen : (pre ++ segBytes (sharedStart 16)).length = pre.length + 16 := by
      rw [List.length_append]; rfl
    have hsot : sub b (pre.length + 16) 2 = SOT := by
      rw [← hlen]
      exact sub_mid' (x := SOT) (post := r ++ (SOD ++ EOC)) (by rw [hb', hr]; simp only [List.append_assoc]) rfl rfl
    obtain ⟨h1, h2⟩ := shared_one (env := env) (o := o) (l := 16) (rest := sharedSegs k m) hb (shared_segs m k) (shared_count m k)
      (.inr rfl) (fun _ => hsot)
    obtain ⟨ts, h3, h4, h5⟩ := shared_visited env o m k hb'
    rw [hlen] at h3
    refine ⟨⟨pre.length, 0, 16, 0, 0⟩ :: ts, .step (t := ⟨pre.length, 0, 16, 0, 0⟩) h1.at_ (show ((0 : Nat) : Int) < 1 by decide)
      (show 16 ≠ 0 by decide) h3,
      by simp [h4], fun t ht => ?_⟩
    rcases List.mem_cons.1 ht with rfl | ht
    · exact ⟨h1, rfl, rfl, h2⟩
    · exact h5 t ht

/-! ## Their reports -/

/-- The SIZ segment of these codestreams. -/
def sharedSiz : Bytes := [0, 41, 0, 0, 0, 0, 0, 1, 0, 0, 0, 1, 0, 0, 0, 0, 0, 0, 0, 0, 0, 0, 0, 1, 0, 0, 0, 1, 0, 0, 0, 0, 0, 0, 0, 0,
    0, 1, 7, 1, 1]

theorem shared_length (m : Nat) : ∀ k, (segBytes (sharedSegs k m)).length = 16 * (k + 1) + 7 * m
  | 0 => by
    rw [sharedSegs, segBytes_append, List.length_append]
    have h1 : (segBytes (sharedStart 0)).length = 16 := rfl
    have h2 : (segBytes (List.replicate m ((COM, [0, 5, 0, 0, 0x41]) : Bytes × Bytes))).length = 7 * m := by
      induction m with
      | zero => rfl
      | succ m ih => rw [List.replicate_succ, segBytes_cons, List.length_append, ih]; simp [COM]; omega
    omega
  | k + 1 => by
    rw [sharedSegs, segBytes_append, List.length_append, shared_length m k]
    have h1 : (segBytes (sharedStart 16)).length = 16 := rfl
    omega

/-- The parts of these codestreams. -/
theorem shared_parts (env : Env) {o : Options} (hf : o.format = .j2c) (k m : Nat) :
    ∃ main e ts, (CodestreamParts.mk sharedSiz 45 1 main (some e) 1 ts).Ok env o (sharedHeader k m) ∧
      ts.length = k + 1 ∧ (∀ t ∈ ts, ∃ ss e, SegsTo (sharedHeader k m) SOD (t.start + 12) ss (some e) ∧ segNumber COM ss = m) := by
  obtain ⟨r, hr⟩ := shared_starts k m
  have hmain : ConformingHeader env.catC o.format 1 mainSegments
      [(COD, [0, 12, 0, 0, 0, 1, 0, 5, 4, 4, 0, 1]), (QCD, [0, 4, 0x40, 0x48])] := by
    constructor
    · intro s hs
      simp only [List.mem_cons, List.not_mem_nil, or_false] at hs
      rcases hs with rfl | rfl
      · refine ⟨by decide, .cod ⟨⟨0, by decide, by decide⟩, ⟨1, by decide, by decide⟩, ⟨0, by decide, by decide⟩,
          ⟨12, by decide, by decide, by decide, 0, by decide, 5, by decide, by decide, by decide, ?_⟩,
          ⟨4, by decide, 4, by decide, by decide, by decide, by decide⟩, ⟨1, by decide, by decide⟩⟩, 12, by decide, by decide⟩
        intro hb
        exact absurd hb (by decide)
      · exact ⟨by decide, .qcd ⟨⟨4, by decide, by decide⟩, ⟨0x40, by decide, by decide⟩⟩, 4, by decide, by decide⟩
    · exact List.nodup_nil
    · exact List.nodup_nil
  have hb : sharedHeader k m = (SOC ++ SIZ ++ sharedSiz) ++ (segBytes
      [(COD, [0, 12, 0, 0, 0, 1, 0, 5, 4, 4, 0, 1]), (QCD, [0, 4, 0x40, 0x48])] ++ (segBytes (sharedSegs k m) ++ (SOD ++ EOC))) := by
    simp only [sharedHeader, sharedSiz, List.append_assoc]
  have hb2 : sharedHeader k m = ((SOC ++ SIZ ++ sharedSiz) ++ segBytes
      [(COD, [0, 12, 0, 0, 0, 1, 0, 5, 4, 4, 0, 1]), (QCD, [0, 4, 0x40, 0x48])]) ++ (segBytes (sharedSegs k m) ++ (SOD ++ EOC)) := by
    rw [hb]; simp only [List.append_assoc]
  obtain ⟨ts, hv1, hv2, hv3⟩ := shared_visited env o m k hb2
  have hsot : sub (sharedHeader k m) ((SOC ++ SIZ ++ sharedSiz).length + (segBytes
      [(COD, [0, 12, 0, 0, 0, 1, 0, 5, 4, 4, 0, 1]), (QCD, [0, 4, 0x40, 0x48])]).length) 2 = SOT := by
    refine sub_mid' (x := SOT) (post := r ++ (SOD ++ EOC)) (pre := (SOC ++ SIZ ++ sharedSiz) ++ segBytes
        [(COD, [0, 12, 0, 0, 0, 1, 0, 5, 4, 4, 0, 1]), (QCD, [0, 4, 0x40, 0x48])]) ?_ ?_ rfl
    · rw [hb2, hr]; simp only [List.append_assoc]
    · simp only [List.length_append]
  have hl : uint (sharedHeader k m) ((SOC ++ SIZ ++ sharedSiz).length + (segBytes
      [(COD, [0, 12, 0, 0, 0, 1, 0, 5, 4, 4, 0, 1]), (QCD, [0, 4, 0x40, 0x48])]).length + 2) 2 = some 10 := by
    cases hts : ts with
    | nil => rw [hts] at hv2; simp at hv2
    | cons t rest =>
      rw [hts] at hv1
      rw [← List.length_append]
      generalize (SOC ++ SIZ ++ sharedSiz ++ segBytes
        [(COD, [0, 12, 0, 0, 0, 1, 0, 5, 4, 4, 0, 1]), (QCD, [0, 4, 0x40, 0x48])]).length = off at hv1
      cases hv1 with
      | last h => exact h.segLength
      | step h => exact h.segLength
  have hseg := SegAt.seg (b := sharedHeader k m) (by rw [hsot]; decide) hl
  rw [hsot] at hseg
  obtain ⟨ss, hs1, hs2⟩ := segsTo_gen (stop := SOT) _ hb (fun s hs => by
      obtain ⟨ha, -, hf⟩ := hmain.segs s hs
      refine ⟨?_, ?_, ?_, hf⟩ <;> revert ha <;> generalize s.1 = m <;> revert m <;> decide) ⟨_, _, hseg⟩
  obtain ⟨g1, g2, g3, g4⟩ := header_gen hmain hs2
  rw [← List.length_append] at hs1
  refine ⟨ss, 65, ts, ?_, hv2, fun t ht => (hv3 t ht).2.2.2⟩
  constructor <;> try dsimp only
  · exact sub_mid' (x := SOC) (pre := []) (by rw [hb]; simp only [List.append_assoc, List.nil_append]; rfl) rfl rfl
  · exact segAt_here (pre := SOC) (by rw [hb]; simp only [List.append_assoc]; rfl) rfl (by decide) ⟨41, by decide, by decide⟩
  · refine ⟨0, (C26_siz_partial env o 0 none sharedSiz).2 ?_⟩
    rw [hf]
    refine ⟨⟨⟨0, by decide, by simp [RsizOk]⟩, ⟨1, by decide, by decide⟩, ⟨1, by decide, by decide⟩, ⟨0, by decide, by decide⟩,
      ⟨0, by decide, by decide⟩, ⟨1, by decide, by decide⟩, ⟨1, by decide, by decide⟩, ⟨0, by decide, by decide⟩,
      ⟨0, by decide, by decide⟩, ⟨1, by decide, by decide, by decide, ⟨41, by decide, by decide⟩, ?_⟩⟩, ⟨0, by decide, .inr (by decide)⟩⟩
    intro i hi
    obtain rfl : i = 0 := by omega
    exact ⟨⟨7, by decide, by decide⟩, ⟨1, by decide, by decide⟩, ⟨1, by decide, by decide⟩⟩
  · decide
  · exact hs1
  · exact g1
  · exact (g4 COD).2 ⟨_, List.mem_cons_self .., rfl⟩
  · exact (g4 QCD).2 ⟨_, List.mem_cons_of_mem _ (List.mem_cons_self ..), rfl⟩
  · rintro ⟨v, hv, hb, -⟩
    have : uint sharedSiz 2 2 = some 0 := by decide
    rw [show uint sharedSiz 2 2 = some v from hv] at this
    cases this
    exact absurd hb (by decide)
  · exact ⟨1, 1, 1, 1, 0, 0, 1, 1, by decide, by decide, by decide, by decide, by decide, by decide, by unfold IsCeil; decide,
      by unfold IsCeil; decide, by decide⟩
  · exact hv1
  · exact fun t ht => (hv3 t ht).1
  · refine ⟨[0], by decide, fun i => ?_, rfl⟩
    rw [List.mem_singleton]
    constructor
    · rintro rfl
      cases hts : ts with
      | nil => rw [hts] at hv2; simp at hv2
      | cons t rest => exact ⟨t, List.mem_cons_self .., (hv3 t (hts ▸ List.mem_cons_self ..)).2.1⟩
    · rintro ⟨t, ht, rfl⟩
      exact (hv3 t ht).2.1
  · rintro ⟨t, ht, hp⟩
    exact absurd (hv3 t ht).2.2.1 hp
  · exact g2
  · exact g3
  · have hlen : (sharedHeader k m).length = ((SOC ++ SIZ ++ sharedSiz) ++ segBytes
      [(COD, [0, 12, 0, 0, 0, 1, 0, 5, 4, 4, 0, 1]), (QCD, [0, 4, 0x40, 0x48])] ++ segBytes (sharedSegs k m) ++ SOD).length + 2 := by
      rw [hb]; simp only [List.length_append, EOC, List.length_cons, List.length_nil]; omega
    refine ⟨by omega, ?_⟩
    rw [hlen, Nat.add_sub_cancel]
    exact sub_mid' (x := EOC) (post := []) (by rw [hb]; simp only [List.append_assoc, List.append_nil]) rfl rfl

theorem elements_segs {env o csiz ss es} (h : ShowsSegs env o csiz tilePartSegments ss es) : segNumber COM ss ≤ elementsL es := by
  induction h with
  | nil => exact Nat.zero_le _
  | @skip x ss es hx hss ih =>
    have hne : x.marker ≠ COM := by
      rintro e
      rw [e] at hx
      rcases hx with hx | ⟨hx, -⟩
      · exact hx (by decide)
      · exact absurd hx (by decide)
    unfold segNumber at *
    rw [List.filter_cons_of_neg (by simpa using hne)]
    exact ih
  | @«show» x ss e es h1 h2 h3 h4 h5 ih =>
    have : 1 ≤ elements e := by cases e; rw [elements]; omega
    have h6 : segNumber COM (x :: ss) ≤ segNumber COM ss + 1 := by
      unfold segNumber
      rw [List.filter_cons]
      split <;> simp
    rw [elementsL]
    omega

theorem elements_tileParts {env o csiz b m} : ∀ {ts es}, ShowsTileParts env o csiz b ts es →
    (∀ t ∈ ts, ∃ ss e, SegsTo b SOD (t.start + 12) ss (some e) ∧ segNumber COM ss = m) → ts.length * m ≤ elementsL es
  | _, _, .nil, _ => by simp
  | _, _, .cons (t := t) (ts := ts) h1 h2, hm => by
    have ih := elements_tileParts h2 fun t ht => hm t (List.mem_cons_of_mem _ ht)
    obtain ⟨ss, e, hs, hc⟩ := hm t (List.mem_cons_self ..)
    cases h1 with
    | mk _ _ hs' hsh =>
      obtain ⟨rfl, -⟩ := segsTo_unique hs hs'
      have := elements_segs hsh
      rw [elementsL, elements_node, elementsL, elementsL_append, List.length_cons, Nat.add_mul]
      omega

/-- C69 (lower bound): the codestreams in which tile-parts share a header are reported valid, and the report
for the one with `k + 1` tile-parts and `m` comments, in `85 + 16 * k + 7 * m` bytes, has more than
`(k + 1) * m` elements. -/
theorem C69_shared (env : Env) (me : MixEnv) {fs : FS} {o : Options} {path : PyStr} (hf : o.format = .j2c) (k m : Nat)
    (hr : fs.read path = .data (sharedHeader k m)) (hs : ∃ n, fs.getsize path = .ok n) (hm : ∃ t, fs.modified path = .ok t) :
    (sharedHeader k m).length = 85 + 16 * k + 7 * m ∧
    ∃ f0, ∀ fuel ≥ f0, ∃ rep, checkOneFile env me fs fuel o 0 path = .ok rep ∧ verdict rep = some (.str "True") ∧
      (k + 1) * m < elements rep := by
  obtain ⟨main, e, ts, hok, hlen, hts⟩ := shared_parts env hf k m
  refine ⟨?_, ?_⟩
  · have := shared_length m k
    have e1 : (segBytes [(COD, [0, 12, 0, 0, 0, 1, 0, 5, 4, 4, 0, 1]), (QCD, [0, 4, 0x40, 0x48])]).length = 20 := rfl
    rw [sharedHeader]
    simp only [List.length_append, this, e1, SOD, EOC, SOC, SIZ, List.length_cons, List.length_nil]
    omega
  · obtain ⟨f0, h0⟩ := reported_of_fileValid (me := me) hr hs hm
      ((C23_file env o _ (.inl hf)).2 ((C23_codestream env o _).2 ⟨_, hok⟩))
    refine ⟨f0, fun fuel hfuel => ?_⟩
    obtain ⟨rep, h1, h2⟩ := h0 fuel hfuel
    refine ⟨rep, h1, h2, ?_⟩
    obtain ⟨info, a, mx, h3, h4, -, rfl⟩ := checkOneFile_ok.1 h1
    rw [verdict_eq (fileInfo_tag h3)] at h2
    simp only [Option.some.injEq, PyVal.str.injEq, boolStr_true] at h2
    rcases analyse_cases h4 with ⟨b, fmm, n, h5, h6, rfl⟩ | ⟨e, h5, rfl⟩
    · obtain ⟨rfl, -⟩ := fileToMemoryMap_ok h5
      rw [hr] at h6
      have h7 : codestream env o fuel (sharedHeader k m) = .ok n := by
        unfold validateRoot at h6
        rw [hf] at h6
        exact h6
      have h8 := C54_codestream env o fuel _ n h7 hok.soc sharedSiz 1 main (some e) ⟨⟨_, hok.sizAt, hok.mainAt⟩, hok.csiz⟩
      have h9 : (k + 1) * m ≤ elementsL n.chars := by
        generalize hch : n.chars = ch at h8
        cases h8 with
        | @mk s segs tps ratio nt _ _ _ ht _ hv _ _ _ =>
          have hnt : nt = 1 := by
            obtain ⟨x, y, xt, yt, xo, yo, q1, q2, a1, a2, a3, a4, a5, a6, a7, a8, rfl⟩ :=
              ht ⟨1, by decide, by decide⟩ ⟨1, by decide, by decide⟩
            have e1 : uint sharedSiz 4 4 = some 1 := by decide
            have e2 : uint sharedSiz 8 4 = some 1 := by decide
            have e3 : uint sharedSiz 20 4 = some 1 := by decide
            have e4 : uint sharedSiz 24 4 = some 1 := by decide
            have e5 : uint sharedSiz 28 4 = some 0 := by decide
            have e6 : uint sharedSiz 32 4 = some 0 := by decide
            rw [a1] at e1; rw [a2] at e2; rw [a3] at e3; rw [a4] at e4; rw [a5] at e5; rw [a6] at e6
            cases e1; cases e2; cases e3; cases e4; cases e5; cases e6
            unfold IsCeil at a7 a8
            have b1 : q1 = 1 := by omega
            have b2 : q2 = 1 := by omega
            rw [b1, b2]; rfl
          subst hnt
          have h10 := elements_tileParts (hv e ts rfl hok.visited) hts
          rw [hlen] at h10
          simp only [elementsL, elementsL_append, elements_node]
          omega
      simp [buildReport, extensionOf, elements_node, elementsL, elements_leaf, elements, elementsL_append, analysisOf, elementsL_readable]
      omega
    · cases h2

/-- C69 is false: for every number there is a file that is reported valid and whose report has more than
that number of elements for each byte. -/
theorem C69_false (env : Env) (me : MixEnv) {o : Options} (hf : o.format = .j2c) (A : Nat) :
    ∃ b : Bytes, ∀ (fs : FS) (path : PyStr), fs.read path = .data b → (∃ n, fs.getsize path = .ok n) →
      (∃ t, fs.modified path = .ok t) → ∃ f0, ∀ fuel ≥ f0, ∃ rep, checkOneFile env me fs fuel o 0 path = .ok rep ∧
        verdict rep = some (.str "True") ∧ A * b.length < elements rep := by
  refine ⟨sharedHeader (108 * A) (108 * A + 1), fun fs path hr hs hm => ?_⟩
  obtain ⟨h1, f0, h2⟩ := C69_shared env me hf _ _ hr hs hm
  refine ⟨f0, fun fuel hfuel => ?_⟩
  obtain ⟨rep, h3, h4, h5⟩ := h2 fuel hfuel
  refine ⟨rep, h3, h4, Nat.lt_of_le_of_lt ?_ h5⟩
  rw [h1]
  have h6 : A * (85 + 16 * (108 * A) + 7 * (108 * A + 1)) ≤ A * (108 * (108 * A + 1)) := Nat.mul_le_mul_left _ (by omega)
  have h7 : A * (108 * (108 * A + 1)) = (108 * A) * (108 * A + 1) := by rw [← Nat.mul_assoc, Nat.mul_comm A 108]
  have h8 : (108 * A) * (108 * A + 1) ≤ (108 * A + 1) * (108 * A + 1) := Nat.mul_le_mul_right _ (by omega)
  omega

theorem length_flatMap_const {α β} (f : α → List β) (k n : Nat) {l : List α} (hf : ∀ x, (f x).length = k) (hl : l.length = n) :
    (l.flatMap f).length = n * k := by
  subst hl
  induction l with
  | nil => simp
  | cons x l ih => rw [List.flatMap_cons, List.length_append, ih, hf, List.length_cons, Nat.add_mul]; omega

/-- C69 (palette): the number of entries reported for a palette box is the product of the two counts in its
first three bytes, whether or not the payload contains the entries. -/
theorem C69_palette (env : Env) (o : Options) (fuel : Nat) (c : Bytes) (r : BoxResult) (nE nPC : Nat)
    (h : validateBox env o (fuel + 1) tagPalette c = .ok r) (h0 : uint c 0 2 = some nE) (h2 : uint c 2 1 = some nPC) :
    (reported r.node "cP").length = nPC * nE := by
  obtain ⟨ss, h1, rfl⟩ := (validateBox_ok (t := .paletteBox) (by decide) rfl).1 h
  simp only [leaf, paletteBox, Outcome.ok.injEq] at h1
  subst h1
  rw [reported_run, u16_at c 0 (x := 0) (y := 2) rfl rfl, u8_at c 2 (x := 2) (y := 3) rfl rfl, h0, h2]
  simp only [intOf, rangeLen, Int.toNat_natCast]
  rw [repOf_append, repOf_flatMap]
  have e : ∀ a b c d, repOf "cP" [Step.char "nE" a, Step.test "nEIsValid" b, Step.char "nPC" c,
    Step.test "nPCIsValid" d] = [] := fun _ _ _ _ => rfl
  rw [e, List.nil_append]
  refine length_flatMap_const _ _ _ (fun i => ?_) (List.length_range ..)
  rw [repOf_append]
  have e2 : ∀ a b c, repOf "cP" [Step.char "bSign" a, Step.char "bDepth" b, Step.test "bDepthIsValid" c]
    = [] := fun _ _ _ => rfl
  rw [e2, List.nil_append, repOf_map]
  have e3 : ∀ v, repOf "cP" [Step.char "cP" v] = [v] := fun _ => rfl
  simp only [e3]
  rw [flatMap_singleton, List.length_map, List.length_range]

/-! ## Concrete cases -/

/-- The XML parser of the samples meets the assumption. -/
example : XmlSizes Sample.env0 := by
  intro b e h
  cases h

/-- A parser that finds documents meets it as well. -/
example : XmlSizes { Sample.env0 with parseXml := fun b => if b = ascii "<a><b/></a>" then some (.node "a" [.leaf "b" .none]) else none } := by
  intro b e h
  simp only at h
  split at h
  · rename_i hb
    cases h
    subst hb
    decide
  · cases h

/-- C69: a file with a report. -/
example : ∃ rep, Sample.reportOf (Sample.opts .jp2) 0 Sample.jp2 = .ok rep ∧
    elements rep ≤ 2 ^ 26 * (Sample.jp2.length + 1) ^ 2 + 13 := by
  have h : ∃ rep, Sample.reportOf (Sample.opts .jp2) 0 Sample.jp2 = .ok rep := by
    have : Sample.saysValid (Sample.reportOf (Sample.opts .jp2) 0 Sample.jp2) = true := by decide +kernel
    revert this
    cases Sample.reportOf (Sample.opts .jp2) 0 Sample.jp2 with
    | ok rep => exact fun _ => ⟨rep, rfl⟩
    | _ => exact fun h => nomatch h
  obtain ⟨rep, h⟩ := h
  have hx : XmlSizes Sample.env0 := by
    intro b e h
    cases h
  have := C69_partial hx (show checkOneFile Sample.env0 Sample.me0 (Sample.fs0 Sample.jp2) 200 (Sample.opts .jp2) 0 [97] = .ok rep from h)
  rw [show bytesRead ((Sample.fs0 Sample.jp2).read [97]) = Sample.jp2 by decide +kernel] at this
  exact ⟨rep, h, this⟩

/-- C69: a palette box of eleven bytes announces more than sixteen million entries. -/
example : ∃ r, validateBox Sample.env0 (Sample.opts .jp2) 1 tagPalette [255, 255, 255] = .ok r ∧
    (reported r.node "cP").length = 16711425 :=
  have h : validateBox Sample.env0 (Sample.opts .jp2) 1 tagPalette [255, 255, 255] = .ok _ :=
    (validateBox_ok (t := .paletteBox) (by decide) rfl).2 ⟨_, rfl, rfl⟩
  ⟨_, h, C69_palette _ _ _ _ _ 65535 255 h (by decide) (by decide)⟩

end Jpy
