import Verif.Lemmas.Rules
/-! # Every failed test names a violated rule: C56 -/

set_option linter.unusedSimpArgs false

namespace Jpy
open Spec

theorem diag_signature (c : Bytes) : Diag (signatureBox c) (signatureRules c) := by
  unfold signatureBox signatureRules
  rw [slice_at c 0 4 (x := 0) (y := 4) rfl rfl]
  diag <;> exact decide_eq_true_iff

theorem diag_ihdr (c : Bytes) : Diag (imageHeaderBox c) (ihdrRules c) := by
  unfold imageHeaderBox ihdrRules
  simp only
  decode
  diag
  · exact decide_eq_true_iff
  · fr c 0 4
  · fr c 4 4
  · fr c 8 2
  · fr c 10 1
  · fr c 11 1
  · fr c 12 1
  · fr c 13 1

theorem diag_bpcc (c : Bytes) : Diag (bitsPerComponentBox c) (bpccRules c) := by
  unfold bitsPerComponentBox bpccRules
  refine diag_loop [("bPCIsValid", fun i => FieldIs c i 1 (fun v => v % 128 + 1 ≤ 38))] fun i _ => ?_
  rw [u8_at c i rfl rfl]
  simp only [List.map]
  diag
  fr c i 1

theorem diag_palette (c : Bytes) : Diag (paletteBox c) (paletteRules c) := by
  unfold paletteBox paletteRules
  simp only
  rw [u16_at c 0 (x := 0) (y := 2) rfl rfl, u8_at c 2 (x := 2) (y := 3) rfl rfl]
  refine diag_append (ra := [_, _]) ?_ ?_
  · diag
    · fr c 0 2
    · fr c 2 1
  · rcases h2 : uint c 2 1 with _ | n
    · exact diag_skip (by simp) diag_nil
    · simp only [intOf, rangeLen, Int.toNat_natCast, Option.some.injEq, forall_eq']
      refine diag_loop [("bDepthIsValid", fun i => FieldIs c (3 + i) 1 (fun b => b % 128 + 1 ≤ 38))]
        fun i _ => ?_
      rw [u8_at c (3 + i) (by omega) (by omega)]
      simp only [List.map]
      refine diag_append (ra := [_]) (rb := []) ?_ (diag_none (testsOf_map_char _ _ _))
      diag
      fr c (3 + i) 1

theorem diag_cmap (c : Bytes) : Diag (componentMappingBox c) (cmapRules c) := by
  unfold componentMappingBox cmapRules
  refine diag_loop [("cMPIsValid", fun i => FieldIs c (4 * i) 2 (· ≤ 16384)),
    ("mTypIsValid", fun i => FieldIs c (4 * i + 2) 1 (· ≤ 1)),
    ("pColIsValid", fun i => FieldIs c (4 * i + 2) 1 (· = 0) → FieldIs c (4 * i + 3) 1 (· = 0))]
    fun i hi => ?_
  simp only [List.map]
  rw [u16_at c (4 * i) (by omega) (by omega), u8_at c (4 * i + 2) (by omega) (by omega),
    u8_at c (4 * i + 3) (by omega) (by omega)]
  diag
  · fr c (4 * i) 2
  · fr c (4 * i + 2) 1
  · have h1 := uint_pos (b := c) (off := 4 * i + 2) (n := 1) (by omega)
    have h2 := uint_pos (b := c) (off := 4 * i + 3) (n := 1) (by omega)
    simp only [FieldIs, h1, h2, intOf, Option.some.injEq, exists_eq_left']
    split <;> simp only [decide_eq_true_eq, true_iff] <;> omega

theorem diag_ftyp (fmt : Format) (c : Bytes) : Diag (fileTypeBox fmt c) (ftypRules fmt c) := by
  unfold fileTypeBox ftypRules
  simp only
  decode
  rw [slice_at c 0 4 (x := 0) (y := 4) rfl rfl]
  have hl : rangeLen (intDiv ((c.length : Int) - 8) 4) = (c.length - 8) / 4 := rangeLen_intDiv c.length 8 4
  rw [hl]
  have hm : ∀ br : Bytes, br ∈ (List.range ((c.length - 8) / 4)).map (fun (i : Nat) =>
      slice c (8 + 4 * i) (8 + 4 * i + 4)) ↔ ∃ i, i < (c.length - 8) / 4 ∧ sub c (8 + 4 * i) 4 = br := by
    intro br
    simp only [List.mem_map, List.mem_range]
    refine exists_congr fun i => and_congr_right fun _ => ?_
    rw [slice_at c (8 + 4 * i) 4 (by omega) (by omega)]
  generalize hL : (List.range ((c.length - 8) / 4)).map (fun (i : Nat) =>
      slice c (8 + 4 * i) (8 + 4 * i + 4)) = L at *
  have h4 : decide (intOf (uint c 4 4) = 0) = true ↔ FieldIs c 4 4 (· = 0) := by fr c 4 4
  have h0 : decide (((c.length : Int) - 8) % 4 = 0) = true ↔ c.length % 4 = 0 := by
    rw [decide_eq_true_eq]; omega
  cases fmt <;> simp only [List.append_assoc, List.cons_append, List.nil_append, List.append_nil, brandOf,
      Option.some.injEq, forall_eq', reduceCtorEq, false_implies, implies_true]
  all_goals
    refine diag_test h0 (diag_char ?_)
  · refine diag_test decide_eq_true_iff (diag_char (diag_test h4 (diag_quiet (testsOf_map_char _ _ _) ?_)))
    exact diag_test (decide_eq_true_iff.trans (hm _)) diag_nil
  · refine diag_test decide_eq_true_iff (diag_char (diag_test h4 (diag_quiet (testsOf_map_char _ _ _) ?_)))
    exact diag_test (decide_eq_true_iff.trans (hm _)) diag_nil
  all_goals
    refine diag_skip trivial (diag_char (diag_test h4 ?_))
    exact diag_skip trivial (diag_none (testsOf_map_char _ _ _))

theorem diag_res (x : String) (c : Bytes) (ss : List Step) (h : resolutionLeaf x c = .ok ss) :
    Diag ss (resRules x c) := by
  unfold resolutionLeaf at h
  simp only at h
  split at h
  · cases h
  split at h
  · cases h
  cases h
  unfold resRules
  decode
  have hs : ∀ i : Nat, between (-128) (bytesToSignedChar (slice c (i : Int) ((i : Int) + 1))) 127 = true ↔
      FieldIs c i 1 (fun _ => True) := by
    intro i
    rw [between_iff]
    by_cases hi : i < c.length
    · have h1 := uint_pos (b := c) (off := i) (n := 1) (by omega)
      simp only [FieldIs, h1, Option.some.injEq, exists_eq_left']
      exact ⟨fun _ => trivial, fun _ => signed_range c i hi⟩
    · have h1 : uint c i 1 = none := by unfold uint; exact if_neg (by omega)
      have h2 : slice c (i : Int) ((i : Int) + 1) = [] := by
        rw [slice_at c i 1 rfl (by omega)]
        exact List.eq_nil_of_length_eq_zero (by rw [length_sub]; omega)
      rw [h2]
      simp only [FieldIs, h1, reduceCtorEq, false_and, exists_false, iff_false]
      decide
  diag
  · exact decide_eq_true_iff
  · fr c 0 2
  · fr c 2 2
  · fr c 4 2
  · fr c 6 2
  · exact hs 8
  · exact hs 9

theorem diag_xmlSteps (env : Env) (nx : Bool) (d : Bytes) (P : Prop)
    (hP : (env.parseXml d).isSome = true ↔ P) :
    Diag (xmlSteps env nx d) [("containsWellformedXML", P)] := by
  unfold xmlSteps
  split
  · rename_i e he
    rw [he] at hP
    exact diag_elem (diag_test (by simpa using hP) diag_nil)
  · rename_i he
    rw [he] at hP
    refine diag_quiet ?_ (diag_test (by simpa using hP) diag_nil)
    split
    · split <;> rfl
    · rfl

theorem diag_uuid (env : Env) (nx : Bool) (c : Bytes) (ss : List Step) (h : uuidBox env nx c = .ok ss) :
    Diag ss (uuidRules (fun d => (env.parseXml d).isSome = true) c) := by
  unfold uuidBox at h
  unfold uuidRules
  rw [slice_at c 0 16 (x := 0) (y := 16) rfl rfl,
    show slice c 16 (c.length : Int) = c.drop 16 from slice_to_end c 16] at h
  by_cases hl : 16 ≤ c.length
  · have ht : (sub c 0 16).length = 16 := by rw [length_sub]; omega
    rw [uuidStr_ok ht] at h
    simp only [Outcome.bind_ok, Outcome.ok.injEq, uuidText_eq_xmp ht] at h
    subst h
    refine diag_test decide_eq_true_iff ?_
    split
    · rename_i hx
      exact diag_xmlSteps _ _ _ _ (by simp [hx])
    · rename_i hx
      exact diag_skip (fun h => absurd h hx) (diag_char diag_nil)
  · rw [uuidStr_raised (by rw [length_sub]; omega)] at h
    cases h

theorem testsOf_uuidListLoop (c : Bytes) : ∀ (n : Nat) (i : Int) (ss : List Step),
    uuidListLoop c n i = .ok ss → testsOf ss = []
  | 0, i, ss, h => by unfold uuidListLoop at h; cases h; rfl
  | n + 1, i, ss, h => by
    unfold uuidListLoop at h
    obtain ⟨u, _, h⟩ := Outcome.bind_eq_ok.1 h
    obtain ⟨rest, h1, h⟩ := Outcome.bind_eq_ok.1 h
    cases h
    exact testsOf_uuidListLoop c n _ rest h1

theorem diag_ulst (c : Bytes) (ss : List Step) (h : uuidListBox c = .ok ss) : Diag ss (ulstRules c) := by
  unfold uuidListBox at h
  simp only at h
  obtain ⟨rest, h1, h⟩ := Outcome.bind_eq_ok.1 h
  cases h
  unfold ulstRules
  refine diag_append (ra := [_]) (rb := []) ?_ (diag_none (testsOf_uuidListLoop c _ _ _ h1))
  decode
  diag
  fr c 0 2

theorem diag_url (c : Bytes) : Diag (urlBox c) (urlRules c) := by
  unfold urlBox urlRules
  simp only
  decode
  rw [slice_at c 1 3 (x := 1) (y := 4) rfl rfl,
    show slice c 4 (c.length : Int) = c.drop 4 from slice_to_end c 4]
  diag
  · fr c 0 1
  · exact decide_eq_true_iff
  · exact beq_iff_eq
  · generalize c.drop 4 = l
    constructor
    · intro h2
      obtain ⟨n, hd, hl⟩ := strip_decomp l
      obtain ⟨cs, hcs⟩ := Option.isSome_iff_exists.1 h2
      exact ⟨_, n, cs, hd, hl, (utf8Decode_iff _ _).1 hcs⟩
    · rintro ⟨s, n, cs, rfl, hl, hu⟩
      rw [removeNullTerminator_append s n hl, (utf8Decode_iff _ _).2 hu]
      rfl

theorem enumCS_iff (c : Bytes) : bytesToUInt (c.drop 3) ∈ [16, 17, 18] ↔
    c.length = 7 ∧ FieldIs c 3 4 (fun e => e = 16 ∨ e = 17 ∨ e = 18) := by
  unfold bytesToUInt doConv
  by_cases hl : c.length = 7
  · rw [if_pos (by simp; omega), beNat_eq]
    have : sub c 3 4 = c.drop 3 := by
      unfold Spec.sub; rw [List.take_of_length_le]; simp; omega
    simp only [FieldIs, uint_pos (b := c) (off := 3) (n := 4) (by omega), this, hl, true_and,
      Option.some.injEq, exists_eq_left', List.mem_cons, List.not_mem_nil, or_false]
    omega
  · rw [if_neg (by simp; omega)]
    simp [hl]

theorem diag_colr (fmt : Format) (c : Bytes) : Diag (colourSpecificationBox fmt c) (colrRules fmt c) := by
  have h3 : slice c 3 (c.length : Int) = c.drop 3 := slice_to_end c 3
  have hm : ∀ k : Int, 0 ≤ k → (bytesToUnsignedChar (slice c 0 1) = k ↔ FieldIs c 0 1 (· = k.toNat)) := by
    intro k hk
    rw [u8_at c 0 (x := 0) (y := 1) rfl rfl, intOf_eq hk, fieldIs_eq]
  have hp : decide (bytesToUnsignedChar (slice c 1 2) = 0) = true ↔ FieldIs c 1 1 (· = 0) := by
    rw [u8_at c 1 (x := 1) (y := 2) rfl rfl]; fr c 1 1
  have ha : decide (bytesToUnsignedChar (slice c 2 3) = 0) = true ↔ FieldIs c 2 1 (· = 0) := by
    rw [u8_at c 2 (x := 2) (y := 3) rfl rfl]; fr c 2 1
  have hmeth : ∀ k l : Nat, k ≠ l → FieldIs c 0 1 (· = k) → ¬ FieldIs c 0 1 (· = l) := by
    rintro k l hkl ⟨v, hv, rfl⟩ ⟨w, hw, rfl⟩
    rw [hv] at hw; simp at hw; omega
  unfold colourSpecificationBox colrRules
  simp only
  generalize hM : bytesToUnsignedChar (slice c 0 1) = M at *
  have m1 := hm 1 (by omega)
  have m2 := hm 2 (by omega)
  have m5 := hm 5 (by omega)
  simp only [Int.reduceToNat] at m1 m2 m5
  rw [← m1, ← m2, ← m5, h3]
  refine diag_append (ra := [_, _, _]) ?_ ?_
  · have hmv : (M = 1 ∨ M = 2) ↔ FieldIs c 0 1 (methodsOf .jp2) := by
      rw [m1, m2]
      simp only [FieldIs, methodsOf, ← exists_or, ← and_or_left]
    have m3 := hm 3 (by omega)
    simp only [Int.reduceToNat] at m3
    have hmw : (M = 1 ∨ M = 2 ∨ M = 3 ∨ M = 5) ↔ FieldIs c 0 1 (methodsOf .jph) := by
      rw [m1, m2, m3, m5]
      simp only [FieldIs, methodsOf, ← exists_or, ← and_or_left]
    cases fmt <;> simp only [List.append_assoc, List.cons_append, List.nil_append]
    · exact diag_char (diag_test (by simp [hmv]) (diag_char (diag_test hp (diag_char (diag_test ha diag_nil)))))
    · exact diag_char (diag_test (by simp [hmw]) (diag_char (diag_test hp (diag_char (diag_test ha diag_nil)))))
    all_goals
      exact diag_char (diag_skip (by simp)
        (diag_char (diag_test hp (diag_char (diag_test ha diag_nil)))))
  · by_cases c1 : M = 1
    · subst c1
      simp only [if_true, true_implies]
      refine diag_char (diag_test (decide_eq_true_iff.trans (enumCS_iff c)) ?_)
      exact diag_skip (by omega) (diag_skip (by omega) (diag_skip (by omega)
        (diag_skip (by omega) (diag_skip (by omega) (diag_skip (by omega) diag_nil)))))
    rw [if_neg c1]
    refine diag_skip (fun h => absurd h c1) ?_
    by_cases c2 : M = 2
    · subst c2
      simp only [if_true, true_implies]
      simp only [iccElem, Elem.children_node, findElementText_run, findAllText_run, repOf_icc_size,
        repOf_icc_class, repOf_icc_tags, List.head?_cons]
      refine diag_elem (diag_test ?_ (diag_test ?_ (diag_test ?_ ?_)))
      · refine Iff.trans ⟨of_decide_eq_true, decide_eq_true⟩ ?_
        rw [Option.some.injEq, PyVal.int.injEq, u32_at _ 0 (x := 0) (y := 4) rfl rfl, intOf_eq (by omega),
          fieldIs_eq, Int.toNat_natCast]
      · refine Iff.trans ⟨of_decide_eq_true, decide_eq_true⟩ ?_
        rw [slice_at _ 12 4 (x := 12) (y := 16) rfl rfl]
        simp only [List.mem_cons, List.not_mem_nil, or_false, Option.some.injEq, PyVal.bytes.injEq]
        exact Iff.rfl
      · exact Iff.trans ⟨of_decide_eq_true, decide_eq_true⟩ (noLut_iff _)
      · exact diag_skip (by omega) (diag_skip (by omega) (diag_skip (by omega) diag_nil))
    rw [if_neg c2]
    refine diag_skip (fun h => absurd h c2) (diag_skip (fun h => absurd h c2) (diag_skip (fun h => absurd h c2) ?_))
    by_cases c3 : M = 3
    · subst c3
      exact diag_elem (diag_skip (by omega) (diag_skip (by omega) (diag_skip (by omega) diag_nil)))
    rw [if_neg c3]
    by_cases c5 : M = 5
    · subst c5
      simp only [if_true, true_implies]
      decode
      by_cases hf : fmt = .jph
      · simp only [hf, if_true, true_implies, List.cons_append, List.nil_append]
        diag
        · fr c 3 2
        · fr c 5 2
        · fr c 7 2
      · simp only [hf, if_false, false_implies, List.cons_append, List.nil_append]
        exact diag_char (diag_char (diag_char (diag_char (diag_skip trivial
          (diag_skip trivial (diag_skip trivial diag_nil))))))
    rw [if_neg c5]
    exact diag_skip (fun h => absurd h c5) (diag_skip (fun h => absurd h c5)
      (diag_skip (fun h => absurd h c5) diag_nil))

theorem diag_cdef (fmt : Format) (c : Bytes) : Diag (channelDefinitionBox fmt c) (cdefRules fmt c) := by
  unfold channelDefinitionBox cdefRules
  simp only
  rw [u16_at c 0 (x := 0) (y := 2) rfl rfl]
  refine diag_append (ra := [_, _, _, _, _]) (diag_append (ra := [_, _]) ?_ ?_) ?_
  · diag
    · fr c 0 2
    · refine Iff.trans ⟨of_decide_eq_true, decide_eq_true⟩ ?_
      rcases h0 : uint c 0 2 with _ | n
      · simp only [FieldIs, h0, intOf, reduceCtorEq, false_and, exists_false, iff_false]; omega
      · simp only [FieldIs, h0, intOf, Option.some.injEq, exists_eq_left']; omega
  · rcases h0 : uint c 0 2 with _ | n
    · exact diag_skip (by simp) (diag_skip (by simp) (diag_skip (by simp) diag_nil))
    · simp only [intOf, rangeLen, Int.toNat_natCast, Option.some.injEq, forall_eq']
      refine diag_congr (rs := [("cNIsValid", ∀ i < n, FieldIs c (2 + 6 * i) 2 (fun _ => True)),
          ("cTypIsValid", ∀ i < n, fmt = .jp2 ∨ fmt = .jph → FieldIs c (2 + 6 * i + 2) 2 (channelTypesOf fmt)),
          ("cAssocIsValid", ∀ i < n, FieldIs c (2 + 6 * i + 2) 2 (fun _ => True))])
        ?_ ?_
      · exact ⟨rfl, Iff.rfl, rfl, ⟨fun h hf i hi => h i hi hf, fun h i hi hf => h hf i hi⟩, rfl, Iff.rfl,
          trivial⟩
      refine diag_loop [("cNIsValid", fun i => FieldIs c (2 + 6 * i) 2 (fun _ => True)),
          ("cTypIsValid", fun i => fmt = .jp2 ∨ fmt = .jph → FieldIs c (2 + 6 * i + 2) 2 (channelTypesOf fmt)),
          ("cAssocIsValid", fun i => FieldIs c (2 + 6 * i + 2) 2 (fun _ => True))] fun i hi => ?_
      simp only [List.map]
      have hA : bytesToUShortInt (slice c (2 + 6 * (i : Int) + 2) (2 + 6 * (i : Int) + 4)) =
          intOf (uint c (2 + 6 * i + 2) 2) := u16_at c (2 + 6 * i + 2) (by omega) (by omega)
      rw [u16_at c (2 + 6 * i) (by omega) (by omega)]
      simp only [hA]
      cases fmt <;> simp only [List.append_assoc, List.cons_append, List.nil_append, channelTypesOf]
      · diag
        · fr c (2 + 6 * i) 2
        · refine Iff.trans (b := FieldIs c (2 + 6 * i + 2) 2 (fun t => t ≤ 2 ∨ t = 65535)) ?_
            ⟨fun h _ => h, fun h => h (.inl trivial)⟩
          fr c (2 + 6 * i + 2) 2
        · fr c (2 + 6 * i + 2) 2
      · diag
        · fr c (2 + 6 * i) 2
        · refine Iff.trans (b := FieldIs c (2 + 6 * i + 2) 2 (fun t => t ≤ 3 ∨ t = 65535)) ?_
            ⟨fun h _ => h, fun h => h (.inr trivial)⟩
          fr c (2 + 6 * i + 2) 2
        · fr c (2 + 6 * i + 2) 2
      all_goals
        refine diag_char (diag_test ?_ (diag_char (diag_skip (by simp) (diag_char (diag_test ?_ diag_nil)))))
        · fr c (2 + 6 * i) 2
        · fr c (2 + 6 * i + 2) 2
  · by_cases hf : fmt = .jph
    · simp only [hf, if_true, true_implies]
      rcases h0 : uint c 0 2 with _ | n
      · exact diag_test (by simp [intOf, rangeLen]) (diag_skip (by simp) diag_nil)
      · simp only [intOf, rangeLen, Int.toNat_natCast, Option.some.injEq, forall_eq']
        have hal : ∀ i : Nat, (decide (bytesToUShortInt (slice c (2 + 6 * (i : Int) + 2)
            (2 + 6 * (i : Int) + 4)) ∈ [1, 2]) = true ↔ IsAlpha c i) := by
          intro i
          rw [u16_at c (2 + 6 * i + 2) (by omega) (by omega)]
          unfold IsAlpha
          fr c (2 + 6 * i + 2) 2
        have has : ∀ i : Nat, (bytesToUShortInt (slice c (2 + 6 * (i : Int) + 4) (2 + 6 * (i : Int) + 6)) = 0 ↔
            FieldIs c (2 + 6 * i + 4) 2 (· = 0)) := by
          intro i
          rw [u16_at c (2 + 6 * i + 4) (by omega) (by omega)]
          fr c (2 + 6 * i + 4) 2
        refine diag_test ?_ ?_
        · refine Iff.trans ⟨of_decide_eq_true, decide_eq_true⟩ ?_
          rw [List.length_map, filter_range_le_one]
          simp only [hal]
        · refine diag_map _ _ _ _ ?_
          simp only [List.mem_map, List.mem_filter, List.mem_range, forall_exists_index, and_imp]
          constructor
          · intro h i hi ha
            exact (has i).1 (of_decide_eq_true (h _ i hi ((hal i).2 ha) rfl))
          · rintro h _ i hi ha rfl
            exact decide_eq_true ((has i).2 (h i hi ((hal i).1 ha)))
    · simp only [hf, if_false, false_implies]
      exact diag_skip trivial (diag_skip trivial diag_nil)

end Jpy
