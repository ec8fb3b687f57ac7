import Verif.Lemmas.Box
import Verif.Lemmas.Witness
/-! # Properties of leaf boxes: C16 (signature and file type), C19, C34-C38, C42 -/

set_option linter.unusedSimpArgs false

namespace Jpy
open Spec

/-- C16 (signature box): passes exactly when its payload is the four signature bytes. -/
theorem C16_signature (env : Env) (o : Options) (fuel : Nat) (c : Bytes) :
    Accepted (validateBox env o (fuel + 1) tagSignature c) ↔ SignatureOk c := by
  rw [accepted_box_ok env o fuel tagSignature c (t := .signatureBox) (by decide) rfl rfl]
  simp only [signatureBox, allTrue_test, allTrue_nil, Bool.and_true, Bool.and_eq_true,
    decide_eq_true_eq, SignatureOk]
  rw [slice_at c 0 4 (x := 0) (y := 4) rfl rfl, sub_zero]
  constructor
  · rintro ⟨h1, h2⟩
    rwa [List.take_of_length_le (by omega)] at h2
  · intro h; subst h; exact ⟨rfl, rfl⟩

/-- C16 (file type box): passes exactly when brand, minor version and compatibility list are right
for the format. -/
theorem C16_ftyp (env : Env) (o : Options) (fuel : Nat) (c : Bytes) :
    Accepted (validateBox env o (fuel + 1) tagFileType c) ↔ FtypOk o.format c := by
  rw [accepted_box_ok env o fuel tagFileType c (t := .fileTypeBox) (by decide) rfl rfl]
  have hlen : (((c.length : Int) - 8) % 4 = 0) ↔ c.length % 4 = 0 := by omega
  have hmin : (bytesToUInt (slice c 4 8) = 0) ↔ FieldIs c 4 4 (· = 0) := by
    rw [u32_at c 4 (x := 4) (y := 8) rfl rfl, intOf_eq (by omega), fieldIs_eq]; rfl
  have hbr : slice c 0 4 = sub c 0 4 := slice_at c 0 4 rfl rfl
  have hlist : ∀ br, br ∈ (List.range (rangeLen (intDiv ((c.length : Int) - 8) 4))).map
      (fun (i : Nat) => slice c (8 + 4 * i) (8 + 4 * i + 4)) ↔
      ∃ i, i < (c.length - 8) / 4 ∧ sub c (8 + 4 * i) 4 = br := by
    intro br
    have : rangeLen (intDiv ((c.length : Int) - 8) 4) = (c.length - 8) / 4 :=
      rangeLen_intDiv c.length 8 4
    rw [this]
    simp only [List.mem_map, List.mem_range]
    constructor
    · rintro ⟨i, h1, h2⟩
      exact ⟨i, h1, by rw [← h2, slice_at c (8 + 4 * i) 4 (by omega) (by omega)]⟩
    · rintro ⟨i, h1, h2⟩
      exact ⟨i, h1, by rw [← h2, slice_at c (8 + 4 * i) 4 (by omega) (by omega)]⟩
  unfold fileTypeBox FtypOk
  rw [← hmin, ← hlen, hbr]
  cases hf : o.format <;>
    simp only [allTrue_append, allTrue_test, allTrue_char, allTrue_nil, Bool.and_true,
      Bool.and_eq_true, decide_eq_true_eq, allTrue_map_char, hlist, brandOf, Option.some.injEq,
      forall_eq', reduceCtorEq, false_implies, implies_true, and_true, brandJp2, brandJph]
  · constructor
    · rintro ⟨⟨⟨h1, h2⟩, h3⟩, h4⟩; exact ⟨h1, h3, of_decide_eq_true h2, h4⟩
    · rintro ⟨h1, h3, h2, h4⟩; exact ⟨⟨⟨h1, decide_eq_true h2⟩, h3⟩, h4⟩
  · constructor
    · rintro ⟨⟨⟨h1, h2⟩, h3⟩, h4⟩; exact ⟨h1, h3, of_decide_eq_true h2, h4⟩
    · rintro ⟨h1, h3, h2, h4⟩; exact ⟨⟨⟨h1, decide_eq_true h2⟩, h3⟩, h4⟩

/-- C19, the image header box as the code checks it: the bits-per-component byte is not constrained. -/
theorem C19_ihdr_accepted (env : Env) (o : Options) (fuel : Nat) (c : Bytes) :
    Accepted (validateBox env o (fuel + 1) tagImageHeader c) ↔ IhdrOthersOk c := by
  rw [accepted_box_ok env o fuel tagImageHeader c (t := .imageHeaderBox) (by decide) rfl rfl]
  simp only [imageHeaderBox, allTrue_test, allTrue_char, allTrue_nil, Bool.and_true,
    Bool.and_eq_true, Bool.or_eq_true, decide_eq_true_eq, IhdrOthersOk, between_iff]
  rw [u32_at c 0 (x := 0) (y := 4) rfl rfl, u32_at c 4 (x := 4) (y := 8) rfl rfl,
    u16_at c 8 (x := 8) (y := 10) rfl rfl, u8_at c 10 (x := 10) (y := 11) rfl rfl,
    u8_at c 11 (x := 11) (y := 12) rfl rfl, u8_at c 12 (x := 12) (y := 13) rfl rfl,
    u8_at c 13 (x := 13) (y := 14) rfl rfl]
  rcases h5 : uint c 13 1 with _ | v5
  · fld0 h5
  obtain ⟨v0, h0⟩ := uint_exists (off' := 0) (n' := 4) h5 (by omega)
  obtain ⟨v1, h1⟩ := uint_exists (off' := 4) (n' := 4) h5 (by omega)
  obtain ⟨v2, h2⟩ := uint_exists (off' := 8) (n' := 2) h5 (by omega)
  obtain ⟨vb, hb⟩ := uint_exists (off' := 10) (n' := 1) h5 (by omega)
  obtain ⟨v3, h3⟩ := uint_exists (off' := 11) (n' := 1) h5 (by omega)
  obtain ⟨v4, h4⟩ := uint_exists (off' := 12) (n' := 1) h5 (by omega)
  have := uint_lt h0; have := uint_lt h1; have := uint_lt hb
  simp only [low]
  fldω [h0, h1, h2, h3, h4, h5, hb]

/-- C19: for payloads whose bits-per-component byte is legal, the image header box passes exactly when
it satisfies the standard. Missing from the full property: an illegal bits-per-component byte is not
detected, see `C19_ihdr_false`. -/
theorem C19_ihdr_partial (env : Env) (o : Options) (fuel : Nat) (c : Bytes)
    (h : ∀ v, uint c 10 1 = some v → BpcByteOk v) :
    Accepted (validateBox env o (fuel + 1) tagImageHeader c) ↔ IhdrOk c := by
  rw [C19_ihdr_accepted]
  constructor
  · intro hc
    obtain ⟨v, hv, -⟩ := hc.2.2.2.2.2.2
    obtain ⟨w, hw⟩ := uint_exists (off' := 10) (n' := 1) hv (by omega)
    exact ⟨hc, w, hw, h w hw⟩
  · exact fun hc => hc.1

/-- C19, negation: a header declaring a component depth of 64 bits passes. -/
theorem C19_ihdr_false (env : Env) (o : Options) (fuel : Nat) :
    ∃ c, Accepted (validateBox env o (fuel + 1) tagImageHeader c) ∧ ¬ IhdrOk c := by
  refine ⟨[0, 0, 0, 1, 0, 0, 0, 1, 0, 1, 63, 7, 0, 0], ?_, ?_⟩
  · rw [C19_ihdr_accepted]
    exact ⟨rfl, ⟨1, by decide, by decide⟩, ⟨1, by decide, by decide⟩, ⟨1, by decide, by decide⟩,
      ⟨7, by decide, by decide⟩, ⟨0, by decide, by decide⟩, ⟨0, by decide, by decide⟩⟩
  · rintro ⟨-, v, hv, h⟩
    have : some 63 = some v := hv
    cases this
    unfold BpcByteOk at h
    omega

/-- C21 (bits per component box): passes exactly when all depths are 1 to 38. -/
theorem C21_bpcc (env : Env) (o : Options) (fuel : Nat) (c : Bytes) :
    Accepted (validateBox env o (fuel + 1) tagBitsPerComponent c) ↔ BpccOk c := by
  rw [accepted_box_ok env o fuel tagBitsPerComponent c (t := .bitsPerComponentBox) (by decide) rfl rfl]
  simp only [bitsPerComponentBox, allTrue_flatMap_range, allTrue_test, allTrue_char, allTrue_nil,
    Bool.and_true, between_iff, BpccOk]
  constructor
  · intro h x hx
    obtain ⟨i, hi, rfl⟩ := List.getElem_of_mem hx
    have := h i hi
    rw [u8_at c i rfl rfl, uint_getElem hi] at this
    simp only [intOf, low_mod] at this
    omega
  · intro h i hi
    have := h _ (List.getElem_mem hi)
    rw [u8_at c i rfl rfl, uint_getElem hi]
    simp only [intOf, low_mod]
    omega

/-- C34: a resolution box passes exactly when it has ten bytes and non-zero numerators and
denominators. -/
theorem C34_res (env : Env) (o : Options) (fuel : Nat) (c tag : Bytes)
    (ht : tag = tagCaptureResolution ∨ tag = tagDisplayResolution) :
    Accepted (validateBox env o (fuel + 1) tag c) ↔ ResOk c := by
  have key : ∀ x, (∃ ss, resolutionLeaf x c = .ok ss ∧ allTrue ss = true) ↔ ResOk c := by
    intro x
    unfold resolutionLeaf ResOk
    simp only [Bool.and_true, between_iff]
    rw [u16_at c 0 (x := 0) (y := 2) rfl rfl, u16_at c 2 (x := 2) (y := 4) rfl rfl,
      u16_at c 4 (x := 4) (y := 6) rfl rfl, u16_at c 6 (x := 6) (y := 8) rfl rfl]
    by_cases hl : c.length = 10
    · have h0 := uint_pos (b := c) (off := 0) (n := 2) (by omega)
      have h2 := uint_pos (b := c) (off := 2) (n := 2) (by omega)
      have h4 := uint_pos (b := c) (off := 4) (n := 2) (by omega)
      have h6 := uint_pos (b := c) (off := 6) (n := 2) (by omega)
      have b0 := uint_lt h0; have b2 := uint_lt h2; have b4 := uint_lt h4; have b6 := uint_lt h6
      have hs := signed_range c 8 (by omega)
      have ht := signed_range c 9 (by omega)
      simp only [Int.cast_ofNat_Int, Int.reduceAdd] at hs ht
      simp only [FieldIs, h0, h2, h4, h6, intOf, Option.some.injEq, exists_eq_left']
      generalize be (sub c 0 2) = v0 at *
      generalize be (sub c 2 2) = v2 at *
      generalize be (sub c 4 2) = v4 at *
      generalize be (sub c 6 2) = v6 at *
      split
      · simp; omega
      split
      · simp; omega
      · simp only [Outcome.ok.injEq, exists_eq_left', allTrue_test, allTrue_char, allTrue_nil,
          Bool.and_true, Bool.and_eq_true, decide_eq_true_eq, between_iff]
        omega
    · simp only [hl, false_and, iff_false]
      rintro ⟨ss, h1, h2⟩
      split at h1
      · cases h1
      split at h1
      · cases h1
      · cases h1
        simp [allTrue_test, hl] at h2
  rcases ht with rfl | rfl
  · rw [validateBox_leaf env o fuel _ c (t := .captureResolutionBox) (by decide) rfl,
      accepted_leaf env o fuel none _ c (t := .captureResolutionBox) (by decide)]
    exact key "c"
  · rw [validateBox_leaf env o fuel _ c (t := .displayResolutionBox) (by decide) rfl,
      accepted_leaf env o fuel none _ c (t := .displayResolutionBox) (by decide)]
    exact key "d"

/-- C34: the resolutions reported are `N / D * 10 ^ E` pixels per metre, and 0.0254 times that per
inch, for both directions. `x` is the letter in the tag names. -/
theorem C34_res_values (env : Env) (o : Options) (fuel : Nat) (c : Bytes) (tag : Bytes) (x : String)
    (ht : tag = tagCaptureResolution ∧ x = "c" ∨ tag = tagDisplayResolution ∧ x = "d")
    (r : BoxResult) (h : validateBox env o (fuel + 1) tag c = .ok r) (hc : ResOk c)
    (vN vD hN hD vE hE : Nat)
    (h0 : uint c 0 2 = some vN) (h2 : uint c 2 2 = some vD) (h4 : uint c 4 2 = some hN)
    (h6 : uint c 6 2 = some hD) (h8 : uint c 8 1 = some vE) (h9 : uint c 9 1 = some hE) :
    (∃ f, reported r.node ("vRes" ++ x ++ "InPixelsPerMeter") = [.flt f] ∧
      RatIs f vN vD (signedByte vE) 1 1) ∧
    (∃ f, reported r.node ("hRes" ++ x ++ "InPixelsPerMeter") = [.flt f] ∧
      RatIs f hN hD (signedByte hE) 1 1) ∧
    (∃ f, reported r.node ("vRes" ++ x ++ "InPixelsPerInch") = [.flt f] ∧
      RatIs f vN vD (signedByte vE) 254 10000) ∧
    (∃ f, reported r.node ("hRes" ++ x ++ "InPixelsPerInch") = [.flt f] ∧
      RatIs f hN hD (signedByte hE) 254 10000) := by
  obtain ⟨hl, ⟨-, -, -⟩, ⟨d1, hd1, hd2⟩, ⟨-, -, -⟩, ⟨d3, hd3, hd4⟩⟩ := hc
  rw [h2] at hd1; rw [h6] at hd3; cases hd1; cases hd3
  rw [uint_getElem (by omega)] at h8 h9
  have s8 := signed_slice c 8 (by omega)
  have s9 := signed_slice c 9 (by omega)
  simp only [Int.cast_ofNat_Int, Int.reduceAdd] at s8 s9
  rw [Option.some.inj h8] at s8
  rw [Option.some.inj h9] at s9
  have hv := resPerMeter_ratIs vN vD (signedByte vE) (by omega)
  have hh := resPerMeter_ratIs hN hD (signedByte hE) (by omega)
  rcases ht with ⟨rfl, rfl⟩ | ⟨rfl, rfl⟩
  · obtain ⟨ss, h1, rfl⟩ := (validateBox_ok (t := .captureResolutionBox) (by decide) rfl).1 h
    simp only [leaf, resolutionLeaf] at h1
    rw [u16_at c 0 (x := 0) (y := 2) rfl rfl, u16_at c 2 (x := 2) (y := 4) rfl rfl,
      u16_at c 4 (x := 4) (y := 6) rfl rfl, u16_at c 6 (x := 6) (y := 8) rfl rfl, h0, h2, h4, h6,
      s8, s9, if_neg (by simp only [intOf]; omega), if_neg (by simp only [intOf]; omega)] at h1
    cases h1
    simp only [reported_run, String.reduceAppend, intOf]
    rep
    exact ⟨⟨_, rfl, hv⟩, ⟨_, rfl, hh⟩, ⟨_, rfl, resPerInch_ratIs hv⟩, ⟨_, rfl, resPerInch_ratIs hh⟩⟩
  · obtain ⟨ss, h1, rfl⟩ := (validateBox_ok (t := .displayResolutionBox) (by decide) rfl).1 h
    simp only [leaf, resolutionLeaf] at h1
    rw [u16_at c 0 (x := 0) (y := 2) rfl rfl, u16_at c 2 (x := 2) (y := 4) rfl rfl,
      u16_at c 4 (x := 4) (y := 6) rfl rfl, u16_at c 6 (x := 6) (y := 8) rfl rfl, h0, h2, h4, h6,
      s8, s9, if_neg (by simp only [intOf]; omega), if_neg (by simp only [intOf]; omega)] at h1
    cases h1
    simp only [reported_run, String.reduceAppend, intOf]
    rep
    exact ⟨⟨_, rfl, hv⟩, ⟨_, rfl, hh⟩, ⟨_, rfl, resPerInch_ratIs hv⟩, ⟨_, rfl, resPerInch_ratIs hh⟩⟩

/-- C34, negation of "no payload makes the analysis fail": a zero denominator raises an exception. -/
theorem C34_res_crash (env : Env) (o : Options) (fuel : Nat) (c tag : Bytes)
    (ht : tag = tagCaptureResolution ∨ tag = tagDisplayResolution) :
    validateBox env o (fuel + 1) tag c = .raised .zeroDivision ↔
      FieldIs c 2 2 (· = 0) ∨ FieldIs c 6 2 (· = 0) := by
  have key : ∀ x, resolutionLeaf x c = .raised .zeroDivision ↔
      FieldIs c 2 2 (· = 0) ∨ FieldIs c 6 2 (· = 0) := by
    intro x
    rw [← fieldIs_eq, ← fieldIs_eq]
    unfold resolutionLeaf
    rw [u16_at c 2 (x := 2) (y := 4) rfl rfl, u16_at c 6 (x := 6) (y := 8) rfl rfl]
    simp only [intOf_eq (Int.le_refl 0), Int.reduceToNat]
    split
    · simp [*]
    split <;> simp [*]
  rcases ht with rfl | rfl
  · rw [validateBox_leaf env o fuel _ c (t := .captureResolutionBox) (by decide) rfl, ← key "c"]
    unfold validateLeaf
    rw [show boxTypeOf tagCaptureResolution = .captureResolutionBox by decide, Outcome.bind_eq_raised]
    simp [leaf]
  · rw [validateBox_leaf env o fuel _ c (t := .displayResolutionBox) (by decide) rfl, ← key "d"]
    unfold validateLeaf
    rw [show boxTypeOf tagDisplayResolution = .displayResolutionBox by decide, Outcome.bind_eq_raised]
    simp [leaf]

/-- C35, the colour specification box as the code checks it: only the first 4096 tags of an ICC
profile are looked at. -/
theorem C35_colr_accepted (env : Env) (o : Options) (fuel : Nat) (c : Bytes) :
    Accepted (validateBox env o (fuel + 1) tagColourSpecification c) ↔ ColrOk 4096 o.format c := by
  rw [accepted_box_ok env o fuel _ c (t := .colourSpecificationBox) (by decide) rfl rfl]
  have h3 : slice c 3 (c.length : Int) = c.drop 3 := slice_to_end c 3
  have hE : ∀ P : Int → Prop, ¬ P (-9999) → (P (bytesToUInt (c.drop 3)) ↔
      c.length = 7 ∧ ∃ v, uint c 3 4 = some v ∧ P v) := by
    intro P hP
    unfold bytesToUInt doConv
    by_cases hl : c.length = 7
    · rw [if_pos (by simp; omega), beNat_eq, uint_pos (by omega)]
      have : sub c 3 4 = c.drop 3 := by
        unfold Spec.sub; rw [List.take_of_length_le]; simp; omega
      simp [this, hl]
    · rw [if_neg (by simp; omega)]
      simp [hl, hP]
  unfold colourSpecificationBox ColrOk
  simp only [allTrue_append, allTrue_test, allTrue_char, allTrue_nil,
    Bool.and_true, Bool.and_eq_true, decide_eq_true_eq]
  rw [u8_at c 0 (x := 0) (y := 1) rfl rfl, u8_at c 1 (x := 1) (y := 2) rfl rfl,
    u8_at c 2 (x := 2) (y := 3) rfl rfl, intOf_eq (by omega), intOf_eq (by omega), fieldIs_eq, fieldIs_eq]
  rcases h1 : uint c 1 1 with _ | v1
  · fld0 h1
  obtain ⟨m, hm⟩ := uint_exists (off' := 0) (n' := 1) h1 (by omega)
  simp only [hm, Option.some.injEq, exists_eq_left', true_and, Int.toNat_zero]
  rw [and_comm (b := FieldIs c 1 1 (· = 0) ∧ _), and_assoc, and_assoc]
  refine and_congr Iff.rfl (and_congr Iff.rfl (and_congr ?_ ?_))
  · cases o.format <;> simp [allTrue_test, allTrue_nil, methodsOf, intOf] <;> omega
  · have e : ∀ k : Int, 0 ≤ k → (intOf (some m) = k ↔ m = k.toNat) := by
      intro k hk; simp only [intOf]; omega
    simp only [e 1 (by omega), e 2 (by omega), e 3 (by omega), e 5 (by omega), Int.reduceToNat]
    by_cases m1 : m = 1
    · subst m1
      simp only [if_true, allTrue_test, allTrue_char, allTrue_nil, Bool.and_true, decide_eq_true_eq,
        h3, Nat.reduceEqDiff, false_implies, and_true, true_implies]
      rw [hE (fun x => x ∈ [16, 17, 18]) (by decide)]
      refine and_congr Iff.rfl (exists_congr fun v => and_congr Iff.rfl ?_)
      simp; omega
    rw [if_neg m1]
    by_cases m2 : m = 2
    · subst m2
      simp only [if_true, allTrue_test, allTrue_elem, allTrue_nil, Bool.and_true, Bool.and_eq_true,
        decide_eq_true_eq, h3, Nat.reduceEqDiff, false_implies, and_true, true_and, true_implies, iccElem,
        Elem.children_node, findElementText_run, findAllText_run, repOf_icc_size, repOf_icc_class,
        repOf_icc_tags, List.head?_cons, Option.some.injEq, PyVal.int.injEq, noLut_iff,
        RestrictedProfile, List.mem_cons, List.not_mem_nil, or_false, PyVal.bytes.injEq]
      rw [u32_at _ 0 (x := 0) (y := 4) rfl rfl, intOf_eq (by omega), fieldIs_eq,
        slice_at _ 12 4 (x := 12) (y := 16) rfl rfl, Int.toNat_natCast]
      refine and_congr Iff.rfl (and_congr Iff.rfl ?_)
      rw [← noLut_iff, ← h3, ← repOf_icc_tags, ← findAllText_run true]
      exact ⟨fun h => of_decide_eq_true h, fun h => decide_eq_true h⟩
    rw [if_neg m2]
    by_cases m3 : m = 3
    · subst m3; simp [allTrue_elem, allTrue_nil]
    rw [if_neg m3]
    by_cases m5 : m = 5
    · subst m5
      simp only [if_true, allTrue_append, allTrue_char, allTrue_nil, Bool.and_true, Bool.and_eq_true,
        Nat.reduceEqDiff, false_implies, true_and, true_implies]
      by_cases hf : o.format = .jph
      · simp only [hf, if_true, allTrue_test, allTrue_nil, Bool.and_true, decide_eq_true_eq, true_implies]
        rw [u16_at c 3 (x := 3) (y := 5) rfl rfl, u16_at c 5 (x := 5) (y := 7) rfl rfl,
          u16_at c 7 (x := 7) (y := 9) rfl rfl]
        have i1 := intOf_mem (l := [1, 2, 4, 5, 6, 7, 8, 9, 10, 11, 12, 22]) (o := uint c 3 2)
        have i2 := intOf_mem (l := [1, 2, 4, 5, 6, 7, 8, 9, 10, 11, 12, 13, 14, 15, 16, 17, 18])
          (o := uint c 5 2)
        have i3 := intOf_mem (l := [0, 1, 2, 4, 5, 6, 7, 8, 9, 10, 11, 12, 13, 14]) (o := uint c 7 2)
        simp only [List.map_cons, List.map_nil, Int.cast_ofNat_Int] at i1 i2 i3
        rw [i1, i2, i3, and_assoc]
        refine and_congr Iff.rfl (and_congr ?_ ?_)
        · refine exists_congr fun v => and_congr Iff.rfl ?_
          simp; omega
        · refine exists_congr fun v => and_congr Iff.rfl ?_
          simp; omega
      · simp [hf, allTrue_nil]
    · simp [m1, m2, m5, allTrue_nil]

/-- C35: for ICC profiles of at most 4096 tags, the colour specification box passes exactly when it
satisfies the standard: no bound on the tags inspected. Missing from the full property: a larger tag
table, see `C35_colr_false`. -/
theorem C35_colr_partial (env : Env) (o : Options) (fuel : Nat) (c : Bytes)
    (h : ∀ n, uint (c.drop 3) 128 4 = some n → n ≤ 4096) :
    Accepted (validateBox env o (fuel + 1) tagColourSpecification c) ↔
      ∀ k, ColrOk k o.format c := by
  rw [C35_colr_accepted]
  constructor
  · rintro ⟨h1, h2, m, h3, h4, h5, h6, h7⟩ k
    refine ⟨h1, h2, m, h3, h4, h5, fun hm => ?_, h7⟩
    obtain ⟨h8, h9, h10⟩ := h6 hm
    exact ⟨h8, h9, fun n hn i hi _ => h10 n hn i hi (by have := h n hn; omega)⟩
  · intro h; exact h 4096

/-- Header and tag count of an ICC profile of 49296 bytes, class `scnr`, with 4097 tags. -/
def manyTagsHeader : Bytes :=
  [0, 0, 192, 144, 0, 0, 0, 0, 0, 0, 0, 0, 115, 99, 110, 114, 0, 0, 0, 0, 0, 0, 0, 0, 0,
   0, 0, 0, 0, 0, 0, 0, 0, 0, 0, 0, 0, 0, 0, 0, 0, 0, 0, 0, 0, 0, 0, 0, 0, 0, 0, 0, 0, 0,
   0, 0, 0, 0, 0, 0, 0, 0, 0, 0, 0, 0, 0, 0, 0, 0, 0, 0, 0, 0, 0, 0, 0, 0, 0, 0, 0, 0, 0,
   0, 0, 0, 0, 0, 0, 0, 0, 0, 0, 0, 0, 0, 0, 0, 0, 0, 0, 0, 0, 0, 0, 0, 0, 0, 0, 0, 0, 0,
   0, 0, 0, 0, 0, 0, 0, 0, 0, 0, 0, 0, 0, 0, 0, 0, 0, 0, 16, 1]

/-- A tag table entry for AToB0. -/
def lastTag : Bytes := [65, 50, 66, 48, 0, 0, 0, 0, 0, 0, 0, 0]

/-- A profile with 4096 empty tags followed by AToB0. -/
def manyTags : Bytes :=
  manyTagsHeader ++ (List.replicate 49152 0 ++ lastTag)

/-- C35, negation: a profile whose 4097th tag is AToB0 passes. -/
theorem C35_colr_false (env : Env) (o : Options) (fuel : Nat) (hf : o.format = .jp2) :
    ∃ c, Accepted (validateBox env o (fuel + 1) tagColourSpecification c) ∧
      ¬ ∀ k, ColrOk k o.format c := by
  have hlen : manyTags.length = 49296 := by
    unfold manyTags
    rw [List.length_append, List.length_append, List.length_replicate]
    have : manyTagsHeader.length = 132 := rfl
    have : lastTag.length = 12 := rfl
    omega
  have hh : ∀ off n, off + n ≤ 132 → sub manyTags off n = sub manyTagsHeader off n := by
    intro off n h
    unfold Spec.sub manyTags
    have : manyTagsHeader.length = 132 := rfl
    rw [List.drop_append_of_le_length (by omega), List.take_append_of_le_length (by simp; omega)]
  have ht : ∀ k, sub manyTags (132 + k) 4 =
      ((List.replicate 49152 (0 : UInt8) ++ lastTag).drop k).take 4 := by
    intro k
    unfold Spec.sub manyTags
    have : manyTagsHeader.length = 132 := rfl
    rw [← this, List.drop_length_add_append]
  refine ⟨2 :: 0 :: 0 :: manyTags, ?_, ?_⟩
  · rw [C35_colr_accepted]
    refine ⟨⟨0, ?_, rfl⟩, ⟨0, ?_, rfl⟩, 2, ?_, by rw [hf]; exact .inr rfl, fun h => by omega,
      fun _ => ⟨⟨49296, ?_, ?_⟩, .inl ?_, ?_⟩, fun h => by omega⟩
    · rw [uint_pos (by simp [hlen])]; rfl
    · rw [uint_pos (by simp [hlen])]; rfl
    · rw [uint_pos (by simp)]; rfl
    · show uint manyTags 0 4 = _
      rw [uint_pos (by omega), hh 0 4 (by omega)]; rfl
    · exact hlen.symm
    · exact hh 12 4 (by omega)
    · intro n hn i h1 h2
      show sub manyTags (132 + 12 * i) 4 ≠ _
      rw [ht, List.drop_append_of_le_length (by rw [List.length_replicate]; omega),
        List.take_append_of_le_length (by rw [List.length_drop, List.length_replicate]; omega)]
      simp only [List.drop_replicate, List.take_replicate]
      rw [Nat.min_eq_left (by omega)]
      decide
  · intro h
    obtain ⟨-, -, m, hm, -, -, h2, -⟩ := h 4097
    have : m = 2 := by
      rw [uint_pos (by simp)] at hm
      exact (Option.some.inj hm).symm
    obtain ⟨-, -, h3⟩ := h2 this
    refine h3 4097 ?_ 4096 (by omega) (by omega) ?_
    · show uint manyTags 128 4 = _
      rw [uint_pos (by omega), hh 128 4 (by omega)]; rfl
    · show sub manyTags (132 + 12 * 4096) 4 = _
      rw [ht, List.drop_append, List.length_replicate, List.drop_of_length_le
        (by rw [List.length_replicate]; omega), Nat.sub_self]
      rfl

/-- C36 (palette). -/
theorem C36_palette (env : Env) (o : Options) (fuel : Nat) (c : Bytes) :
    Accepted (validateBox env o (fuel + 1) tagPalette c) ↔ PaletteOk c := by
  rw [accepted_box_ok env o fuel _ c (t := .paletteBox) (by decide) rfl rfl]
  simp only [paletteBox, allTrue_append, allTrue_test, allTrue_char, allTrue_nil,
    Bool.and_true, Bool.and_eq_true, allTrue_flatMap_range, allTrue_map_char, between_iff, PaletteOk]
  rw [u16_at c 0 (x := 0) (y := 2) rfl rfl, u8_at c 2 (x := 2) (y := 3) rfl rfl]
  rcases h0 : uint c 0 2 with _ | n
  · fld0 h0
  rcases h2 : uint c 2 1 with _ | k
  · fld0 h2
  have := uint_lt h2
  have key : ∀ i : Nat, (1 ≤ low (bytesToUnsignedChar (slice c (3 + (i : Int)) (4 + (i : Int)))) 7 + 1 ∧
      low (bytesToUnsignedChar (slice c (3 + (i : Int)) (4 + (i : Int)))) 7 + 1 ≤ 38) ↔
      FieldIs c (3 + i) 1 (fun b => b % 128 + 1 ≤ 38) := by
    intro i
    rw [u8_at c (3 + i) (by omega) (by omega)]
    rcases h : uint c (3 + i) 1 with _ | v
    · simp [FieldIs, h, intOf, low]
    · simp only [FieldIs, h, intOf, low_mod, Option.some.injEq, exists_eq_left']; omega
  simp only [key, FieldIs, h0, h2, intOf, Option.some.injEq, exists_eq_left', rangeLen, Int.toNat_natCast]
  constructor
  · rintro ⟨⟨⟨h1, h2⟩, h3, h4⟩, h5⟩; exact ⟨by omega, by omega, h5⟩
  · rintro ⟨h1, h3, h5⟩; exact ⟨⟨by omega, by omega⟩, h5⟩

/-- C36 (component mapping). -/
theorem C36_cmap (env : Env) (o : Options) (fuel : Nat) (c : Bytes) :
    Accepted (validateBox env o (fuel + 1) tagComponentMapping c) ↔ CmapOk c := by
  rw [accepted_box_ok env o fuel _ c (t := .componentMappingBox) (by decide) rfl rfl]
  simp only [componentMappingBox, allTrue_test, allTrue_char, allTrue_nil,
    Bool.and_true, Bool.and_eq_true, allTrue_flatMap_range, between_iff, CmapOk]
  refine forall_congr' fun i => imp_congr_right fun hi => ?_
  rw [u16_at c (4 * i) (by omega) (by omega), u8_at c (4 * i + 2) (by omega) (by omega),
    u8_at c (4 * i + 3) (by omega) (by omega)]
  have h0 := uint_pos (b := c) (off := 4 * i) (n := 2) (by omega)
  have h1 := uint_pos (b := c) (off := 4 * i + 2) (n := 1) (by omega)
  have h2 := uint_pos (b := c) (off := 4 * i + 3) (n := 1) (by omega)
  simp only [FieldIs, h0, h1, h2, intOf, Option.some.injEq, exists_eq_left']
  generalize be (sub c (4 * i) 2) = a
  generalize be (sub c (4 * i + 2) 1) = t
  generalize be (sub c (4 * i + 3) 1) = p
  by_cases ht : t = 0
  · subst ht; simp; omega
  · have : ¬ ((t : Int) = 0) := by omega
    simp [this, ht]; omega

/-- C36 (channel definition). -/
theorem C36_cdef (env : Env) (o : Options) (fuel : Nat) (c : Bytes) :
    Accepted (validateBox env o (fuel + 1) tagChannelDefinition c) ↔ CdefOk o.format c := by
  rw [accepted_box_ok env o fuel _ c (t := .channelDefinitionBox) (by decide) rfl rfl]
  unfold channelDefinitionBox CdefOk
  simp only [allTrue_append, allTrue_test, allTrue_char, allTrue_nil,
    Bool.and_true, Bool.and_eq_true, decide_eq_true_eq, allTrue_flatMap_range, between_iff]
  rw [u16_at c 0 (x := 0) (y := 2) rfl rfl]
  rcases h0 : uint c 0 2 with _ | n
  · fld0 h0
  simp only [intOf, rangeLen, Int.toNat_natCast]
  by_cases hl : c.length = 2 + 6 * n
  · have hty : ∀ i < n, uint c (2 + 6 * i + 2) 2 = some (be (sub c (2 + 6 * i + 2) 2)) :=
      fun i hi => uint_pos (by omega)
    have hA : ∀ i < n, bytesToUShortInt (slice c (2 + 6 * (i : Int) + 2) (2 + 6 * (i : Int) + 4)) =
        (be (sub c (2 + 6 * i + 2) 2) : Int) := by
      intro i hi
      rw [u16_at c (2 + 6 * i + 2) (by omega) (by omega), hty i hi]; rfl
    have hB : ∀ i < n, bytesToUShortInt (slice c (2 + 6 * (i : Int) + 4) (2 + 6 * (i : Int) + 6)) =
        (be (sub c (2 + 6 * i + 4) 2) : Int) := by
      intro i hi
      rw [u16_at c (2 + 6 * i + 4) (by omega) (by omega), uint_pos (by omega)]; rfl
    have hal : ∀ i < n, (decide (bytesToUShortInt (slice c (2 + 6 * (i : Int) + 2)
        (2 + 6 * (i : Int) + 4)) ∈ [1, 2]) = true ↔ IsAlpha c i) := by
      intro i hi
      rw [decide_eq_true_eq, hA i hi]
      simp only [IsAlpha, FieldIs, hty i hi, Option.some.injEq, exists_eq_left', List.mem_cons,
        List.not_mem_nil, or_false]
      omega
    have hfmt : ∀ i < n, (allTrue (match o.format with
          | .jp2 => [Step.test "cTypIsValid" (decide (bytesToUShortInt (slice c (2 + 6 * (i : Int) + 2)
              (2 + 6 * (i : Int) + 4)) ∈ [0, 1, 2, 65535]))]
          | .jph => [Step.test "cTypIsValid" (decide (bytesToUShortInt (slice c (2 + 6 * (i : Int) + 2)
              (2 + 6 * (i : Int) + 4)) ∈ [0, 1, 2, 3, 65535]))]
          | _ => []) = true ↔ FieldIs c (2 + 6 * i + 2) 2 (channelTypesOf o.format)) := by
      intro i hi
      simp only [FieldIs, hty i hi, Option.some.injEq, exists_eq_left']
      cases o.format <;>
        simp only [allTrue_test, allTrue_nil, channelTypesOf, Bool.and_true, decide_eq_true_eq,
          hA i hi, List.mem_cons, List.not_mem_nil, or_false, iff_true] <;> omega
    have hcd : ∀ i < n, (0 : Int) ≤ bytesToUShortInt (slice c (2 + 6 * (i : Int)) (2 + 6 * (i : Int) + 2)) ∧
        bytesToUShortInt (slice c (2 + 6 * (i : Int)) (2 + 6 * (i : Int) + 2)) ≤ 65535 := by
      intro i hi
      have := uint_pos (b := c) (off := 2 + 6 * i) (n := 2) (by omega)
      have := uint_lt this
      rw [u16_at c (2 + 6 * i) (by omega) (by omega), uint_pos (by omega)]
      simp only [intOf]; omega
    have hca : ∀ i < n, (0 : Int) ≤ bytesToUShortInt (slice c (2 + 6 * (i : Int) + 2)
        (2 + 6 * (i : Int) + 4)) ∧
        bytesToUShortInt (slice c (2 + 6 * (i : Int) + 2) (2 + 6 * (i : Int) + 4)) ≤ 65535 := by
      intro i hi
      have := uint_lt (hty i hi)
      rw [hA i hi]; omega
    have hlen : ((c.length : Int) - 2 = (n : Int) * 6) := by omega
    have hnb := uint_lt h0
    have hjph : (allTrue (if o.format = .jph then
        Step.test "noMoreThanOneAlphaChannel"
          (decide ((((List.range n).filter fun (i : Nat) => decide (bytesToUShortInt
            (slice c (2 + 6 * (i : Int) + 2) (2 + 6 * (i : Int) + 4)) ∈ [1, 2])).map fun (i : Nat) =>
            bytesToUShortInt (slice c (2 + 6 * (i : Int) + 4) (2 + 6 * (i : Int) + 6))).length ≤ 1))
        :: (((List.range n).filter fun (i : Nat) => decide (bytesToUShortInt
            (slice c (2 + 6 * (i : Int) + 2) (2 + 6 * (i : Int) + 4)) ∈ [1, 2])).map fun (i : Nat) =>
            bytesToUShortInt (slice c (2 + 6 * (i : Int) + 4) (2 + 6 * (i : Int) + 6))).map
              (fun a => Step.test "cAssocAlphaChannelIsZero" (decide (a = 0)))
      else []) = true) ↔ (o.format = .jph → (∀ i < n, ∀ j < n, IsAlpha c i → IsAlpha c j → i = j) ∧
        ∀ i < n, IsAlpha c i → FieldIs c (2 + 6 * i + 4) 2 (· = 0)) := by
      split
      · rename_i hf
        simp only [hf, true_implies, allTrue_test, Bool.and_eq_true, decide_eq_true_eq, allTrue_map_test,
          List.length_map, filter_range_le_one]
        refine and_congr ?_ ?_
        · constructor
          · intro h i hi j hj h1 h2
            exact h i hi j hj (of_decide_eq_true ((hal i hi).2 h1)) (of_decide_eq_true ((hal j hj).2 h2))
          · intro h i hi j hj h1 h2
            exact h i hi j hj ((hal i hi).1 (decide_eq_true h1)) ((hal j hj).1 (decide_eq_true h2))
        · simp only [List.mem_map, List.mem_filter, List.mem_range, forall_exists_index, and_imp]
          have hz : ∀ i < n, (bytesToUShortInt (slice c (2 + 6 * (i : Int) + 4)
              (2 + 6 * (i : Int) + 6)) = 0 ↔ FieldIs c (2 + 6 * i + 4) 2 (· = 0)) := by
            intro i hi
            rw [hB i hi]
            simp only [FieldIs, uint_pos (b := c) (off := 2 + 6 * i + 4) (n := 2) (by omega),
              Option.some.injEq, exists_eq_left']
            omega
          constructor
          · intro h i hi ha
            exact (hz i hi).1 (h _ i hi ((hal i hi).2 ha) rfl)
          · rintro h _ i hi ha rfl
            exact (hz i hi).2 (h i hi ((hal i hi).1 ha))
      · rename_i hf
        simp [allTrue_nil, hf]
    refine Iff.trans (and_congr Iff.rfl hjph) ?_
    constructor
    · rintro ⟨⟨⟨⟨h1, _⟩, _⟩, hall⟩, hj⟩
      exact ⟨n, h0, by omega, hl, fun i hi => (hfmt i hi).1 (hall i hi).1.2, hj⟩
    · rintro ⟨n', h0', h1, _, hall, hj⟩
      obtain rfl : n = n' := by rw [h0] at h0'; simpa using h0'
      exact ⟨⟨⟨by omega, hlen⟩, fun i hi => ⟨⟨hcd i hi, (hfmt i hi).2 (hall i hi)⟩, hca i hi⟩⟩, hj⟩
  · have : ¬ ((c.length : Int) - 2 = (n : Int) * 6) := by omega
    simp [FieldIs, h0, hl, this]

theorem unknown_type {t : Bytes} (h1 : t ∉ knownBoxTypes) (h2 : t ∉ knownMarkers) : boxTypeOf t = .unknownBox := by
  have key : ∀ p ∈ typeMap, p.1 ∈ knownBoxTypes ++ knownMarkers := by decide
  unfold boxTypeOf
  cases h : typeMap.lookup t with
  | none => rfl
  | some v =>
    obtain ⟨l1, l2, hl, -⟩ := List.lookup_eq_some_iff.1 h
    have := key (t, v) (by rw [hl]; simp)
    rcases List.mem_append.1 this with h | h
    · exact absurd h h1
    · exact absurd h h2

theorem not_marker_of_length {t : Bytes} (h : t.length ≠ 2) : t ∉ knownMarkers := by
  have : ∀ t ∈ knownMarkers, t.length = 2 := by decide
  exact fun hm => h (this t hm)

/-- C42: a box of unknown type (also one whose type is cut off) passes, performs no test, reports its
type and adds one warning. -/
theorem C42_unknown (env : Env) (o : Options) (fuel : Nat) (bType c : Bytes)
    (hk : bType ∉ knownBoxTypes) (hm : bType ∉ knownMarkers) :
    ∃ r, validateBox env o (fuel + 1) bType c = .ok r ∧ r.node.tests = [] ∧
      r.node.chars = [.leaf "boxType" (.bytes bType)] ∧ r.node.warnings.length = 1 := by
  have ht := unknown_type hk hm
  refine ⟨_, (validateBox_ok ht rfl).2 ⟨_, rfl, rfl⟩, ?_, ?_, ?_⟩ <;>
    simp [unknownBox, Node.run, Node.step, Node.addChar, Node.addWarning]

/-- C38: a URL box passes exactly when version and flags are zero and the location is NUL-terminated
UTF-8. -/
theorem C38_url (env : Env) (o : Options) (fuel : Nat) (c : Bytes) :
    Accepted (validateBox env o (fuel + 1) tagUrl c) ↔ UrlOk c := by
  rw [accepted_box_ok env o fuel tagUrl c (t := .urlBox) (by decide) rfl rfl]
  simp only [urlBox, allTrue_test, allTrue_char, allTrue_nil, Bool.and_true, Bool.and_eq_true,
    decide_eq_true_eq, UrlOk, beq_iff_eq]
  rw [u8_at c 0 (x := 0) (y := 1) rfl rfl, intOf_eq (by omega), fieldIs_eq,
    slice_at c 1 3 (x := 1) (y := 4) rfl rfl,
    show slice c 4 (c.length : Int) = c.drop 4 from slice_to_end c 4]
  refine and_congr Iff.rfl (and_congr Iff.rfl ?_)
  generalize c.drop 4 = l
  constructor
  · rintro ⟨h1, h2⟩
    obtain ⟨n, hd, hl⟩ := strip_decomp l
    obtain ⟨cs, hcs⟩ := Option.isSome_iff_exists.1 h2
    cases n with
    | zero =>
      rw [List.replicate_zero, List.append_nil] at hd
      rw [← hd] at hl
      exact absurd h1 hl
    | succ n => exact ⟨_, n, cs, hd, hl, (utf8Decode_iff _ _).1 hcs⟩
  · rintro ⟨s, n, cs, rfl, hl, hu⟩
    rw [removeNullTerminator_append s (n + 1) hl, (utf8Decode_iff _ _).2 hu]
    refine ⟨?_, rfl⟩
    rw [List.replicate_succ', ← List.append_assoc, List.getLast?_concat]

/-- C38: the location reported is the payload after the flags, without its trailing NULs. -/
theorem C38_url_value (env : Env) (o : Options) (fuel : Nat) (c : Bytes) (r : BoxResult)
    (h : validateBox env o (fuel + 1) tagUrl c = .ok r) :
    ∃ s n, c.drop 4 = s ++ List.replicate n 0 ∧ s.getLast? ≠ some 0 ∧
      reported r.node "loc" = [.bytes s] := by
  obtain ⟨ss, h1, rfl⟩ := (validateBox_ok (t := .urlBox) (by decide) rfl).1 h
  simp only [leaf, urlBox, Outcome.ok.injEq] at h1
  subst h1
  rw [reported_run, show slice c 4 (c.length : Int) = c.drop 4 from slice_to_end c 4]
  rep
  obtain ⟨n, hd, hl⟩ := strip_decomp (c.drop 4)
  exact ⟨_, n, hd, hl, rfl⟩

/-! ## Concrete boxes -/

/-- C16: the signature; a signature with one byte changed. -/
example : Accepted (validateBox Sample.env0 (Sample.opts .jp2) 1 tagSignature ([0x0d, 0x0a, 0x87, 0x0a])) ∧ ¬ Accepted (validateBox Sample.env0 (Sample.opts .jp2) 1 tagSignature ([0x0d, 0x0a, 0x87, 0x0d])) :=
  ⟨accepted_of (by decide +kernel), not_accepted_of (by decide +kernel)⟩

/-- C16: file type box with two compatible brands; without the brand in the list. -/
example : Accepted (validateBox Sample.env0 (Sample.opts .jp2) 1 tagFileType (ascii "jp2 " ++ Sample.be32 0 ++ ascii "jpxb" ++ ascii "jp2 ")) ∧ ¬ Accepted (validateBox Sample.env0 (Sample.opts .jp2) 1 tagFileType (ascii "jp2 " ++ Sample.be32 0 ++ ascii "jpxb")) :=
  ⟨accepted_of (by decide +kernel), not_accepted_of (by decide +kernel)⟩

/-- C19: image header; one with a height of zero. The first one meets the hypothesis of `C19_ihdr_partial`. -/
example : Accepted (validateBox Sample.env0 (Sample.opts .jp2) 1 tagImageHeader (Sample.be32 5 ++ Sample.be32 6 ++ Sample.be16 3 ++ [7, 7, 0, 0])) ∧ ¬ Accepted (validateBox Sample.env0 (Sample.opts .jp2) 1 tagImageHeader (Sample.be32 0 ++ Sample.be32 6 ++ Sample.be16 3 ++ [7, 7, 0, 0])) :=
  ⟨accepted_of (by decide +kernel), not_accepted_of (by decide +kernel)⟩

example : ∀ v, uint (Sample.be32 5 ++ Sample.be32 6 ++ Sample.be16 3 ++ [7, 7, 0, 0]) 10 1 = some v → BpcByteOk v := by
  intro v h
  rw [show uint (Sample.be32 5 ++ Sample.be32 6 ++ Sample.be16 3 ++ [7, 7, 0, 0]) 10 1 = some 7 from by decide] at h
  cases h
  exact .inl (by decide)

/-- C21: depths 8, 12 and signed 16; a depth of 39. -/
example : Accepted (validateBox Sample.env0 (Sample.opts .jp2) 1 tagBitsPerComponent ([7, 11, 0x8f])) ∧ ¬ Accepted (validateBox Sample.env0 (Sample.opts .jp2) 1 tagBitsPerComponent ([7, 38, 0x8f])) :=
  ⟨accepted_of (by decide +kernel), not_accepted_of (by decide +kernel)⟩

/-- C34: 300/7 times 100 and 200/3 times 0.01; a numerator of zero. -/
example : Accepted (validateBox Sample.env0 (Sample.opts .jp2) 1 tagCaptureResolution (Sample.be16 300 ++ Sample.be16 7 ++ Sample.be16 200 ++ Sample.be16 3 ++ [2, 254])) ∧ ¬ Accepted (validateBox Sample.env0 (Sample.opts .jp2) 1 tagCaptureResolution (Sample.be16 0 ++ Sample.be16 7 ++ Sample.be16 200 ++ Sample.be16 3 ++ [2, 254])) :=
  ⟨accepted_of (by decide +kernel), not_accepted_of (by decide +kernel)⟩

/-- C34: that box meets the hypotheses of `C34_res_values`. -/
example : ∃ c r, validateBox Sample.env0 (Sample.opts .jp2) (0 + 1) tagCaptureResolution c = .ok r ∧ ResOk c ∧
    uint c 0 2 = some 300 ∧ uint c 2 2 = some 7 ∧ uint c 4 2 = some 200 ∧ uint c 6 2 = some 3 ∧
    uint c 8 1 = some 2 ∧ uint c 9 1 = some 254 := by
  have h : acceptedB (validateBox Sample.env0 (Sample.opts .jp2) (0 + 1) tagCaptureResolution
    (Sample.be16 300 ++ Sample.be16 7 ++ Sample.be16 200 ++ Sample.be16 3 ++ [2, 254])) = true := by
    decide +kernel
  obtain ⟨r, hr, -⟩ := ok_of h
  exact ⟨_, r, hr, (C34_res _ _ _ _ _ (.inl rfl)).1 (accepted_of h), by decide, by decide, by decide, by decide,
    by decide, by decide⟩

/-- C35: sRGB; an unknown enumerated colour space. -/
example : Accepted (validateBox Sample.env0 (Sample.opts .jp2) 1 tagColourSpecification ([1, 0, 0] ++ Sample.be32 16)) ∧ ¬ Accepted (validateBox Sample.env0 (Sample.opts .jp2) 1 tagColourSpecification ([1, 0, 0] ++ Sample.be32 99)) :=
  ⟨accepted_of (by decide +kernel), not_accepted_of (by decide +kernel)⟩

/-- C35: an ICC profile of two tags meets the hypothesis of `C35_colr_partial`. -/
example : ∀ n, uint (([2, 0, 0] ++ List.replicate 128 1 ++ Sample.be32 2 ++ List.replicate 24 0).drop 3) 128 4 = some n →
    n ≤ 4096 := by
  intro n h
  have e : uint (([2, 0, 0] ++ List.replicate 128 (1 : UInt8) ++ Sample.be32 2 ++ List.replicate 24 0 : Bytes).drop 3) 128 4 =
    some 2 := by decide +kernel
  have := h.symm.trans e
  cases this
  decide

/-- C36: palette of two entries and three columns; with no columns. -/
example : Accepted (validateBox Sample.env0 (Sample.opts .jp2) 1 tagPalette (Sample.be16 2 ++ [3, 7, 7, 7, 1, 2, 3, 4, 5, 6])) ∧ ¬ Accepted (validateBox Sample.env0 (Sample.opts .jp2) 1 tagPalette (Sample.be16 2 ++ [0])) :=
  ⟨accepted_of (by decide +kernel), not_accepted_of (by decide +kernel)⟩

/-- C36: component mapping for two channels; an unknown mapping type. -/
example : Accepted (validateBox Sample.env0 (Sample.opts .jp2) 1 tagComponentMapping ([0, 0, 1, 0] ++ [0, 0, 1, 1])) ∧ ¬ Accepted (validateBox Sample.env0 (Sample.opts .jp2) 1 tagComponentMapping ([0, 0, 1, 0] ++ [0, 0, 2, 1])) :=
  ⟨accepted_of (by decide +kernel), not_accepted_of (by decide +kernel)⟩

/-- C36: channel definitions for two channels; an unknown channel type. -/
example : Accepted (validateBox Sample.env0 (Sample.opts .jp2) 1 tagChannelDefinition (Sample.be16 2 ++ [0, 0, 0, 0, 0, 1] ++ [0, 1, 0, 1, 0, 0])) ∧ ¬ Accepted (validateBox Sample.env0 (Sample.opts .jp2) 1 tagChannelDefinition (Sample.be16 2 ++ [0, 0, 0, 0, 0, 1] ++ [0, 1, 0, 9, 0, 0])) :=
  ⟨accepted_of (by decide +kernel), not_accepted_of (by decide +kernel)⟩

/-- C42: a type that is not known. -/
example : ascii "abcd" ∉ knownBoxTypes ∧ ascii "abcd" ∉ knownMarkers := by decide

/-- C38: a location; without the closing NUL. The first one meets the hypothesis of `C38_url_value`. -/
example : Accepted (validateBox Sample.env0 (Sample.opts .jp2) 1 tagUrl ([0, 0, 0, 0] ++ ascii "http:" ++ [0])) ∧ ¬ Accepted (validateBox Sample.env0 (Sample.opts .jp2) 1 tagUrl ([0, 0, 0, 0] ++ ascii "http:")) :=
  ⟨accepted_of (by decide +kernel), not_accepted_of (by decide +kernel)⟩

end Jpy
