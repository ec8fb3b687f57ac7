import Verif.Lemmas.Leaf
import Verif.Lemmas.Witness
/-! # Properties of marker segment validators: C26-C33 -/

set_option linter.unusedSimpArgs false

namespace Jpy
open Spec

/-- C33: an SOT segment passes all its tests exactly when it satisfies table A.5. -/
theorem C33_sot (verbose : Bool) (c : Bytes) :
    NoFailure (Node.run verbose {} (sot c)).tests ↔ SotOk c := by
  rw [noFailure_run]
  simp only [sot, allTrue_test, allTrue_char, allTrue_nil, Bool.and_true, Bool.and_eq_true,
    decide_eq_true_eq, SotOk, FieldIs, Bool.not_eq_true']
  simp (disch := omega) only [u16_slice, u32_slice, u8_slice]
  simp only [Int.reduceToNat]
  rcases h0 : uint c 0 2 with _ | v0 <;> simp only [intOf]
  · simp
  rcases h1 : uint c 2 2 with _ | v1
  · simp [between]
  rcases h3 : uint c 8 1 with _ | v3
  · simp [between]
  rcases h2 : uint c 4 4 with _ | v2
  · exfalso
    unfold uint at h2 h3
    split at h2
    · cases h2
    · split at h3
      · omega
      · cases h3
  · simp only [between, Option.some.injEq, exists_eq_left', decide_eq_true_eq,
      decide_eq_false_iff_not]
    omega

/-- C29 (RGN): an RGN segment passes exactly when its fields are in range. -/
theorem C29_rgn (env : Env) (o : Options) (fuel : Nat) (csiz : Int) (c : Bytes) :
    Accepted (validateLeaf env o fuel (some csiz) mRGN c) ↔ RgnOk o.format csiz c := by
  rw [accepted_leaf_ok env o fuel _ mRGN c (t := .rgn) (by decide) rfl]
  simp only [compIndex, allTrue_test, allTrue_char, allTrue_nil, Bool.and_true, Bool.and_eq_true,
    decide_eq_true_eq, RgnOk, CompIndexOk, compWidth]
  by_cases hc : csiz < 257 <;> simp only [hc, if_true, if_false] <;>
    simp (disch := omega) only [u16_slice, u8_slice] <;>
    simp only [Int.reduceToNat, Int.reduceAdd, Nat.reduceAdd]
  · rcases h0 : uint c 0 2 with _ | v0
    · fld0 h0
    rcases h1 : uint c 2 1 with _ | v1
    · fld0 h1
    rcases h2 : uint c 3 1 with _ | v2
    · fld0 h2
    rcases h3 : uint c 4 1 with _ | v3
    · fld0 h3
    have := uint_lt h1; have := uint_lt h3
    cases o.format.isHT <;> fldω [h0, h1, h2, h3]
  · rcases h0 : uint c 0 2 with _ | v0
    · fld0 h0
    rcases h1 : uint c 2 2 with _ | v1
    · fld0 h1
    rcases h2 : uint c 4 1 with _ | v2
    · fld0 h2
    rcases h3 : uint c 5 1 with _ | v3
    · fld0 h3
    have := uint_lt h1; have := uint_lt h3
    cases o.format.isHT <;> fldω [h0, h1, h2, h3]

/-- C29 (CRG): a CRG segment passes exactly when its length is in range and it has an offset pair for
every component. -/
theorem C29_crg (env : Env) (o : Options) (fuel : Nat) (csiz : Int) (c : Bytes) :
    Accepted (validateLeaf env o fuel (some csiz) mCRG c) ↔ CrgOk csiz c := by
  rw [accepted_leaf_ok env o fuel _ mCRG c (t := .crg) (by decide) rfl]
  simp only [allTrue_append, allTrue_test, allTrue_char, allTrue_nil, Bool.and_true,
    Bool.and_eq_true, decide_eq_true_eq, CrgOk, allTrue_flatMap_range]
  refine and_congr ?_ ?_
  · rw [u16_slice c (by omega) (by omega), between_intOf (by omega)]
    exact fieldIs_congr fun v _ _ => by omega
  · unfold rangeLen
    constructor
    · intro h i hi
      have := h i (by omega)
      rw [u16_slice c (by omega) (by omega), u16_slice c (by omega) (by omega),
        between_intOf (by omega), between_intOf (by omega)] at this
      have e1 : (2 + 4 * (i : Int)).toNat = 2 + 4 * i := by omega
      have e2 : (2 + 4 * (i : Int) + 2).toNat = 2 + 4 * i + 2 := by omega
      rw [e1, e2] at this
      obtain ⟨⟨v, h1, -⟩, ⟨w, h2, -⟩⟩ := this
      exact ⟨⟨v, h1, trivial⟩, ⟨w, h2, trivial⟩⟩
    · intro h i hi
      obtain ⟨⟨v, h1, -⟩, ⟨w, h2, -⟩⟩ := h i (by omega)
      have := uint_lt h1; have := uint_lt h2
      rw [u16_slice c (by omega) (by omega), u16_slice c (by omega) (by omega),
        between_intOf (by omega), between_intOf (by omega)]
      have e1 : (2 + 4 * (i : Int)).toNat = 2 + 4 * i := by omega
      have e2 : (2 + 4 * (i : Int) + 2).toNat = 2 + 4 * i + 2 := by omega
      rw [e1, e2]
      exact ⟨⟨v, h1, by omega, by omega⟩, ⟨w, h2, by omega, by omega⟩⟩

/-- C28 (QCD): a QCD segment passes exactly when length and style are in range. -/
theorem C28_qcd (env : Env) (o : Options) (fuel : Nat) (csiz : Option Int) (c : Bytes) :
    Accepted (validateLeaf env o fuel csiz mQCD c) ↔ QcdOk c := by
  rw [accepted_leaf_ok env o fuel _ mQCD c (t := .qcd) (by decide) rfl]
  simp only [qcd, allTrue_append, allTrue_test, allTrue_char, allTrue_nil, Bool.and_true,
    Bool.and_eq_true, decide_eq_true_eq, QcdOk, allTrue_quantSteps, List.mem_cons,
    List.not_mem_nil, or_false]
  simp (disch := omega) only [u16_slice, u8_slice]
  simp only [Int.reduceToNat, low]
  rcases h0 : uint c 0 2 with _ | v0
  · fld0 h0
  rcases h1 : uint c 2 1 with _ | v1
  · fld0 h1
  fldω [h0, h1]

/-- C28 (QCC): a QCC segment passes exactly when length and style are in range. -/
theorem C28_qcc (env : Env) (o : Options) (fuel : Nat) (csiz : Int) (c : Bytes) :
    Accepted (validateLeaf env o fuel (some csiz) mQCC c) ↔ QccOk csiz c := by
  rw [accepted_leaf_ok env o fuel _ mQCC c (t := .qcc) (by decide) rfl]
  simp only [allTrue_append, allTrue_test, allTrue_char, allTrue_nil, Bool.and_true,
    Bool.and_eq_true, decide_eq_true_eq, QccOk, allTrue_quantSteps, List.mem_cons,
    List.not_mem_nil, or_false, compWidth]
  by_cases hc : csiz < 257 <;> simp only [hc, if_true, if_false] <;>
    simp (disch := omega) only [u16_slice, u8_slice] <;>
    simp only [Int.reduceToNat, Int.reduceAdd, Nat.reduceAdd, low]
  · rcases h0 : uint c 0 2 with _ | v0
    · fld0 h0
    rcases h1 : uint c 3 1 with _ | v1
    · fld0 h1
    fldω [h0, h1]
  · rcases h0 : uint c 0 2 with _ | v0
    · fld0 h0
    rcases h1 : uint c 4 1 with _ | v1
    · fld0 h1
    fldω [h0, h1]

/-- C27 (COD): a COD segment passes exactly when it satisfies A.6.1. -/
theorem C27_cod (env : Env) (o : Options) (fuel : Nat) (csiz : Option Int) (c : Bytes) :
    Accepted (validateLeaf env o fuel csiz mCOD c) ↔ CodOk c := by
  rw [accepted_leaf_ok env o fuel _ mCOD c (t := .cod) (by decide) rfl]
  simp only [cod, allTrue_append, allTrue_test, allTrue_char, allTrue_nil, Bool.and_true,
    Bool.and_eq_true, decide_eq_true_eq, CodOk, List.mem_cons, List.not_mem_nil, or_false]
  have hs : slice c 3 7 = sub c 3 4 := slice_eq c (by omega) (by omega)
  rw [hs]
  simp (disch := omega) only [u16_slice, u8_slice]
  simp only [Int.reduceToNat]
  rw [uint_sub (b := c) (by omega) (by omega), uint_sub (b := c) (by omega) (by omega),
    uint_sub (b := c) (by omega) (by omega), show (8 : Int) = ((8 : Nat) : Int) from rfl,
    show (12 : Int) = ((12 : Nat) : Int) from rfl, allTrue_codeBlockSteps]
  simp only [Nat.add_zero, Nat.reduceAdd]
  rcases h3 : uint c 3 1 with _ | v3
  · fld0 h3
  rcases h4 : uint c 4 2 with _ | v4
  · fld0 h4
  rcases h6 : uint c 6 1 with _ | v6
  · fld0 h6
  rcases h0 : uint c 0 2 with _ | v0
  · fld0 h0
  rcases h2 : uint c 2 1 with _ | v2
  · exfalso
    unfold uint at h2 h3
    split at h2
    · cases h2
    · split at h3
      · omega
      · cases h3
  rcases h7 : uint c 7 1 with _ | v7
  · fld0 h7
  have := uint_lt h4
  simp only [intOf, getBitValue_nat, allTrue_precinctSteps, FieldIs, h3, h4, h6, h0, h2, h7,
    between_iff, Option.some.injEq, exists_eq_left', Nat.sub_self]
  have hb : ((bit 0 v2 : Nat) : Int) = 1 ↔ bit 0 v2 = 1 := by omega
  simp only [hb]
  by_cases hbit : bit 0 v2 = 1
  · simp only [hbit, if_true, true_implies]
    constructor
    · rintro ⟨⟨⟨h1, h2, h3, h4, h5, h6⟩, h7⟩, h8⟩
      exact ⟨by omega, by omega, by omega, ⟨by omega, by omega, by omega, by omega, h8⟩, h7⟩
    · rintro ⟨h1, h2, h3, ⟨h4, h5, h6, h7, h8⟩, h9⟩
      exact ⟨⟨⟨by omega, by omega, by omega, by omega, by omega, by omega⟩, h9⟩, h8⟩
  · simp only [hbit, if_false, false_implies]
    constructor
    · rintro ⟨⟨⟨h1, h2, h3, h4, h5, h6⟩, h7⟩, h8⟩
      exact ⟨by omega, by omega, by omega, ⟨by omega, by omega, by omega, by omega, h8⟩, h7⟩
    · rintro ⟨h1, h2, h3, ⟨h4, h5, h6, h7, h8⟩, h9⟩
      exact ⟨⟨⟨by omega, by omega, by omega, by omega, by omega, by omega⟩, h9⟩, h8⟩

/-- C27 (COC): a COC segment passes exactly when it satisfies A.6.2. -/
theorem C27_coc (env : Env) (o : Options) (fuel : Nat) (csiz : Int) (c : Bytes) :
    Accepted (validateLeaf env o fuel (some csiz) mCOC c) ↔ CocOk csiz c := by
  rw [accepted_leaf_ok env o fuel _ mCOC c (t := .coc) (by decide) rfl]
  simp only [compIndex, allTrue_append, allTrue_test, allTrue_char, allTrue_nil, Bool.and_true,
    Bool.and_eq_true, decide_eq_true_eq, CocOk, CompIndexOk, compWidth]
  have hge : csiz ≥ 257 ↔ ¬ csiz < 257 := by omega
  by_cases hc : csiz < 257 <;>
    simp only [hge, hc, if_true, if_false, and_true, and_false, not_true, not_false_eq_true] <;>
    simp (disch := omega) only [u16_slice, u8_slice, allTrue_codeBlocks] <;>
    simp only [Int.reduceToNat, Int.reduceAdd, Nat.reduceAdd]
  · rcases h0 : uint c 0 2 with _ | v0
    · fld0 h0
    rcases h2 : uint c 2 1 with _ | v2
    · fld0 h2
    rcases h4 : uint c 4 1 with _ | v4
    · fld0 h4
    obtain ⟨v3, h3⟩ := uint_exists (off' := 3) (n' := 1) h4 (by omega)
    have := uint_lt h2
    simp (disch := omega) only [intOf, getBitValue_nat, allTrue_precincts, FieldIs, h0, h2, h3, h4,
      between_iff, Option.some.injEq, exists_eq_left', exists_eq', Nat.sub_self, true_or, false_or,
      true_and]
    simp only [Int.reduceToNat]
    have hlt : bit 0 v3 < 2 := Nat.mod_lt _ (by omega)
    obtain hbit | hbit : bit 0 v3 = 1 ∨ bit 0 v3 = 0 := by omega
    · simp only [hbit, Int.cast_ofNat_Int, if_true, true_implies]
      constructor
      · rintro ⟨⟨⟨h1, h2, h3, h4⟩, h7⟩, h8⟩
        first
        | exact ⟨⟨by omega, by omega, by omega, by omega, h8⟩, h7⟩
        | exact ⟨by omega, ⟨by omega, by omega, by omega, by omega, h8⟩, h7⟩
      · first
        | rintro ⟨⟨h4, h5, h6, h7, h8⟩, h9⟩
          exact ⟨⟨⟨by omega, by omega, by omega, by omega⟩, h9⟩, h8⟩
        | rintro ⟨h1, ⟨h4, h5, h6, h7, h8⟩, h9⟩
          exact ⟨⟨⟨by omega, by omega, by omega, by omega⟩, h9⟩, h8⟩
    · simp only [hbit, Int.cast_ofNat_Int, reduceIte, Int.reduceEq, Nat.zero_ne_one, false_implies,
        and_true, Nat.add_zero]
      constructor
      · rintro ⟨⟨h1, h2, h3, h4⟩, h7⟩
        first
        | exact ⟨⟨by omega, by omega, by omega, by omega⟩, h7⟩
        | exact ⟨by omega, ⟨by omega, by omega, by omega, by omega⟩, h7⟩
      · first
        | rintro ⟨⟨h4, h5, h6, h7⟩, h9⟩
          exact ⟨⟨by omega, by omega, by omega, by omega⟩, h9⟩
        | rintro ⟨h1, ⟨h4, h5, h6, h7⟩, h9⟩
          exact ⟨⟨by omega, by omega, by omega, by omega⟩, h9⟩
  · rcases h0 : uint c 0 2 with _ | v0
    · fld0 h0
    rcases h2 : uint c 2 2 with _ | v2
    · fld0 h2
    rcases h4 : uint c 5 1 with _ | v4
    · fld0 h4
    obtain ⟨v3, h3⟩ := uint_exists (off' := 4) (n' := 1) h4 (by omega)
    have := uint_lt h2
    simp (disch := omega) only [intOf, getBitValue_nat, allTrue_precincts, FieldIs, h0, h2, h3, h4,
      between_iff, Option.some.injEq, exists_eq_left', exists_eq', Nat.sub_self, true_or, false_or,
      true_and]
    simp only [Int.reduceToNat]
    have hlt : bit 0 v3 < 2 := Nat.mod_lt _ (by omega)
    obtain hbit | hbit : bit 0 v3 = 1 ∨ bit 0 v3 = 0 := by omega
    · simp only [hbit, Int.cast_ofNat_Int, if_true, true_implies]
      constructor
      · rintro ⟨⟨⟨h1, h2, h3, h4⟩, h7⟩, h8⟩
        first
        | exact ⟨⟨by omega, by omega, by omega, by omega, h8⟩, h7⟩
        | exact ⟨by omega, ⟨by omega, by omega, by omega, by omega, h8⟩, h7⟩
      · first
        | rintro ⟨⟨h4, h5, h6, h7, h8⟩, h9⟩
          exact ⟨⟨⟨by omega, by omega, by omega, by omega⟩, h9⟩, h8⟩
        | rintro ⟨h1, ⟨h4, h5, h6, h7, h8⟩, h9⟩
          exact ⟨⟨⟨by omega, by omega, by omega, by omega⟩, h9⟩, h8⟩
    · simp only [hbit, Int.cast_ofNat_Int, reduceIte, Int.reduceEq, Nat.zero_ne_one, false_implies,
        and_true, Nat.add_zero]
      constructor
      · rintro ⟨⟨h1, h2, h3, h4⟩, h7⟩
        first
        | exact ⟨⟨by omega, by omega, by omega, by omega⟩, h7⟩
        | exact ⟨by omega, ⟨by omega, by omega, by omega, by omega⟩, h7⟩
      · first
        | rintro ⟨⟨h4, h5, h6, h7⟩, h9⟩
          exact ⟨⟨by omega, by omega, by omega, by omega⟩, h9⟩
        | rintro ⟨h1, ⟨h4, h5, h6, h7⟩, h9⟩
          exact ⟨⟨by omega, by omega, by omega, by omega⟩, h9⟩

/-- C29 (POC): a POC segment passes exactly when its length is in range and every entry is. -/
theorem C29_poc (env : Env) (o : Options) (fuel : Nat) (csiz : Int) (c : Bytes) :
    Accepted (validateLeaf env o fuel (some csiz) mPOC c) ↔ PocOk csiz c := by
  rw [accepted_leaf_ok env o fuel _ mPOC c (t := .poc) (by decide) rfl]
  simp only [allTrue_append, allTrue_test, allTrue_char, allTrue_nil, Bool.and_true,
    Bool.and_eq_true, PocOk, allTrue_flatMap_range]
  rw [u16_at c 0 (by omega) (by omega)]
  rcases h0 : uint c 0 2 with _ | v0
  · fld0 h0
  have := uint_lt h0
  simp only [FieldIs, h0, intOf, between_iff, Option.some.injEq, exists_eq_left']
  obtain ⟨w, hw, hs⟩ : ∃ w : Nat, 5 + 2 * compWidth csiz = w ∧
      (if csiz < 257 then (7 : Int) else 9) = (w : Int) ∧ 0 < w := by
    unfold compWidth
    by_cases hc : csiz < 257 <;> simp [hc]
  rw [hw, hs.1]
  by_cases h9 : 9 ≤ v0
  · have hl : rangeLen (intDiv ((v0 : Int) - 2) (w : Int)) = (v0 - 2) / w := by
      have : ((v0 : Int) - 2) = ((v0 - 2 : Nat) : Int) := by omega
      rw [rangeLen, intDiv, this, ← Int.ofNat_tdiv, Int.toNat_natCast]
    rw [hl]
    have key : ∀ i : Nat, allTrue (pocEntry csiz c (2 + (w : Int) * (i : Int))) = true ↔
        PocEntryOk csiz c (2 + w * i) := by
      intro i
      have : (2 + (w : Int) * (i : Int)) = ((2 + w * i : Nat) : Int) := by simp
      rw [this, allTrue_pocEntry]
    simp only [key]
    constructor
    · rintro ⟨-, h⟩; exact ⟨h9, h⟩
    · rintro ⟨-, h⟩; exact ⟨by omega, h⟩
  · constructor
    · rintro ⟨h, -⟩; omega
    · rintro ⟨h, -⟩; omega


/-- C26: a SIZ segment is accepted exactly when it satisfies table A.9 and its capability code is one
of those the tool can name. What is missing from the full property: for the remaining capability codes
(and a segment too short to have one) the validator fails with an internal error instead of reporting
a test result, see `C26_siz_crash`. -/
theorem C26_siz_partial (env : Env) (o : Options) (fuel : Nat) (csiz : Option Int) (c : Bytes) :
    Accepted (validateLeaf env o fuel csiz mSIZ c) ↔ SizOk o.format c ∧ FieldIs c 2 2 RsizDefined := by
  rw [accepted_leaf env o fuel csiz mSIZ c (t := .siz) (by decide)]
  simp only [leaf, siz]
  have e2 : bytesToUShortInt (slice c 2 4) = intOf (uint c 2 2) := u16_at c 2 rfl rfl
  generalize bytesToUShortInt (slice c 2 4) = rs at *
  rcases h2 : uint c 2 2 with _ | r
  · rw [h2] at e2
    rw [e2]
    simp [intOf, sizCapability_missing, FieldIs, h2]
  replace e2 : rs = (r : Int) := by rw [e2, h2]; rfl
  subst e2
  have hr := uint_lt h2
  have hs := sizCapability_isSome r (by omega)
  rcases hcap : sizCapability (r : Int) with _ | s
  · rw [hcap] at hs
    have : ¬ RsizDefined r := by simpa using hs
    simp [FieldIs, h2, this]
  have hdef : RsizDefined r := by rw [hcap] at hs; simpa using hs
  simp only [Outcome.ok.injEq, exists_eq_left', SizOk]
  have e2 : FieldIs c 2 2 RsizDefined := ⟨r, h2, hdef⟩
  simp only [e2, and_true, allTrue_append, allTrue_char, allTrue_test, allTrue_nil, Bool.and_eq_true,
    Bool.and_true, allTrue_flatMap_range, decide_eq_true_eq]
  simp (disch := omega) only [u16_slice, u32_slice, u8_slice]
  simp only [Int.reduceToNat]
  have eR : allTrue (if o.format.isPart1 = true then
        [Step.test "rsizIsValid" (decide (low (shr (r : Int) 12) 4 = 0))]
      else if o.format.isHT = true then
        [Step.test "rsizIsValid" (decide (getBitValue (r : Int) 2 16 = 1))] else []) = true ↔
      FieldIs c 2 2 (RsizOk o.format) := by
    rw [getBitValue_nat, shr_div, low_mod]
    simp only [FieldIs, h2, Option.some.injEq, exists_eq_left', RsizOk]
    cases o.format <;>
      simp [Format.isPart1, Format.isHT, allTrue_test, allTrue_nil] <;> omega
  rw [eR]
  rcases h36 : uint c 36 2 with _ | n
  · simp [FieldIs, h36, intOf, between_iff]
  have eC : (∀ i < rangeLen (intOf (some n)),
      between 1 (low (intOf (uint c (38 + 3 * (i : Int)).toNat 1)) 7 + 1) 38 = true ∧
      between 1 (intOf (uint c (38 + 3 * (i : Int) + 1).toNat 1)) 255 = true ∧
      between 1 (intOf (uint c (38 + 3 * (i : Int) + 2).toNat 1)) 255 = true) ↔
      ∀ i < n, SizComponentOk c (38 + 3 * i) := by
    refine forall_congr' fun i => ?_
    simp only [rangeLen, intOf, Int.toNat_natCast]
    refine imp_congr_right fun hi => ?_
    have t0 : (38 + 3 * (i : Int)).toNat = 38 + 3 * i := by omega
    have t1 : (38 + 3 * (i : Int) + 1).toNat = 38 + 3 * i + 1 := by omega
    have t2 : (38 + 3 * (i : Int) + 2).toNat = 38 + 3 * i + 2 := by omega
    rw [t0, t1, t2]
    unfold SizComponentOk
    rcases k2 : uint c (38 + 3 * i + 2) 1 with _ | v2
    · fld0 k2
    obtain ⟨v1, k1⟩ := uint_exists (off' := 38 + 3 * i + 1) (n' := 1) k2 (by omega)
    obtain ⟨v0, k0⟩ := uint_exists (off' := 38 + 3 * i) (n' := 1) k2 (by omega)
    have := uint_lt k1; have := uint_lt k2
    unfold low
    fldω [k0, k1, k2]
  rw [eC]
  obtain ⟨v0, h0⟩ := uint_exists (off' := 0) (n' := 2) h36 (by omega)
  obtain ⟨v4, h4⟩ := uint_exists (off' := 4) (n' := 4) h36 (by omega)
  obtain ⟨v8, h8⟩ := uint_exists (off' := 8) (n' := 4) h36 (by omega)
  obtain ⟨v12, h12⟩ := uint_exists (off' := 12) (n' := 4) h36 (by omega)
  obtain ⟨v16, h16⟩ := uint_exists (off' := 16) (n' := 4) h36 (by omega)
  obtain ⟨v20, h20⟩ := uint_exists (off' := 20) (n' := 4) h36 (by omega)
  obtain ⟨v24, h24⟩ := uint_exists (off' := 24) (n' := 4) h36 (by omega)
  obtain ⟨v28, h28⟩ := uint_exists (off' := 28) (n' := 4) h36 (by omega)
  obtain ⟨v32, h32⟩ := uint_exists (off' := 32) (n' := 4) h36 (by omega)
  have := uint_lt h4; have := uint_lt h8; have := uint_lt h12; have := uint_lt h16
  have := uint_lt h20; have := uint_lt h24; have := uint_lt h28; have := uint_lt h32
  generalize FieldIs c 2 2 (RsizOk o.format) = P
  simp only [FieldIs, intOf, between_iff, Option.some.injEq, exists_eq_left', decide_eq_true_eq,
    h0, h4, h8, h12, h16, h20, h24, h28, h32, h36]
  generalize (∀ i < n, SizComponentOk c (38 + 3 * i)) = Q
  simp only [Nat.reducePow, Int.reducePow] at *
  constructor
  · rintro ⟨⟨⟨a0, hP⟩, a⟩, hQ⟩
    refine ⟨hP, ?_⟩
    simp only [hQ, and_true]
    omega
  · rintro ⟨hP, a⟩
    have hQ : Q := a.2.2.2.2.2.2.2.2.2.2.2
    simp only [hQ, and_true] at a
    simp only [hP, hQ, and_true]
    omega

/-- C26, negation: there are capability codes (here `0x0008` and `0x0800`) for which validation of an
otherwise correct SIZ segment raises `UnboundLocalError` instead of giving a verdict, and so does a
segment too short to have one. -/
theorem C26_siz_crash (env : Env) (o : Options) (fuel : Nat) (csiz : Option Int) (c : Bytes)
    (h : ¬ FieldIs c 2 2 RsizDefined) :
    validateLeaf env o fuel csiz mSIZ c = .raised .unboundLocal := by
  have ht : boxTypeOf mSIZ = .siz := by decide
  simp only [validateLeaf, ht, leaf, siz]
  have e2 : bytesToUShortInt (slice c 2 4) = intOf (uint c 2 2) := u16_at c 2 rfl rfl
  rw [e2]
  have : sizCapability (intOf (uint c 2 2)) = none := by
    rcases h2 : uint c 2 2 with _ | r
    · exact sizCapability_missing
    · have := sizCapability_isSome r (by have := uint_lt h2; omega)
      rcases hs : sizCapability (r : Int) with _ | s
      · exact hs
      · exact absurd ⟨r, h2, this.1 (by rw [hs]; rfl)⟩ h
  rw [this]
  rfl

/-- C26: the number of tiles reported for an accepted SIZ segment is the product of the two ceilings
of A.5.1, for all field values. -/
theorem C26_tiles (env : Env) (o : Options) (fuel : Nat) (csiz : Option Int) (c : Bytes)
    (r : BoxResult) (h : validateLeaf env o fuel csiz mSIZ c = .ok r)
    (ha : NoFailure r.node.tests) :
    ∃ xsiz ysiz xt yt xto yto : Nat, ∃ q1 q2 : Int,
      uint c 4 4 = some xsiz ∧ uint c 8 4 = some ysiz ∧ uint c 20 4 = some xt ∧
      uint c 24 4 = some yt ∧ uint c 28 4 = some xto ∧ uint c 32 4 = some yto ∧
      IsCeil (xsiz - xto) xt q1 ∧ IsCeil (ysiz - yto) yt q2 ∧
      reported r.node "numberOfTiles" = [.int (q1 * q2)] := by
  have ht : boxTypeOf mSIZ = .siz := by decide
  have hok := (C26_siz_partial env o fuel csiz c).1 ⟨r, h, ha⟩
  obtain ⟨ss, h1, rfl⟩ := (validateLeaf_ok ht).1 h
  obtain ⟨⟨-, ⟨v4, h4, -⟩, ⟨v8, h8, -⟩, -, -, ⟨v20, h20, p20⟩, ⟨v24, h24, p24⟩, ⟨v28, h28, -⟩,
    ⟨v32, h32, -⟩, -⟩, -⟩ := hok
  refine ⟨v4, v8, v20, v24, v28, v32, ceilDiv (v4 - v28) v20, ceilDiv (v8 - v32) v24, h4, h8, h20,
    h24, h28, h32, ceilDiv_isCeil _ (by omega), ceilDiv_isCeil _ (by omega), ?_⟩
  rw [reported_run]
  simp only [leaf, siz] at h1
  split at h1
  · cases h1
  · cases h1
    rep
    simp only [ite_self, List.nil_append]
    simp (disch := omega) only [u32_slice]
    simp only [Int.reduceToNat, h4, h8, h20, h24, h28, h32, intOf, sizTiles]
    rw [if_pos (by omega)]
/-- C27: an accepted COD segment reports exactly one precinct size pair per resolution level, with the
values of the right bytes. -/
theorem C27_cod_precincts (env : Env) (o : Options) (fuel : Nat) (csiz : Option Int) (c : Bytes)
    (r : BoxResult) (style levels : Nat) (h : validateLeaf env o fuel csiz mCOD c = .ok r)
    (hs : uint c 2 1 = some style) (hl : uint c 7 1 = some levels) :
    PrecinctsReported c 12 style levels r.node := by
  obtain ⟨ss, h1, rfl⟩ := (validateLeaf_ok (t := .cod) (by decide)).1 h
  simp only [leaf, Outcome.ok.injEq] at h1
  subst h1
  unfold PrecinctsReported
  rw [reported_run, reported_run]
  have e : ∀ tag, tag = "precinctSizeX" ∨ tag = "precinctSizeY" →
      repOf tag (cod o.format c) = repOf tag (precinctSteps c (12 : Nat)
        (getBitValue (style : Int) 8) levels) := by
    intro tag ht
    have e1 : bytesToUnsignedChar (slice c 2 3) = style := by
      rw [u8_at c 2 (x := 2) (y := 3) rfl rfl, hs]; rfl
    have e2 : bytesToUnsignedChar (slice c 7 8) = levels := by
      rw [u8_at c 7 (x := 7) (y := 8) rfl rfl, hl]; rfl
    rcases ht with rfl | rfl <;>
    (simp only [cod, repOf_append, repOf_codeBlocks]; rep; rw [e1, e2]; rfl)
  rw [e _ (.inl rfl), e _ (.inr rfl)]
  exact repOf_precincts c 12 style levels

/-- C27: likewise for COC, after a component index of one or two bytes. -/
theorem C27_coc_precincts (env : Env) (o : Options) (fuel : Nat) (csiz : Int) (c : Bytes)
    (r : BoxResult) (style levels : Nat) (h : validateLeaf env o fuel (some csiz) mCOC c = .ok r)
    (hs : uint c (2 + compWidth csiz) 1 = some style)
    (hl : uint c (3 + compWidth csiz) 1 = some levels) :
    PrecinctsReported c (8 + compWidth csiz) style levels r.node := by
  obtain ⟨ss, h1, rfl⟩ := (validateLeaf_ok (t := .coc) (by decide)).1 h
  simp only [leaf, coc, withCsiz, Outcome.ok.injEq] at h1
  subst h1
  unfold PrecinctsReported
  rw [reported_run, reported_run]
  have ho : (compIndex c csiz).2.2 = ((2 + compWidth csiz : Nat) : Int) := by
    unfold compIndex compWidth
    split <;> simp
  generalize hci : compIndex c csiz = ci at ho
  obtain ⟨a, b, off⟩ := ci
  simp only at ho
  subst ho
  have e1 : bytesToUnsignedChar (slice c ((2 + compWidth csiz : Nat) : Int)
      (((2 + compWidth csiz : Nat) : Int) + 1)) = style := by
    rw [u8_at c (2 + compWidth csiz) rfl (by omega), hs]; rfl
  have e2 : bytesToUnsignedChar (slice c (((2 + compWidth csiz : Nat) : Int) + 1)
      (((2 + compWidth csiz : Nat) : Int) + 2)) = levels := by
    rw [u8_at c (3 + compWidth csiz) (by omega) (by omega), hl]; rfl
  have e3 : ((2 + compWidth csiz : Nat) : Int) + 6 = ((8 + compWidth csiz : Nat) : Int) := by omega
  simp only [repOf_append, repOf_codeBlocks]
  rep
  rw [e1, e2, e3]
  exact repOf_precincts c (8 + compWidth csiz) style levels

/-! ## Concrete segments

For each kind of segment one that passes and one that does not, so neither side of the equivalences above is
always true or always false; and for the other theorems a segment that meets their hypotheses. -/

/-- C33: SOT of the second tile-part of tile 1; SOT with a length field of 11. -/
example : SotOk (Sample.be16 10 ++ Sample.be16 1 ++ Sample.be32 14 ++ [1, 2]) ∧
    ¬ SotOk (Sample.be16 11 ++ Sample.be16 1 ++ Sample.be32 14 ++ [1, 2]) := by
  rw [← C33_sot false, ← C33_sot false, ← isValid_iff, ← isValid_iff]
  decide +kernel

/-- C29: RGN for component 300 of 400; an unknown style. -/
example : Accepted (validateLeaf Sample.env0 (Sample.opts .jp2) 1 (some 400) mRGN (Sample.be16 6 ++ Sample.be16 300 ++ [0, 5])) ∧ ¬ Accepted (validateLeaf Sample.env0 (Sample.opts .jp2) 1 (some 400) mRGN (Sample.be16 6 ++ Sample.be16 300 ++ [7, 5])) :=
  ⟨accepted_of (by decide +kernel), not_accepted_of (by decide +kernel)⟩

/-- C29: CRG for two components; one offset pair missing. -/
example : Accepted (validateLeaf Sample.env0 (Sample.opts .jp2) 1 (some 2) mCRG (Sample.be16 10 ++ List.replicate 8 1)) ∧ ¬ Accepted (validateLeaf Sample.env0 (Sample.opts .jp2) 1 (some 2) mCRG (Sample.be16 10 ++ List.replicate 4 1)) :=
  ⟨accepted_of (by decide +kernel), not_accepted_of (by decide +kernel)⟩

/-- C28: QCD without quantization; an unknown style. -/
example : Accepted (validateLeaf Sample.env0 (Sample.opts .jp2) 1 none mQCD (Sample.be16 4 ++ [0x20, 8])) ∧ ¬ Accepted (validateLeaf Sample.env0 (Sample.opts .jp2) 1 none mQCD (Sample.be16 4 ++ [0x23, 8])) :=
  ⟨accepted_of (by decide +kernel), not_accepted_of (by decide +kernel)⟩

/-- C28: QCC for component 300 of 400; an unknown style. -/
example : Accepted (validateLeaf Sample.env0 (Sample.opts .jp2) 1 (some 400) mQCC (Sample.be16 6 ++ Sample.be16 300 ++ [0x20, 8])) ∧ ¬ Accepted (validateLeaf Sample.env0 (Sample.opts .jp2) 1 (some 400) mQCC (Sample.be16 6 ++ Sample.be16 300 ++ [0x23, 8])) :=
  ⟨accepted_of (by decide +kernel), not_accepted_of (by decide +kernel)⟩

/-- C27: COD with two decomposition levels and three precinct sizes; a length for two sizes. -/
example : Accepted (validateLeaf Sample.env0 (Sample.opts .jp2) 1 none mCOD (Sample.be16 15 ++ [1, 0, 0, 1, 0, 2, 4, 4, 0, 0, 0x77, 0x88, 0x99])) ∧ ¬ Accepted (validateLeaf Sample.env0 (Sample.opts .jp2) 1 none mCOD (Sample.be16 14 ++ [1, 0, 0, 1, 0, 2, 4, 4, 0, 0, 0x77, 0x88])) :=
  ⟨accepted_of (by decide +kernel), not_accepted_of (by decide +kernel)⟩

/-- C27: COC likewise. -/
example : Accepted (validateLeaf Sample.env0 (Sample.opts .jp2) 1 (some 3) mCOC (Sample.be16 12 ++ [2, 1, 2, 4, 4, 0, 0, 0x77, 0x88, 0x99])) ∧ ¬ Accepted (validateLeaf Sample.env0 (Sample.opts .jp2) 1 (some 3) mCOC (Sample.be16 12 ++ [2, 1, 2, 9, 9, 0, 0, 0x77, 0x88, 0x99])) :=
  ⟨accepted_of (by decide +kernel), not_accepted_of (by decide +kernel)⟩

/-- C29: POC with two entries; an end of the resolution range before its start in the second one. -/
example : Accepted (validateLeaf Sample.env0 (Sample.opts .jp2) 1 (some 3) mPOC (Sample.be16 16 ++ [0, 0, 0, 1, 2, 3, 0] ++ [0, 0, 0, 1, 3, 3, 1])) ∧ ¬ Accepted (validateLeaf Sample.env0 (Sample.opts .jp2) 1 (some 3) mPOC (Sample.be16 16 ++ [0, 0, 0, 1, 2, 3, 0] ++ [3, 0, 0, 1, 3, 3, 1])) :=
  ⟨accepted_of (by decide +kernel), not_accepted_of (by decide +kernel)⟩

/-- C26: SIZ of a 2 × 1 image with two tiles and three components; tile height zero. -/
example : Accepted (validateLeaf Sample.env0 (Sample.opts .jp2) 1 none mSIZ (Sample.siz2.drop 2)) ∧ ¬ Accepted (validateLeaf Sample.env0 (Sample.opts .jp2) 1 none mSIZ ((Sample.sizSeg 2 1 1 0 0 0 [[7, 1, 1]]).drop 2)) :=
  ⟨accepted_of (by decide +kernel), not_accepted_of (by decide +kernel)⟩

/-- C26: the segment meets the hypotheses of `C26_tiles`; a capability code that is not defined. -/
example : (∃ r, validateLeaf Sample.env0 (Sample.opts .jp2) 1 none mSIZ (Sample.siz2.drop 2) = .ok r ∧ NoFailure r.node.tests) ∧
    ¬ FieldIs [0, 41, 0, 8] 2 2 RsizDefined := by
  refine ⟨ok_of (by decide +kernel), ?_⟩
  rintro ⟨v, h, h1⟩
  rw [show uint [0, 41, 0, 8] 2 2 = some 8 from rfl] at h
  cases h
  rw [← sizCapability_isSome 8 (by decide)] at h1
  revert h1
  decide +kernel

/-- C27: segments with three precinct sizes meet the hypotheses of `C27_cod_precincts` and
`C27_coc_precincts`. -/
example : (∃ c r, validateLeaf Sample.env0 (Sample.opts .jp2) 1 none mCOD c = .ok r ∧ uint c 2 1 = some 1 ∧ uint c 7 1 = some 2) ∧
    ∃ c r, validateLeaf Sample.env0 (Sample.opts .jp2) 1 (some 3) mCOC c = .ok r ∧ uint c 3 1 = some 1 ∧ uint c 4 1 = some 2 := by
  obtain ⟨r, h, -⟩ := ok_of (x := validateLeaf Sample.env0 (Sample.opts .jp2) 1 none mCOD
    (Sample.be16 15 ++ [1, 0, 0, 1, 0, 2, 4, 4, 0, 0, 0x77, 0x88, 0x99])) (by decide +kernel)
  obtain ⟨r', h', -⟩ := ok_of (x := validateLeaf Sample.env0 (Sample.opts .jp2) 1 (some 3) mCOC
    (Sample.be16 12 ++ [2, 1, 2, 4, 4, 0, 0, 0x77, 0x88, 0x99])) (by decide +kernel)
  exact ⟨⟨_, r, h, by decide, by decide⟩, _, r', h', by decide, by decide⟩

end Jpy
