import Verif.Lemmas.Uuid
import Verif.Lemmas.Witness
/-! # Properties of UUID boxes and palette entries: C37, C36 -/

set_option linter.unusedSimpArgs false

namespace Jpy
open Spec

/-- C37 (UUID box): passes exactly when there is data after the 16-byte identifier and, for the XMP
identifier, that data is well-formed XML according to the XML parser. -/
theorem C37_uuid (env : Env) (o : Options) (fuel : Nat) (c : Bytes) :
    Accepted (validateBox env o (fuel + 1) tagUuid c) ↔
      16 < c.length ∧ (c.take 16 = xmpUuid → (env.parseXml (c.drop 16)).isSome = true) := by
  rw [validateBox_leaf env o fuel tagUuid c (t := .uuidBox) (by decide) rfl,
    accepted_leaf env o fuel none tagUuid c (t := .uuidBox) (by decide)]
  simp only [leaf, uuidBox]
  rw [slice_at c 0 16 (x := 0) (y := 16) rfl rfl, sub_zero,
    show slice c 16 (c.length : Int) = c.drop 16 from slice_to_end c 16]
  by_cases hl : 16 ≤ c.length
  · have ht : (c.take 16).length = 16 := by simp; omega
    rw [uuidStr_ok ht]
    simp only [Outcome.bind_ok, Outcome.ok.injEq, exists_eq_left', allTrue_test, Bool.and_eq_true,
      decide_eq_true_eq, uuidText_eq_xmp ht]
    refine and_congr Iff.rfl ?_
    split
    · rename_i h; simp [h, allTrue_xmlSteps]
    · rename_i h; simp [h, allTrue_char, allTrue_nil]
  · rw [uuidStr_raised (by simp; omega)]
    constructor
    · rintro ⟨ss, h, _⟩; cases h
    · rintro ⟨h, _⟩; omega

/-- C37 (UUID box): a box that is not XMP is reported with the text of its identifier. -/
theorem C37_uuid_value (env : Env) (o : Options) (fuel : Nat) (c : Bytes) (r : BoxResult)
    (h : validateBox env o (fuel + 1) tagUuid c = .ok r) (hx : c.take 16 ≠ xmpUuid) :
    ∃ s, IsUuidText (c.take 16) s ∧ reported r.node "uuid" = [.str s] := by
  obtain ⟨ss, h1, rfl⟩ := (validateBox_ok (t := .uuidBox) (by decide) rfl).1 h
  simp only [leaf, uuidBox] at h1
  rw [slice_at c 0 16 (x := 0) (y := 16) rfl rfl, sub_zero] at h1
  by_cases hl : 16 ≤ c.length
  · have ht : (c.take 16).length = 16 := by simp; omega
    rw [uuidStr_ok ht] at h1
    simp only [Outcome.bind_ok, Outcome.ok.injEq, uuidText_eq_xmp ht, if_neg hx] at h1
    subst h1
    rw [reported_run]
    exact ⟨_, uuidText_isUuidText ht, rfl⟩
  · rw [uuidStr_raised (by simp; omega)] at h1
    cases h1

/-- C37: a UUID box of fewer than 16 bytes makes the validator raise an exception instead of failing
a test. -/
theorem C37_uuid_crash (env : Env) (o : Options) (fuel : Nat) (c : Bytes) :
    validateBox env o (fuel + 1) tagUuid c = .raised .valueError ↔ c.length < 16 := by
  rw [validateBox_leaf env o fuel tagUuid c (t := .uuidBox) (by decide) rfl]
  unfold validateLeaf
  rw [show boxTypeOf tagUuid = .uuidBox by decide]
  simp only [leaf, uuidBox]
  rw [slice_at c 0 16 (x := 0) (y := 16) rfl rfl, sub_zero]
  by_cases hl : 16 ≤ c.length
  · have ht : (c.take 16).length = 16 := by simp; omega
    rw [uuidStr_ok ht]
    simp; omega
  · rw [uuidStr_raised (by simp; omega)]
    simp; omega

/-- C37 (UUID list box): passes exactly when its length is that of the announced number of UUIDs. -/
theorem C37_ulst (env : Env) (o : Options) (fuel : Nat) (c : Bytes) :
    Accepted (validateBox env o (fuel + 1) tagUuidList c) ↔
      FieldIs c 0 2 (fun n => c.length = 2 + 16 * n) := by
  rw [validateBox_leaf env o fuel _ c (t := .uuidListBox) (by decide) rfl,
    accepted_leaf env o fuel none _ c (t := .uuidListBox) (by decide)]
  simp only [leaf, uuidListBox]
  rw [u16_at c 0 (x := 0) (y := 2) rfl rfl]
  rcases h0 : uint c 0 2 with _ | n
  · simp [FieldIs, h0, intOf, rangeLen, uuidListLoop, allTrue_char, allTrue_test, allTrue_nil]
  · simp only [FieldIs, h0, intOf, rangeLen, Int.toNat_natCast, Option.some.injEq, exists_eq_left']
    by_cases hl : 2 + 16 * n ≤ c.length
    · have := uuidListLoop_ok c n 2 hl
      rw [show ((2 : Nat) : Int) = 2 from rfl] at this
      rw [this]
      simp only [Outcome.bind_ok, Outcome.ok.injEq, exists_eq_left', allTrue_append, allTrue_char,
        allTrue_test, allTrue_nil, Bool.and_true, allTrue_map_char]
      exact ⟨fun h => by have := of_decide_eq_true h; omega, fun h => decide_eq_true (by omega)⟩
    · have := uuidListLoop_raised c n 2 (by omega)
        (by
          have := uint_lt h0
          rcases Nat.eq_zero_or_pos n with rfl | h
          · exfalso
            unfold uint at h0
            split at h0
            · omega
            · cases h0
          · exact h)
      rw [show ((2 : Nat) : Int) = 2 from rfl] at this
      rw [this]
      constructor
      · rintro ⟨ss, h, _⟩; cases h
      · intro h; omega

/-- C37 (UUID list box): the UUIDs reported are those of the list, in file order. -/
theorem C37_ulst_values (env : Env) (o : Options) (fuel : Nat) (c : Bytes) (r : BoxResult) (n : Nat)
    (h : validateBox env o (fuel + 1) tagUuidList c = .ok r) (h0 : uint c 0 2 = some n) :
    reported r.node "nU" = [.int n] ∧ (reported r.node "uuid").length = n ∧
    ∀ i < n, ∃ s, IsUuidText (sub c (2 + 16 * i) 16) s ∧
      (reported r.node "uuid")[i]? = some (.str s) := by
  obtain ⟨ss, h1, rfl⟩ := (validateBox_ok (t := .uuidListBox) (by decide) rfl).1 h
  simp only [leaf, uuidListBox] at h1
  rw [u16_at c 0 (x := 0) (y := 2) rfl rfl, h0] at h1
  simp only [intOf, rangeLen, Int.toNat_natCast] at h1
  by_cases hl : 2 + 16 * n ≤ c.length
  · have := uuidListLoop_ok c n 2 hl
    rw [show ((2 : Nat) : Int) = 2 from rfl] at this
    rw [this] at h1
    simp only [Outcome.bind_ok, Outcome.ok.injEq] at h1
    subst h1
    have hu : ∀ l : List Nat, repOf "nU" (l.map fun i =>
        Step.char "uuid" (.str (uuidText (sub c (2 + 16 * i) 16)))) = [] := by
      intro l; induction l with
      | nil => rfl
      | cons a l ih => exact ih
    have hv : ∀ l : List Nat, repOf "uuid" (l.map fun i =>
        Step.char "uuid" (.str (uuidText (sub c (2 + 16 * i) 16)))) =
        l.map fun i => .str (uuidText (sub c (2 + 16 * i) 16)) := by
      intro l; induction l with
      | nil => rfl
      | cons a l ih => rw [List.map_cons, List.map_cons, ← ih]; rfl
    rw [reported_run, reported_run, repOf_append, repOf_append, hu, hv]
    refine ⟨rfl, by rw [List.length_append, List.length_map, List.length_range]; exact Nat.zero_add n,
      fun i hi => ⟨_, uuidText_isUuidText (by rw [length_sub]; omega), ?_⟩⟩
    have e : ∀ b, repOf "uuid" [Step.char "nU" (.int (n : Int)), Step.test "boxLengthIsValid" b] = [] :=
      fun _ => rfl
    rw [e, List.nil_append, List.getElem?_map, List.getElem?_range hi]
    rfl
  · have hn : 0 < n := by
      rcases Nat.eq_zero_or_pos n with rfl | h
      · exfalso
        unfold uint at h0
        split at h0
        · omega
        · cases h0
      · exact h
    have := uuidListLoop_raised c n 2 (by omega) hn
    rw [show ((2 : Nat) : Int) = 2 from rfl] at this
    rw [this] at h1
    cases h1

/-- Flattening a two-level range. -/
theorem flatMap_range_mul {α : Type} (n m : Nat) (f : Nat → α) :
    ((List.range n).flatMap fun i => (List.range m).map fun k => f (i * m + k)) =
      (List.range (n * m)).map f := by
  induction n with
  | zero => simp
  | succ n ih =>
    rw [List.range_succ, List.flatMap_append, ih, Nat.succ_mul, List.range_add, List.map_append]
    simp [Function.comp_def]

/-- C36 (palette): when every column has the same byte width `w` and the table is complete, the
reported values are the table's entries in file order. -/
theorem C36_palette_values (env : Env) (o : Options) (fuel : Nat) (c : Bytes) (r : BoxResult)
    (nE nPC w : Nat) (h : validateBox env o (fuel + 1) tagPalette c = .ok r)
    (h0 : uint c 0 2 = some nE) (h2 : uint c 2 1 = some nPC)
    (hw : ∀ i < nPC, FieldIs c (3 + i) 1 (fun b => IsCeil (b % 128 + 1 : Nat) 8 w))
    (hlen : 3 + nPC + nPC * nE * w ≤ c.length) :
    reported r.node "cP" = (List.range (nPC * nE)).map fun j =>
      .int (be (sub c (3 + nPC + j * w) w)) := by
  obtain ⟨ss, h1, rfl⟩ := (validateBox_ok (t := .paletteBox) (by decide) rfl).1 h
  simp only [leaf, paletteBox, Outcome.ok.injEq] at h1
  subst h1
  rw [reported_run, u16_at c 0 (x := 0) (y := 2) rfl rfl, u8_at c 2 (x := 2) (y := 3) rfl rfl, h0, h2]
  simp only [intOf, rangeLen, Int.toNat_natCast]
  rw [← flatMap_range_mul]
  rw [repOf_append, repOf_flatMap]
  have e : ∀ a b c d, repOf "cP" [Step.char "nE" a, Step.test "nEIsValid" b, Step.char "nPC" c,
    Step.test "nPCIsValid" d] = [] := fun _ _ _ _ => rfl
  rw [e, List.nil_append]
  have key : ∀ i < nPC, repOf "cP"
      ([Step.char "bSign" (.int (getBitValue (bytesToUnsignedChar (slice c (3 + (i : Int)) (4 + (i : Int)))) 1)),
        Step.char "bDepth" (.int (low (bytesToUnsignedChar (slice c (3 + (i : Int)) (4 + (i : Int)))) 7 + 1)),
        Step.test "bDepthIsValid"
          (between 1 (low (bytesToUnsignedChar (slice c (3 + (i : Int)) (4 + (i : Int)))) 7 + 1) 38)] ++
      (List.range nE).map fun (k : Nat) => Step.char "cP" (.int (bytesToInteger (slice c
        ((nPC : Int) + 3 + i * (nE * ceilDiv (low (bytesToUnsignedChar (slice c (3 + (i : Int)) (4 + (i : Int)))) 7 + 1) 8)
          + k * ceilDiv (low (bytesToUnsignedChar (slice c (3 + (i : Int)) (4 + (i : Int)))) 7 + 1) 8)
        ((nPC : Int) + 3 + i * (nE * ceilDiv (low (bytesToUnsignedChar (slice c (3 + (i : Int)) (4 + (i : Int)))) 7 + 1) 8)
          + k * ceilDiv (low (bytesToUnsignedChar (slice c (3 + (i : Int)) (4 + (i : Int)))) 7 + 1) 8
          + ceilDiv (low (bytesToUnsignedChar (slice c (3 + (i : Int)) (4 + (i : Int)))) 7 + 1) 8))))) =
      (List.range nE).map fun k => .int (be (sub c (3 + nPC + (i * nE + k) * w) w)) := by
    intro i hi
    obtain ⟨b, hb, hc⟩ := hw i hi
    have hd : ceilDiv (low (bytesToUnsignedChar (slice c (3 + (i : Int)) (4 + (i : Int)))) 7 + 1) 8 = w := by
      rw [u8_at c (3 + i) (by omega) (by omega), hb, intOf, low_mod]
      have := ceilDiv_isCeil (((b % 2 ^ 7 : Nat) : Int) + 1) (b := 8) (by omega)
      unfold IsCeil at this hc
      omega
    have hw0 : 0 < w := by unfold IsCeil at hc; omega
    rw [hd, repOf_append]
    have e2 : ∀ a b c, repOf "cP" [Step.char "bSign" a, Step.char "bDepth" b, Step.test "bDepthIsValid" c]
      = [] := fun _ _ _ => rfl
    rw [e2, List.nil_append, repOf_map]
    have e3 : ∀ v, repOf "cP" [Step.char "cP" v] = [v] := fun _ => rfl
    simp only [e3]
    rw [flatMap_singleton]
    apply List.map_congr_left
    intro k hk
    rw [List.mem_range] at hk
    have hin : (i * nE + k + 1) * w ≤ nPC * nE * w := by
      apply Nat.mul_le_mul_right
      calc i * nE + k + 1 ≤ i * nE + nE := by omega
        _ = (i + 1) * nE := by rw [Nat.succ_mul]
        _ ≤ nPC * nE := Nat.mul_le_mul_right _ hi
    rw [Nat.succ_mul] at hin
    rw [slice_at c (3 + nPC + (i * nE + k) * w) w
      (by
        rw [Int.natCast_add, Int.natCast_add, Int.natCast_mul, Int.natCast_add, Int.natCast_mul,
          Int.add_mul, Int.mul_assoc]; omega) rfl]
    have hl : (sub c (3 + nPC + (i * nE + k) * w) w).length = w := by rw [length_sub]; omega
    unfold bytesToInteger
    rw [if_neg (by intro h; rw [h] at hl; simp at hl; omega), beNat_eq]
  simp only [List.flatMap]
  congr 1
  apply List.map_congr_left
  intro i hi
  exact key i (List.mem_range.1 hi)

/-- A palette with one entry, an 8-bit and a 16-bit column, values 170 and 48076. -/
def mixedPalette : Bytes := [0, 1, 2, 7, 15, 170, 187, 204]

/-- C36: with columns of different widths the reported values can be wrong: the second column of this
complete palette holds 48076 and is reported as 204. -/
theorem C36_palette_values_false (env : Env) (o : Options) (fuel : Nat) :
    be (sub mixedPalette 6 2) = 48076 ∧
    ∃ r, validateBox env o (fuel + 1) tagPalette mixedPalette = .ok r ∧
      reported r.node "cP" = [.int 170, .int 204] := by
  refine ⟨by decide, _, (validateBox_ok (t := .paletteBox) (by decide) rfl).2 ⟨_, rfl, rfl⟩, ?_⟩
  rw [reported_run]
  decide +kernel

/-! ## Concrete boxes -/

/-- C37: a UUID box with four bytes of data; without data. The first one meets the hypotheses of
`C37_uuid_value`. -/
example : Accepted (validateBox Sample.env0 (Sample.opts .jp2) 1 tagUuid (List.replicate 20 9)) ∧ ¬ Accepted (validateBox Sample.env0 (Sample.opts .jp2) 1 tagUuid (List.replicate 16 9)) :=
  ⟨accepted_of (by decide +kernel), not_accepted_of (by decide +kernel)⟩

example : (List.replicate 20 (9 : UInt8)).take 16 ≠ xmpUuid := by decide

/-- C37: an XMP box passes or not according to the XML parser. -/
example : Accepted (validateBox { Sample.env0 with parseXml := fun _ => some (.mk "x" [] .none []) } (Sample.opts .jp2) 1 tagUuid
      (xmpUuid ++ [60])) ∧
    ¬ Accepted (validateBox Sample.env0 (Sample.opts .jp2) 1 tagUuid (xmpUuid ++ [60])) :=
  ⟨accepted_of (by decide +kernel), not_accepted_of (by decide +kernel)⟩

/-- C37: a list of two UUIDs; one of them missing. The first one meets the hypotheses of `C37_ulst_values`. -/
example : Accepted (validateBox Sample.env0 (Sample.opts .jp2) 1 tagUuidList (Sample.be16 2 ++ List.replicate 32 5)) ∧ ¬ Accepted (validateBox Sample.env0 (Sample.opts .jp2) 1 tagUuidList (Sample.be16 2 ++ List.replicate 16 5)) :=
  ⟨accepted_of (by decide +kernel), not_accepted_of (by decide +kernel)⟩

/-- C36: a palette of two entries and three columns of 16 bits meets the hypotheses of `C36_palette_values`. -/
example : ∃ c r, validateBox Sample.env0 (Sample.opts .jp2) (0 + 1) tagPalette c = .ok r ∧ uint c 0 2 = some 2 ∧ uint c 2 1 = some 3 ∧
    (∀ i < 3, FieldIs c (3 + i) 1 (fun b => IsCeil (b % 128 + 1 : Nat) 8 2)) ∧ 3 + 3 + 3 * 2 * 2 ≤ c.length := by
  obtain ⟨r, h, -⟩ := ok_of (x := validateBox Sample.env0 (Sample.opts .jp2) (0 + 1) tagPalette
    (Sample.be16 2 ++ [3, 15, 15, 15] ++ List.replicate 12 77)) (by decide +kernel)
  refine ⟨_, r, h, by decide, by decide, fun i hi => ⟨15, ?_, by decide, by decide⟩, by decide⟩
  revert i
  decide

end Jpy
