import Verif.Props.SegmentRules
import Verif.Props.Uuid

/-!
# What exactly is accepted and reported where the full property fails

C31, C32 and C36 do not hold as a user would state them. Here is what the code does instead, for all contents.
-/

set_option linter.unusedSimpArgs false

namespace Jpy
open Spec

/-- C31: exactly the CAP segments that are accepted. Apart from those of the standard, a segment that ends before
the end of Pcap is accepted if and only if its length field is 56, for all formats. -/
theorem C31_cap_exact (env : Env) (o : Options) (fuel : Nat) (csiz : Option Int) (c : Bytes) :
    Accepted (validateLeaf env o fuel csiz mCAP c) ↔
      CapOk o.format c ∨ (c.length < 6 ∧ uint c 0 2 = some 56) := by
  by_cases hc : 6 ≤ c.length
  · rw [C31_cap_partial env o fuel csiz c hc]
    exact ⟨.inl, fun h => h.elim id fun h => absurd h.1 (by omega)⟩
  · have h2 : uint c 2 4 = none := if_neg (by omega)
    have hn : ¬ CapOk o.format c := by
      rintro ⟨l, h0, p, hp, -⟩
      rw [h2] at hp
      cases hp
    rw [accepted_leaf_ok env o fuel _ mCAP _ (t := .cap) (by decide) rfl]
    unfold cap
    rw [u16_at c 0 (x := 0) (y := 2) rfl rfl, u32_at c 2 (x := 2) (y := 6) rfl rfl, h2]
    have e3 : (capParts (-9999)).length = 25 := by decide
    have e4 : 15 ∈ capParts (-9999) := by decide
    have hl : c.length < 6 := by omega
    cases h0 : uint c 0 2 with
    | none =>
      simp [hn]
      cases hht : o.format.isHT <;>
        simp [allTrue_append, allTrue_char, allTrue_test, allTrue_nil, allTrue_map_char, e3, e4, intOf]
    | some l =>
      simp only [hn, false_or, hl, true_and, Option.some.injEq]
      cases hht : o.format.isHT <;>
        simp [allTrue_append, allTrue_char, allTrue_test, allTrue_nil, allTrue_map_char, e3, e4, intOf] <;> omega

/-- Numbers in base 65536 have unique digits. -/
theorem digits_lt (p : Nat → Nat) : ∀ n, (∀ i < n, p i < 65536) →
    ((List.range n).map fun i => p i * 65536 ^ i).sum < 65536 ^ n
  | 0, _ => by simp
  | n + 1, h => by
    have ih := digits_lt p n fun i hi => h i (by omega)
    have hn := h n (by omega)
    rw [List.range_succ]
    simp only [List.map_append, List.sum_append, List.map_cons, List.map_nil, List.sum_cons, List.sum_nil, Nat.add_zero]
    have : (p n + 1) * 65536 ^ n ≤ 65536 * 65536 ^ n := Nat.mul_le_mul_right _ hn
    rw [Nat.succ_mul] at this
    rw [Nat.pow_succ, Nat.mul_comm _ 65536]
    omega

theorem digits_unique (p q : Nat → Nat) : ∀ n, (∀ i < n, p i < 65536) → (∀ i < n, q i < 65536) →
    ((List.range n).map fun i => p i * 65536 ^ i).sum = ((List.range n).map fun i => q i * 65536 ^ i).sum →
    ∀ i < n, p i = q i
  | 0, _, _, _ => fun i hi => absurd hi (by omega)
  | n + 1, hp, hq, h => by
    have lp := digits_lt p n fun i hi => hp i (by omega)
    have lq := digits_lt q n fun i hi => hq i (by omega)
    rw [List.range_succ] at h
    simp only [List.map_append, List.sum_append, List.map_cons, List.map_nil, List.sum_cons, List.sum_nil, Nat.add_zero] at h
    have hpos : 0 < 65536 ^ n := Nat.pow_pos (by decide)
    have en : p n = q n := by
      have a := congrArg (· / 65536 ^ n) h
      rwa [Nat.add_mul_div_right _ _ hpos, Nat.add_mul_div_right _ _ hpos, Nat.div_eq_of_lt lp, Nat.div_eq_of_lt lq,
        Nat.zero_add, Nat.zero_add] at a
    rw [en] at h
    have ih := digits_unique p q n (fun i hi => hp i (by omega)) (fun i hi => hq i (by omega)) (by omega)
    intro i hi
    by_cases hi' : i < n
    · exact ih i hi'
    · rw [show i = n by omega]; exact en

/-- The entry that is read again and again is the first one. -/
theorem profile_reported (c : Bytes) (l : Nat) (p : Nat → Nat) (start : Int)
    (hp : ∀ i < (l - 2) / 2, uint c (2 + 2 * i) 2 = some (p i)) :
    start + bytesToUShortInt (slice c 2 4) * (((List.range ((l - 2) / 2)).map fun i => 65536 ^ i).sum : Nat) =
      start + (((List.range ((l - 2) / 2)).map fun i => p 0 * 65536 ^ i).sum : Nat) := by
  rw [sum_mul]
  by_cases h0 : 0 < (l - 2) / 2
  · rw [u16_at c 2 (x := 2) (y := 4) rfl rfl, hp 0 h0]; simp [intOf]
  · rw [show (l - 2) / 2 = 0 by omega]; simp

theorem profile_exact (c : Bytes) (n : Nat) (p : Nat → Nat) (start : Int)
    (hp : ∀ i < n, uint c (2 + 2 * i) 2 = some (p i)) {x : List PyVal}
    (hx : x = [.int (start + (((List.range n).map fun i => p 0 * 65536 ^ i).sum : Nat))]) :
    (∃ v, ProfileNumberIs c start n v ∧ x = [.int v]) ↔ ∀ i < n, p i = p 0 := by
  subst hx
  have lt : ∀ i < n, p i < 65536 := fun i hi => uint_lt (hp i hi)
  constructor
  · rintro ⟨v, ⟨q, hq, rfl⟩, h⟩
    simp only [List.cons.injEq, PyVal.int.injEq, and_true] at h
    have h' : ((List.range n).map fun i => p 0 * 65536 ^ i).sum = ((List.range n).map fun i => q i * 65536 ^ i).sum := by
      omega
    intro i hi
    have e : q i = p i := by
      have := (hq i hi).symm.trans (hp i hi)
      exact Option.some.inj this
    rw [← e]
    exact (digits_unique (fun _ => p 0) q n (fun _ _ => lt 0 (by omega))
      (fun i hi => uint_lt (hq i hi)) h' i hi).symm
  · intro h
    refine ⟨_, ⟨p, hp, rfl⟩, ?_⟩
    have : ((List.range n).map fun i => p 0 * 65536 ^ i) = (List.range n).map fun i => p i * 65536 ^ i := by
      apply List.map_congr_left
      intro i hi
      rw [h i (List.mem_range.1 hi)]
    rw [this]

/-- C32 for PRF: the number that is reported is the one that the first entry would give if it were repeated, so it
is the one of the standard if and only if all entries are equal. -/
theorem C32_prf_number_exact (env : Env) (o : Options) (fuel : Nat) (csiz : Option Int) (c : Bytes)
    (r : BoxResult) (l : Nat) (p : Nat → Nat) (h : validateLeaf env o fuel csiz mPRF c = .ok r)
    (hl : uint c 0 2 = some l) (hp : ∀ i < (l - 2) / 2, uint c (2 + 2 * i) 2 = some (p i)) :
    reported r.node "PRFnum" = [.int (4095 + (((List.range ((l - 2) / 2)).map fun i => p 0 * 65536 ^ i).sum : Nat))] ∧
    ((∃ v, ProfileNumberIs c 4095 ((l - 2) / 2) v ∧ reported r.node "PRFnum" = [.int v]) ↔
      ∀ i < (l - 2) / 2, p i = p 0) := by
  have key : reported r.node "PRFnum" =
      [.int (4095 + (((List.range ((l - 2) / 2)).map fun i => p 0 * 65536 ^ i).sum : Nat))] := by
    obtain ⟨ss, h1, rfl⟩ := (validateLeaf_ok (t := .prf) (by decide)).1 h
    simp only [leaf, prf, Outcome.ok.injEq] at h1
    subst h1
    rw [reported_run, profileLoop_eq, u16_at c 0 (x := 0) (y := 2) rfl rfl, hl]
    have hn : rangeLen (intDiv (intOf (some l) - 2) 2) = (l - 2) / 2 := rangeLen_intDiv l 2 2
    rw [hn, ← profile_reported c l p 4095 hp]
    rep
  exact ⟨key, profile_exact c _ p 4095 hp key⟩

/-- C32 for CPF: likewise. -/
theorem C32_cpf_number_exact (env : Env) (o : Options) (fuel : Nat) (csiz : Option Int) (c : Bytes)
    (r : BoxResult) (l : Nat) (p : Nat → Nat) (h : validateLeaf env o fuel csiz mCPF c = .ok r)
    (hl : uint c 0 2 = some l) (hp : ∀ i < (l - 2) / 2, uint c (2 + 2 * i) 2 = some (p i)) :
    reported r.node "CPFnum" = [.int (-1 + (((List.range ((l - 2) / 2)).map fun i => p 0 * 65536 ^ i).sum : Nat))] ∧
    ((∃ v, ProfileNumberIs c (-1) ((l - 2) / 2) v ∧ reported r.node "CPFnum" = [.int v]) ↔
      ∀ i < (l - 2) / 2, p i = p 0) := by
  have key : reported r.node "CPFnum" =
      [.int (-1 + (((List.range ((l - 2) / 2)).map fun i => p 0 * 65536 ^ i).sum : Nat))] := by
    obtain ⟨ss, h1, rfl⟩ := (validateLeaf_ok (t := .cpf) (by decide)).1 h
    simp only [leaf, cpf, Outcome.ok.injEq] at h1
    subst h1
    rw [reported_run, profileLoop_eq, u16_at c 0 (x := 0) (y := 2) rfl rfl, hl]
    have hn : rangeLen (intDiv (intOf (some l) - 2) 2) = (l - 2) / 2 := rangeLen_intDiv l 2 2
    rw [hn, ← profile_reported c l p (-1) hp]
    rep
    simp only [ite_self, List.nil_append]
  exact ⟨key, profile_exact c _ p (-1) hp key⟩

/-- C32 for CPF: exactly the segments that are accepted. The entries have no influence, and for the formats without
HT nothing is tested. -/
theorem C32_cpf_accepted (env : Env) (o : Options) (fuel : Nat) (csiz : Option Int) (c : Bytes) :
    Accepted (validateLeaf env o fuel csiz mCPF c) ↔
      (o.format.isHT = true → FieldIs c 0 2 (fun l => 4 ≤ l ∧ l ≤ 65534)) := by
  rw [accepted_leaf_ok env o fuel _ mCPF c (t := .cpf) (by decide) rfl]
  simp only [cpf, profileLoop_eq]
  rw [u16_at c 0 (x := 0) (y := 2) rfl rfl]
  cases hht : o.format.isHT
  · simp [allTrue_append, allTrue_char, allTrue_test, allTrue_nil]
  · cases hl : uint c 0 2 with
    | none =>
      simp [allTrue_append, allTrue_char, allTrue_test, allTrue_nil, FieldIs, hl, intOf, between]
    | some l =>
      simp only [allTrue_append, allTrue_char, allTrue_test, allTrue_nil, FieldIs, hl, intOf, if_true, Bool.and_true,
        between_iff, Option.some.injEq, exists_eq_left', forall_const, List.append_nil, Bool.true_and]
      omega

/-- The number in `w` bytes at `off`; -9999 if there are no bytes. -/
def numberAt (c : Bytes) (off w : Nat) : Int :=
  if sub c off w = [] then -9999 else be (sub c off w)

/-- C36 (palette): the values reported for every palette with a complete list of column depths. Entry `k` of column `i`
is read as if all columns had the width of column `i`. -/
theorem C36_palette_values_exact (env : Env) (o : Options) (fuel : Nat) (c : Bytes) (r : BoxResult)
    (nE nPC : Nat) (w : Nat → Nat) (h : validateBox env o (fuel + 1) tagPalette c = .ok r)
    (h0 : uint c 0 2 = some nE) (h2 : uint c 2 1 = some nPC)
    (hw : ∀ i < nPC, FieldIs c (3 + i) 1 (fun b => IsCeil (b % 128 + 1 : Nat) 8 (w i))) :
    reported r.node "cP" = (List.range nPC).flatMap fun i => (List.range nE).map fun k =>
      .int (numberAt c (3 + nPC + (i * nE + k) * w i) (w i)) := by
  obtain ⟨ss, h1, rfl⟩ := (validateBox_ok (t := .paletteBox) (by decide) rfl).1 h
  simp only [leaf, paletteBox, Outcome.ok.injEq] at h1
  subst h1
  rw [reported_run, u16_at c 0 (x := 0) (y := 2) rfl rfl, u8_at c 2 (x := 2) (y := 3) rfl rfl, h0, h2]
  simp only [intOf, rangeLen, Int.toNat_natCast]
  rw [repOf_append, repOf_flatMap]
  have e : ∀ a b c d, repOf "cP" [Step.char "nE" a, Step.test "nEIsValid" b, Step.char "nPC" c,
    Step.test "nPCIsValid" d] = [] := fun _ _ _ _ => rfl
  rw [e, List.nil_append]
  simp only [List.flatMap]
  congr 1
  apply List.map_congr_left
  intro i hi
  rw [List.mem_range] at hi
  obtain ⟨b, hb, hc⟩ := hw i hi
  have hd : ceilDiv (low (bytesToUnsignedChar (slice c (3 + (i : Int)) (4 + (i : Int)))) 7 + 1) 8 = w i := by
    rw [u8_at c (3 + i) (by omega) (by omega), hb, intOf, low_mod]
    have := ceilDiv_isCeil (((b % 2 ^ 7 : Nat) : Int) + 1) (b := 8) (by omega)
    unfold IsCeil at this hc
    omega
  rw [hd, repOf_append]
  have e2 : ∀ a b c, repOf "cP" [Step.char "bSign" a, Step.char "bDepth" b, Step.test "bDepthIsValid" c]
    = [] := fun _ _ _ => rfl
  rw [e2, List.nil_append, repOf_map]
  have e3 : ∀ v, repOf "cP" [Step.char "cP" v] = [v] := fun _ => rfl
  simp only [e3]
  rw [flatMap_singleton]
  apply List.map_congr_left
  intro k hk
  rw [slice_at c (3 + nPC + (i * nE + k) * w i) (w i)
    (by
      rw [Int.natCast_add, Int.natCast_add, Int.natCast_mul, Int.natCast_add, Int.natCast_mul,
        Int.add_mul, Int.mul_assoc]; omega) rfl]
  unfold bytesToInteger numberAt
  rw [beNat_eq]

/-! ## Concrete cases -/

/-- C31: the segment of two bytes is accepted by the second alternative, also for HT formats. -/
example : Accepted (validateLeaf Sample.env0 (Sample.opts .jhc) 1 none mCAP [0, 56]) ∧
    ¬ Accepted (validateLeaf Sample.env0 (Sample.opts .jhc) 1 none mCAP [0, 54]) :=
  ⟨accepted_of (by decide +kernel), not_accepted_of (by decide +kernel)⟩

/-- C32: segments with two equal and with two different entries meet the hypotheses. -/
example : ∀ x : UInt8, x = 1 ∨ x = 2 → ∃ r, ∃ p : Nat → Nat,
    validateLeaf Sample.env0 (Sample.opts .jp2) 1 none mPRF [0, 6, 0, 1, 0, x] = .ok r ∧
    uint [0, 6, 0, 1, 0, x] 0 2 = some 6 ∧ (∀ i < (6 - 2) / 2, uint [0, 6, 0, 1, 0, x] (2 + 2 * i) 2 = some (p i)) ∧
    p 0 = 1 ∧ p 1 = x.toNat := by
  rintro x (rfl | rfl)
  · obtain ⟨r, h, -⟩ := ok_of (x := validateLeaf Sample.env0 (Sample.opts .jp2) 1 none mPRF [0, 6, 0, 1, 0, 1])
      (by decide +kernel)
    exact ⟨r, fun _ => 1, h, by decide, by decide, rfl, rfl⟩
  · obtain ⟨r, h, -⟩ := ok_of (x := validateLeaf Sample.env0 (Sample.opts .jp2) 1 none mPRF [0, 6, 0, 1, 0, 2])
      (by decide +kernel)
    exact ⟨r, fun i => i + 1, h, by decide, by decide, rfl, rfl⟩

/-- C36: the palette with columns of one and two bytes meets the hypotheses. -/
example : ∃ r, validateBox Sample.env0 (Sample.opts .jp2) (0 + 1) tagPalette mixedPalette = .ok r ∧
    uint mixedPalette 0 2 = some 1 ∧ uint mixedPalette 2 1 = some 2 ∧
    ∀ i < 2, FieldIs mixedPalette (3 + i) 1 (fun b => IsCeil (b % 128 + 1 : Nat) 8 ((i + 1 : Nat) : Int)) := by
  obtain ⟨r, h, -⟩ := ok_of (x := validateBox Sample.env0 (Sample.opts .jp2) (0 + 1) tagPalette mixedPalette)
    (by decide +kernel)
  refine ⟨r, h, by decide, by decide, fun i hi => ?_⟩
  rcases (by omega : i = 0 ∨ i = 1) with rfl | rfl
  · exact ⟨7, by decide, by decide, by decide⟩
  · exact ⟨15, by decide, by decide, by decide⟩

end Jpy
