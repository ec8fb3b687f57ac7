import Verif.Props.Segments
import Verif.Lemmas.Witness
/-! # Properties of marker segments that report decoded values: C28, C30, C31, C32 -/

set_option linter.unusedSimpArgs false

namespace Jpy
open Spec

/-! ## COM -/

theorem latin9_eq (x : UInt8) : latin9 x = iso885915 x := by
  have key : ∀ n : Fin 256, latin9 (UInt8.ofNat n.val) = iso885915 (UInt8.ofNat n.val) := by
    decide +kernel
  have h := key ⟨x.toNat, x.toNat_lt⟩
  rwa [UInt8.ofNat_toNat] at h

theorem removeControl_eq_self (catC : Char → Bool) (l : List Char) :
    removeControlCharacters catC l = l ↔ ∀ ch ∈ l, TextChar catC ch := by
  unfold removeControlCharacters
  rw [List.filter_eq_self]
  refine forall_congr' fun ch => imp_congr_right fun _ => ?_
  simp [TextChar, or_assoc]

theorem hexDigit_eq {n : Nat} (h : n < 16) : hexDigits[n]? = some (hexDigit n) := by
  have key : ∀ n : Fin 16, hexDigits[n.val]? = some (hexDigit n.val) := by decide +kernel
  exact key ⟨n, h⟩

theorem isHex_bytesToHex (b : Bytes) : IsHex b (bytesToHex b) := by
  unfold IsHex
  induction b with
  | nil => simp [bytesToHex]
  | cons y b ih =>
    have e : bytesToHex (y :: b) = hexDigit (y.toNat / 16) :: hexDigit (y.toNat % 16) :: bytesToHex b :=
      rfl
    rw [e]
    refine ⟨by simp [ih.1]; omega, fun i x hx => ?_⟩
    cases i with
    | zero =>
      simp only [List.getElem?_cons_zero, Option.some.injEq] at hx
      subst hx
      have := y.toNat_lt
      rw [hexDigit_eq (by omega), hexDigit_eq (by omega)]
      simp
    | succ i =>
      have := ih.2 i x (by simpa using hx)
      rw [show 2 * (i + 1) = 2 * i + 1 + 1 by omega]
      simpa using this

/-- C30: a COM segment is accepted exactly when its length is at least 5, Rcom is 0 or 1, and a Latin
comment has no control characters. -/
theorem C30_com (env : Env) (o : Options) (fuel : Nat) (csiz : Option Int) (c : Bytes) :
    Accepted (validateLeaf env o fuel csiz mCOM c) ↔ ComOk env.catC c := by
  rw [accepted_leaf_ok env o fuel _ mCOM c (t := .com) (by decide) rfl]
  unfold com ComOk
  have e0 : bytesToUShortInt (slice c 0 2) = intOf (uint c 0 2) := u16_at c 0 rfl rfl
  have e2 : bytesToUShortInt (slice c 2 4) = intOf (uint c 2 2) := u16_at c 2 rfl rfl
  generalize bytesToUShortInt (slice c 0 2) = lcom at *
  generalize bytesToUShortInt (slice c 2 4) = rcom at *
  have hite : ∀ (b : Bool) v, allTrue (if b = true then [Step.char "comment" v] else []) = true := by
    intro b v; cases b <;> rfl
  simp only [allTrue_append, allTrue_char, allTrue_test, allTrue_nil, Bool.and_true, hite,
    Bool.and_eq_true, between_iff]
  rcases h0 : uint c 0 2 with _ | l
  · rw [h0] at e0; subst e0; simp [FieldIs, h0, intOf]
  rcases h2 : uint c 2 2 with _ | r
  · rw [h2] at e2; subst e2; simp [FieldIs, h2, intOf]
  replace e0 : lcom = (l : Int) := by rw [e0, h0]; rfl
  replace e2 : rcom = (r : Int) := by rw [e2, h2]; rfl
  subst e0 e2
  have := uint_lt h0
  simp only [FieldIs, h0, h2, Option.some.injEq, exists_eq_left']
  have es : 5 ≤ l → slice c 4 (l : Int) = sub c 4 (l - 4) := fun h => slice_nat c 4 l
  by_cases hl : 5 ≤ l
  · rw [es hl]
    by_cases hr0 : r = 0
    · subst hr0; simp; omega
    by_cases hr1 : r = 1
    · subst hr1
      simp only [Int.cast_ofNat_Int, Int.natCast_one, Int.reduceEq, if_false, if_true, decide_eq_true_eq,
        removeControl_eq_self, List.mem_map, forall_exists_index, and_imp,
        forall_apply_eq_imp_iff₂, latin9_eq]
      simp
      omega
    · have a0 : ¬ ((r : Int) = 0) := by omega
      have a1 : ¬ ((r : Int) = 1) := by omega
      simp [hr0, hr1, a0, a1]
  · have : ¬ (5 ≤ (l : Int)) := by omega
    simp [hl, this]

/-- C30: what is reported. A binary comment is reported as its lower-case hexadecimal form, a Latin
comment unchanged, and nothing is reported unless the comment passes its own test. -/
theorem C30_comment_value (env : Env) (o : Options) (fuel : Nat) (csiz : Option Int) (c : Bytes)
    (r : BoxResult) (l rcom : Nat) (h : validateLeaf env o fuel csiz mCOM c = .ok r)
    (hl : uint c 0 2 = some l) (hr : uint c 2 2 = some rcom) :
    (rcom = 0 → ∃ h, IsHex (sub c 4 (l - 4)) h ∧ reported r.node "comment" = [.bytes h]) ∧
    (rcom = 1 → (∀ x ∈ sub c 4 (l - 4), TextChar env.catC (iso885915 x)) →
      reported r.node "comment" = [.str (String.ofList ((sub c 4 (l - 4)).map iso885915))]) ∧
    (rcom = 1 → ¬ (∀ x ∈ sub c 4 (l - 4), TextChar env.catC (iso885915 x)) →
      reported r.node "comment" = []) ∧
    (2 ≤ rcom → reported r.node "comment" = []) := by
  obtain ⟨ss, h1, rfl⟩ := (validateLeaf_ok (t := .com) (by decide)).1 h
  simp only [leaf, com, Outcome.ok.injEq] at h1
  subst h1
  rw [reported_run]
  have e0 : bytesToUShortInt (slice c 0 2) = (l : Int) := by
    rw [u16_at c 0 (x := 0) (y := 2) rfl rfl, hl]; rfl
  have e2 : bytesToUShortInt (slice c 2 4) = (rcom : Int) := by
    rw [u16_at c 2 (x := 2) (y := 4) rfl rfl, hr]; rfl
  rw [e0, e2]
  have es : slice c 4 (l : Int) = sub c 4 (l - 4) := slice_nat c 4 l
  rw [es]
  generalize sub c 4 (l - 4) = cm
  rep
  refine ⟨fun h0 => ?_, fun h1 ht => ?_, fun h1 ht => ?_, fun h2 => ?_⟩
  · subst h0
    exact ⟨bytesToHex cm, isHex_bytesToHex cm, rfl⟩
  · subst h1
    have : removeControlCharacters env.catC (cm.map latin9) = cm.map latin9 :=
      (removeControl_eq_self _ _).2 (by simpa [latin9_eq] using ht)
    have hl9 : latin9 = iso885915 := funext latin9_eq
    rw [hl9] at this; simp [this, hl9]
  · subst h1
    have : ¬ removeControlCharacters env.catC (cm.map latin9) = cm.map latin9 := by
      rw [removeControl_eq_self]; simpa [latin9_eq] using ht
    simp [this]
  · have a0 : ¬ ((rcom : Int) = 0) := by omega
    have a1 : ¬ ((rcom : Int) = 1) := by omega
    rw [if_neg a0, if_neg a1]; simp

/-! ## CAP -/

theorem sorted_unique : ∀ {a b : List Nat}, a.Pairwise (· < ·) → b.Pairwise (· < ·) →
    (∀ x, x ∈ a ↔ x ∈ b) → a = b
  | [], [], _, _, _ => rfl
  | [], y :: _, _, _, h => by simpa using h y
  | x :: _, [], _, _, h => by simpa using h x
  | x :: a, y :: b, ha, hb, h => by
    rw [List.pairwise_cons] at ha hb
    have hxy : x = y := by
      have h1 : x ∈ y :: b := (h x).1 (by simp)
      have h2 : y ∈ x :: a := (h y).2 (by simp)
      rcases List.mem_cons.1 h1 with h1 | h1
      · exact h1
      rcases List.mem_cons.1 h2 with h2 | h2
      · exact h2.symm
      have := hb.1 x h1
      have := ha.1 y h2
      omega
    subst hxy
    rw [sorted_unique ha.2 hb.2 fun z => ?_]
    have := h z
    simp only [List.mem_cons] at this
    constructor
    · intro hz
      have := ha.1 z hz
      rcases (h z).1 (List.mem_cons_of_mem _ hz) with h | h
      · omega
      · assumption
    · intro hz
      have := hb.1 z hz
      rcases (h z).2 (List.mem_cons_of_mem _ hz) with h | h
      · omega
      · assumption

theorem capParts_spec (p : Nat) : IsCapParts p (capParts p) := by
  unfold IsCapParts capParts
  constructor
  · rw [List.pairwise_map]
    refine List.Pairwise.filter _ ?_
    exact (List.pairwise_lt_range).imp (by omega)
  · intro q
    simp only [List.mem_map, List.mem_filter, List.mem_range, decide_eq_true_eq, shr_div, low_mod]
    unfold bit
    constructor
    · rintro ⟨i, ⟨h1, h2⟩, rfl⟩
      refine ⟨by omega, by omega, ?_⟩
      rw [show 32 - (i + 1) = 31 - i by omega]
      have h2 : ((p / 2 ^ (31 - i) % 2 ^ 1 : Nat) : Int) = 1 := h2
      simp only [Nat.pow_one] at h2
      omega
    · rintro ⟨h1, h2, h3⟩
      refine ⟨q - 1, ⟨by omega, ?_⟩, by omega⟩
      rw [show 31 - (q - 1) = 32 - q by omega]
      simp only [Nat.pow_one]
      omega

/-- C31: a CAP segment with its fixed part present is accepted exactly when there is one Ccap entry
per signalled part and, for HT formats, part 15 is signalled. Missing from the full property: a
segment cut off before the end of Pcap can be accepted, see `C31_cap_truncated`. -/
theorem C31_cap_partial (env : Env) (o : Options) (fuel : Nat) (csiz : Option Int) (c : Bytes)
    (hc : 6 ≤ c.length) :
    Accepted (validateLeaf env o fuel csiz mCAP c) ↔ CapOk o.format c := by
  rw [accepted_leaf_ok env o fuel _ mCAP c (t := .cap) (by decide) rfl]
  unfold cap CapOk
  have h0 : uint c 0 2 = some (be (sub c 0 2)) := if_pos (by omega)
  have h2 : uint c 2 4 = some (be (sub c 2 4)) := if_pos (by omega)
  generalize be (sub c 0 2) = l at h0
  generalize be (sub c 2 4) = p at h2
  have e0 : bytesToUShortInt (slice c 0 2) = (l : Int) := by
    rw [u16_at c 0 (x := 0) (y := 2) rfl rfl, h0]; rfl
  have e2 : bytesToUInt (slice c 2 6) = (p : Int) := by
    rw [u32_at c 2 (x := 2) (y := 6) rfl rfl, h2]; rfl
  rw [e0, e2]
  have hp := capParts_spec p
  have h15 : (15 : Nat) ∈ capParts (p : Int) ↔ bit 17 p = 1 := by rw [hp.2]; simp
  have hu : (∀ ps, IsCapParts p ps → l = 6 + 2 * ps.length) ↔ l = 6 + 2 * (capParts p).length := by
    constructor
    · intro h; exact h _ hp
    · intro h ps hps
      rw [sorted_unique hps.1 hp.1 fun x => by rw [hps.2, hp.2]]; exact h
  simp only [FieldIs, h0, h2, Option.some.injEq, exists_eq_left', hu, ← h15]
  cases hht : o.format.isHT
  · simp [allTrue_append, allTrue_char, allTrue_test, allTrue_nil, allTrue_map_char]
    omega
  · by_cases hm : 15 ∈ capParts (p : Int) <;>
      simp [allTrue_append, allTrue_char, allTrue_test, allTrue_nil, allTrue_map_char, hm]
    omega

/-- C31, negation: a CAP segment that ends before Pcap can pass all its tests, also for HT formats. -/
theorem C31_cap_truncated (env : Env) (o : Options) (fuel : Nat) (csiz : Option Int) :
    Accepted (validateLeaf env o fuel csiz mCAP [0, 56]) ∧ ¬ CapOk o.format [0, 56] := by
  constructor
  · rw [accepted_leaf_ok env o fuel _ mCAP _ (t := .cap) (by decide) rfl]
    unfold cap
    have e2 : bytesToUInt (slice [0, 56] 2 6) = -9999 := by decide
    have e0 : bytesToUShortInt (slice [0, 56] 0 2) = 56 := by decide
    have e3 : (capParts (-9999)).length = 25 := by decide
    have e4 : 15 ∈ capParts (-9999) := by decide
    rw [e2, e0]
    cases hht : o.format.isHT <;>
      simp [allTrue_append, allTrue_char, allTrue_test, allTrue_nil, allTrue_map_char, e3, e4]
  · rintro ⟨l, h0, p, h2, -⟩
    simp [uint] at h2

theorem idxOf_sorted {x : Nat} : ∀ {l : List Nat}, l.Pairwise (· < ·) → x ∈ l →
    l.idxOf x = (l.filter (· < x)).length
  | y :: l, h, hx => by
    rw [List.pairwise_cons] at h
    rcases Nat.lt_trichotomy y x with hlt | heq | hgt
    · have hm : x ∈ l := by
        rcases List.mem_cons.1 hx with e | e
        · omega
        · exact e
      rw [List.idxOf_cons, show (y == x) = false by simp; omega]
      simp [hlt, idxOf_sorted h.2 hm]
    · subst heq
      have : l.filter (fun z => decide (z < y)) = [] := by
        rw [List.filter_eq_nil_iff]
        intro z hz
        have := h.1 z hz
        simp; omega
      simp [this]
    · have hm : x ∈ l := by
        rcases List.mem_cons.1 hx with e | e
        · omega
        · exact e
      have := h.1 x hm
      omega

theorem capHtB_eq (v : Nat) : capHtB ((v : Nat) : Int) = (HtB v : Nat) := by
  unfold capHtB HtB
  repeat' split <;> try omega
  all_goals grind

/-- C31: the reported parts are exactly the set bits of Pcap, and the HT parameters are those of the
Ccap entry of part 15: the entry whose index is the number of signalled parts before 15. -/
theorem C31_cap_values (env : Env) (o : Options) (fuel : Nat) (csiz : Option Int) (c : Bytes)
    (r : BoxResult) (p : Nat) (h : validateLeaf env o fuel csiz mCAP c = .ok r)
    (hp : uint c 2 4 = some p) :
    ∃ ps, IsCapParts p ps ∧ reported r.node "pcapPart" = ps.map (fun (k : Nat) => .int k) ∧
      ∀ ccap, o.format.isHT = true → bit 17 p = 1 →
        uint c (6 + 2 * (ps.filter (· < 15)).length) 2 = some ccap →
        reported r.node "htCodeBlocks" = [.int ((ccap / 2 ^ 14 * 2 ^ 14 : Nat) : Int)] ∧
        reported r.node "htSets" = [.int (bit 13 ccap : Nat)] ∧
        reported r.node "htRegion" = [.int (bit 12 ccap : Nat)] ∧
        reported r.node "htHomogeneous" = [.int (bit 11 ccap : Nat)] ∧
        reported r.node "htReversible" = [.int (bit 5 ccap : Nat)] ∧
        reported r.node "htB" = [.int (HtB (ccap % 32) : Nat)] := by
  obtain ⟨ss, h1, rfl⟩ := (validateLeaf_ok (t := .cap) (by decide)).1 h
  simp only [leaf, cap, Outcome.ok.injEq] at h1
  subst h1
  have e2 : bytesToUInt (slice c 2 6) = (p : Int) := by
    rw [u32_at c 2 (x := 2) (y := 6) rfl rfl, hp]; rfl
  simp only [reported_run]
  rw [e2]
  have hs := capParts_spec p
  refine ⟨capParts p, hs, ?_, ?_⟩
  · rep
    simp only [ite_self, List.append_nil, List.map_eq_flatMap]
  · intro ccap hht hb hc
    have hm : 15 ∈ capParts (p : Int) := by rw [hs.2]; simp [hb]
    have ec : bytesToUShortInt (slice c (6 + 2 * ((capParts (p : Int)).idxOf 15 : Nat))
        (6 + 2 * ((capParts (p : Int)).idxOf 15 : Nat) + 2)) = (ccap : Int) := by
      rw [idxOf_sorted hs.1 hm, u16_at c (6 + 2 * ((capParts (p : Int)).filter (· < 15)).length)
        (by omega) (by omega), hc]; rfl
    have := uint_lt hc
    simp only [hht, if_true, hm]
    rw [ec]
    rep
    simp only [getBitValue_nat, low_mod, capHtB_eq, maskAt, shr_div]
    simp
    omega

/-! ## PRF and CPF -/

theorem profileLoop_eq (c : Bytes) (t : String) (d : Bool) (n : Nat) (start : Int) :
    profileLoop c t d n start =
      (start + bytesToUShortInt (slice c 2 4) * (((List.range n).map fun i => 65536 ^ i).sum : Nat),
        []) := by
  unfold profileLoop
  have : ∀ m ≤ n, (List.range m).foldl (fun (acc : Int × List Step) i =>
      (acc.1 + bytesToUShortInt (slice c 2 4) * 2 ^ (16 * i),
       if i = n ∧ d = true then acc.2 ++ [Step.test t (decide (bytesToUShortInt (slice c 2 4) ≠ 0))]
       else acc.2)) (start, [])
      = (start + bytesToUShortInt (slice c 2 4) *
          (((List.range m).map fun i => 65536 ^ i).sum : Nat), []) := by
    intro m hm
    induction m with
    | zero => simp
    | succ m ih =>
      rw [List.range_succ, List.foldl_append, ih (by omega)]
      have hne : ¬ m = n := by omega
      simp only [List.foldl_cons, List.foldl_nil, hne, false_and, if_false, List.map_append,
        List.sum_append, List.map_cons, List.map_nil, List.sum_cons, List.sum_nil, Nat.add_zero]
      rw [Int.natCast_add, Int.mul_add, Int.add_assoc]
      rw [Int.natCast_pow, Int.pow_mul]
      rfl
  exact this n (Nat.le_refl n)

theorem sum_pow_pos (n : Nat) (h : 0 < n) : 0 < ((List.range n).map fun i => 65536 ^ i).sum := by
  cases n with
  | zero => omega
  | succ n => rw [List.range_succ_eq_map]; simp; omega

theorem sum_mul (p n : Nat) :
    ((List.range n).map fun i => p * 65536 ^ i).sum = p * ((List.range n).map fun i => 65536 ^ i).sum := by
  induction n with
  | zero => simp
  | succ n ih => simp [List.range_succ, Nat.mul_add, ih]

/-- PRF: the accepted segments. The offset is never advanced, so only the first entry counts. -/
theorem C32_prf_accepted (env : Env) (o : Options) (fuel : Nat) (csiz : Option Int) (c : Bytes) :
    Accepted (validateLeaf env o fuel csiz mPRF c) ↔
      FieldIs c 0 2 (fun l => 4 ≤ l ∧ l ≤ 65534) ∧ FieldIs c 2 2 (1 ≤ ·) := by
  rw [accepted_leaf_ok env o fuel _ mPRF c (t := .prf) (by decide) rfl]
  simp only [prf, profileLoop_eq, allTrue_append, allTrue_char, allTrue_test, allTrue_nil, Bool.and_true,
    Bool.and_eq_true, decide_eq_true_eq, between_iff]
  rw [u16_at c 0 (x := 0) (y := 2) rfl rfl, u16_at c 2 (x := 2) (y := 4) rfl rfl]
  rcases hl : uint c 0 2 with _ | l
  · fld0 hl
  by_cases h4 : 4 ≤ l
  · have hn : 0 < rangeLen (intDiv (intOf (some l) - 2) 2) := by
      have : rangeLen (intDiv (intOf (some l) - 2) 2) = (l - 2) / 2 := rangeLen_intDiv l 2 2
      omega
    have hs := sum_pow_pos _ hn
    generalize ((List.range (rangeLen (intDiv (intOf (some l) - 2) 2))).map
      fun i => 65536 ^ i).sum = S at hs ⊢
    rcases hp : uint c 2 2 with _ | p
    · simp [FieldIs, hp, intOf]; omega
    · have hpp : (0:Int) < p * S ↔ 1 ≤ p := by
        rw [← Int.natCast_mul]
        constructor
        · intro h; rcases Nat.eq_zero_or_pos p with h0 | h0
          · subst h0; simp at h
          · exact h0
        · intro h; have := Nat.mul_pos h hs; omega
      simp only [FieldIs, hl, hp, intOf, Option.some.injEq, exists_eq_left']
      omega
  · simp [FieldIs, hl, intOf]; omega

/-- C32 for PRF, when all entries have the same value (in particular when there is one entry): the
reported number is the one the standard defines. Missing from the full property: entries that differ,
see `C32_prf_false`. -/
theorem C32_prf_number_partial (env : Env) (o : Options) (fuel : Nat) (csiz : Option Int) (c : Bytes)
    (r : BoxResult) (l p : Nat) (h : validateLeaf env o fuel csiz mPRF c = .ok r)
    (hl : uint c 0 2 = some l) (hp : ∀ i < (l - 2) / 2, uint c (2 + 2 * i) 2 = some p) :
    ∃ v, ProfileNumberIs c 4095 ((l - 2) / 2) v ∧ reported r.node "PRFnum" = [.int v] := by
  obtain ⟨ss, h1, rfl⟩ := (validateLeaf_ok (t := .prf) (by decide)).1 h
  simp only [leaf, prf, Outcome.ok.injEq] at h1
  subst h1
  refine ⟨_, ⟨fun _ => p, hp, rfl⟩, ?_⟩
  rw [reported_run, profileLoop_eq, u16_at c 0 (x := 0) (y := 2) rfl rfl, hl]
  have hn : rangeLen (intDiv (intOf (some l) - 2) 2) = (l - 2) / 2 := rangeLen_intDiv l 2 2
  rw [hn, sum_mul]
  rep
  simp only [ite_self, List.nil_append, List.cons.injEq, PyVal.int.injEq, and_true]
  by_cases h0 : 0 < (l - 2) / 2
  · rw [u16_at c 2 (x := 2) (y := 4) rfl rfl, hp 0 h0]; simp [intOf]
  · rw [show (l - 2) / 2 = 0 by omega]; simp

/-- C32 for CPF, when all entries have the same value. Missing from the full property: entries that
differ, and zero last entries are never reported as a failure, see `C32_cpf_false`. -/
theorem C32_cpf_number_partial (env : Env) (o : Options) (fuel : Nat) (csiz : Option Int) (c : Bytes)
    (r : BoxResult) (l p : Nat) (h : validateLeaf env o fuel csiz mCPF c = .ok r)
    (hl : uint c 0 2 = some l) (hp : ∀ i < (l - 2) / 2, uint c (2 + 2 * i) 2 = some p) :
    ∃ v, ProfileNumberIs c (-1) ((l - 2) / 2) v ∧ reported r.node "CPFnum" = [.int v] := by
  obtain ⟨ss, h1, rfl⟩ := (validateLeaf_ok (t := .cpf) (by decide)).1 h
  simp only [leaf, cpf, Outcome.ok.injEq] at h1
  subst h1
  refine ⟨_, ⟨fun _ => p, hp, rfl⟩, ?_⟩
  rw [reported_run, profileLoop_eq, u16_at c 0 (x := 0) (y := 2) rfl rfl, hl]
  have hn : rangeLen (intDiv (intOf (some l) - 2) 2) = (l - 2) / 2 := rangeLen_intDiv l 2 2
  rw [hn, sum_mul]
  rep
  simp only [ite_self, List.nil_append, List.cons.injEq, PyVal.int.injEq, and_true]
  by_cases h0 : 0 < (l - 2) / 2
  · rw [u16_at c 2 (x := 2) (y := 4) rfl rfl, hp 0 h0]; simp [intOf]
  · rw [show (l - 2) / 2 = 0 by omega]; simp

/-- C32, negation for PRF: a two-entry segment whose last entry is zero is accepted, and its reported
number is not the one the standard defines. -/
theorem C32_prf_false (env : Env) (o : Options) (fuel : Nat) (csiz : Option Int) :
    ∃ c r, validateLeaf env o fuel csiz mPRF c = .ok r ∧ NoFailure r.node.tests ∧
      uint c 0 2 = some 6 ∧ uint c 2 2 = some 1 ∧ uint c 4 2 = some 0 ∧
      ∀ v, ProfileNumberIs c 4095 2 v → reported r.node "PRFnum" ≠ [.int v] := by
  obtain ⟨r, h1, h2⟩ := (C32_prf_accepted env o fuel csiz [0, 6, 0, 1, 0, 0]).2
    ⟨⟨6, by decide, by decide⟩, ⟨1, by decide, by decide⟩⟩
  refine ⟨_, r, h1, h2, by decide, by decide, by decide, ?_⟩
  rintro v ⟨p, hp, rfl⟩
  have h0 : some (1 : Nat) = some (p 0) := hp 0 (by decide)
  have h3 : some (0 : Nat) = some (p 1) := hp 1 (by decide)
  simp only [Option.some.injEq] at h0 h3
  obtain ⟨ss, h4, rfl⟩ := (validateLeaf_ok (t := .prf) (by decide)).1 h1
  simp only [leaf, prf, profileLoop_eq, Outcome.ok.injEq] at h4
  subst h4
  rw [reported_run]
  have e0 : bytesToUShortInt (slice [0, 6, 0, 1, 0, 0] 0 2) = 6 := by decide
  have e1 : bytesToUShortInt (slice [0, 6, 0, 1, 0, 0] 2 4) = 1 := by decide
  have e2 : rangeLen (intDiv (6 - 2) 2) = 2 := by decide
  rw [e0, e1, e2]
  rep
  simp [List.range_succ, ← h0, ← h3]

/-- C32, negation for CPF: a segment whose only entry is zero is accepted, for every format. -/
theorem C32_cpf_false (env : Env) (o : Options) (fuel : Nat) (csiz : Option Int) :
    ∃ c, uint c 0 2 = some 4 ∧ uint c 2 2 = some 0 ∧
      Accepted (validateLeaf env o fuel csiz mCPF c) := by
  refine ⟨[0, 4, 0, 0], by decide, by decide, ?_⟩
  rw [accepted_leaf_ok env o fuel _ mCPF _ (t := .cpf) (by decide) rfl]
  simp only [cpf, profileLoop_eq]
  have : bytesToUShortInt (slice [0, 4, 0, 0] 0 2) = 4 := by decide
  rw [this]
  cases o.format.isHT <;>
    simp [allTrue_append, allTrue_char, allTrue_test, allTrue_nil, between]

/-! ## QCD and QCC -/

theorem repOf_quant_none (c : Bytes) (off n : Nat) (levels : Int) (hn : rangeLen levels = n) :
    (repOf "epsilon" (quantSteps c 0 levels off)).length = n ∧
    repOf "mu" (quantSteps c 0 levels off) = [] ∧
    ∀ i < n, ∀ v, uint c (off + i) 1 = some v →
      (repOf "epsilon" (quantSteps c 0 levels off))[i]? = some (.int ((v / 8 : Nat) : Int)) := by
  subst hn
  unfold quantSteps
  rw [if_pos rfl]
  rep
  refine ⟨by simp, trivial, fun i hi v hv => ?_⟩
  rw [List.getElem?_map, List.getElem?_range hi, Option.map_some,
    u8_at c (off + i) (by omega) (by omega), hv]
  have := uint_lt hv
  simp only [intOf, shr_div, low_mod, Option.some.injEq, PyVal.int.injEq]
  omega

theorem repOf_quant_scalar (c : Bytes) (off n : Nat) (q levels : Int)
    (hn : q = 1 ∧ n = 1 ∨ q = 2 ∧ rangeLen levels = n) :
    (repOf "epsilon" (quantSteps c q levels off)).length = n ∧
    (repOf "mu" (quantSteps c q levels off)).length = n ∧
    ∀ i < n, ∀ v, uint c (off + 2 * i) 2 = some v →
      (repOf "epsilon" (quantSteps c q levels off))[i]? = some (.int ((v / 2048 : Nat) : Int)) ∧
      (repOf "mu" (quantSteps c q levels off))[i]? = some (.int ((v % 2048 : Nat) : Int)) := by
  rcases hn with ⟨rfl, rfl⟩ | ⟨rfl, rfl⟩
  · unfold quantSteps
    rw [if_neg (by decide), if_pos rfl]
    rep
    refine ⟨rfl, rfl, fun i hi v hv => ?_⟩
    obtain rfl : i = 0 := by omega
    rw [u16_at c off rfl (by omega), show uint c off 2 = some v from hv]
    have := uint_lt hv
    simp only [intOf, shr_div, low_mod, List.getElem?_cons_zero, Option.some.injEq, PyVal.int.injEq,
      and_true]
    omega
  · unfold quantSteps
    rw [if_neg (by decide), if_neg (by decide), if_pos rfl]
    rep
    refine ⟨by simp, by simp, fun i hi v hv => ?_⟩
    rw [List.getElem?_map, List.getElem?_range hi, Option.map_some, List.getElem?_map,
      List.getElem?_range hi, Option.map_some, u16_at c (off + 2 * i) (by omega) (by omega), hv]
    have := uint_lt hv
    simp only [intOf, shr_div, low_mod, Option.some.injEq, PyVal.int.injEq, and_true]
    omega

/-- C28, values of QCD. Missing from the full property: of the `3 * levels + 1` step sizes that a
segment for `levels` decomposition levels holds, only the first `levels` are reported. -/
theorem C28_qcd_values_partial (env : Env) (o : Options) (fuel : Nat) (csiz : Option Int) (c : Bytes)
    (r : BoxResult) (l s : Nat) (h : validateLeaf env o fuel csiz mQCD c = .ok r)
    (hl : uint c 0 2 = some l) (hs : uint c 2 1 = some s) :
    reported r.node "qStyle" = [.int (s % 32 : Nat)] ∧
    reported r.node "guardBits" = [.int (s / 32 : Nat)] ∧
    (s % 32 = 0 → StepSizesNone c 3 ((l - 4) / 3) r.node) ∧
    (s % 32 = 1 → StepSizesScalar c 3 1 r.node) ∧
    (s % 32 = 2 → StepSizesScalar c 3 ((l - 5) / 6) r.node) := by
  obtain ⟨ss, h1, rfl⟩ := (validateLeaf_ok (t := .qcd) (by decide)).1 h
  simp only [leaf, qcd, Outcome.ok.injEq] at h1
  subst h1
  have e0 : bytesToUShortInt (slice c 0 2) = (l : Int) := by
    rw [u16_at c 0 (x := 0) (y := 2) rfl rfl, hl]; rfl
  have e2 : bytesToUnsignedChar (slice c 2 3) = (s : Int) := by
    rw [u8_at c 2 (x := 2) (y := 3) rfl rfl, hs]; rfl
  have := uint_lt hs
  unfold StepSizesNone StepSizesScalar
  simp only [reported_run]
  rw [e0, e2]
  simp only [low_mod, shr_div]
  rep
  simp only [Nat.reducePow]
  have hq : ∀ t, t = "qStyle" ∨ t = "guardBits" → ∀ q levels off : Int,
      repOf t (quantSteps c q levels off) = [] := by
    intro t ht q levels off
    unfold quantSteps
    rcases ht with rfl | rfl <;> rep <;> (repeat' split) <;> rfl
  refine ⟨by simp [hq], by simp [hq]; omega, fun h0 => ?_, fun h1 => ?_, fun h2 => ?_⟩
  · rw [h0]
    exact repOf_quant_none c 3 _ _ (rangeLen_intDiv l 4 3)
  · rw [h1]
    exact repOf_quant_scalar c 3 1 1 _ (.inl ⟨rfl, rfl⟩)
  · rw [h2]
    exact repOf_quant_scalar c 3 _ 2 _ (.inr ⟨rfl, rangeLen_intDiv l 5 6⟩)

/-- C28, values of QCC as reported: read from the style byte on, one byte too early. -/
theorem C28_qcc_values (env : Env) (o : Options) (fuel : Nat) (csiz : Int) (c : Bytes)
    (r : BoxResult) (l s : Nat) (h : validateLeaf env o fuel (some csiz) mQCC c = .ok r)
    (hl : uint c 0 2 = some l) (hs : uint c (2 + compWidth csiz) 1 = some s) :
    reported r.node "qStyle" = [.int (s % 32 : Nat)] ∧
    reported r.node "guardBits" = [.int (s / 32 : Nat)] ∧
    (s % 32 = 0 → StepSizesNone c (2 + compWidth csiz) ((l - (4 + compWidth csiz)) / 3) r.node) ∧
    (s % 32 = 1 → StepSizesScalar c (2 + compWidth csiz) 1 r.node) ∧
    (s % 32 = 2 → StepSizesScalar c (2 + compWidth csiz) ((l - (5 + compWidth csiz)) / 6) r.node) := by
  obtain ⟨ss, h1, rfl⟩ := (validateLeaf_ok (t := .qcc) (by decide)).1 h
  simp only [leaf, qcc, withCsiz, Outcome.ok.injEq] at h1
  subst h1
  have hq : ∀ t, t = "qStyle" ∨ t = "guardBits" → ∀ q levels off : Int,
      repOf t (quantSteps c q levels off) = [] := by
    intro t ht q levels off
    unfold quantSteps
    rcases ht with rfl | rfl <;> rep <;> (repeat' split) <;> rfl
  have e0 : bytesToUShortInt (slice c 0 2) = (l : Int) := by
    rw [u16_at c 0 (x := 0) (y := 2) rfl rfl, hl]; rfl
  have := uint_lt hs
  unfold StepSizesNone StepSizesScalar
  simp only [reported_run]
  unfold compWidth at *
  by_cases hc : csiz < 257
  · have hc' : ¬ 257 ≤ csiz := by omega
    simp only [hc, hc', if_true, and_true, and_false, if_false, ge_iff_le] at *
    have e2 : bytesToUnsignedChar (slice c 3 4) = (s : Int) := by
      rw [u8_at c 3 (x := 3) (y := 4) rfl rfl, hs]; rfl
    rw [e0, show (3 : Int) + 1 = 4 from rfl, e2]
    simp only [low_mod, shr_div]
    rep
    simp only [Nat.reducePow]
    refine ⟨by simp [hq], by simp [hq]; omega, fun h0 => ?_, fun h1 => ?_, fun h2 => ?_⟩
    · rw [h0]
      exact repOf_quant_none c 3 _ _ (rangeLen_intDiv l 5 3)
    · rw [h1]
      exact repOf_quant_scalar c 3 1 1 _ (.inl ⟨rfl, rfl⟩)
    · rw [h2]
      exact repOf_quant_scalar c 3 _ 2 _ (.inr ⟨rfl, rangeLen_intDiv l 6 6⟩)
  · have hc' : 257 ≤ csiz := by omega
    simp only [hc, hc', if_true, and_true, and_false, if_false, ge_iff_le] at *
    have e2 : bytesToUnsignedChar (slice c 4 5) = (s : Int) := by
      rw [u8_at c 4 (x := 4) (y := 5) rfl rfl, hs]; rfl
    rw [e0, show (4 : Int) + 1 = 5 from rfl, e2]
    simp only [low_mod, shr_div]
    rep
    simp only [Nat.reducePow]
    refine ⟨by simp [hq], by simp [hq]; omega, fun h0 => ?_, fun h1 => ?_, fun h2 => ?_⟩
    · rw [h0]
      exact repOf_quant_none c 4 _ _ (rangeLen_intDiv l 6 3)
    · rw [h1]
      exact repOf_quant_scalar c 4 1 1 _ (.inl ⟨rfl, rfl⟩)
    · rw [h2]
      exact repOf_quant_scalar c 4 _ 2 _ (.inr ⟨rfl, rangeLen_intDiv l 7 6⟩)

/-- C28, negation for QCC: an accepted segment whose reported exponent is not that of the step size
after the style byte. -/
theorem C28_qcc_values_false (env : Env) (o : Options) (fuel : Nat) :
    ∃ c r, validateLeaf env o fuel (some 1) mQCC c = .ok r ∧ NoFailure r.node.tests ∧
      uint c 3 1 = some 0 ∧ ¬ StepSizesNone c 4 1 r.node := by
  obtain ⟨r, h1, h2⟩ := (C28_qcc env o fuel 1 [0, 8, 0, 0, 72, 72, 80, 80]).2
    ⟨⟨8, by decide, by decide⟩, ⟨0, by decide, by decide⟩⟩
  refine ⟨_, r, h1, h2, by decide, ?_⟩
  rintro ⟨-, -, h⟩
  have h3 := h 0 (by decide) 72 (by decide)
  have h4 := (C28_qcc_values env o fuel 1 _ r 8 0 h1 (by decide) (by decide)).2.2.1 rfl
  have h5 := h4.2.2 0 (by decide) 0 (by decide)
  rw [h3] at h5
  simp at h5

/-! ## Concrete segments -/

/-- C30: a Latin comment; one with a control character. -/
example : Accepted (validateLeaf Sample.env0 (Sample.opts .jp2) 1 none mCOM (Sample.be16 6 ++ Sample.be16 1 ++ [104, 105])) ∧ ¬ Accepted (validateLeaf Sample.env0 (Sample.opts .jp2) 1 none mCOM (Sample.be16 6 ++ Sample.be16 1 ++ [104, 1])) :=
  ⟨accepted_of (by decide +kernel), not_accepted_of (by decide +kernel)⟩

/-- C30: a binary and a Latin comment meet the hypotheses of `C30_comment_value`. -/
example : ∀ rcom, rcom = 0 ∨ rcom = 1 → ∃ c r l, validateLeaf Sample.env0 (Sample.opts .jp2) 1 none mCOM c = .ok r ∧
    uint c 0 2 = some l ∧ uint c 2 2 = some rcom := by
  rintro rcom (rfl | rfl)
  · obtain ⟨r, h, -⟩ := ok_of (x := validateLeaf Sample.env0 (Sample.opts .jp2) 1 none mCOM
      (Sample.be16 6 ++ Sample.be16 0 ++ [1, 0xff])) (by decide +kernel)
    exact ⟨_, r, 6, h, by decide, by decide⟩
  · obtain ⟨r, h, -⟩ := ok_of (x := validateLeaf Sample.env0 (Sample.opts .jp2) 1 none mCOM
      (Sample.be16 6 ++ Sample.be16 1 ++ [104, 105])) (by decide +kernel)
    exact ⟨_, r, 6, h, by decide, by decide⟩

/-- C31: CAP for parts 2 and 15; a Ccap entry missing. -/
example : Accepted (validateLeaf Sample.env0 (Sample.opts .jph) 1 none mCAP (Sample.be16 10 ++ Sample.be32 0x40020000 ++ Sample.be16 1 ++ Sample.be16 0x2803)) ∧ ¬ Accepted (validateLeaf Sample.env0 (Sample.opts .jph) 1 none mCAP (Sample.be16 8 ++ Sample.be32 0x40020000 ++ Sample.be16 1)) :=
  ⟨accepted_of (by decide +kernel), not_accepted_of (by decide +kernel)⟩

/-- C31: that segment meets the hypotheses of `C31_cap_partial` and of `C31_cap_values`, also those on the
entry for part 15. -/
example : ∃ c r p ccap, 6 ≤ c.length ∧ validateLeaf Sample.env0 (Sample.opts .jph) 1 none mCAP c = .ok r ∧
    uint c 2 4 = some p ∧ bit 17 p = 1 ∧ uint c 8 2 = some ccap := by
  obtain ⟨r, h, -⟩ := ok_of (x := validateLeaf Sample.env0 (Sample.opts .jph) 1 none mCAP
    (Sample.be16 10 ++ Sample.be32 0x40020000 ++ Sample.be16 1 ++ Sample.be16 0x2803)) (by decide +kernel)
  exact ⟨_, r, 0x40020000, 0x2803, by decide, h, by decide, by decide, by decide⟩

/-- C32: PRF with one entry; with an entry of zero. -/
example : Accepted (validateLeaf Sample.env0 (Sample.opts .jp2) 1 none mPRF ([0, 4, 0, 5])) ∧ ¬ Accepted (validateLeaf Sample.env0 (Sample.opts .jp2) 1 none mPRF ([0, 4, 0, 0])) :=
  ⟨accepted_of (by decide +kernel), not_accepted_of (by decide +kernel)⟩

/-- C32: segments with two equal entries meet the hypotheses of `C32_prf_number_partial` and
`C32_cpf_number_partial`. -/
example : ∀ m, m = mPRF ∨ m = mCPF → ∃ r, validateLeaf Sample.env0 (Sample.opts .jp2) 1 none m [0, 6, 0, 5, 0, 5] = .ok r ∧
    uint [0, 6, 0, 5, 0, 5] 0 2 = some 6 ∧ ∀ i < (6 - 2) / 2, uint [0, 6, 0, 5, 0, 5] (2 + 2 * i) 2 = some 5 := by
  rintro m (rfl | rfl)
  · obtain ⟨r, h, -⟩ := ok_of (x := validateLeaf Sample.env0 (Sample.opts .jp2) 1 none mPRF [0, 6, 0, 5, 0, 5]) (by decide +kernel)
    exact ⟨r, h, by decide, by decide⟩
  · obtain ⟨r, h, -⟩ := ok_of (x := validateLeaf Sample.env0 (Sample.opts .jp2) 1 none mCPF [0, 6, 0, 5, 0, 5]) (by decide +kernel)
    exact ⟨r, h, by decide, by decide⟩

/-- C28: QCD and QCC segments for one decomposition level, scalar derived and scalar expounded. -/
example : (∃ c r l s, validateLeaf Sample.env0 (Sample.opts .jp2) 1 none mQCD c = .ok r ∧ uint c 0 2 = some l ∧ uint c 2 1 = some s ∧
      s % 32 = 2 ∧ (l - 5) / 6 = 1) ∧
    ∃ c r l s, validateLeaf Sample.env0 (Sample.opts .jp2) 1 (some 3) mQCC c = .ok r ∧ uint c 0 2 = some l ∧
      uint c (2 + compWidth 3) 1 = some s ∧ s % 32 = 1 := by
  obtain ⟨r, h, -⟩ := ok_of (x := validateLeaf Sample.env0 (Sample.opts .jp2) 1 none mQCD
    (Sample.be16 11 ++ [0x42] ++ List.replicate 8 0x48)) (by decide +kernel)
  obtain ⟨r', h', -⟩ := ok_of (x := validateLeaf Sample.env0 (Sample.opts .jp2) 1 (some 3) mQCC
    (Sample.be16 6 ++ [1, 0x41, 0x48, 0x48])) (by decide +kernel)
  exact ⟨⟨_, r, 11, 0x42, h, by decide, by decide, by decide, by decide⟩,
    _, r', 6, 0x41, h', by decide, by decide, by decide⟩

end Jpy
