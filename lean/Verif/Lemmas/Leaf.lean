import Verif.Lemmas.Basic
import Verif.Spec.Segments
/-! # Lemmas about leaf validators: when do all tests of a list of statements pass -/

namespace Jpy
open Spec

/-- Every test in a list of statements has the result true. -/
def allTrue (ss : List Step) : Bool := (testsOf ss).all (·.2)

theorem allTrue_nil : allTrue [] = true := rfl
theorem allTrue_test (n r ss) : allTrue (.test n r :: ss) = (r && allTrue ss) := rfl
theorem allTrue_char (n v ss) : allTrue (.char n v :: ss) = allTrue ss := rfl
theorem allTrue_warn (m ss) : allTrue (.warn m :: ss) = allTrue ss := rfl
theorem allTrue_elem (e ss) : allTrue (.elem e :: ss) = allTrue ss := rfl
theorem allTrue_append (a b) : allTrue (a ++ b) = (allTrue a && allTrue b) := by
  simp [allTrue, testsOf_append]

theorem allTrue_flatMap {α : Type} (l : List α) (f : α → List Step) :
    allTrue (l.flatMap f) = true ↔ ∀ x ∈ l, allTrue (f x) = true := by
  induction l with
  | nil => simp [allTrue_nil]
  | cons x l ih => simp [allTrue_append, ih]

theorem allTrue_map_char {α : Type} (l : List α) (n : α → String) (v : α → PyVal) :
    allTrue (l.map fun x => Step.char (n x) (v x)) = true := by
  induction l with
  | nil => rfl
  | cons x l ih => simpa [allTrue_char] using ih

theorem allTrue_map_test {α : Type} (l : List α) (n : α → String) (v : α → Bool) :
    allTrue (l.map fun x => Step.test (n x) (v x)) = true ↔ ∀ x ∈ l, v x = true := by
  induction l with
  | nil => simp [allTrue_nil]
  | cons x l ih => simp [allTrue_test, ih]

theorem allTrue_flatMap_range (n : Nat) (f : Nat → List Step) :
    allTrue ((List.range n).flatMap f) = true ↔ ∀ i < n, allTrue (f i) = true := by
  simp [allTrue_flatMap]

/-- Accepting a leaf means all its tests pass. -/
theorem noFailure_run (v : Bool) (ss : List Step) :
    NoFailure (Node.run v {} ss).tests ↔ allTrue ss = true := by
  rw [← isValid_iff, isValid_run]; rfl

theorem accepted_leaf (env o fuel csiz bType c) {t : BoxType} (ht : boxTypeOf bType = t) :
    Accepted (validateLeaf env o fuel csiz bType c) ↔
      ∃ ss, leaf env o fuel csiz t bType c = .ok ss ∧ allTrue ss = true := by
  subst ht
  unfold validateLeaf Accepted
  constructor
  · rintro ⟨r, h, hn⟩
    obtain ⟨ss, h1, h2⟩ := Outcome.bind_eq_ok.1 h
    cases h2
    exact ⟨ss, h1, (noFailure_run _ _).1 hn⟩
  · rintro ⟨ss, h1, h2⟩
    rw [h1]
    exact ⟨_, rfl, (noFailure_run _ _).2 h2⟩

theorem accepted_leaf_ok (env o fuel csiz bType c) {t : BoxType} (ht : boxTypeOf bType = t)
    {ss : List Step} (h : leaf env o fuel csiz t bType c = .ok ss) :
    Accepted (validateLeaf env o fuel csiz bType c) ↔ allTrue ss = true := by
  rw [accepted_leaf env o fuel csiz bType c ht, h]
  simp

/-! ## Fields as the code sees them -/

theorem between_iff {lo x hi : Int} : between lo x hi = true ↔ lo ≤ x ∧ x ≤ hi := by
  rw [between, decide_eq_true_eq]

theorem between_false_iff {lo x hi : Int} : between lo x hi = false ↔ ¬ (lo ≤ x ∧ x ≤ hi) := by
  rw [between, decide_eq_false_iff_not]

theorem between_intOf {lo hi : Int} {o : Option Nat} (h : -9999 < lo) :
    between lo (intOf o) hi = true ↔ ∃ v : Nat, o = some v ∧ lo ≤ v ∧ (v : Int) ≤ hi := by
  rw [between, decide_eq_true_eq]
  cases o with
  | none => simp only [intOf, reduceCtorEq, false_and, exists_false, iff_false]; omega
  | some v => simp [intOf]

theorem intOf_eq {k : Int} {o : Option Nat} (h : 0 ≤ k) :
    intOf o = k ↔ o = some k.toNat := by
  cases o with
  | none => simp [intOf]; omega
  | some v => simp [intOf]; omega

theorem intOf_mem {l : List Nat} {o : Option Nat} :
    intOf o ∈ l.map (fun (n : Nat) => (n : Int)) ↔ ∃ v, o = some v ∧ v ∈ l := by
  cases o with
  | none =>
    simp only [intOf, List.mem_map, reduceCtorEq, false_and, exists_false, iff_false, not_exists,
      not_and]
    intro x _ hx; omega
  | some v =>
    simp only [intOf, List.mem_map, Int.natCast_inj, exists_eq_right, Option.some.injEq,
      exists_eq_left']

theorem exists_uint_iff {b : Bytes} {off n : Nat} {p : Nat → Prop} :
    (∃ v, uint b off n = some v ∧ p v) ↔ FieldIs b off n p := Iff.rfl

theorem fieldIs_congr {b : Bytes} {off n : Nat} {p q : Nat → Prop}
    (h : ∀ v, v < 256 ^ n → uint b off n = some v → (p v ↔ q v)) :
    FieldIs b off n p ↔ FieldIs b off n q := by
  constructor
  · rintro ⟨v, h1, h2⟩; exact ⟨v, h1, (h v (uint_lt h1) h1).1 h2⟩
  · rintro ⟨v, h1, h2⟩; exact ⟨v, h1, (h v (uint_lt h1) h1).2 h2⟩

theorem fieldIs_eq {b : Bytes} {off n k : Nat} :
    uint b off n = some k ↔ FieldIs b off n (· = k) := by
  simp [FieldIs]

theorem uint_sub {b : Bytes} {off n k m : Nat} (h : k + m ≤ n) (hm : 0 < m) :
    uint (sub b off n) k m = uint b (off + k) m := by
  unfold uint
  rw [length_sub]
  by_cases hl : off + k + m ≤ b.length
  · rw [if_pos (by omega), if_pos hl]
    congr 2
    unfold Spec.sub
    rw [List.drop_take, List.drop_drop, List.take_take]
    congr 1
    omega
  · rw [if_neg (by omega), if_neg hl]

theorem allTrue_quantSteps (c qStyle levels offset) :
    allTrue (quantSteps c qStyle levels offset) = true := by
  unfold quantSteps
  split
  · exact allTrue_map_char ..
  split
  · rfl
  split
  · rw [allTrue_flatMap]; intro i _; rfl
  · rfl

/-- Turn a field that does not exist into a trivial goal. -/
macro "fld0" h:term : tactic =>
  `(tactic| simp [FieldIs, $h:term, intOf, between_iff])

/-- Finish a goal about existing fields by linear arithmetic. -/
macro "fldω" "[" hs:Lean.Parser.Tactic.simpLemma,* "]" : tactic =>
  `(tactic| (simp only [FieldIs, intOf, between_iff, between_false_iff, Option.some.injEq,
      exists_eq_left', exists_eq', decide_eq_true_eq, decide_eq_false_iff_not, Bool.not_eq_true', true_or,
      or_true, false_or, or_false, true_and, and_true, Bool.false_eq_true, if_false, if_true,
      true_implies, false_implies, reduceIte, Bool.or_eq_true, Bool.and_eq_true, $hs,*]
             <;> omega))

theorem allTrue_ite {p : Prop} [Decidable p] (a b : List Step) :
    allTrue (if p then a else b) = if p then allTrue a else allTrue b := by
  split <;> rfl

theorem allTrue_codeBlockSteps (fmt : Format) (c : Bytes) (off : Nat) :
    allTrue (codeBlockSteps fmt c (off : Int)) = true ↔ CodeBlocksOk c off := by
  unfold codeBlockSteps CodeBlocksOk
  simp only [allTrue_append, allTrue_test, allTrue_char, allTrue_nil, allTrue_ite, Bool.and_true,
    Bool.and_eq_true, decide_eq_true_eq, ite_self, List.mem_cons, List.not_mem_nil, or_false]
  simp (disch := omega) only [u8_slice]
  have e1 : ((off : Int) + 1).toNat = off + 1 := by omega
  have e3 : ((off : Int) + 3).toNat = off + 3 := by omega
  rw [e1, e3, Int.toNat_natCast]
  rcases h0 : uint c off 1 with _ | v0
  · fld0 h0
  rcases h1 : uint c (off + 1) 1 with _ | v1
  · fld0 h1
  rcases h3 : uint c (off + 3) 1 with _ | v3
  · fld0 h3
  fldω [h0, h1, h3]

theorem two_le_pow {n : Int} : (2 : Int) ^ n.toNat ≥ 2 ↔ 1 ≤ n := by
  obtain h | h : n ≤ 0 ∨ 1 ≤ n := by omega
  · have : n.toNat = 0 := by omega
    rw [this]; simp; omega
  · obtain ⟨k, hk⟩ : ∃ k, n.toNat = k + 1 := ⟨n.toNat - 1, by omega⟩
    rw [hk, Int.pow_succ]
    have : (0 : Int) < 2 ^ k := Int.pow_pos (by decide)
    omega

theorem allTrue_precinctSteps (c : Bytes) (off : Nat) (p : Int) (levels : Nat) :
    allTrue (precinctSteps c (off : Int) p (levels : Int)) = true ↔
      (p = 1 → PrecinctsOk c off levels) := by
  unfold precinctSteps
  split
  · rename_i hp
    simp only [hp, true_implies, allTrue_flatMap_range, allTrue_test, allTrue_char, allTrue_nil,
      Bool.and_true, Bool.and_eq_true, PrecinctsOk, rangeLen]
    have key : ∀ i : Nat, ((if i ≠ 0 then
          decide ((2 : Int) ^ (low (bytesToUnsignedChar (slice c (off + i) (off + i + 1))) 4).toNat ≥ 2)
          else true) = true ∧ (if i ≠ 0 then
          decide ((2 : Int) ^ (low (shr (bytesToUnsignedChar
            (slice c (off + i) (off + i + 1))) 4) 4).toNat ≥ 2) else true) = true) ↔
        (1 ≤ i → ∀ v, uint c (off + i) 1 = some v → 1 ≤ v % 16 ∧ 1 ≤ v / 16) := by
      intro i
      by_cases hi : i = 0
      · simp [hi]
      rw [if_pos hi, if_pos hi, decide_eq_true_eq, decide_eq_true_eq, two_le_pow, two_le_pow,
        u8_slice c (by omega) (by omega)]
      have e : ((off : Int) + (i : Int)).toNat = off + i := by omega
      rw [e]
      unfold low shr
      rcases h : uint c (off + i) 1 with _ | v
      · simp [intOf]
      · have := uint_lt h
        simp only [intOf, Option.some.injEq, forall_eq']
        omega
    constructor
    · intro h i h1 h2 v hv
      exact (key i).1 (h i (by omega)) h1 v hv
    · intro h i hi
      exact (key i).2 (fun h1 v hv => h i h1 (by omega) v hv)
  · rename_i hp
    simp only [hp, false_implies, iff_true]
    rw [allTrue_flatMap]; intro i _; rfl

theorem allTrue_codeBlocks (fmt : Format) (c : Bytes) {off : Int} (h : 0 ≤ off) :
    allTrue (codeBlockSteps fmt c off) = true ↔ CodeBlocksOk c off.toNat := by
  obtain ⟨n, rfl⟩ := Int.eq_ofNat_of_zero_le h
  exact allTrue_codeBlockSteps fmt c n

theorem allTrue_precincts (c : Bytes) {off : Int} (p : Int) (levels : Nat) (h : 0 ≤ off) :
    allTrue (precinctSteps c off p (levels : Int)) = true ↔
      (p = 1 → PrecinctsOk c off.toNat levels) := by
  obtain ⟨n, rfl⟩ := Int.eq_ofNat_of_zero_le h
  exact allTrue_precinctSteps c n p levels

theorem uint_exists {b : Bytes} {off n v off' n' : Nat} (h : uint b off n = some v)
    (hle : off' + n' ≤ off + n) : ∃ w, uint b off' n' = some w := by
  unfold uint at h ⊢
  split at h
  · exact ⟨_, if_pos (by omega)⟩
  · cases h

theorem low_mod (n : Nat) (k : Nat) : low (n : Int) k = ((n % 2 ^ k : Nat) : Int) := by
  simp [low]

theorem shr_div (n : Nat) (k : Nat) : shr (n : Int) k = ((n / 2 ^ k : Nat) : Int) := by
  simp [shr]

theorem getBitValue_nat (n p w : Nat) :
    getBitValue (n : Int) p w = ((bit (w - p) n : Nat) : Int) := by
  unfold getBitValue bit
  rw [shr_div, low_mod]

theorem u8_at (b : Bytes) (i : Nat) {x y : Int} (hx : x = i) (hy : y = x + 1) :
    bytesToUnsignedChar (slice b x y) = intOf (uint b i 1) := by
  subst hx; rw [u8_slice b (by omega) hy]; simp
theorem u16_at (b : Bytes) (i : Nat) {x y : Int} (hx : x = i) (hy : y = x + 2) :
    bytesToUShortInt (slice b x y) = intOf (uint b i 2) := by
  subst hx; rw [u16_slice b (by omega) hy]; simp
theorem u32_at (b : Bytes) (i : Nat) {x y : Int} (hx : x = i) (hy : y = x + 4) :
    bytesToUInt (slice b x y) = intOf (uint b i 4) := by
  subst hx; rw [u32_slice b (by omega) hy]; simp

theorem allTrue_pocEntry (csiz : Int) (c : Bytes) (off : Nat) :
    allTrue (pocEntry csiz c (off : Int)) = true ↔ PocEntryOk csiz c off := by
  unfold pocEntry PocEntryOk compWidth
  by_cases hc : csiz < 257 <;>
    simp only [hc, if_true, if_false, allTrue_test, allTrue_char, allTrue_nil, Bool.and_true,
      Bool.and_eq_true, Bool.or_eq_true, decide_eq_true_eq, List.mem_cons, List.not_mem_nil, or_false]
  · rw [u8_at c off (by omega) (by omega), u8_at c (off + 1) (by omega) (by omega),
      u16_at c (off + 1 + 1) (by omega) (by omega), u8_at c (off + 3 + 1) (by omega) (by omega),
      u8_at c (off + 4 + 1) (by omega) (by omega), u8_at c (off + 4 + 2 * 1) (by omega) (by omega)]
    rcases h0 : uint c off 1 with _ | v0
    · fld0 h0
    rcases h1 : uint c (off + 1) 1 with _ | v1
    · fld0 h1
    rcases h2 : uint c (off + 1 + 1) 2 with _ | v2
    · fld0 h2
    rcases h3 : uint c (off + 3 + 1) 1 with _ | v3
    · simp [FieldIs, h0, h3, intOf, between_iff]; intros; omega
    rcases h4 : uint c (off + 4 + 1) 1 with _ | v4
    · simp [FieldIs, h1, h4, intOf, between_iff]; intros; omega
    rcases h5 : uint c (off + 4 + 2 * 1) 1 with _ | v5
    · fld0 h5
    have := uint_lt h1; have := uint_lt h2; have := uint_lt h4
    fldω [h0, h1, h2, h3, h4, h5]
  · rw [u8_at c off (by omega) (by omega), u16_at c (off + 1) (by omega) (by omega),
      u16_at c (off + 1 + 2) (by omega) (by omega), u8_at c (off + 3 + 2) (by omega) (by omega),
      u16_at c (off + 4 + 2) (by omega) (by omega), u8_at c (off + 4 + 2 * 2) (by omega) (by omega)]
    rcases h0 : uint c off 1 with _ | v0
    · fld0 h0
    rcases h1 : uint c (off + 1) 2 with _ | v1
    · fld0 h1
    rcases h2 : uint c (off + 1 + 2) 2 with _ | v2
    · fld0 h2
    rcases h3 : uint c (off + 3 + 2) 1 with _ | v3
    · simp [FieldIs, h0, h3, intOf, between_iff]; intros; omega
    rcases h4 : uint c (off + 4 + 2) 2 with _ | v4
    · simp [FieldIs, h1, h4, intOf, between_iff]; intros; omega
    rcases h5 : uint c (off + 4 + 2 * 2) 1 with _ | v5
    · fld0 h5
    have := uint_lt h1; have := uint_lt h2; have := uint_lt h4
    fldω [h0, h1, h2, h3, h4, h5]

/-! ## Reported values -/

/-- The values a list of statements reports under a tag. -/
def repOf (tag : String) : List Step → List PyVal
  | [] => []
  | .char name v :: ss => bif name == tag then v :: repOf tag ss else repOf tag ss
  | .elem e :: ss => bif e.tag == tag then e.text :: repOf tag ss else repOf tag ss
  | .test _ _ :: ss => repOf tag ss
  | .warn _ :: ss => repOf tag ss

theorem repOf_nil (tag) : repOf tag [] = [] := rfl
theorem repOf_char (tag n v ss) :
    repOf tag (.char n v :: ss) = bif n == tag then v :: repOf tag ss else repOf tag ss := rfl
theorem repOf_elem (tag e ss) :
    repOf tag (.elem e :: ss) = bif e.tag == tag then e.text :: repOf tag ss else repOf tag ss := rfl
theorem repOf_test (tag n r ss) : repOf tag (.test n r :: ss) = repOf tag ss := rfl
theorem repOf_warn (tag m ss) : repOf tag (.warn m :: ss) = repOf tag ss := rfl

theorem repOf_append (tag a b) : repOf tag (a ++ b) = repOf tag a ++ repOf tag b := by
  induction a with
  | nil => rfl
  | cons s a ih =>
    cases s with
    | char n v => simp only [List.cons_append, repOf, ih]; cases n == tag <;> rfl
    | elem e => simp only [List.cons_append, repOf, ih]; cases e.tag == tag <;> rfl
    | test => simp only [List.cons_append, repOf, ih]
    | warn => simp only [List.cons_append, repOf, ih]

theorem repOf_ite (tag) {p : Prop} [Decidable p] (a b : List Step) :
    repOf tag (if p then a else b) = if p then repOf tag a else repOf tag b := by
  split <;> rfl

theorem repOf_flatMap {α : Type} (tag) (l : List α) (f : α → List Step) :
    repOf tag (l.flatMap f) = l.flatMap fun x => repOf tag (f x) := by
  induction l with
  | nil => rfl
  | cons x l ih => simp [repOf_append, ih]

theorem repOf_map {α : Type} (tag) (l : List α) (f : α → Step) :
    repOf tag (l.map f) = l.flatMap fun x => repOf tag [f x] := by
  induction l with
  | nil => rfl
  | cons x l ih =>
    rw [List.map_cons, List.flatMap_cons, ← ih, ← repOf_append]; rfl

theorem flatMap_const_nil {α β : Type} (l : List α) : (l.flatMap fun _ => ([] : List β)) = [] := by
  induction l <;> simp_all

theorem flatMap_singleton {α β : Type} (l : List α) (f : α → β) :
    (l.flatMap fun x => [f x]) = l.map f := by
  induction l <;> simp_all

theorem reported_run (v : Bool) (ss : List Step) (tag : String) :
    reported (Node.run v {} ss) tag = repOf tag ss := by
  unfold reported
  rw [run_chars]
  simp only [List.nil_append]
  induction ss with
  | nil => rfl
  | cons s ss ih =>
    cases s with
    | char n v =>
      simp only [charsOf, repOf, List.filter_cons, Elem.tag_leaf]
      by_cases h : (n == tag) = true <;> simp [h, ih]
    | elem e =>
      simp only [charsOf, repOf, List.filter_cons]
      by_cases h : (e.tag == tag) = true <;> simp [h, ih]
    | test n r => simpa [charsOf, repOf] using ih
    | warn m => simpa [charsOf, repOf] using ih

theorem validateLeaf_ok {env o fuel csiz bType c r} {t : BoxType} (ht : boxTypeOf bType = t) :
    validateLeaf env o fuel csiz bType c = .ok r ↔
      ∃ ss, leaf env o fuel csiz t bType c = .ok ss ∧ r = ⟨t.name, Node.run o.verbose {} ss, none⟩ := by
  subst ht
  unfold validateLeaf
  constructor
  · intro h
    obtain ⟨ss, h1, h2⟩ := Outcome.bind_eq_ok.1 h
    cases h2
    exact ⟨ss, h1, rfl⟩
  · rintro ⟨ss, h1, rfl⟩
    rw [h1]; rfl

theorem ceilDiv_isCeil (a : Int) {b : Int} (h : 0 < b) : IsCeil a b (ceilDiv a b) := by
  unfold IsCeil ceilDiv
  have h1 := Int.mul_fdiv_add_fmod (-a) b
  have h2 := Int.fmod_nonneg_of_pos (-a) h
  have h3 := Int.fmod_lt_of_pos (-a) h
  generalize (-a).fdiv b = q at *
  have : b * (-q - 1) = -(b*q) - b := by rw [Int.mul_sub, Int.mul_neg, Int.mul_one]
  have h5 : b * -q = -(b*q) := Int.mul_neg ..
  rw [this, h5]
  omega

/-- Compute the values reported under a tag by a literal list of statements. -/
macro "rep" : tactic =>
  `(tactic| simp only [repOf_append, repOf_nil, repOf_char, repOf_test, repOf_warn, repOf_ite,
      repOf_flatMap, repOf_map, String.reduceBEq, cond_true, cond_false, BEq.rfl, flatMap_const_nil,
      flatMap_singleton, List.nil_append, List.append_nil, List.append_assoc, List.cons_append])

theorem sizCapability_missing : sizCapability (-9999) = none := by decide +kernel

theorem sizCapability_isSome (v : Nat) (h : v < 65536) :
    (sizCapability (v : Int)).isSome = true ↔ RsizDefined v := by
  unfold sizCapability RsizDefined
  simp only [shr_div, low_mod]
  generalize e1 : v / 16384 % 16 = ext
  generalize e2 : v / 256 % 16 = prof
  generalize e3 : v / 16 % 16 = sl
  generalize e4 : v % 16 = ml
  have : ext = v / 16384 := by omega
  simp only [apply_ite Option.isSome, Option.isSome_some, Option.isSome_none, ite_self]
  by_cases h1 : (ext : Int) = 1 <;> by_cases h2 : (ext : Int) = 2 <;>
    by_cases h3 : (ext : Int) = 3 <;> by_cases h4 : (prof : Int) = 0 <;>
    by_cases h5 : (prof : Int) = 8 <;> simp [h1, h2, h3, h4, h5] <;> omega

theorem repOf_precincts (c : Bytes) (off style levels : Nat) :
    (repOf "precinctSizeX" (precinctSteps c off (getBitValue (style : Int) 8) levels)).length
        = levels + 1 ∧
    (repOf "precinctSizeY" (precinctSteps c off (getBitValue (style : Int) 8) levels)).length
        = levels + 1 ∧
    ∀ i ≤ levels,
      (bit 0 style = 1 → ∀ v, uint c (off + i) 1 = some v →
        (repOf "precinctSizeX" (precinctSteps c off (getBitValue (style : Int) 8) levels))[i]?
          = some (.int (2 ^ (v % 16))) ∧
        (repOf "precinctSizeY" (precinctSteps c off (getBitValue (style : Int) 8) levels))[i]?
          = some (.int (2 ^ (v / 16)))) ∧
      (bit 0 style = 0 →
        (repOf "precinctSizeX" (precinctSteps c off (getBitValue (style : Int) 8) levels))[i]?
          = some (.int 32768) ∧
        (repOf "precinctSizeY" (precinctSteps c off (getBitValue (style : Int) 8) levels))[i]?
          = some (.int 32768)) := by
  rw [getBitValue_nat]
  simp only [Nat.sub_self, precinctSteps]
  by_cases hb : bit 0 style = 1
  · have e : ((bit 0 style : Nat) : Int) = 1 := by omega
    simp only [e, if_true]
    rep
    simp only [List.length_map, List.length_range, rangeLen, List.getElem?_map]
    refine ⟨by omega, by omega, fun i hi => ⟨fun _ v hv => ?_, fun h => by omega⟩⟩
    rw [List.getElem?_range (by omega)]
    simp only [Option.map_some, Option.some.injEq, PyVal.int.injEq]
    rw [u8_at c (off + i) (by omega) (by omega), hv]
    simp only [intOf]
    have := uint_lt hv
    rw [shr_div, low_mod, low_mod, Int.toNat_natCast, Int.toNat_natCast]
    simp only [Nat.reducePow, true_and]
    rw [Nat.mod_eq_of_lt (by omega : v / 16 < 16)]
  · have e : ¬ ((bit 0 style : Nat) : Int) = 1 := by omega
    simp only [e, if_false]
    rep
    simp only [List.length_map, List.length_range, rangeLen, List.getElem?_map]
    refine ⟨by omega, by omega, fun i hi => ⟨fun h => absurd h hb, fun _ => ?_⟩⟩
    rw [List.getElem?_range (by omega)]
    simp

theorem repOf_codeBlocks (fmt : Format) (c : Bytes) (off : Int) :
    repOf "precinctSizeX" (codeBlockSteps fmt c off) = [] ∧
    repOf "precinctSizeY" (codeBlockSteps fmt c off) = [] := by
  unfold codeBlockSteps
  rep
  split <;> simp

theorem rangeLen_intDiv (l k m : Nat) : rangeLen (intDiv ((l : Int) - k) m) = (l - k) / m := by
  unfold rangeLen intDiv
  by_cases h : k ≤ l
  · rw [show (l : Int) - k = ((l - k : Nat) : Int) by omega, ← Int.ofNat_tdiv, Int.toNat_natCast]
  · rw [show (l : Int) - k = -((k - l : Nat) : Int) by omega, Int.neg_tdiv, ← Int.ofNat_tdiv,
      show l - k = 0 by omega, Nat.zero_div]
    generalize (k - l) / m = q
    omega

end Jpy
