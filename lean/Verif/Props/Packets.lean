import Verif.Lemmas.Ends
/-! # Packet lengths in PLT and PLM segments: C12, C13 -/

set_option linter.unusedSimpArgs false

namespace Jpy
open Spec

/-! ## C12 -/

theorem validateLeaf_timeout {env o fuel csiz m c} {t : BoxType} (ht : boxTypeOf m = t) :
    validateLeaf env o fuel csiz m c = .timeout ↔ leaf env o fuel csiz t m c = .timeout := by
  subst ht
  unfold validateLeaf
  cases leaf env o fuel csiz (boxTypeOf m) m c <;> simp [Outcome.bind_ok, Outcome.bind_raised, Outcome.bind_timeout]

theorem parseIpl_timeout {fuel c l i} : parseIpl fuel c l i = .timeout ↔ iplLoop c l fuel i = .timeout := by
  unfold parseIpl
  cases iplLoop c l fuel i <;> simp [Outcome.bind_ok, Outcome.bind_raised, Outcome.bind_timeout]

theorem plt_timeout {fuel c} : plt fuel c = .timeout ↔ iplLoop c (bytesToUShortInt (slice c 0 2)) fuel 3 = .timeout := by
  rw [← parseIpl_timeout]
  unfold plt
  simp only
  cases parseIpl fuel c (bytesToUShortInt (slice c 0 2)) 3 <;>
    simp [Outcome.bind_ok, Outcome.bind_raised, Outcome.bind_timeout]

theorem plm_timeout {fuel c} : plm fuel c = .timeout ↔ iplLoop c (bytesToUShortInt (slice c 0 2)) fuel 4 = .timeout := by
  rw [← parseIpl_timeout]
  unfold plm
  simp only
  cases parseIpl fuel c (bytesToUShortInt (slice c 0 2)) 4 <;>
    simp [Outcome.bind_ok, Outcome.bind_raised, Outcome.bind_timeout]

theorem ipl_iff {c : Bytes} {i : Nat} (h : FieldIs c 0 2 (c.length ≤ ·)) :
    (∃ fuel, iplLoop c (bytesToUShortInt (slice c 0 2)) fuel i ≠ .timeout) ↔ ¬ OpenEnded c i := by
  obtain ⟨l, hl, hle⟩ := h
  rw [u16_at c 0 (x := 0) (y := 2) rfl rfl, hl]
  constructor
  · rintro ⟨fuel, hf⟩ ⟨hi, x, hx, h128⟩
    exact hf (iplLoop_hangs (by simp only [intOf]; omega) hx h128 fuel i hi)
  · intro h
    exact ⟨c.length + 1, ipl_ends h (by omega)⟩

/-- C12, part 1: every other marker segment is parsed in bounded time. -/
theorem C12_others_partial (env : Env) (o : Options) (csiz : Option Int) (m c : Bytes) (h1 : m ≠ PLT)
    (h2 : m ≠ PLM) (fuel : Nat) : validateLeaf env o fuel csiz m c ≠ .timeout := by
  rw [Ne, validateLeaf_timeout rfl]
  have hp : boxTypeOf m ≠ .plt := fun h => h1 ((boxTypeOf_iff (k := mPLT) rfl (by decide) m).1 h)
  have hq : boxTypeOf m ≠ .plm := fun h => h2 ((boxTypeOf_iff (k := mPLM) rfl (by decide) m).1 h)
  exact leaf_ends _ _ _ _ _ _ _ hp hq

/-- C12, part 2: a PLT segment is parsed in bounded time exactly if its packet lengths do not break off
within a length. Missing from the full property: the segments whose lengths do break off. The
hypothesis says that the length field of the segment covers what is there of the segment, which is so
for every segment taken from a codestream. -/
theorem C12_plt_partial (env : Env) (o : Options) (csiz : Option Int) (c : Bytes)
    (h : FieldIs c 0 2 (c.length ≤ ·)) : SegEnds env o csiz PLT c ↔ ¬ OpenEnded c 3 := by
  rw [← ipl_iff h]
  unfold SegEnds
  simp only [Ne, validateLeaf_timeout (t := .plt) (show boxTypeOf PLT = .plt by decide), leaf, plt_timeout]

/-- C12, part 3: the same for PLM segments. -/
theorem C12_plm_partial (env : Env) (o : Options) (csiz : Option Int) (c : Bytes)
    (h : FieldIs c 0 2 (c.length ≤ ·)) : SegEnds env o csiz PLM c ↔ ¬ OpenEnded c 4 := by
  rw [← ipl_iff h]
  unfold SegEnds
  simp only [Ne, validateLeaf_timeout (t := .plm) (show boxTypeOf PLM = .plm by decide), leaf, plm_timeout]

/-- The contents of a PLT segment meet the hypothesis of `C12_plt_partial`, and its list does not break off. -/
example : FieldIs ([0, 5, 0, 0x9f, 0x62] : Bytes) 0 2 (5 ≤ ·) ∧ ¬ OpenEnded [0, 5, 0, 0x9f, 0x62] 3 :=
  ⟨⟨5, by decide, by decide⟩, fun ⟨_, x, h1, h2⟩ => by cases h1; revert h2; decide⟩

/-- Segments of a codestream meet the hypothesis of the last two theorems. -/
theorem C12_hypothesis {b : Bytes} {off : Nat} {m c : Bytes} {n : Nat} (h : SegAt b off m c (some n))
    (hm : m ∉ delimiters) (h2 : 2 ≤ c.length) : FieldIs c 0 2 (c.length ≤ ·) := by
  cases h with
  | alone hd => exact absurd hd hm
  | @seg L hd hl =>
    have h3 : (sub b (off + 2) L).length ≤ L := by rw [length_sub]; omega
    refine ⟨L, ?_, h3⟩
    have h4 : 2 ≤ L := by omega
    rw [← hl]
    unfold uint
    have h5 := uint_some_le hl
    rw [if_pos (by omega), if_pos (by omega)]
    unfold sub
    simp [List.take_take]
    congr 3
    omega

/-- C12, negation: parsing this PLT segment (length 4, index 0, one byte with its high bit set) never
ends, whatever the options. -/
theorem C12_false : ∃ c : Bytes, FieldIs c 0 2 (· = c.length) ∧
    ∀ env o csiz, ¬ SegEnds env o csiz PLT c := by
  refine ⟨[0, 4, 0, 0x80], ⟨4, by decide, rfl⟩, fun env o csiz => ?_⟩
  rw [C12_plt_partial env o csiz _ ⟨4, by decide, by decide⟩, Classical.not_not]
  exact ⟨by decide, 0x80, rfl, by decide⟩

/-! ## C13 -/

/-- C13, exactly: a PLT segment that holds a list of packet lengths is reported as the list of these
lengths modulo 2^14, each with two hexadecimal digits for every byte. -/
theorem C13_plt_values (env : Env) (o : Options) (csiz : Option Int) (len : Bytes) (z : UInt8)
    (es : List Bytes) (hes : ∀ e ∈ es, PacketLength e) (h2 : len.length = 2)
    (hl : be len = 3 + es.flatten.length) : ∃ f0, ∀ fuel, f0 ≤ fuel → ∃ r,
      validateLeaf env o fuel csiz PLT (len ++ [z] ++ es.flatten) = .ok r ∧
      reported r.node "iplt" = [.str (hexList (es.map fun e => (e.length, base128 e % 2 ^ 14)))] := by
  refine ⟨3 + es.flatten.length + 1, fun fuel hf => ?_⟩
  have hc : (len ++ [z] ++ es.flatten).length = 3 + es.flatten.length := by simp [h2]; omega
  have hu : uint (len ++ [z] ++ es.flatten) 0 2 = some (be len) := by
    unfold uint
    rw [if_pos (by omega)]
    unfold sub
    rw [List.drop_zero, List.append_assoc, List.take_left' h2]
  have h0 : bytesToUShortInt (slice (len ++ [z] ++ es.flatten) 0 2) = ((3 + es.flatten.length : Nat) : Int) := by
    rw [u16_at _ 0 (x := 0) (y := 2) rfl rfl, hu, hl]; rfl
  have hp := parseIpl_entries hes (c := len ++ [z] ++ es.flatten) (pre := len ++ [z])
    (l := ((3 + es.flatten.length : Nat) : Int)) rfl (by rw [hc]; exact Int.le_refl _) (fuel := fuel) (by omega)
  have h3 : (len ++ [z]).length = 3 := by simp [h2]
  rw [h3] at hp
  have hleaf : leaf env o fuel csiz .plt PLT (len ++ [z] ++ es.flatten) = plt fuel (len ++ [z] ++ es.flatten) := rfl
  unfold plt at hleaf
  simp only [h0, hp, Outcome.bind_ok] at hleaf
  refine ⟨_, (validateLeaf_ok (t := .plt) (by decide)).2 ⟨_, hleaf, rfl⟩, ?_⟩
  rw [reported_run]
  rfl

/-- C13, exactly, for PLM segments with the packet lengths of one tile-part. -/
theorem C13_plm_values (env : Env) (o : Options) (csiz : Option Int) (len : Bytes) (z n : UInt8)
    (es : List Bytes) (hes : ∀ e ∈ es, PacketLength e) (h2 : len.length = 2)
    (hl : be len = 4 + es.flatten.length) : ∃ f0, ∀ fuel, f0 ≤ fuel → ∃ r,
      validateLeaf env o fuel csiz PLM (len ++ [z, n] ++ es.flatten) = .ok r ∧
      reported r.node "iplm" = [.str (hexList (es.map fun e => (e.length, base128 e % 2 ^ 14)))] := by
  refine ⟨4 + es.flatten.length + 1, fun fuel hf => ?_⟩
  have hc : (len ++ [z, n] ++ es.flatten).length = 4 + es.flatten.length := by simp [h2]; omega
  have hu : uint (len ++ [z, n] ++ es.flatten) 0 2 = some (be len) := by
    unfold uint
    rw [if_pos (by omega)]
    unfold sub
    rw [List.drop_zero, List.append_assoc, List.take_left' h2]
  have h0 : bytesToUShortInt (slice (len ++ [z, n] ++ es.flatten) 0 2) = ((4 + es.flatten.length : Nat) : Int) := by
    rw [u16_at _ 0 (x := 0) (y := 2) rfl rfl, hu, hl]; rfl
  have hp := parseIpl_entries hes (c := len ++ [z, n] ++ es.flatten) (pre := len ++ [z, n])
    (l := ((4 + es.flatten.length : Nat) : Int)) rfl (by rw [hc]; exact Int.le_refl _) (fuel := fuel) (by omega)
  have h3 : (len ++ [z, n]).length = 4 := by simp [h2]
  rw [h3] at hp
  have hleaf : leaf env o fuel csiz .plm PLM (len ++ [z, n] ++ es.flatten) = plm fuel (len ++ [z, n] ++ es.flatten) := rfl
  unfold plm at hleaf
  simp only [h0, hp, Outcome.bind_ok] at hleaf
  refine ⟨_, (validateLeaf_ok (t := .plm) (by decide)).2 ⟨_, hleaf, rfl⟩, ?_⟩
  rw [reported_run]
  rfl

theorem mod_small {es : List Bytes} (hsmall : ∀ e ∈ es, base128 e < 2 ^ 14) :
    (es.map fun e => (e.length, base128 e % 2 ^ 14)) = es.map fun e => (e.length, base128 e) := by
  apply List.map_congr_left
  intro e he
  rw [Nat.mod_eq_of_lt (hsmall e he)]

/-- C13: packet lengths below 2^14 are reported correctly. Missing from the full property: longer
packets. -/
theorem C13_plt_partial (env : Env) (o : Options) (csiz : Option Int) (len : Bytes) (z : UInt8)
    (es : List Bytes) (hes : ∀ e ∈ es, PacketLength e) (h2 : len.length = 2)
    (hl : be len = 3 + es.flatten.length) (hsmall : ∀ e ∈ es, base128 e < 2 ^ 14) :
    ∃ f0, ∀ fuel, f0 ≤ fuel → ∃ r,
      validateLeaf env o fuel csiz PLT (len ++ [z] ++ es.flatten) = .ok r ∧
      reported r.node "iplt" = [.str (hexList (es.map fun e => (e.length, base128 e)))] := by
  rw [← mod_small hsmall]
  exact C13_plt_values env o csiz len z es hes h2 hl

/-- C13 for PLM segments. -/
theorem C13_plm_partial (env : Env) (o : Options) (csiz : Option Int) (len : Bytes) (z n : UInt8)
    (es : List Bytes) (hes : ∀ e ∈ es, PacketLength e) (h2 : len.length = 2)
    (hl : be len = 4 + es.flatten.length) (hsmall : ∀ e ∈ es, base128 e < 2 ^ 14) :
    ∃ f0, ∀ fuel, f0 ≤ fuel → ∃ r,
      validateLeaf env o fuel csiz PLM (len ++ [z, n] ++ es.flatten) = .ok r ∧
      reported r.node "iplm" = [.str (hexList (es.map fun e => (e.length, base128 e)))] := by
  rw [← mod_small hsmall]
  exact C13_plm_values env o csiz len z n es hes h2 hl

/-- The example of the code comment: `0C, 9F 62, 7C` is reported as `0C,0FE2,7C`. -/
example : (∀ e ∈ [[0x0C], [0x9F, 0x62], [0x7C]], PacketLength e) ∧
    be [0, 7] = 3 + ([[0x0C], [0x9F, 0x62], [0x7C]] : List Bytes).flatten.length ∧
    hexList ([[0x0C], [0x9F, 0x62], [0x7C]].map fun e => (e.length, base128 e)) = "0C,0FE2,7C" := by
  refine ⟨?_, by decide, by decide⟩
  intro e he
  simp only [List.mem_cons, List.not_mem_nil, or_false] at he
  rcases he with rfl | rfl | rfl
  · exact ⟨[], 0x0C, rfl, by decide, by decide⟩
  · exact ⟨[0x9F], 0x62, rfl, by decide, by decide⟩
  · exact ⟨[], 0x7C, rfl, by decide, by decide⟩

/-- C13, negation: the packet length 16384, encoded in three bytes, is reported as zero. -/
theorem C13_false : ∃ c e : Bytes, PacketLength e ∧ base128 e = 16384 ∧ c = [0, 6, 0] ++ e ∧
    ∀ env o csiz, ∃ fuel r, validateLeaf env o fuel csiz PLT c = .ok r ∧
      reported r.node "iplt" = [.str "000000"] := by
  have he : PacketLength [0x81, 0x80, 0x00] := ⟨[0x81, 0x80], 0, rfl, by decide, by decide⟩
  refine ⟨_, [0x81, 0x80, 0x00], he, by decide, rfl, fun env o csiz => ?_⟩
  obtain ⟨f0, h⟩ := C13_plt_values env o csiz [0, 6] 0 [[0x81, 0x80, 0x00]] (by simpa using he) rfl (by decide)
  obtain ⟨r, h1, h2⟩ := h f0 (Nat.le_refl _)
  exact ⟨f0, r, h1, h2⟩

end Jpy
