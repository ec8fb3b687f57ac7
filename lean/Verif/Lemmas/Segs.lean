import Verif.Lemmas.Super
/-! # The header loops visit exactly the marker segments of the specification -/

namespace Jpy
open Spec

theorem segAt_unique {b : Bytes} {off : Nat} {m c n m' c' n'} (h : SegAt b off m c n)
    (h' : SegAt b off m' c' n') : m = m' ∧ c = c' ∧ n = n' := by
  cases h <;> cases h' <;> simp_all

theorem segAt_marker {b : Bytes} {off : Nat} {m c n} (h : SegAt b off m c n) : m = sub b off 2 := by
  cases h <;> rfl

theorem segAt_next {b : Bytes} {off n : Nat} {m c} (h : SegAt b off m c (some n)) : off + 2 ≤ n := by
  cases h <;> omega

theorem segAt_some_le {b : Bytes} {off n : Nat} {m c} (h : SegAt b off m c (some n)) :
    off + 2 ≤ b.length := by
  cases h with
  | alone hm =>
    have : (sub b off 2).length = 2 := by
      simp only [delimiters, List.mem_cons, List.not_mem_nil, or_false] at hm
      rcases hm with h | h | h | h <;> rw [h] <;> rfl
    rw [length_sub] at this
    omega
  | seg _ hl =>
    have := uint_some_le hl
    omega

/-- `_getMarkerSegment` finds the segment of the specification. -/
theorem getMarkerSegment_spec (b : Bytes) (off : Nat) :
    ∃ n, SegAt b off (getMarkerSegment b off).marker (getMarkerSegment b off).contents n ∧
      (getMarkerSegment b off).next = intOf n := by
  unfold getMarkerSegment
  simp only
  rw [slice_at b off 2 (x := (off : Int)) (y := (off : Int) + 2) rfl rfl,
    u16_at b (off + 2) (x := (off : Int) + 2) (y := (off : Int) + 4) (by omega) (by omega)]
  have hd : [mSOC, mSOD, mEOC, mEPH] = delimiters := rfl
  rw [hd]
  by_cases hm : sub b off 2 ∈ delimiters
  · simp only [hm, if_true]
    refine ⟨some (off + 2), ?_, ?_⟩
    · have : slice b ((off : Int) + 2) ((off : Int) + 2 + 0) = [] := by
        rw [slice_at b (off + 2) 0 (x := (off : Int) + 2) (by omega) (by omega)]
        simp [Spec.sub]
      rw [this]
      exact .alone hm
    · rw [if_neg (by decide)]; simp [intOf]
  · simp only [hm, if_false]
    cases hL : uint b (off + 2) 2 with
    | none =>
      refine ⟨none, ?_, by simp [intOf]⟩
      have hlen := uint_none hL
      have : slice b ((off : Int) + 2) ((off : Int) + 2 + intOf none) = [] := by
        unfold slice
        have h1 : b.length ≤ sliceIdx b.length ((off : Int) + 2) ∨
            sliceIdx b.length ((off : Int) + 2 + intOf none) ≤ sliceIdx b.length ((off : Int) + 2) := by
          unfold sliceIdx intOf
          simp only
          split <;> split <;> omega
        rcases h1 with h1 | h1
        · rw [List.drop_of_length_le h1]; simp
        · rw [Nat.sub_eq_zero_of_le h1]; simp
      rw [this]
      exact .noLength hm hL
    | some L =>
      refine ⟨some (off + 2 + L), ?_, ?_⟩
      · rw [slice_at b (off + 2) L (x := (off : Int) + 2) (by omega) (by simp [intOf])]
        exact .seg hm hL
      · have hne : (L : Int) ≠ -9999 := by omega
        simp only [intOf, hne, if_false]
        omega

theorem segsTo_unique {b stop : Bytes} {off : Nat} {ss e ss' e'} (h : SegsTo b stop off ss e)
    (h' : SegsTo b stop off ss' e') : ss = ss' ∧ e = e' := by
  induction h generalizing ss' e' with
  | found hs =>
    cases h' with
    | found => exact ⟨rfl, rfl⟩
    | step hs' hm => exact absurd (segAt_unique hs hs').1.symm hm
    | broken hs' hm => exact absurd (segAt_unique hs hs').1.symm hm
  | step hs hm _ ih =>
    cases h' with
    | found hs' => exact absurd (segAt_unique hs hs').1 hm
    | step hs' _ h2 =>
      obtain ⟨rfl, rfl, hn⟩ := segAt_unique hs hs'
      cases hn
      obtain ⟨rfl, rfl⟩ := ih h2
      exact ⟨rfl, rfl⟩
    | broken hs' _ => have := (segAt_unique hs hs').2.2; cases this
  | broken hs hm =>
    cases h' with
    | found hs' => exact absurd (segAt_unique hs hs').1 hm
    | step hs' _ h2 => have := (segAt_unique hs hs').2.2; cases this
    | broken hs' _ =>
      obtain ⟨rfl, rfl, _⟩ := segAt_unique hs hs'
      exact ⟨rfl, rfl⟩

theorem segsTo_exists (b stop : Bytes) : ∀ (k off : Nat), b.length - off ≤ k →
    ∃ ss e, SegsTo b stop off ss e
  | k, off, hk => by
    obtain ⟨n, hs, _⟩ := getMarkerSegment_spec b off
    by_cases hm : (getMarkerSegment b off).marker = stop
    · rw [hm] at hs
      exact ⟨_, _, .found hs⟩
    · cases n with
      | none => exact ⟨_, _, .broken hs hm⟩
      | some n =>
        have := segAt_next hs
        have := segAt_some_le hs
        cases k with
        | zero => omega
        | succ k =>
          obtain ⟨ss, e, h⟩ := segsTo_exists b stop k n (by omega)
          exact ⟨_, _, .step hs hm h⟩

theorem segsTo_length {b stop : Bytes} {off : Nat} {ss e} (h : SegsTo b stop off ss e) :
    ss.length ≤ b.length - off + 1 := by
  induction h with
  | found => simp
  | step hs _ _ ih =>
    have := segAt_next hs
    have := segAt_some_le hs
    simp only [List.length_cons]; omega
  | broken => simp

theorem segsTo_end {b stop : Bytes} {off : Nat} {ss k} (h : SegsTo b stop off ss (some k)) :
    off ≤ k ∧ sub b k 2 = stop := by
  generalize he : some k = e at h
  induction h with
  | found hs => cases he; exact ⟨Nat.le_refl _, (segAt_marker hs).symm⟩
  | step hs _ _ ih =>
    have := segAt_next hs
    have := ih he
    exact ⟨by omega, this.2⟩
  | broken => cases he

/-- Add the results of marker segments: packet segments without properties unless asked for. -/
def absorbSegs (pm : Bool) (quiet : List Bytes) (n : Node) (rs : List (Bytes × BoxResult)) : Node :=
  rs.foldl (fun n r => if r.1 ∈ quiet then n.absorbPacket pm r.2 else n.absorb r.2) n

/-- Validate one segment, keeping its marker. -/
def segRun (seg : Bytes → Bytes → Option Int → Outcome BoxResult) (csiz : Option Int) (x : FoundSeg) :
    Outcome (Bytes × BoxResult) :=
  seg x.marker x.contents (if x.marker ∈ csizMarkers then csiz else none) >>= fun r => .ok (x.marker, r)

/-- Number of segments with a marker. -/
def segCount (m : Bytes) (ss : List FoundSeg) : Nat := (ss.filter fun x => x.marker == m).length

/-- The marker read last. -/
def lastMarker (stop : Bytes) (ss : List FoundSeg) : Option Nat → Bytes
  | some _ => stop
  | none => (ss.getLast?.map (·.marker)).getD []

theorem lastMarker_cons {b stop : Bytes} {off : Nat} {ss e} (h : SegsTo b stop off ss e) (x : FoundSeg) :
    lastMarker stop (x :: ss) e = lastMarker stop ss e := by
  cases e with
  | some k => rfl
  | none =>
    cases ss with
    | nil => cases h
    | cons => simp [lastMarker, List.getLast?_cons]

/-- State after the loop of `validate_tilePart`. -/
def tpEnd (pm : Bool) (s : TPState) (ss : List FoundSeg) (e : Option Nat)
    (rs : List (Bytes × BoxResult)) : TPState :=
  { node := absorbSegs pm [mPLT, mPPT] s.node rs
    pltCount := s.pltCount + segCount mPLT ss
    pptCount := s.pptCount + segCount mPPT ss
    marker := lastMarker mSOD ss e
    offset := match e with | some k => k + 2 | none => -9999
    offsetNext := match e with | some k => k + 2 | none => -9999 }

theorem segCount_cons (m : Bytes) (x : FoundSeg) (ss : List FoundSeg) :
    segCount m (x :: ss) = (if x.marker = m then 1 else 0) + segCount m ss := by
  unfold segCount
  rw [List.filter_cons]
  by_cases h : x.marker = m
  · simp [h]; omega
  · simp [h]

theorem tpLoop_stop {seg pm csiz b fuel s} (h : ¬ (s.marker ≠ mSOD ∧ s.offsetNext ≠ -9999)) :
    tpLoop seg pm csiz b (fuel + 1) s = .ok s := by
  unfold tpLoop
  rw [if_neg h]

theorem segAt_sod {b : Bytes} {off : Nat} {c n} (h : SegAt b off mSOD c n) : n = some (off + 2) := by
  generalize hm : mSOD = m at h
  cases h with
  | alone => rfl
  | seg hd => exact absurd (by rw [← hm]; decide) hd
  | noLength hd => exact absurd (by rw [← hm]; decide) hd

/-- The tile-part header loop is: validate every segment in turn up to SOD. -/
theorem tpLoop_eq {seg : Bytes → Bytes → Option Int → Outcome BoxResult} {pm : Bool}
    {csiz : Option Int} {b : Bytes} {off : Nat} {ss e} (h : SegsTo b mSOD off ss e) :
    ∀ {fuel : Nat} {s : TPState}, ss.length + 1 < fuel → s.marker ≠ mSOD → s.offsetNext ≠ -9999 →
      s.offset = off → tpLoop seg pm csiz b fuel s =
        inTurn (segRun seg csiz) (ss.filter fun x => decide (x.marker ∈ tpMarkers)) >>= fun rs =>
          .ok (tpEnd pm s ss e rs) := by
  induction h with
  | @found off c n hs =>
    intro fuel s hf hm ho hoff
    obtain ⟨fuel, rfl⟩ : ∃ k, fuel = k + 2 := ⟨fuel - 2, by simp at hf; omega⟩
    unfold tpLoop
    rw [if_pos ⟨hm, ho⟩, tpStep_eq]
    obtain ⟨n', hs', hn'⟩ := getMarkerSegment_spec b off
    obtain ⟨e1, e2, e3⟩ := segAt_unique hs hs'
    have e4 := segAt_sod hs
    rw [hoff]
    simp only [← e1]
    rw [if_neg (by decide)]
    simp only [Outcome.bind_ok]
    rw [tpLoop_stop (by simp)]
    simp only [List.filter_nil, inTurn, Outcome.bind_ok, tpEnd, absorbSegs, List.foldl_nil, segCount,
      List.length_nil, Nat.add_zero]
    rw [hn', ← e3, e4]
    simp [intOf, lastMarker]
  | @step off m c n ss e hs hm hrest ih =>
    intro fuel s hf hm0 ho hoff
    obtain ⟨fuel, rfl⟩ : ∃ k, fuel = k + 1 := ⟨fuel - 1, by simp at hf; omega⟩
    unfold tpLoop
    rw [if_pos ⟨hm0, ho⟩, tpStep_eq]
    obtain ⟨n', hs', hn'⟩ := getMarkerSegment_spec b off
    obtain ⟨e1, e2, e3⟩ := segAt_unique hs hs'
    subst e3
    rw [hoff]
    simp only [← e1, ← e2, hn', intOf]
    have hl : ss.length + 1 < fuel := by simp at hf; omega
    by_cases hmk : m ∈ tpMarkers
    · rw [if_pos hmk, List.filter_cons,
        if_pos (c := decide (m ∈ tpMarkers) = true) (by simpa using hmk)]
      simp only [inTurn, segRun]
      cases seg m c (if m ∈ csizMarkers then csiz else none) with
      | ok r =>
        simp only [Outcome.bind_ok]
        rw [ih hl hm (by simp only; omega) rfl]
        cases inTurn _ _ with
        | ok rs =>
          simp only [Outcome.bind_ok, tpEnd, absorbSegs, List.foldl_cons, segCount_cons]
          congr 2
          · split <;> omega
          · split <;> omega
          · exact (lastMarker_cons hrest _).symm
        | raised e => rfl
        | timeout => rfl
      | raised e => rfl
      | timeout => rfl
    · rw [if_neg hmk, List.filter_cons,
        if_neg (c := decide (m ∈ tpMarkers) = true) (by simpa using hmk)]
      simp only [Outcome.bind_ok]
      rw [ih hl hm (by simp only; omega) rfl]
      cases inTurn _ _ with
      | ok rs =>
        simp only [Outcome.bind_ok, tpEnd, absorbSegs, segCount_cons]
        have h1 : m ≠ mPLT := fun h => hmk (by rw [h]; decide)
        have h2 : m ≠ mPPT := fun h => hmk (by rw [h]; decide)
        simp only [h1, h2, if_false, Nat.zero_add]
        congr 2
        exact (lastMarker_cons hrest _).symm
      | raised e => rfl
      | timeout => rfl
  | @broken off m c hs hm =>
    intro fuel s hf hm0 ho hoff
    obtain ⟨fuel, rfl⟩ : ∃ k, fuel = k + 2 := ⟨fuel - 2, by simp at hf; omega⟩
    unfold tpLoop
    rw [if_pos ⟨hm0, ho⟩, tpStep_eq]
    obtain ⟨n', hs', hn'⟩ := getMarkerSegment_spec b off
    obtain ⟨e1, e2, e3⟩ := segAt_unique hs hs'
    subst e3
    rw [hoff]
    simp only [← e1, ← e2, hn', intOf]
    by_cases hmk : m ∈ tpMarkers
    · rw [if_pos hmk, List.filter_cons,
        if_pos (c := decide (m ∈ tpMarkers) = true) (by simpa using hmk)]
      simp only [inTurn, segRun, List.filter_nil]
      cases seg m c (if m ∈ csizMarkers then csiz else none) with
      | ok r =>
        simp only [Outcome.bind_ok]
        rw [tpLoop_stop (by simp)]
        simp only [tpEnd, absorbSegs, List.foldl_cons, List.foldl_nil, segCount_cons]
        congr 2
        · simp only [segCount, List.filter_nil, List.length_nil]; split <;> omega
        · simp only [segCount, List.filter_nil, List.length_nil]; split <;> omega
      | raised e => rfl
      | timeout => rfl
    · rw [if_neg hmk, List.filter_cons,
        if_neg (c := decide (m ∈ tpMarkers) = true) (by simpa using hmk)]
      simp only [Outcome.bind_ok]
      rw [tpLoop_stop (by simp)]
      simp only [tpEnd, inTurn, Outcome.bind_ok, List.filter_nil, absorbSegs, List.foldl_nil,
        segCount_cons]
      have h1 : m ≠ mPLT := fun h => hmk (by rw [h]; decide)
      have h2 : m ≠ mPPT := fun h => hmk (by rw [h]; decide)
      simp [h1, h2, segCount, lastMarker]

/-! ## The main header -/

/-- State after the loop over the main header. -/
def mainEnd (b : Bytes) (pm : Bool) (s : MainState) (ss : List FoundSeg) (e : Option Nat)
    (rs : List (Bytes × BoxResult)) : MainState :=
  { node := absorbSegs pm [mPLM, mPPM] s.node rs
    foundCOD := s.foundCOD || ss.any fun x => x.marker == mCOD
    foundQCD := s.foundQCD || ss.any fun x => x.marker == mQCD
    foundCAP := s.foundCAP || ss.any fun x => x.marker == mCAP
    foundPRF := s.foundPRF || ss.any fun x => x.marker == mPRF
    foundCPF := s.foundCPF || ss.any fun x => x.marker == mCPF
    plmCount := s.plmCount + segCount mPLM ss
    ppmCount := s.ppmCount + segCount mPPM ss
    marker := lastMarker mSOT ss e
    offset := match e with | some k => k | none => -9999
    offsetNext := match e with | some k => (getMarkerSegment b k).next | none => -9999 }

theorem mainLoop_stop {seg pm csiz b fuel s} (h : ¬ (s.marker ≠ mSOT ∧ s.offsetNext ≠ -9999)) :
    mainLoop seg pm csiz b (fuel + 1) s = .ok s := by
  unfold mainLoop
  rw [if_neg h]

theorem found_or {m k : Bytes} {f a : Bool} :
    ((if m = k then true else f) || a) = (f || ((m == k) || a)) := by
  by_cases h : m = k <;> cases f <;> simp [h]

theorem found_or1 {m k : Bytes} {f : Bool} :
    (if m = k then true else f) = (f || (m == k)) := by
  by_cases h : m = k <;> cases f <;> simp [h]

/-- The main header loop is: validate every segment in turn up to SOT. -/
theorem mainLoop_eq {seg : Bytes → Bytes → Option Int → Outcome BoxResult} {pm : Bool}
    {csiz : Option Int} {b : Bytes} {off : Nat} {ss e} (h : SegsTo b mSOT off ss e) :
    ∀ {fuel : Nat} {s : MainState}, ss.length + 1 < fuel → s.marker ≠ mSOT → s.offsetNext ≠ -9999 →
      s.offset = off → mainLoop seg pm csiz b fuel s =
        inTurn (segRun seg csiz) (ss.filter fun x => decide (x.marker ∈ mainMarkers)) >>= fun rs =>
          .ok (mainEnd b pm s ss e rs) := by
  induction h with
  | @found off c n hs =>
    intro fuel s hf hm ho hoff
    obtain ⟨fuel, rfl⟩ : ∃ k, fuel = k + 2 := ⟨fuel - 2, by simp at hf; omega⟩
    unfold mainLoop
    rw [if_pos ⟨hm, ho⟩, mainStep_eq]
    obtain ⟨n', hs', hn'⟩ := getMarkerSegment_spec b off
    obtain ⟨e1, e2, e3⟩ := segAt_unique hs hs'
    rw [hoff]
    simp only [← e1]
    rw [if_neg (by decide)]
    simp only [Outcome.bind_ok]
    rw [mainLoop_stop (by simp)]
    simp only [List.filter_nil, inTurn, Outcome.bind_ok, mainEnd, absorbSegs, List.foldl_nil, segCount,
      List.length_nil, Nat.add_zero, List.any_nil, Bool.or_false, if_true, lastMarker]
  | @step off m c n ss e hs hm hrest ih =>
    intro fuel s hf hm0 ho hoff
    obtain ⟨fuel, rfl⟩ : ∃ k, fuel = k + 1 := ⟨fuel - 1, by simp at hf; omega⟩
    unfold mainLoop
    rw [if_pos ⟨hm0, ho⟩, mainStep_eq]
    obtain ⟨n', hs', hn'⟩ := getMarkerSegment_spec b off
    obtain ⟨e1, e2, e3⟩ := segAt_unique hs hs'
    subst e3
    rw [hoff]
    simp only [← e1, ← e2, hn', intOf]
    have hl : ss.length + 1 < fuel := by simp at hf; omega
    have hmark := (lastMarker_cons hrest ⟨off, m, c⟩).symm
    by_cases hmk : m ∈ mainMarkers
    · rw [if_pos hmk, List.filter_cons,
        if_pos (c := decide (m ∈ mainMarkers) = true) (by simpa using hmk)]
      simp only [inTurn, segRun]
      cases seg m c (if m ∈ csizMarkers then csiz else none) with
      | ok r =>
        simp only [Outcome.bind_ok]
        rw [ih hl hm (by simp only; omega) rfl]
        cases inTurn _ _ with
        | ok rs =>
          simp only [Outcome.bind_ok, mainEnd, absorbSegs, List.foldl_cons, segCount_cons,
            List.any_cons, found_or, hmark]
          congr 2
          · split <;> omega
          · split <;> omega
        | raised e => rfl
        | timeout => rfl
      | raised e => rfl
      | timeout => rfl
    · rw [if_neg hmk, List.filter_cons,
        if_neg (c := decide (m ∈ mainMarkers) = true) (by simpa using hmk)]
      simp only [Outcome.bind_ok, if_neg hm]
      rw [ih hl hm (by simp only; omega) rfl]
      cases inTurn _ _ with
      | ok rs =>
        have hn : ∀ k ∈ mainMarkers, m ≠ k := fun k hk h => hmk (h ▸ hk)
        simp only [Outcome.bind_ok, mainEnd, absorbSegs, segCount_cons, List.any_cons, hmark,
          hn mPLM (by decide), hn mPPM (by decide), if_false, Nat.zero_add,
          beq_eq_false_iff_ne.2 (hn mCOD (by decide)), beq_eq_false_iff_ne.2 (hn mQCD (by decide)),
          beq_eq_false_iff_ne.2 (hn mCAP (by decide)), beq_eq_false_iff_ne.2 (hn mPRF (by decide)),
          beq_eq_false_iff_ne.2 (hn mCPF (by decide)), Bool.false_or]
      | raised e => rfl
      | timeout => rfl
  | @broken off m c hs hm =>
    intro fuel s hf hm0 ho hoff
    obtain ⟨fuel, rfl⟩ : ∃ k, fuel = k + 2 := ⟨fuel - 2, by simp at hf; omega⟩
    unfold mainLoop
    rw [if_pos ⟨hm0, ho⟩, mainStep_eq]
    obtain ⟨n', hs', hn'⟩ := getMarkerSegment_spec b off
    obtain ⟨e1, e2, e3⟩ := segAt_unique hs hs'
    subst e3
    rw [hoff]
    simp only [← e1, ← e2, hn', intOf]
    by_cases hmk : m ∈ mainMarkers
    · rw [if_pos hmk, List.filter_cons,
        if_pos (c := decide (m ∈ mainMarkers) = true) (by simpa using hmk)]
      simp only [inTurn, segRun, List.filter_nil]
      cases seg m c (if m ∈ csizMarkers then csiz else none) with
      | ok r =>
        simp only [Outcome.bind_ok]
        rw [mainLoop_stop (by simp)]
        simp only [mainEnd, absorbSegs, List.foldl_cons, List.foldl_nil, segCount_cons,
          List.any_cons, List.any_nil, found_or1, Bool.or_false]
        congr 2
        · simp only [segCount, List.filter_nil, List.length_nil]; split <;> omega
        · simp only [segCount, List.filter_nil, List.length_nil]; split <;> omega
      | raised e => rfl
      | timeout => rfl
    · rw [if_neg hmk, List.filter_cons,
        if_neg (c := decide (m ∈ mainMarkers) = true) (by simpa using hmk)]
      simp only [Outcome.bind_ok, if_neg hm]
      rw [mainLoop_stop (by simp)]
      have hn : ∀ k ∈ mainMarkers, m ≠ k := fun k hk h => hmk (h ▸ hk)
      simp only [mainEnd, inTurn, Outcome.bind_ok, List.filter_nil, absorbSegs, List.foldl_nil,
        segCount_cons, List.any_cons, List.any_nil,
          hn mPLM (by decide), hn mPPM (by decide), if_false, Nat.zero_add,
          beq_eq_false_iff_ne.2 (hn mCOD (by decide)), beq_eq_false_iff_ne.2 (hn mQCD (by decide)),
          beq_eq_false_iff_ne.2 (hn mCAP (by decide)), beq_eq_false_iff_ne.2 (hn mPRF (by decide)),
          beq_eq_false_iff_ne.2 (hn mCPF (by decide)), Bool.or_false]
      simp [segCount, lastMarker]

end Jpy
