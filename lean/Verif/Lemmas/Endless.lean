import Verif.Spec.Endless
import Verif.Lemmas.Quiet
import Verif.Props.Packets
/-! # Following a codestream at any position -/

namespace Jpy
open Spec

theorem pyBytes_eq (b : Bytes) (i j : Int) : pyBytes b i j = slice b i j := rfl

theorem reckoned_eq (c : Bytes) (off n : Nat) : reckoned c off n = intOf (uint c off n) := by
  unfold reckoned intOf; cases uint c off n <;> rfl

theorem slice_length (b : Bytes) (i j : Int) :
    (slice b i j).length = min (sliceIdx b.length j - sliceIdx b.length i) (b.length - sliceIdx b.length i) := by
  unfold slice; rw [List.length_take, List.length_drop]

theorem slice_le (b : Bytes) (i j : Int) : (slice b i j).length ≤ b.length := by
  rw [slice_length]; omega

theorem slice_le_of (b : Bytes) {i : Int} (n : Nat) : (slice b i (i + n)).length ≤ n := by
  rw [slice_length]
  unfold sliceIdx
  split <;> split <;> omega

/-- Where there are bytes, the position is inside of the data. -/
theorem slice_inside {b : Bytes} {i : Int} {n : Nat} (h : slice b i (i + n) ≠ []) :
    -(b.length : Int) - n < i ∧ i < b.length := by
  have : 0 < (slice b i (i + n)).length := List.length_pos_iff.2 h
  rw [slice_length] at this
  unfold sliceIdx at this
  split at this <;> split at this <;> omega

theorem marker_inside {b : Bytes} {i : Int} (h : (slice b i (i + 2)).length = 2) :
    -(b.length : Int) ≤ i ∧ i < b.length := by
  rw [slice_length] at h
  unfold sliceIdx at h
  split at h <;> split at h <;> omega

theorem slice_cut {b : Bytes} {i : Int} (h : (slice b i (i + 2)).length < 2) : slice b i (i + -9999) = [] := by
  apply List.eq_nil_of_length_eq_zero
  rw [slice_length] at h ⊢
  unfold sliceIdx at h ⊢
  repeat' split at h
  all_goals repeat' split
  all_goals omega

theorem be_two (x y : UInt8) : be [x, y] = 256 * x.toNat + y.toNat := by
  simp [be]; omega

/-- Reading a segment, at any position. -/
theorem getMarkerSegment_py (b : Bytes) (i : Int) :
    ∃ n, PySegAt b i (getMarkerSegment b i).marker (getMarkerSegment b i).contents n ∧
      (getMarkerSegment b i).next = n.getD (-9999) := by
  have hd : [mSOC, mSOD, mEOC, mEPH] = delimiters := rfl
  by_cases hm : slice b i (i + 2) ∈ delimiters
  · refine ⟨some (i + 2), ?_, ?_⟩
    · have h := PySegAt.alone (b := b) (i := i) hm
      unfold getMarkerSegment
      simp only [hd, if_pos hm]
      rw [show slice b (i + 2) (i + 2 + 0) = [] by unfold slice; simp]
      exact h
    · unfold getMarkerSegment
      simp only [hd, if_pos hm]
      rw [if_neg (by decide)]
      simp
  · by_cases h2 : (slice b (i + 2) (i + 4)).length = 2
    · obtain ⟨x, y, hxy⟩ : ∃ x y, slice b (i + 2) (i + 4) = [x, y] := by
        match hs : slice b (i + 2) (i + 4), h2 with
        | [x, y], _ => exact ⟨x, y, rfl⟩
      have hl : bytesToUShortInt (slice b (i + 2) (i + 4)) = ((256 * x.toNat + y.toNat : Nat) : Int) := by
        unfold bytesToUShortInt doConv
        rw [if_pos h2, beNat_eq, hxy, be_two]
      refine ⟨some (i + 2 + ((256 * x.toNat + y.toNat : Nat) : Int)), ?_, ?_⟩
      · have h := PySegAt.seg (b := b) (i := i) hm hxy rfl
        unfold getMarkerSegment
        simp only [hd, if_neg hm, hl]
        exact h
      · unfold getMarkerSegment
        simp only [hd, if_neg hm, hl]
        rw [if_neg (by omega)]
        simp only [Option.getD_some]
        omega
    · have h3 : (slice b (i + 2) (i + 4)).length < 2 := by
        have := slice_le_of b (i := i + 2) 2
        rw [show i + 2 + ((2 : Nat) : Int) = i + 4 by omega] at this
        omega
      have hl : bytesToUShortInt (slice b (i + 2) (i + 4)) = -9999 := by
        unfold bytesToUShortInt doConv
        rw [if_neg h2]
      refine ⟨none, ?_, ?_⟩
      · have h := PySegAt.noLength (b := b) (i := i) hm h3
        unfold getMarkerSegment
        simp only [hd, if_neg hm, hl]
        rw [slice_cut (by rw [show i + 2 + 2 = i + 4 by omega]; exact h3)]
        exact h
      · unfold getMarkerSegment
        simp only [hd, if_neg hm, hl]
        rfl

theorem pySegAt_unique {b : Bytes} {i : Int} {m c n m' c' n'} (h : PySegAt b i m c n) (h' : PySegAt b i m' c' n') :
    m = m' ∧ c = c' ∧ n = n' := by
  cases h with
  | alone h1 =>
    cases h' with
    | alone => exact ⟨rfl, rfl, rfl⟩
    | seg h2 => exact absurd h1 h2
    | noLength h2 => exact absurd h1 h2
  | seg h1 hx hL =>
    cases h' with
    | alone h2 => exact absurd h2 h1
    | seg h2 hx' hL' =>
      rw [hx] at hx'
      cases hx'
      rw [hL, hL']
      exact ⟨rfl, rfl, rfl⟩
    | noLength h2 h3 => rw [hx] at h3; exact absurd h3 (by simp)
  | noLength h1 h3 =>
    cases h' with
    | alone h2 => exact absurd h2 h1
    | seg h2 hx => rw [hx] at h3; exact absurd h3 (by simp)
    | noLength => exact ⟨rfl, rfl, rfl⟩

/-- The segment at a position is the one that is read there. -/
theorem gms_of {b : Bytes} {i : Int} {m c n} (h : PySegAt b i m c n) :
    (getMarkerSegment b i).marker = m ∧ (getMarkerSegment b i).contents = c ∧
      (getMarkerSegment b i).next = n.getD (-9999) := by
  obtain ⟨n', h', hn'⟩ := getMarkerSegment_py b i
  obtain ⟨h1, h2, h3⟩ := pySegAt_unique h h'
  exact ⟨h1.symm, h2.symm, by rw [hn', h3]⟩

/-- Reading goes forward, inside of the data. -/
theorem pySegAt_next {b : Bytes} {i : Int} {m c n} (h : PySegAt b i m c (some n)) : i + 2 ≤ n ∧ i < b.length := by
  cases h with
  | alone h =>
    have : pyBytes b i (i + 2) ≠ [] := by intro e; rw [e] at h; exact absurd h (by decide)
    exact ⟨Int.le_refl _, (slice_inside (n := 2) this).2⟩
  | seg h hx hL =>
    have : pyBytes b (i + 2) (i + 2 + (2 : Nat)) ≠ [] := by
      rw [show i + 2 + ((2 : Nat) : Int) = i + 4 by omega, hx]; simp
    have := (slice_inside (n := 2) this).2
    exact ⟨by omega, by omega⟩

theorem pySegAt_small {b : Bytes} {i : Int} {m c n} (h : PySegAt b i m c n) : c.length ≤ b.length := by
  cases h with
  | alone => simp
  | seg => exact slice_le _ _ _
  | noLength => simp

/-- The length field of a segment covers what is there of it. -/
theorem pySegAt_field {b : Bytes} {i : Int} {m c n} (h : PySegAt b i m c n) (h2 : 2 ≤ c.length) :
    FieldIs c 0 2 (c.length ≤ ·) := by
  cases h with
  | alone => simp at h2
  | noLength => simp at h2
  | @seg x y L h hx hL =>
    have hx' : slice b (i + 2) (i + 4) = [x, y] := hx
    have hle : (slice b (i + 2) (i + 2 + L)).length ≤ L := slice_le_of b L
    have e1 : (slice b (i + 2) (i + 4)).length = 2 := by rw [hx']; rfl
    have h2' : 2 ≤ (slice b (i + 2) (i + 2 + L)).length := h2
    have hsub : sub (slice b (i + 2) (i + 2 + L)) 0 2 = [x, y] := by
      rw [← hx']
      rw [slice_length] at e1 h2'
      unfold sub slice
      rw [List.drop_zero, List.take_take]
      congr 1
      unfold sliceIdx at e1 h2' ⊢
      repeat' split at e1
      all_goals repeat' split at h2'
      all_goals repeat' split
      all_goals omega
    refine ⟨L, ?_, hle⟩
    unfold uint
    rw [if_pos (by exact h2), show sub (pyBytes b (i + 2) (i + 2 + L)) 0 2 = [x, y] from hsub, be_two, hL]

/-! ## Tile-part headers -/

theorem plt_ok {env o f csiz} {b : Bytes} {j : Int} {p e r} (h : validateLeaf env o f csiz mPLT p = .ok r)
    (hp : PySegAt b j PLT p e) : ¬ OpenEnded p 3 := by
  intro ho
  refine (C12_plt_partial env o csiz p (pySegAt_field hp ?_)).1 ⟨f, ?_⟩ ho
  · have := ho.1; omega
  · rw [show PLT = mPLT from rfl, h]; simp

/-- A header that was read has no list of packet lengths that breaks off. -/
theorem tpLoop_ok {env o f pm csiz} {b : Bytes} : ∀ (fuel : Nat) (s s' : TPState),
    tpLoop (segV env o f) pm csiz b fuel s = .ok s' → s.marker ≠ mSOD → s.offsetNext = s.offset →
    ∀ j p e, HeaderFrom b s.offset j → PySegAt b j PLT p e → ¬ OpenEnded p 3 := by
  intro fuel
  induction fuel with
  | zero => intro s s' h; cases h
  | succ fuel ih =>
    intro s s' h hm ho j p e hh hp
    unfold tpLoop at h
    generalize hi : s.offset = i at hh
    cases hh with
    | here hi' =>
      rw [if_pos ⟨hm, by rw [ho, hi]; exact hi'⟩, tpStep_eq] at h
      obtain ⟨s1, h1, -⟩ := Outcome.bind_eq_ok.1 h
      obtain ⟨e1, e2, -⟩ := gms_of hp
      simp only [hi, e1, e2] at h1
      rw [if_pos (show PLT ∈ tpMarkers by decide)] at h1
      obtain ⟨r, hr, -⟩ := Outcome.bind_eq_ok.1 h1
      exact plt_ok hr hp
    | @next _ m c n _ hi' hs hmk hrest =>
      rw [if_pos ⟨hm, by rw [ho, hi]; exact hi'⟩, tpStep_eq] at h
      obtain ⟨s1, h1, h2⟩ := Outcome.bind_eq_ok.1 h
      obtain ⟨e1, e2, e3⟩ := gms_of hs
      simp only [hi, e1, e2, e3, Option.getD_some] at h1
      have hs1 : s1.marker = m ∧ s1.offset = n ∧ s1.offsetNext = n := by
        split at h1
        · obtain ⟨r, -, h1⟩ := Outcome.bind_eq_ok.1 h1
          cases h1
          exact ⟨rfl, rfl, rfl⟩
        · cases h1
          exact ⟨rfl, rfl, rfl⟩
      exact ih s1 s' h2 (by rw [hs1.1]; exact hmk) (by rw [hs1.2.1, hs1.2.2]) j p e (by rw [hs1.2.1]; exact hrest) hp

/-- Reading a header without such lists ends. -/
theorem tpLoop_ends {env o f pm csiz} {b : Bytes} (hf : b.length < f) : ∀ (fuel : Nat) (s : TPState),
    (s.marker ≠ mSOD → ∀ j p e, HeaderFrom b s.offset j → PySegAt b j PLT p e → ¬ OpenEnded p 3) →
    s.offsetNext = s.offset → (s.offset ≠ -9999 → (b.length - s.offset).toNat + 2 ≤ fuel) → 1 ≤ fuel →
    Ends (tpLoop (segV env o f) pm csiz b fuel s) := by
  intro fuel
  induction fuel with
  | zero => intro s _ _ _ h1; omega
  | succ fuel ih =>
    intro s h ho hfu _
    unfold tpLoop
    split
    case isFalse => exact Ends.ok _
    case isTrue hc =>
      rw [ho] at hc
      obtain ⟨n, hs, hn⟩ := getMarkerSegment_py b s.offset
      have hfu := hfu hc.2
      refine Ends.bind ?_ fun s1 h1 => ?_
      · rw [tpStep_eq]
        simp only
        split
        case isFalse => exact Ends.ok _
        case isTrue hmem =>
          refine Ends.bind (validateLeaf_ends ?_ (fun e => ?_) (fun e => ?_)) fun _ _ => Ends.ok _
          · have := pySegAt_small hs; omega
          · exact h hc.1 _ _ _ (.here hc.2) (e ▸ hs)
          · rw [e] at hmem; exact absurd hmem (by decide)
      · rw [tpStep_eq] at h1
        simp only at h1
        have hs1 : s1.marker = (getMarkerSegment b s.offset).marker ∧ s1.offset = n.getD (-9999) ∧
            s1.offsetNext = n.getD (-9999) := by
          rw [← hn]
          split at h1
          · obtain ⟨r, -, h1⟩ := Outcome.bind_eq_ok.1 h1
            cases h1
            exact ⟨rfl, rfl, rfl⟩
          · cases h1
            exact ⟨rfl, rfl, rfl⟩
        refine ih s1 (fun hmk j p e hh hp => ?_) (by rw [hs1.2.1, hs1.2.2]) (fun hne => ?_) (by omega)
        · cases n with
          | none =>
            rw [hs1.2.1] at hh
            generalize hx : (none : Option Int).getD (-9999) = x at hh
            cases hh with
            | here hi => exact absurd hx.symm hi
            | next hi => exact absurd hx.symm hi
          | some n =>
            rw [hs1.2.1] at hh
            exact h hc.1 j p e (.next hc.2 hs (by rw [← hs1.1]; exact hmk) hh) hp
        · cases n with
          | none => exact absurd hs1.2.1 hne
          | some n =>
            have := pySegAt_next hs
            have e2 : s1.offset = n := hs1.2.1
            rw [e2]
            omega

/-! ## Tile-parts -/

/-- What a tile-part that was read has to say. -/
theorem tilePart_ok_py {env o f n} {b : Bytes} {i : Int} {c nx r} (hs : PySegAt b i SOT c nx)
    (h : tilePart env o f (some n) i b = .ok r) : ¬ OpenHeader b i ∧
      Elem.findElementText r.node.chars ["sot", "isot"] = some (.int (reckoned c 2 2)) ∧
      (∃ t : Int, Elem.findElementText r.node.chars ["sot", "tnsot"] = some (.int t)) ∧
      r.returnOffset = some (i + reckoned c 4 4) := by
  have hq := (tilePart_quiet env o f n i b).2 r h
  obtain ⟨e1, e2, e3⟩ := gms_of hs
  unfold tilePart at h
  simp only [e1, e2, e3] at h
  obtain ⟨s, hl, h⟩ := Outcome.bind_eq_ok.1 h
  refine ⟨?_, ?_, ?_, ?_⟩
  · rintro ⟨c', n', j, p, e, hs', hh, hp, ho⟩
    obtain ⟨-, -, e4⟩ := pySegAt_unique hs hs'
    subst e4
    exact tpLoop_ok _ _ _ hl (by simp only; decide) rfl j p e hh hp ho
  · have hx := (tpLoop_quiet env o f n o.packetmarkers b _ _).2 s hl
    have hx := hx.trans (tpFinish_extends o.verbose s)
    have hi : reported (Node.run o.verbose {} (sot c)) "isot" = [.int (reckoned c 2 2)] := by
      rw [reported_run, reckoned_eq, ← u16_at c 2 (x := 2) (y := 4) rfl rfl]; rfl
    cases h
    simp only [testIf_chars]
    exact extends_text (r := ⟨"sot", _, none⟩) rfl hx rfl hi
  · obtain ⟨-, t, -, ht⟩ := hq
    exact ⟨t, ht⟩
  · cases h
    rw [reckoned_eq, ← u32_at c 4 (x := 4) (y := 8) rfl rfl]

theorem sot_inside {b : Bytes} {i : Int} (h : slice b i (i + 2) = SOT) : -(b.length : Int) ≤ i ∧ i < b.length :=
  marker_inside (by rw [h]; rfl)

theorem tilePart_ends_py {env o f n} {b : Bytes} {i : Int} (hf : 2 * b.length + 5 ≤ f)
    (hi : slice b i (i + 2) = SOT) (h : ¬ OpenHeader b i) : Ends (tilePart env o f (some n) i b) := by
  obtain ⟨nx, hs, hn⟩ := getMarkerSegment_py b i
  have hm : (getMarkerSegment b i).marker = SOT := hi
  rw [hm] at hs
  unfold tilePart
  refine Ends.bind (tpLoop_ends (by omega) _ _ (fun hmk j p e hh hp ho => ?_) rfl (fun hne => ?_) (by omega))
    fun _ _ => Ends.ok _
  · cases nx with
    | none =>
      simp only [hn] at hh
      generalize hx : (none : Option Int).getD (-9999) = x at hh
      cases hh with
      | here hi => exact absurd hx.symm hi
      | next hi => exact absurd hx.symm hi
    | some k =>
      simp only [hn] at hh
      exact h ⟨_, k, j, p, e, hs, hh, hp, ho⟩
  · simp only [hn] at hne ⊢
    cases nx with
    | none => exact absurd rfl hne
    | some k =>
      have := pySegAt_next hs
      have := sot_inside hi
      simp only [Option.getD_some]
      omega

/-- There is an SOT segment where there is an SOT marker. -/
theorem sot_seg {b : Bytes} {i : Int} (h : slice b i (i + 2) = SOT) : ∃ c n, PySegAt b i SOT c n := by
  obtain ⟨n, hs, -⟩ := getMarkerSegment_py b i
  rw [show (getMarkerSegment b i).marker = SOT from h] at hs
  exact ⟨_, n, hs⟩

theorem field_lt {c : Bytes} {tiles : Int} {N : Nat} (hN : N = rangeLen tiles) :
    (0 ≤ reckoned c 2 2 ∧ reckoned c 2 2 < N) ↔ FieldIs c 2 2 (fun t => (t : Int) < tiles) := by
  subst hN
  unfold reckoned FieldIs rangeLen
  cases uint c 2 2 with
  | none => simp
  | some v =>
    simp only [Option.some.injEq, exists_eq_left']
    omega

/-- One step of the tile-part loop. -/
theorem tileLoop_step {env o f n} {b : Bytes} {tiles : Int} {fuel : Nat} {s : TileState} {t}
    (h : tileLoop (fun x => tilePart env o f (some n) x b) b fuel s = .ok t) (hm : s.marker = mSOT)
    (hN : s.found.length = rangeLen tiles) (hs : slice b s.offset (s.offset + 2) = SOT) :
    ¬ OpenHeader b s.offset ∧ ∀ j, NextPart b tiles s.offset j → ∃ fuel' s', fuel = fuel' + 1 ∧
      tileLoop (fun x => tilePart env o f (some n) x b) b fuel' s' = .ok t ∧ s'.marker = mSOT ∧
      s'.found.length = rangeLen tiles ∧ s'.offset = j := by
  cases fuel with
  | zero => cases h
  | succ fuel =>
    unfold tileLoop at h
    simp only [if_pos hm] at h
    rw [if_pos (show slice b s.offset (s.offset + 2) = mSOT from hs)] at h
    obtain ⟨r, hr, h⟩ := Outcome.bind_eq_ok.1 h
    obtain ⟨c, nx, hseg⟩ := sot_seg hs
    obtain ⟨h1, h2, ⟨tn, h3⟩, h4⟩ := tilePart_ok_py hseg hr
    refine ⟨h1, ?_⟩
    rintro j ⟨c', nx', hs', hf, rfl, hne, hj⟩
    obtain ⟨-, e, -⟩ := pySegAt_unique hseg hs'
    subst e
    rw [h2, h3, h4] at h
    simp only [needInt, Outcome.bind_ok, Option.getD_some] at h
    rw [if_pos ((field_lt hN).2 hf), if_pos hne] at h
    exact ⟨fuel, _, rfl, h, hs, by simp [hN], rfl⟩

theorem tileLoop_leads {env o f n} {b : Bytes} {tiles i j : Int} (hl : LeadsTo b tiles i j) :
    ∀ {fuel : Nat} {s : TileState} {t},
    tileLoop (fun x => tilePart env o f (some n) x b) b fuel s = .ok t → s.marker = mSOT →
    s.found.length = rangeLen tiles → s.offset = i → slice b i (i + 2) = SOT →
    ∃ fuel' s', tileLoop (fun x => tilePart env o f (some n) x b) b fuel' s' = .ok t ∧ s'.marker = mSOT ∧
      s'.found.length = rangeLen tiles ∧ s'.offset = j ∧ slice b j (j + 2) = SOT := by
  induction hl with
  | here => intro fuel s t h hm hN ho hs; exact ⟨fuel, s, h, hm, hN, ho, hs⟩
  | step hn _ ih =>
    intro fuel s t h hm hN ho hs
    subst ho
    obtain ⟨fuel', s', -, h', hm', hN', ho'⟩ := (tileLoop_step h hm hN hs).2 _ hn
    obtain ⟨c, n, -, -, -, -, hj⟩ := hn
    exact ih h' hm' hN' ho' hj

theorem LeadsTo_snoc {b : Bytes} {tiles i j k : Int} (h : LeadsTo b tiles i j) (h' : NextPart b tiles j k) :
    LeadsTo b tiles i k := by
  induction h with
  | here => exact .step h' .here
  | step hn _ ih => exact .step hn (ih h')

theorem nextPart_unique {b : Bytes} {tiles i j k : Int} (h : NextPart b tiles i j) (h' : NextPart b tiles i k) :
    j = k := by
  obtain ⟨c, n, hs, -, rfl, -, -⟩ := h
  obtain ⟨c', n', hs', -, rfl, -, -⟩ := h'
  rw [(pySegAt_unique hs hs').2.1]

/-- What comes after a tile-part that is visited again is visited again. -/
theorem circular_next {b : Bytes} {tiles i j : Int} (h : Circular b tiles i) (hn : NextPart b tiles i j) :
    Circular b tiles j := by
  obtain ⟨j', hn', hl⟩ := h
  have e := nextPart_unique hn hn'
  subst e
  cases hl with
  | here => exact ⟨_, hn, .here⟩
  | step h1 h2 => exact ⟨_, h1, LeadsTo_snoc h2 hn⟩

theorem tileLoop_circular {env o f n} {b : Bytes} {tiles : Int} : ∀ (fuel : Nat) (s : TileState) (t),
    tileLoop (fun x => tilePart env o f (some n) x b) b fuel s = .ok t → s.marker = mSOT →
    s.found.length = rangeLen tiles → slice b s.offset (s.offset + 2) = SOT → ¬ Circular b tiles s.offset := by
  intro fuel
  induction fuel with
  | zero => intro s t h; cases h
  | succ fuel ih =>
    intro s t h hm hN hs hc
    obtain ⟨j, hn, -⟩ := id hc
    obtain ⟨fuel', s', e, h', hm', hN', ho'⟩ := (tileLoop_step h hm hN hs).2 j hn
    cases e
    have hj : slice b j (j + 2) = SOT := by obtain ⟨c, n, -, -, -, -, hj⟩ := hn; exact hj
    exact ih s' t h' hm' hN' (by rw [ho']; exact hj) (by rw [ho']; exact circular_next hc hn)

/-- A list of different positions inside of the data is not longer than two times the data. -/
theorem positions_length {L : Nat} {V : List Int} (hV : V.Nodup) (h : ∀ v ∈ V, -(L : Int) ≤ v ∧ v < L) :
    V.length ≤ 2 * L := by
  have := hV.length_le_of_subset (l₂ := (List.range (2 * L)).map fun (k : Nat) => (k : Int) - L) fun v hv => by
    obtain ⟨h1, h2⟩ := h v hv
    exact List.mem_map.2 ⟨(v + L).toNat, List.mem_range.2 (by omega), by omega⟩
  simpa using this

theorem tileLoop_off {tp : Int → Outcome BoxResult} {b : Bytes} {fuel : Nat} {s : TileState}
    (h : slice b s.offset (s.offset + 2) ≠ mSOT) : Ends (tileLoop tp b (fuel + 1) s) := by
  unfold tileLoop
  split
  · simp only
    rw [if_neg h]
    exact Ends.ok _
  · exact Ends.ok _

/-- The tile-part loop ends if it comes to no bad tile-part. -/
theorem tileLoop_ends_py {env o f n} {b : Bytes} {tiles start : Int} (hf : 2 * b.length + 5 ≤ f)
    (hgood : ∀ i, LeadsTo b tiles start i → ¬ OpenHeader b i ∧ ¬ Circular b tiles i) :
    ∀ (fuel : Nat) (s : TileState) (V : List Int), V.Nodup → (∀ v ∈ V, -(b.length : Int) ≤ v ∧ v < b.length) →
      2 * b.length + 1 ≤ fuel + V.length → s.found.length = rangeLen tiles → LeadsTo b tiles start s.offset →
      (∀ v ∈ V, LeadsTo b tiles start v ∧ ∃ j, NextPart b tiles v j ∧ LeadsTo b tiles j s.offset) →
      Ends (tileLoop (fun x => tilePart env o f (some n) x b) b fuel s) := by
  intro fuel
  induction fuel with
  | zero =>
    intro s V hV hb hl
    have := positions_length hV hb
    omega
  | succ fuel ih =>
    intro s V hV hb hl hN hlead hvis
    unfold tileLoop
    split
    case isFalse => exact Ends.ok _
    simp only
    by_cases hs : slice b s.offset (s.offset + 2) = mSOT
    case neg => rw [if_neg hs]; exact Ends.ok _
    rw [if_pos hs]
    obtain ⟨g1, g2⟩ := hgood _ hlead
    refine Ends.bind (tilePart_ends_py hf hs g1) fun r hr => ?_
    obtain ⟨c, nx, hseg⟩ := sot_seg hs
    obtain ⟨-, h2, ⟨tn, h3⟩, h4⟩ := tilePart_ok_py hseg hr
    rw [h2, h3, h4]
    simp only [needInt, Outcome.bind_ok, Option.getD_some]
    split
    case isFalse => exact Ends.ok _
    case isTrue hlt =>
      by_cases hne : s.offset + reckoned c 4 4 ≠ s.offset
      case neg => rw [if_neg hne]; exact Ends.ok _
      rw [if_pos hne]
      by_cases hj : slice b (s.offset + reckoned c 4 4) (s.offset + reckoned c 4 4 + 2) = mSOT
      case neg =>
        cases fuel with
        | zero =>
          have := positions_length (L := b.length) (V := s.offset :: V) (List.nodup_cons.2 ⟨fun hmem => ?_, hV⟩) ?_
          · simp at this; omega
          · obtain ⟨hv, j, h5, h6⟩ := hvis _ hmem
            exact g2 ⟨j, h5, h6⟩
          · intro v hv
            rcases List.mem_cons.1 hv with rfl | hv
            · exact sot_inside hs
            · exact hb v hv
        | succ fuel =>
          exact tileLoop_off hj
      have hnext : NextPart b tiles s.offset (s.offset + reckoned c 4 4) :=
        ⟨c, nx, hseg, (field_lt hN).1 hlt, rfl, hne, hj⟩
      refine ih _ (s.offset :: V) (List.nodup_cons.2 ⟨fun hmem => ?_, hV⟩) ?_ ?_ (by simp [hN])
        (LeadsTo_snoc hlead hnext) ?_
      · obtain ⟨hv, j, h5, h6⟩ := hvis _ hmem
        exact g2 ⟨j, h5, h6⟩
      · intro v hv
        rcases List.mem_cons.1 hv with rfl | hv
        · exact sot_inside hs
        · exact hb v hv
      · simp only [List.length_cons]; omega
      · intro v hv
        rcases List.mem_cons.1 hv with rfl | hv
        · exact ⟨hlead, _, hnext, .here⟩
        · obtain ⟨hv, j, h5, h6⟩ := hvis _ hv
          exact ⟨hv, j, h5, LeadsTo_snoc h6 hnext⟩

end Jpy
