import Verif.Spec.PacketData
import Verif.Props.Truncate
/-!
# C59: the packet data have no influence on the outcome
-/

namespace Jpy
open Spec

theorem sub_congr {b b' : Bytes} {off n : Nat} (h : ∀ i, off ≤ i → i < off + n → b'[i]? = b[i]?) :
    sub b' off n = sub b off n := by
  unfold Spec.sub
  apply List.ext_getElem?
  intro i
  rw [List.getElem?_take, List.getElem?_take]
  split
  · rw [List.getElem?_drop, List.getElem?_drop]
    exact h _ (by omega) (by omega)
  · rfl

theorem uint_congr {b b' : Bytes} {off n : Nat} (hn : 0 < n)
    (h : ∀ i, off ≤ i → i < off + n → b'[i]? = b[i]?) : uint b' off n = uint b off n := by
  have hl : off + n ≤ b'.length ↔ off + n ≤ b.length := by
    have : b'.length ≤ off + n - 1 ↔ b.length ≤ off + n - 1 := by
      rw [← List.getElem?_eq_none_iff, ← List.getElem?_eq_none_iff, h _ (by omega) (by omega)]
    omega
  unfold uint
  simp only [hl, sub_congr h]

/-- A segment is the same in both if its bytes and the next two are. -/
theorem segAt_congr {b b' m c : Bytes} {off n : Nat} (hs : SegAt b off m c (some n))
    (h : ∀ i, off ≤ i → i < n + 2 → b'[i]? = b[i]?) : SegAt b' off m c (some n) := by
  have hn := segAt_next hs
  have hm : sub b' off 2 = sub b off 2 := sub_congr fun i h1 h2 => h i h1 (by omega)
  generalize hN : some n = N at hs
  cases hs with
  | alone hd =>
    rw [← hm] at hd ⊢
    exact .alone hd
  | @seg L hd hL =>
    obtain rfl : n = off + 2 + L := by simpa using hN
    have h1 : uint b' (off + 2) 2 = some L := by
      rw [← hL]; exact uint_congr (by omega) fun i h1 h2 => h i (by omega) (by omega)
    have h2 : sub b' (off + 2) L = sub b (off + 2) L := sub_congr fun i h1 h2 => h i (by omega) (by omega)
    rw [← hm, ← h2]
    exact .seg (by rw [hm]; exact hd) h1
  | noLength => cases hN

theorem segAt_congr_none {b b' m c : Bytes} {off : Nat} (hs : SegAt b off m c none)
    (h : ∀ i, off ≤ i → b'[i]? = b[i]?) : SegAt b' off m c none := by
  have hm : sub b' off 2 = sub b off 2 := sub_congr fun i h1 _ => h i h1
  generalize hN : (none : Option Nat) = N at hs
  cases hs with
  | alone => cases hN
  | seg => cases hN
  | noLength hd hL =>
    rw [← hm]
    exact .noLength (by rw [hm]; exact hd) (by rw [← hL]; exact uint_congr (by omega) fun i h1 _ => h i (by omega))

theorem getMarkerSegment_eq {b m c : Bytes} {off : Nat} {n} (hs : SegAt b off m c n) :
    getMarkerSegment b off = ⟨m, c, intOf n⟩ := by
  obtain ⟨n', hs', hn'⟩ := getMarkerSegment_spec b off
  obtain ⟨e1, e2, e3⟩ := segAt_unique hs hs'
  subst e3
  generalize getMarkerSegment b off = g at e1 e2 hn'
  cases g
  simp_all

theorem tpLoop_end_data {seg pm csiz b b' fuel s} (h : ¬ (s.marker ≠ mSOD ∧ s.offsetNext ≠ -9999)) :
    tpLoop seg pm csiz b' fuel s = tpLoop seg pm csiz b fuel s := by
  cases fuel with
  | zero => rfl
  | succ fuel => rw [tpLoop_stop h, tpLoop_stop h]

theorem tpLoop_data {seg : Bytes → Bytes → Option Int → Outcome BoxResult} {pm : Bool} {csiz : Option Int}
    {b b' : Bytes} {off : Nat} {ss e} (hs : SegsTo b mSOD off ss e)
    (h : ∀ i, off ≤ i → (∀ k, e = some k → i < k + 2) → b'[i]? = b[i]?) :
    ∀ (fuel : Nat) (s : TPState), s.offset = off → tpLoop seg pm csiz b' fuel s = tpLoop seg pm csiz b fuel s := by
  induction hs with
  | @found off c n hs =>
    intro fuel s ho
    cases fuel with
    | zero => rfl
    | succ fuel =>
      have hn := segAt_sod hs
      subst hn
      have hm : sub b' off 2 = mSOD := by
        rw [segAt_marker hs]; exact sub_congr fun i h1 h2 => h i h1 (by intro k hk; cases hk; omega)
      obtain ⟨c', n', hs'⟩ := segAt_exists b' off
      rw [hm] at hs'
      have hn := segAt_sod hs'
      subst hn
      unfold tpLoop
      split
      · rw [tpStep_eq, tpStep_eq, ho, getMarkerSegment_eq hs, getMarkerSegment_eq hs']
        simp only
        rw [if_neg (by decide), if_neg (by decide)]
        simp only [Outcome.bind_ok]
        exact tpLoop_end_data (by simp)
      · rfl
  | @step off m c n ss e hs hm hrest ih =>
    intro fuel s ho
    cases fuel with
    | zero => rfl
    | succ fuel =>
      have hn := segAt_next hs
      have hs' : SegAt b' off m c (some n) := segAt_congr hs fun i h1 h2 => h i h1 fun k hk => by
        subst hk; have := (segsTo_end hrest).1; omega
      have ih' := ih fun i h1 h2 => h i (by omega) h2
      unfold tpLoop
      split
      · rw [tpStep_eq, tpStep_eq, ho, getMarkerSegment_eq hs, getMarkerSegment_eq hs']
        simp only
        split
        · cases seg m c (if m ∈ csizMarkers then csiz else none) with
          | ok r => exact ih' _ _ rfl
          | raised e => rfl
          | timeout => rfl
        · exact ih' _ _ rfl
      · rfl
  | @broken off m c hs hm =>
    intro fuel s ho
    cases fuel with
    | zero => rfl
    | succ fuel =>
      have hs' : SegAt b' off m c none := segAt_congr_none hs fun i h1 => h i h1 fun k hk => by cases hk
      unfold tpLoop
      split
      · rw [tpStep_eq, tpStep_eq, ho, getMarkerSegment_eq hs, getMarkerSegment_eq hs']
        simp only
        split
        · cases seg m c (if m ∈ csizMarkers then csiz else none) with
          | ok r => exact tpLoop_end_data (by simp [intOf])
          | raised e => rfl
          | timeout => rfl
        · exact tpLoop_end_data (by simp [intOf])
      · rfl

theorem mainLoop_end_data {seg pm csiz b b' fuel s} (h : ¬ (s.marker ≠ mSOT ∧ s.offsetNext ≠ -9999)) :
    mainLoop seg pm csiz b' fuel s = mainLoop seg pm csiz b fuel s := by
  cases fuel with
  | zero => rfl
  | succ fuel => rw [mainLoop_stop h, mainLoop_stop h]

theorem mainLoop_data {seg : Bytes → Bytes → Option Int → Outcome BoxResult} {pm : Bool} {csiz : Option Int}
    {b b' : Bytes} {off k : Nat} {ss} (hs : SegsTo b mSOT off ss (some k))
    (h : ∀ i, off ≤ i → i < k + 4 → b'[i]? = b[i]?) :
    ∀ (fuel : Nat) (s : MainState), s.offset = off → mainLoop seg pm csiz b' fuel s = mainLoop seg pm csiz b fuel s := by
  generalize he : some k = e at hs
  induction hs with
  | @found off c n hs =>
    intro fuel s ho
    cases he
    cases fuel with
    | zero => rfl
    | succ fuel =>
      have hm : sub b' k 2 = mSOT := by
        rw [segAt_marker hs]; exact sub_congr fun i h1 h2 => h i h1 (by omega)
      obtain ⟨c', n', hs'⟩ := segAt_exists b' k
      rw [hm] at hs'
      have hn : n' = n := by
        have hL : uint b' (k + 2) 2 = uint b (k + 2) 2 := uint_congr (by omega) fun i h1 h2 => h i (by omega) (by omega)
        generalize hM : mSOT = M at hs hs'
        generalize k = off at hs hs' hL
        cases hs with
        | alone hd => exact absurd hd (by rw [← hM]; decide)
        | seg hd h1 =>
          generalize hN : sub b off 2 = N at hs'
          cases hs' with
          | alone hd' => exact absurd hd' (by rw [← hN]; exact hd)
          | seg hd' h2 => rw [hL, h1] at h2; cases h2; rfl
          | noLength hd' h2 => rw [hL, h1] at h2; cases h2
        | noLength hd h1 =>
          generalize hN : sub b off 2 = N at hs'
          cases hs' with
          | alone hd' => exact absurd hd' (by rw [← hN]; exact hd)
          | seg hd' h2 => rw [hL, h1] at h2; cases h2
          | noLength hd' h2 => rfl
      subst hn
      unfold mainLoop
      split
      · rw [mainStep_eq, mainStep_eq, ho, getMarkerSegment_eq hs, getMarkerSegment_eq hs']
        simp only
        rw [if_neg (by decide : mSOT ∉ mainMarkers), if_neg (by decide : mSOT ∉ mainMarkers)]
        simp only [Outcome.bind_ok]
        exact mainLoop_end_data (by simp)
      · rfl
  | @step off m c n ss e hs hm hrest ih =>
    intro fuel s ho
    subst he
    cases fuel with
    | zero => rfl
    | succ fuel =>
      have hn := segAt_next hs
      have hs' : SegAt b' off m c (some n) := segAt_congr hs fun i h1 h2 => h i h1 <| by
        have := (segsTo_end hrest).1; omega
      have ih' := ih (fun i h1 h2 => h i (by omega) h2) rfl
      unfold mainLoop
      split
      · rw [mainStep_eq, mainStep_eq, ho, getMarkerSegment_eq hs, getMarkerSegment_eq hs']
        simp only
        split
        · cases seg m c (if m ∈ csizMarkers then csiz else none) with
          | ok r => exact ih' _ _ rfl
          | raised e => rfl
          | timeout => rfl
        · exact ih' _ _ rfl
      · rfl
  | broken => cases he


/-- Two bytes at an offset. -/
theorem two_data {b b' : Bytes} {off : Nat} (h : ∀ i, off ≤ i → i < off + 2 → b'[i]? = b[i]?) :
    slice b' off (off + 2) = slice b off (off + 2) := by
  rw [slice_at b off 2 (x := (off : Int)) (y := (off : Int) + 2) rfl rfl,
    slice_at b' off 2 (x := (off : Int)) (y := (off : Int) + 2) rfl rfl]
  exact sub_congr h

/-- A tile-part is the same in both if its header is, and the two bytes after it. -/
theorem tilePart_data {env : Env} {o : Options} {fuel : Nat} {csiz : Option Int} {b b' : Bytes}
    {t : TilePartInfo} (ht : t.At b) {ss e} (hs : SegsTo b SOD (t.start + 12) ss e)
    (h : ∀ i, t.start ≤ i → (∀ k, e = some k → i < k + 2) → b'[i]? = b[i]?)
    (hn : t.length ≠ 0 → ∀ i, t.start + t.length ≤ i → i < t.start + t.length + 2 → b'[i]? = b[i]?) :
    tilePart env o fuel csiz t.start b' = tilePart env o fuel csiz t.start b := by
  have hseg := segAt_of_at ht
  have hseg' : SegAt b' t.start SOT (sub b (t.start + 2) 10) (some (t.start + 12)) :=
    segAt_congr hseg fun i h1 h2 => h i h1 fun k hk => by
      subst hk; have := (segsTo_end hs).1; omega
  have hlen : uint (sub b (t.start + 2) 10) 4 4 = some t.length := by
    rw [uint_sub (by omega) (by omega)]; exact ht.length
  rw [tilePart_unfold hseg, tilePart_unfold hseg']
  rw [tpLoop_data hs (fun i h1 h2 => h i (by omega) h2) _ _ rfl]
  congr 1
  funext s
  rw [hlen]
  by_cases h0 : t.length = 0
  · simp [tpResult, intOf, h0, Node.testIf]
  · unfold tpResult
    have := two_data (hn h0)
    rw [show ((t.start + t.length : Nat) : Int) = (t.start : Int) + t.length by omega] at this
    have this' : slice b' ((t.start : Int) + intOf (some t.length)) ((t.start : Int) + intOf (some t.length) + 2) =
      slice b ((t.start : Int) + intOf (some t.length)) ((t.start : Int) + intOf (some t.length) + 2) := this
    rw [this']

theorem tilePart_next {env : Env} {o : Options} {fuel : Nat} {csiz : Option Int} {b : Bytes} {t : TilePartInfo}
    (ht : t.At b) {r} (hr : tilePart env o fuel csiz t.start b = .ok r) :
    r.returnOffset = some ((t.start + t.length : Nat) : Int) := by
  have hlen : uint (sub b (t.start + 2) 10) 4 4 = some t.length := by
    rw [uint_sub (by omega) (by omega)]; exact ht.length
  rw [tilePart_unfold (segAt_of_at ht), hlen] at hr
  obtain ⟨s, _, h2⟩ := Outcome.bind_eq_ok.1 hr
  cases h2
  simp [tpResult, intOf]

theorem tileLoop_data {env : Env} {o : Options} {csiz : Option Int} {b b' : Bytes} {f : Nat}
    {off : Nat} {ts} (hc : Chain b off ts)
    (h2 : ∀ i, off ≤ i → i < off + 2 → b'[i]? = b[i]?)
    (h : ∀ t ∈ ts, (∀ ss e, SegsTo b SOD (t.start + 12) ss e → ∀ i, t.start ≤ i → (∀ k, e = some k → i < k + 2) →
      b'[i]? = b[i]?) ∧
      (t.length ≠ 0 → ∀ i, t.start + t.length ≤ i → i < t.start + t.length + 2 → b'[i]? = b[i]?)) :
    ∀ (fuel : Nat) (s : TileState), s.offset = off →
      tileLoop (fun off => tilePart env o f csiz off b') b' fuel s =
      tileLoop (fun off => tilePart env o f csiz off b) b fuel s := by
  induction hc with
  | @done off hd =>
    intro fuel s ho
    cases fuel with
    | zero => rfl
    | succ fuel =>
      have hm := two_data h2
      have hne : slice b (off : Int) ((off : Int) + 2) ≠ mSOT := by
        rw [slice_at b off 2 (x := (off : Int)) (y := (off : Int) + 2) rfl rfl]; exact hd
      unfold tileLoop
      split
      · simp only [ho]
        rw [hm, if_neg hne, if_neg hne]
      · rfl
  | @last t ht h0 =>
    intro fuel s ho
    cases fuel with
    | zero => rfl
    | succ fuel =>
      have hm := two_data h2
      obtain ⟨ss, e, hs⟩ := segsTo_exists b SOD _ (t.start + 12) (Nat.le_refl _)
      have htp := tilePart_data (env := env) (o := o) (fuel := f) (csiz := csiz) ht hs
        ((h t (by simp)).1 _ _ hs) ((h t (by simp)).2)
      unfold tileLoop
      split
      · simp only [ho]
        rw [hm, htp]
        split
        · cases hr : tilePart env o f csiz t.start b with
          | raised e => rfl
          | timeout => rfl
          | ok r =>
            have hn := tilePart_next ht hr
            simp only [Outcome.bind_ok, hn, h0]
            simp
        · rfl
      · rfl
  | @step t ts ht h0 hc ih =>
    intro fuel s ho
    cases fuel with
    | zero => rfl
    | succ fuel =>
      have hm := two_data h2
      obtain ⟨ss, e, hs⟩ := segsTo_exists b SOD _ (t.start + 12) (Nat.le_refl _)
      have htp := tilePart_data (env := env) (o := o) (fuel := f) (csiz := csiz) ht hs
        ((h t (by simp)).1 _ _ hs) ((h t (by simp)).2)
      have ih' := ih ((h t (by simp)).2 h0) (fun u hu => h u (List.mem_cons_of_mem _ hu))
      unfold tileLoop
      split
      · simp only [ho]
        rw [hm, htp]
        split
        · cases hr : tilePart env o f csiz t.start b with
          | raised e => rfl
          | timeout => rfl
          | ok r =>
            have hn := tilePart_next ht hr
            simp only [Outcome.bind_ok, hn, Option.getD_some]
            congr 1; funext isot
            congr 1; funext tnsot
            split
            · split
              · exact ih' _ _ rfl
              · rfl
            · rfl
        · rfl
      · rfl

/-- Two codestreams with the same headers and the same last two bytes have the same outcome, if they have the same
length or the format is not that of a bare codestream. -/
theorem codestream_agree (env : Env) (o : Options) (fuel : Nat) {b b' siz : Bytes} {csiz : Nat} {main : List FoundSeg}
    {sot : Nat} {ts : List TilePartInfo} (hsoc : sub b 0 2 = SOC) (hmh : MainHeader b siz csiz main (some sot))
    (hch : Chain b sot ts) (hmainB : ∀ i, i < sot → b'[i]? = b[i]?)
    (hparts : ∀ u ∈ ts, (∀ ss e, SegsTo b SOD (u.start + 12) ss e → ∀ i, u.start ≤ i →
      (∀ k, e = some k → i < k + 2) → b'[i]? = b[i]?) ∧
      (u.length ≠ 0 → ∀ i, u.start + u.length ≤ i → i < u.start + u.length + 2 → b'[i]? = b[i]?))
    (hlast : slice b' ((b'.length : Int) - 2) b'.length = slice b ((b.length : Int) - 2) b.length)
    (hl : ¬ (o.format = .j2c ∨ o.format = .jhc) ∨ b'.length = b.length) :
    codestream env o fuel b' = codestream env o fuel b := by
  obtain ⟨⟨first, hsiz, hmain⟩, hcs⟩ := hmh
  obtain ⟨hle, hsot⟩ := segsTo_end hmain
  have hfirst := segAt_next hsiz
  -- the first tile-part
  obtain ⟨t, ts', rfl, hst⟩ : ∃ t ts', ts = t :: ts' ∧ t.start = sot := by
    generalize sot = off at hch hsot
    cases hch with
    | done h => exact absurd hsot h
    | @last t => exact ⟨t, [], rfl, rfl⟩
    | @step t ts' => exact ⟨t, ts', rfl, rfl⟩
  have hpart : ∀ u ∈ t :: ts', (∀ ss e, SegsTo b SOD (u.start + 12) ss e → ∀ i, u.start ≤ i →
      (∀ k, e = some k → i < k + 2) → b'[i]? = b[i]?) ∧
      (u.length ≠ 0 → ∀ i, u.start + u.length ≤ i → i < u.start + u.length + 2 → b'[i]? = b[i]?) :=
    hparts
  have hhead : ∀ i, i < sot + 12 → b'[i]? = b[i]? := by
    intro i hi
    by_cases h1 : i < sot
    · exact hmainB i h1
    · obtain ⟨ss, e, hs⟩ := segsTo_exists b SOD _ (t.start + 12) (Nat.le_refl _)
      refine (hpart t (by simp)).1 ss e hs i (by omega) fun k hk => ?_
      subst hk
      have := (segsTo_end hs).1
      omega
  have h0 : SegAt b 0 SOC [] (some 2) := by rw [← hsoc]; exact .alone (by rw [hsoc]; decide)
  have h0' : SegAt b' 0 SOC [] (some 2) := segAt_congr h0 fun i _ h2 => hhead i (by omega)
  have hsiz' : SegAt b' 2 SIZ siz (some first) := segAt_congr hsiz fun i _ h2 => hhead i (by omega)
  rw [codestream_eq h0 rfl hsiz, codestream_eq h0' rfl hsiz']
  congr 1; funext r
  congr 1; funext csiz'
  have hm : mainStart o b' r (intOf (some first)) = mainStart o b r (intOf (some first)) := by
    unfold mainStart headNode
    rw [show sub b' 0 2 = sub b 0 2 from sub_congr fun i _ h2 => hhead i (by omega)]
  rw [hm, mainLoop_data hmain (fun i _ h2 => hhead i (by omega)) _ _ rfl]
  cases hml : mainLoop (segV env o fuel) o.packetmarkers (some csiz') b fuel (mainStart o b r (intOf (some first))) with
  | raised e => rfl
  | timeout => rfl
  | ok s =>
    have hoff : s.offset = sot := by
      have h1 := (mainLoop_le (seg1 := segV env o fuel) (fun _ _ _ => .refl _) o.packetmarkers
        (some csiz') b _ (show fuel ≤ fuel + main.length + 2 by omega)).ok hml
      rw [mainLoop_eq hmain (by omega) (by simp only [mainStart]; decide) (by simp only [mainStart, intOf]; omega) rfl] at h1
      obtain ⟨rs, _, h2⟩ := Outcome.bind_eq_ok.1 h1
      cases h2
      rfl
    simp only [Outcome.bind_ok]
    congr 1; funext rsiz
    congr 1; funext tiles
    rw [tileLoop_data hch (fun i _ h2 => hhead i (by omega)) hpart _ _ hoff]
    congr 1; funext t
    unfold codestreamFinish
    rw [hlast]
    rcases hl with hf | hl
    · rw [if_neg hf, if_neg hf]
    · rw [hl]

/-- **C59.** Everything in a codestream but the headers can be replaced: the outcome of its validation is
the same, with all tests, properties and warnings. -/
theorem C59_codestream (env : Env) (o : Options) (fuel : Nat) {b b' : Bytes} (h : SameHeaders b b') :
    codestream env o fuel b' = codestream env o fuel b := by
  obtain ⟨siz, csiz, main, sot, ts, hsoc, hmh, hch, hl, hb⟩ := h
  refine codestream_agree env o fuel hsoc hmh hch (fun i h1 => hb i (.main h1))
    (fun u hu => ⟨fun ss e hs i h1 h2 => hb i (.tilePart hu hs h1 h2), fun h0 i h1 h2 => hb i (.next hu h0 h1 h2)⟩)
    ?_ (.inr hl)
  have h2 : 2 ≤ b.length := by
    have := congrArg List.length hsoc
    rw [length_sub, show (SOC : Bytes).length = 2 from rfl] at this
    omega
  rw [hl, slice_at b (b.length - 2) 2 (by omega) (by omega), slice_at b' (b.length - 2) 2 (by omega) (by omega)]
  exact sub_congr fun i h1 h2 => hb i (.last (by omega))

/-! ## Packet data are what is not headers and markers -/

theorem chain_start {b : Bytes} {off : Nat} {ts} (h : Chain b off ts) : ∀ t ∈ ts, off ≤ t.start := by
  induction h with
  | done => simp
  | last => simp
  | step _ _ _ ih =>
    intro u hu
    rcases List.mem_cons.1 hu with rfl | hu
    · exact Nat.le_refl _
    · have := ih u hu; omega

theorem chain_order {b : Bytes} {off : Nat} {ts} (h : Chain b off ts) : ∀ t ∈ ts, ∀ u ∈ ts, t = u ∨
    (t.length ≠ 0 ∧ t.start + t.length ≤ u.start) ∨ (u.length ≠ 0 ∧ u.start + u.length ≤ t.start) := by
  induction h with
  | done => simp
  | last => simp
  | step _ h0 hc ih =>
    intro t ht u hu
    rcases List.mem_cons.1 ht with ht | ht <;> rcases List.mem_cons.1 hu with hu | hu
    · exact .inl (by rw [ht, hu])
    · exact .inr (.inl (by rw [ht]; exact ⟨h0, chain_start hc u hu⟩))
    · exact .inr (.inr (by rw [hu]; exact ⟨h0, chain_start hc t ht⟩))
    · exact ih t ht u hu

/-- Other packet data leave the headers alone. -/
theorem sameHeaders_of_packets {b b' : Bytes} (h : OtherPacketData b b') : SameHeaders b b' := by
  obtain ⟨siz, csiz, main, sot, ts, hsoc, hm, hc, hw, hl, hb⟩ := h
  refine ⟨siz, csiz, main, sot, ts, hsoc, hm, hc, hl, fun i hi => hb i fun hp => ?_⟩
  obtain ⟨u, hu, ss, k, hs, hk, h1, h2⟩ := hp
  have hks := (segsTo_end hs).1
  have hus := chain_start hc u hu
  cases hi with
  | main h => omega
  | @tilePart t ss' e ht hs' h3 h4 =>
    obtain ⟨ss'', k'', hs'', hw''⟩ := hw t ht
    obtain ⟨_, rfl⟩ := segsTo_unique hs' hs''
    have h5 := h4 k'' rfl
    rcases chain_order hc t ht u hu with rfl | ⟨h0, hle⟩ | ⟨h0, hle⟩
    · obtain ⟨_, e⟩ := segsTo_unique hs hs'
      cases e; omega
    · have := hw'' h0; omega
    · have := h1 h0; omega
  | @next t ht h0 h3 h4 =>
    rcases chain_order hc t ht u hu with rfl | ⟨_, hle⟩ | ⟨h0', hle⟩
    · have := h1 h0; omega
    · omega
    · have := h1 h0'; omega
  | last h =>
    by_cases h0 : u.length = 0
    · have := h2 h0; omega
    · obtain ⟨_, _, _, hw''⟩ := hw u hu
      have := hw'' h0
      have := h1 h0
      omega

/-- **C59 (codestreams).** Other packet data in a codestream do not change the outcome of its validation: same
tests, same properties, same warnings, same exception if there is one. -/
theorem C59_packets (env : Env) (o : Options) (fuel : Nat) {b b' : Bytes} (h : OtherPacketData b b') :
    codestream env o fuel b' = codestream env o fuel b :=
  C59_codestream env o fuel (sameHeaders_of_packets h)

/-! ## Files and reports -/

/-- The box loop over a list of boxes. -/
def listLoop (sub : Bytes → Bytes → Outcome BoxResult) : Nat → List (Bytes × Bytes) → Node → List Bytes →
    Outcome (Node × List Bytes)
  | 0, _, _, _ => .timeout
  | _ + 1, [], node, types => .ok (node, types)
  | fuel + 1, x :: xs, node, types => do
    let r ← sub x.1 x.2
    listLoop sub fuel xs (node.absorb r) (types ++ [x.1])

theorem boxLoop_list {sub : Bytes → Bytes → Outcome BoxResult} {b : Bytes} {off : Nat} {bs}
    (h : BoxesFrom b off bs) : ∀ {fuel : Nat} {l : Int} {node types}, l ≠ 0 → l ≠ -9999 →
      boxLoop sub b fuel off l node types =
        listLoop sub fuel (bs.map fun x => (x.type, x.payload)) node types := by
  induction h with
  | done hl =>
    intro fuel l node types _ _
    cases fuel with
    | zero => rfl
    | succ fuel =>
      unfold boxLoop
      rw [if_neg (by omega)]
      rfl
  | @step off t p n bs hl hb h2 ih =>
    intro fuel l node types h0 h9
    cases fuel with
    | zero => rfl
    | succ fuel =>
      unfold boxLoop
      rw [if_pos ⟨by omega, h0, h9⟩]
      obtain ⟨n', hb', hm⟩ := getBox_spec (b := b) hl
      obtain ⟨ht, hp, hn⟩ := boxAt_unique hb hb'
      subst hn
      simp only at hm
      simp only [List.map_cons, listLoop, hm.1, ← ht, ← hp]
      cases sub t p with
      | ok r => exact ih hm.2.1 hm.2.2
      | raised e => rfl
      | timeout => rfl
  | @last off t p hl hb =>
    intro fuel l node types h0 h9
    cases fuel with
    | zero => rfl
    | succ fuel =>
      unfold boxLoop
      rw [if_pos ⟨by omega, h0, h9⟩]
      obtain ⟨n', hb', hm⟩ := getBox_spec (b := b) hl
      obtain ⟨ht, hp, hn⟩ := boxAt_unique hb hb'
      subst hn
      simp only at hm
      simp only [List.map_cons, List.map_nil, listLoop, ← ht, ← hp]
      cases sub t p with
      | ok r =>
        cases fuel with
        | zero => rfl
        | succ fuel =>
          simp only [Outcome.bind_ok]
          unfold boxLoop
          rw [if_neg (by omega)]
          rfl
      | raised e => rfl
      | timeout => rfl

theorem listLoop_data {env : Env} {o : Options} {f : Nat} {bs bs'} (h : SameHeadersBoxes bs bs') :
    ∀ fuel node types, listLoop (validateBox env o f) fuel bs' node types =
      listLoop (validateBox env o f) fuel bs node types := by
  induction h with
  | nil => intros; rfl
  | same _ ih =>
    intro fuel node types
    cases fuel with
    | zero => rfl
    | succ fuel =>
      simp only [listLoop]
      congr 1; funext r
      exact ih _ _ _
  | @codestream cs cs' bs bs' hc _ ih =>
    intro fuel node types
    cases fuel with
    | zero => rfl
    | succ fuel =>
      have he : validateBox env o f (ascii "jp2c") cs' = validateBox env o f (ascii "jp2c") cs := by
        cases f with
        | zero => rfl
        | succ f =>
          unfold validateBox
          rw [show boxTypeOf (ascii "jp2c") = .contiguousCodestreamBox by decide]
          simp only
          rw [C59_codestream env o f hc]
      simp only [listLoop, he]
      congr 1; funext r
      exact ih _ _ _

/-- **C59 (files).** What is not headers and markers in the codestreams of a file does not change the outcome of its
validation. -/
theorem C59_file (env : Env) (o : Options) (fuel : Nat) {f f' : Bytes} (h : SameHeadersFile o.format f f') :
    validateRoot env o fuel f' = validateRoot env o fuel f := by
  have hjp2 : (f'.length = f.length ∧ ∃ bs bs', Boxes f bs ∧ Boxes f' bs' ∧
      SameHeadersBoxes (bs.map fun x => (x.type, x.payload)) (bs'.map fun x => (x.type, x.payload))) →
      validateJP2 env o fuel f' = validateJP2 env o fuel f := by
    rintro ⟨hl, bs, bs', h1, h2, h3⟩
    unfold validateJP2 walkBoxes
    have e1 := boxLoop_list (sub := validateBox env o fuel) h1 (fuel := fuel) (l := 10) (node := {}) (types := [])
      (by decide) (by decide)
    have e2 := boxLoop_list (sub := validateBox env o fuel) h2 (fuel := fuel) (l := 10) (node := {}) (types := [])
      (by decide) (by decide)
    rw [show ((0 : Nat) : Int) = 0 from rfl] at e1 e2
    rw [e1, e2, listLoop_data h3, hl]
  unfold validateRoot
  unfold SameHeadersFile at h
  cases ho : o.format with
  | jp2 => rw [ho] at h; exact hjp2 h
  | jph => rw [ho] at h; exact hjp2 h
  | j2c => rw [ho] at h; exact C59_codestream env o fuel h
  | jhc => rw [ho] at h; exact C59_codestream env o fuel h
  | other => rfl

/-- The file system in which the contents of one file are replaced. -/
def FS.replace (fs : FS) (path : PyStr) (f : Bytes) : FS :=
  { fs with read := fun p => if p = path then .data f else fs.read p }

/-- **C59 (reports).** If the contents of a file are replaced by contents that differ only in what is not headers and
markers in codestreams, its report is exactly the same. -/
theorem C59_report (env : Env) (me : MixEnv) (fs : FS) (fuel : Nat) (o : Options) (mix : Nat) (path : PyStr)
    {f f' : Bytes} (hr : fs.read path = .data f) (h : SameHeadersFile o.format f f') :
    checkOneFile env me (fs.replace path f') fuel o mix path = checkOneFile env me fs fuel o mix path := by
  have hl : f'.length = f.length := by
    unfold SameHeadersFile at h
    cases ho : o.format <;> rw [ho] at h
    · exact h.1
    · exact h.1
    · obtain ⟨_, _, _, _, _, _, _, _, hl, _⟩ := h; exact hl
    · obtain ⟨_, _, _, _, _, _, _, _, hl, _⟩ := h; exact hl
    · exact h.1
  have ha : analyse env (fs.replace path f') o fuel path = analyse env fs o fuel path := by
    unfold analyse analyseTry fileToMemoryMap
    simp only [FS.replace, if_true, hr]
    cases f with
    | nil =>
      cases f' with
      | nil => rfl
      | cons => simp at hl
    | cons x xs =>
      cases f' with
      | nil => simp at hl
      | cons y ys =>
        simp only [Outcome.bind_ok]
        rw [C59_file env o fuel h]
  unfold checkOneFile
  rw [ha]
  rfl

/-! ## Conforming codestreams -/

/-- The header of a tile-part that was written. -/
theorem tilePart_sod {catC fmt} {csiz n : Nat} {t : GenTilePart}
    (h : t.Conforms catC fmt csiz n) {b pre post : Bytes} (hb : b = pre ++ (t.bytes ++ post)) :
    ∃ ss, SegsTo b SOD (pre.length + 12) ss (some (pre.length + 12 + (segBytes t.segs).length)) := by
  have hpre : (pre ++ SOT ++ beBytes 2 10 ++ beBytes 2 t.index ++ beBytes 4 t.length ++ beBytes 1 t.part ++
      beBytes 1 t.parts).length = pre.length + 12 := by simp [SOT, length_beBytes]
  obtain ⟨ss, hs1, hs2⟩ := segsTo_gen (stop := SOD) t.segs (b := b) (pre := pre ++ SOT ++ beBytes 2 10 ++
      beBytes 2 t.index ++ beBytes 4 t.length ++ beBytes 1 t.part ++ beBytes 1 t.parts)
    (rest := SOD ++ t.data ++ post) (by rw [hb]; simp [GenTilePart.bytes]) (fun s hs => by
      obtain ⟨ha, -, hf⟩ := h.header.segs s hs
      refine ⟨?_, ?_, ?_, hf⟩ <;> revert ha <;> generalize s.1 = m <;> revert m <;> decide) (by
      have : sub b ((pre ++ SOT ++ beBytes 2 10 ++ beBytes 2 t.index ++ beBytes 4 t.length ++
          beBytes 1 t.part ++ beBytes 1 t.parts).length + (segBytes t.segs).length) 2 = SOD :=
        sub_mid' (x := SOD) (pre := pre ++ SOT ++ beBytes 2 10 ++ beBytes 2 t.index ++ beBytes 4 t.length ++
            beBytes 1 t.part ++ beBytes 1 t.parts ++ segBytes t.segs) (post := t.data ++ post)
            (by rw [hb]; simp [GenTilePart.bytes]) (by simp only [List.length_append]) rfl
      have h2 := SegAt.alone (b := b) (off := (pre ++ SOT ++ beBytes 2 10 ++ beBytes 2 t.index ++
          beBytes 4 t.length ++ beBytes 1 t.part ++ beBytes 1 t.parts).length + (segBytes t.segs).length)
          (by rw [this]; decide)
      rw [this] at h2
      exact ⟨_, _, h2⟩)
  rw [hpre] at hs1
  exact ⟨ss, hs1⟩

/-- A tile-part is a header and packet data. -/
theorem tilePart_split (t : GenTilePart) : ∃ hd : Bytes, hd.length = 14 + (segBytes t.segs).length ∧
    t.bytes = hd ++ t.data ∧ ∀ data, data.length = t.data.length →
      ({ t with data := data } : GenTilePart).bytes = hd ++ data := by
  refine ⟨SOT ++ beBytes 2 10 ++ beBytes 2 t.index ++ beBytes 4 t.length ++ beBytes 1 t.part ++ beBytes 1 t.parts ++
    segBytes t.segs ++ SOD, by simp [SOT, SOD, length_beBytes]; omega, rfl, fun data hd => ?_⟩
  have hl : ({ t with data := data } : GenTilePart).length = t.length := by simp [GenTilePart.length, hd]
  unfold GenTilePart.bytes
  rw [hl]

theorem length_tps {tps tps'} (h : SameButData tps tps') :
    (tps'.flatMap GenTilePart.bytes).length = (tps.flatMap GenTilePart.bytes).length := by
  induction h with
  | nil => rfl
  | @cons t ts ts' data hd _ ih =>
    obtain ⟨hdr, h1, h2, h3⟩ := tilePart_split t
    simp only [List.flatMap_cons, List.length_append, ih, h3 _ hd, h2, hd]

theorem packets_gen {catC fmt} {csiz n : Nat} (hn : n ≤ 65535) {tps tps'} (hs : SameButData tps tps') :
    ∀ {b b' pre pre' : Bytes} (_ : b = pre ++ (tps.flatMap GenTilePart.bytes ++ EOC))
    (_ : b' = pre' ++ (tps'.flatMap GenTilePart.bytes ++ EOC)) (_ : pre'.length = pre.length)
    (_ : ∀ t ∈ tps, t.Conforms catC fmt csiz n),
    ∃ ts, Chain b pre.length ts ∧ WellFramed b ts ∧
      ∀ i, pre.length ≤ i → ¬ PacketByte b ts i → b'[i]? = b[i]? := by
  induction hs with
  | nil =>
    intro b b' pre pre' hb hb' hl _
    have : sub b pre.length 2 = EOC := sub_mid' (x := EOC) (post := []) (by rw [hb]; simp) rfl rfl
    refine ⟨[], .done (by rw [this]; decide), (fun t ht => by cases ht), fun i hi _ => ?_⟩
    rw [hb, hb', List.getElem?_append_right hi, List.getElem?_append_right (by omega), hl]
  | @cons t ts ts' data hd hsame ih =>
    intro b b' pre pre' hb hb' hl hc
    obtain ⟨hdr, hh1, hh2, hh3⟩ := tilePart_split t
    have ht := hc t (by simp)
    have hb1 : b = pre ++ (t.bytes ++ (ts.flatMap GenTilePart.bytes ++ EOC)) := by rw [hb]; simp
    have hb1' : b' = pre' ++ (({ t with data := data } : GenTilePart).bytes ++ (ts'.flatMap GenTilePart.bytes ++ EOC)) := by
      rw [hb']; simp
    have hat := tilePart_at ht hn hb1
    obtain ⟨ss, hsod⟩ := tilePart_sod ht hb1
    have e : (pre ++ t.bytes).length = pre.length + t.length := by rw [List.length_append, length_tilePart]
    obtain ⟨tl, h1, h2, h3⟩ := ih (b := b) (b' := b') (pre := pre ++ t.bytes)
      (pre' := pre' ++ ({ t with data := data } : GenTilePart).bytes) (by rw [hb1]; simp) (by rw [hb1']; simp)
      (by simp only [List.length_append, hl, hh2, hh3 _ hd, hd]) (fun x hx => hc x (by simp [hx]))
    rw [e] at h1 h3
    have hlen : t.length = 14 + (segBytes t.segs).length + t.data.length := rfl
    refine ⟨foundAt pre.length t :: tl, .step hat (by show t.length ≠ 0; omega) h1, ?_, ?_⟩
    · intro u hu
      rcases List.mem_cons.1 hu with rfl | hu
      · refine ⟨ss, _, hsod, fun _ => ⟨?_, ?_⟩⟩
        · show _ ≤ pre.length + t.length
          omega
        · show pre.length + t.length + 2 ≤ _
          rw [← e, hb1]
          simp [EOC]
          omega
      · exact h2 u hu
    · intro i hi hnp
      by_cases hlt : i < pre.length + t.length
      · by_cases hh : i < pre.length + hdr.length
        · rw [hb1, hb1', List.getElem?_append_right hi, List.getElem?_append_right (by omega), hl, hh2, hh3 _ hd,
            List.append_assoc, List.append_assoc, List.getElem?_append_left (by omega),
            List.getElem?_append_left (by omega)]
        · refine absurd ⟨_, List.mem_cons_self, ss, _, hsod, ?_, fun _ => hlt, fun h0 => ?_⟩ hnp
          · omega
          · have h0 : t.length = 0 := h0
            omega
      · exact h3 i (by omega) fun ⟨u, hu, x⟩ => hnp ⟨u, List.mem_cons_of_mem _ hu, x⟩

/-- C59 (conforming codestreams): two conforming codestreams that differ only in the contents of their packet data
differ only in packet data in the sense of the theorems above. -/
theorem C59_conforming {env : Env} {o : Options} {csiz n : Nat} {g : GenCodestream}
    (h : g.Conforms env.catC o.format csiz n) {tps} (hs : SameButData g.tps tps) :
    OtherPacketData g.bytes ({ g with tps := tps } : GenCodestream).bytes := by
  obtain ⟨ss, sot, hm, hss, rfl⟩ := gen_mainHeader h
  obtain ⟨ts, h1, h2, h3⟩ := packets_gen h.tiles.2.2 hs (b := g.bytes)
    (b' := ({ g with tps := tps } : GenCodestream).bytes)
    (pre := SOC ++ SIZ ++ g.siz ++ segBytes g.main) (pre' := SOC ++ SIZ ++ g.siz ++ segBytes g.main)
    (by simp [GenCodestream.bytes]) (by simp [GenCodestream.bytes]) rfl h.tps
  refine ⟨_, _, _, _, ts, ?_, hm, h1, h2, ?_, fun i hi => ?_⟩
  · exact sub_mid' (x := SOC) (pre := []) (post := SIZ ++ g.siz ++ segBytes g.main ++ g.tps.flatMap GenTilePart.bytes ++ EOC)
      (by simp [GenCodestream.bytes]) rfl rfl
  · simp only [GenCodestream.bytes, List.length_append, length_tps hs]
  · by_cases hp : (SOC ++ SIZ ++ g.siz ++ segBytes g.main).length ≤ i
    · exact h3 i hp hi
    · have e : ∀ tps : List GenTilePart, ({ g with tps := tps } : GenCodestream).bytes =
          (SOC ++ SIZ ++ g.siz ++ segBytes g.main) ++ (tps.flatMap GenTilePart.bytes ++ EOC) := fun tps => by
        simp [GenCodestream.bytes]
      show _ = ({ g with tps := g.tps } : GenCodestream).bytes[i]?
      rw [e, e, List.getElem?_append_left (l₁ := SOC ++ SIZ ++ g.siz ++ segBytes g.main) (by omega),
        List.getElem?_append_left (l₁ := SOC ++ SIZ ++ g.siz ++ segBytes g.main) (by omega)]

theorem sameHeadersBoxes_refl : ∀ l, SameHeadersBoxes l l
  | [] => .nil
  | _ :: l => .same (sameHeadersBoxes_refl l)

theorem sameHeadersBoxes_append {l l'} (h : SameHeadersBoxes l l') : ∀ pre, SameHeadersBoxes (pre ++ l) (pre ++ l')
  | [] => h
  | _ :: pre => .same (sameHeadersBoxes_append h pre)

/-- C59 (encoded files): if two files of the same length encode the same boxes up to what is not headers and markers in
one codestream, the report is the same. -/
theorem C59_encoded {f f' cs cs' : Bytes} {l1 l2 : List (Bytes × Bytes)}
    (h : EncodesBoxes (l1 ++ (ascii "jp2c", cs) :: l2) f) (h' : EncodesBoxes (l1 ++ (ascii "jp2c", cs') :: l2) f')
    (hl : f'.length = f.length) (hc : SameHeaders cs cs') (fmt : Format) (hf : fmt = .jp2 ∨ fmt = .jph) :
    SameHeadersFile fmt f f' := by
  obtain ⟨bs, hb, hm⟩ := (C10_roundtrip h).1
  obtain ⟨bs', hb', hm'⟩ := (C10_roundtrip h').1
  have : f'.length = f.length ∧ ∃ bs bs', Boxes f bs ∧ Boxes f' bs' ∧
      SameHeadersBoxes (bs.map fun x => (x.type, x.payload)) (bs'.map fun x => (x.type, x.payload)) := by
    refine ⟨hl, bs, bs', hb, hb', ?_⟩
    rw [hm, hm']
    exact sameHeadersBoxes_append (.codestream hc (sameHeadersBoxes_refl l2)) l1
  rcases hf with rfl | rfl <;> exact this

/-- **C59 (conforming codestreams, reports).** Two files with the same boxes around a conforming codestream, or two
conforming codestreams as files of their own, have the same report if they have the same length and the codestreams
differ only in the contents of the packet data, whatever these are. -/
theorem C59_conforming_report (env : Env) (me : MixEnv) (fs : FS) (fuel : Nat) (o : Options) (mix : Nat) (path : PyStr)
    {csiz n : Nat} {g : GenCodestream} {f f' : Bytes} (h : g.Conforms env.catC o.format csiz n)
    {tps} (hs : SameButData g.tps tps) (hr : fs.read path = .data f)
    (hf : (o.format = .jp2 ∨ o.format = .jph) ∧ f'.length = f.length ∧
        (∃ l1 l2, EncodesBoxes (l1 ++ (ascii "jp2c", g.bytes) :: l2) f ∧
          EncodesBoxes (l1 ++ (ascii "jp2c", ({ g with tps := tps } : GenCodestream).bytes) :: l2) f') ∨
      (o.format = .j2c ∨ o.format = .jhc) ∧ f = g.bytes ∧ f' = ({ g with tps := tps } : GenCodestream).bytes) :
    checkOneFile env me (fs.replace path f') fuel o mix path = checkOneFile env me fs fuel o mix path := by
  have hc := sameHeaders_of_packets (C59_conforming h hs)
  refine C59_report env me fs fuel o mix path hr ?_
  rcases hf with ⟨hf, hl, l1, l2, h1, h2⟩ | ⟨hf, rfl, rfl⟩
  · exact C59_encoded h1 h2 hl hc _ hf
  · rcases hf with hf | hf <;> rw [hf] <;> exact hc

theorem sameButData_map {α : Type} (f : α → GenTilePart) (data : α → Bytes) : ∀ (l : List α),
    (∀ k ∈ l, (data k).length = (f k).data.length) →
    SameButData (l.map f) (l.map fun k => { f k with data := data k })
  | [], _ => .nil
  | k :: l, h => .cons (h k (by simp)) (sameButData_map f data l fun x hx => h x (by simp [hx]))

/-- C59 (images of all sizes): the report on the codestream of an image is the report on the codestream with any other
packet data of the same lengths. -/
theorem C59_images (env : Env) (me : MixEnv) (fs : FS) (fuel : Nat) (o : Options) (mix : Nat) (path : PyStr)
    {i : Image} (h : i.Ok) (hf : o.format = .j2c) {data : Nat → Bytes}
    (hd : ∀ k < i.tiles, (data k).length = (i.data k).length) (hr : fs.read path = .data i.codestream.bytes) :
    checkOneFile env me (fs.replace path ({ i with data := data } : Image).codestream.bytes) fuel o mix path =
      checkOneFile env me fs fuel o mix path := by
  have hs := sameButData_map (fun k => (⟨k, 0, 1, [], i.data k⟩ : GenTilePart)) data (List.range i.tiles)
    fun k hk => hd k (List.mem_range.1 hk)
  exact C59_conforming_report env me fs fuel o mix path (image_conforms h env.catC (.inr hf)) hs hr
    (.inr ⟨.inl hf, rfl, rfl⟩)

/-- The hypotheses can be met: other data for an image with six tiles. -/
example : ∃ i : Image, i.Ok ∧ i.tiles = 6 ∧ ∃ data : Nat → Bytes, data ≠ i.data ∧
    ∀ k < i.tiles, (data k).length = (i.data k).length :=
  ⟨⟨640, 480, 256, 256, 3, 8, fun _ => [1, 2, 3]⟩,
    ⟨by decide, by decide, by decide, by decide, by decide, by decide, by decide, by decide⟩, by decide,
    fun k => [0xff, UInt8.ofNat k, 0xd9], fun e => absurd (congrFun e 0) (by decide), fun _ _ => rfl⟩

end Jpy
