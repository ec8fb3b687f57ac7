import Verif.Spec.Unseen
import Verif.Props.PacketData
import Verif.Props.Unknown
import Verif.Props.Contents
/-!
# C80: data without a meaning for the report have no influence on it
-/

namespace Jpy
open Spec Sample

theorem unseenIn_type {x x' : FoundBox} (h : UnseenIn x x') : x'.type = x.type := by cases h <;> rfl

theorem unseen_types : ∀ {bs bs'}, Unseen bs bs' → bs'.map (·.type) = bs.map (·.type)
  | _, _, .nil => rfl
  | _, _, .cons h1 h2 => by rw [List.map_cons, List.map_cons, unseenIn_type h1, unseen_types h2]

theorem opaque_eq {env : Env} {o : Options} {k : Nat} {t p p' : Bytes}
    (h : boxTypeOf t = .unknownBox ∨ boxTypeOf t = .intellectualPropertyBox) :
    validateBox env o k t p' = validateBox env o k t p := by
  cases k with
  | zero => rw [validateBox, validateBox]
  | succ k => rcases h with h | h <;> (rw [validateBox, validateBox, h]; simp only [validateLeaf, h, leaf])

theorem uuid_unseen {env : Env} {o : Options} {p p' : Bytes} (h1 : p'.take 16 = p.take 16) (h2 : p.take 16 ≠ xmpUuid)
    (h3 : 16 < p'.length ↔ 16 < p.length) : uuidBox env o.nullxml p' = uuidBox env o.nullxml p := by
  unfold uuidBox
  rw [slice_at p 0 16 (x := 0) (y := 16) rfl rfl, slice_at p' 0 16 (x := 0) (y := 16) rfl rfl, sub_zero, sub_zero, h1]
  by_cases hl : 16 ≤ p.length
  · have ht : (p.take 16).length = 16 := by simp; omega
    rw [uuidStr_ok ht]
    simp only [Outcome.bind_ok, uuidText_eq_xmp ht, if_neg h2]
    rw [show decide (p'.length > 16) = decide (p.length > 16) from decide_eq_decide.2 h3]
  · rw [uuidStr_raised (by simp; omega)]
    rfl

/-! ## Marker segments -/

theorem unseenSegs_run {env : Env} {o : Options} {f : Nat} {csiz : Option Int} {V : List Bytes} {ss ss'}
    (h : UnseenSegs V ss ss') :
    inTurn (segRun (segV env o f) csiz) (ss'.filter fun x => decide (x.marker ∈ V)) =
    inTurn (segRun (segV env o f) csiz) (ss.filter fun x => decide (x.marker ∈ V)) := by
  induction h with
  | nil => rfl
  | @same s s' m c ss ss' h ih =>
    rw [List.filter_cons, List.filter_cons]
    simp only
    split
    · simp only [inTurn, ih, segRun]
    · exact ih
  | @unread s s' m c c' ss ss' hm h ih =>
    rw [List.filter_cons, List.filter_cons]
    simp only
    split
    · have : segRun (segV env o f) csiz ⟨s', m, c'⟩ = segRun (segV env o f) csiz ⟨s, m, c⟩ := by
        simp only [List.mem_cons, List.not_mem_nil, or_false] at hm
        rcases hm with rfl | rfl | rfl <;> rfl
      simp only [inTurn, ih, this]
    · exact ih
  | more hx _ ih => rw [List.filter_cons, if_neg (by simpa using hx)]; exact ih
  | less hx _ ih => rw [List.filter_cons, if_neg (by simpa using hx)]; exact ih

theorem unseenSegs_any {V : List Bytes} {ss ss'} (h : UnseenSegs V ss ss') {m : Bytes} (hm : m ∈ V) :
    (ss'.any fun x => x.marker == m) = (ss.any fun x => x.marker == m) := by
  induction h with
  | nil => rfl
  | same _ ih => rw [List.any_cons, List.any_cons, ih]
  | unread _ _ ih => rw [List.any_cons, List.any_cons, ih]
  | @more x _ _ hx _ ih =>
    rw [List.any_cons, ih, show (x.marker == m) = false from beq_eq_false_iff_ne.2 fun e => hx (e ▸ hm), Bool.false_or]
  | @less x _ _ hx _ ih =>
    rw [List.any_cons, ih, show (x.marker == m) = false from beq_eq_false_iff_ne.2 fun e => hx (e ▸ hm), Bool.false_or]

theorem unseenSegs_count {V : List Bytes} {ss ss'} (h : UnseenSegs V ss ss') {m : Bytes} (hm : m ∈ V) :
    segCount m ss' = segCount m ss := by
  induction h with
  | nil => rfl
  | same _ ih => rw [segCount_cons, segCount_cons, ih]
  | unread _ _ ih => rw [segCount_cons, segCount_cons, ih]
  | more hx _ ih => rw [segCount_cons, ih, if_neg (fun e => hx (by rw [e]; exact hm)), Nat.zero_add]
  | less hx _ ih => rw [segCount_cons, ih, if_neg (fun e => hx (by rw [e]; exact hm)), Nat.zero_add]

theorem sub_of_sub {b : Bytes} {x n i k : Nat} (h : i + k ≤ n) : sub (sub b x n) i k = sub b (x + i) k := by
  unfold sub
  rw [List.drop_take, List.drop_drop, List.take_take, Nat.min_eq_left (by omega)]

theorem sub_alike {b b' : Bytes} {x y n i k : Nat} (h : sub b' y n = sub b x n) (hi : i + k ≤ n) :
    sub b' (y + i) k = sub b (x + i) k := by
  have := congrArg (fun l => sub l i k) h
  simpa only [sub_of_sub hi] using this

theorem uint_alike {b b' : Bytes} {x y n i k : Nat} (h : sub b' y n = sub b x n) (hk : 0 < k) (hi : i + k ≤ n) :
    uint b' (y + i) k = uint b (x + i) k := by
  rw [← uint_sub (b := b') (off := y) (n := n) hi hk, ← uint_sub (b := b) (off := x) (n := n) hi hk, h]

/-- The SOT segment of the second tile-part. -/
theorem unseenPart_at {b b' : Bytes} {t : TilePartInfo} {off' : Nat} (h : t.At b) (h12 : sub b' off' 12 = sub b t.start 12) :
    ({ t with start := off' } : TilePartInfo).At b' := by
  refine ⟨?_, ?_, ?_, ?_, ?_, ?_⟩
  · have := sub_alike (i := 0) (k := 2) h12 (by omega)
    exact this.trans h.marker
  · exact (uint_alike (i := 2) (k := 2) h12 (by omega) (by omega)).trans h.segLength
  · exact (uint_alike (i := 4) (k := 2) h12 (by omega) (by omega)).trans h.index
  · exact (uint_alike (i := 6) (k := 4) h12 (by omega) (by omega)).trans h.length
  · exact (uint_alike (i := 10) (k := 1) h12 (by omega) (by omega)).trans h.part
  · exact (uint_alike (i := 11) (k := 1) h12 (by omega) (by omega)).trans h.parts

theorem tilePart_unseen {env : Env} {o : Options} {b b' : Bytes} {t : TilePartInfo} {off' : Nat}
    (h : UnseenPart b b' t off')
    (hn : t.length ≠ 0 → sub b' (off' + t.length) 2 = sub b (t.start + t.length) 2) : ∃ K, ∀ f ≥ K, ∀ csiz,
    tilePart env o f csiz off' b' = tilePart env o f csiz t.start b >>= fun r =>
      .ok { r with returnOffset := some ((off' : Int) + t.length) } := by
  obtain ⟨ht, h12, ss, k, ss', k', hs, hs', hu⟩ := h
  refine ⟨ss.length + ss'.length + 2, fun f hf csiz => ?_⟩
  have hc : sub b' (off' + 2) 10 = sub b (t.start + 2) 10 := sub_alike h12 (by omega)
  have hseg := segAt_of_at ht
  have hseg' : SegAt b' off' mSOT (sub b' (off' + 2) 10) (some (off' + 12)) := segAt_of_at (unseenPart_at ht h12)
  have hlen : uint (sub b (t.start + 2) 10) 4 4 = some t.length := by
    rw [uint_sub (by omega) (by omega)]; exact ht.length
  rw [tilePart_unfold hseg, tilePart_unfold hseg', hc, hlen]
  rw [tpLoop_eq hs (by omega) (by simp only; decide) (by simp only [intOf]; omega) rfl,
    tpLoop_eq hs' (by omega) (by simp only; decide) (by simp only [intOf]; omega) rfl,
    show inTurn (segRun (segV env o f) csiz) (ss'.filter fun x => decide (x.marker ∈ tpMarkers)) =
      inTurn (segRun (segV env o f) csiz) (ss.filter fun x => decide (x.marker ∈ tpMarkers)) from unseenSegs_run hu]
  cases inTurn (segRun (segV env o f) csiz) (ss.filter fun x => decide (x.marker ∈ tpMarkers)) with
  | raised e => rfl
  | timeout => rfl
  | ok rs =>
    simp only [Outcome.bind_ok]
    have e1 : ∀ s0 s1 : TPState, s1.node = s0.node → s1.pltCount = s0.pltCount → s1.pptCount = s0.pptCount →
        tpFinish o.verbose (tpEnd o.packetmarkers s1 ss' (some k') rs) =
        tpFinish o.verbose (tpEnd o.packetmarkers s0 ss (some k) rs) := by
      intro s0 s1 h1 h2 h3
      unfold tpFinish tpEnd
      simp only [h1, h2, h3, lastMarker, unseenSegs_count hu (m := mPLT) (by decide),
        unseenSegs_count hu (m := mPPT) (by decide)]
    unfold tpResult
    rw [e1 ⟨sotNode o.verbose (sub b (t.start + 2) 10), 0, 0, mSOT, intOf (some (t.start + 12)), intOf (some (t.start + 12))⟩
      ⟨sotNode o.verbose (sub b (t.start + 2) 10), 0, 0, mSOT, intOf (some (off' + 12)), intOf (some (off' + 12))⟩
      rfl rfl rfl]
    by_cases h0 : t.length = 0
    · simp [intOf, h0, Node.testIf]
    · have e2 : slice b' ((off' : Int) + intOf (some t.length)) ((off' : Int) + intOf (some t.length) + 2) =
          slice b ((t.start : Int) + intOf (some t.length)) ((t.start : Int) + intOf (some t.length) + 2) := by
        rw [slice_at b' (off' + t.length) 2 (by simp only [intOf]; omega) (by simp only [intOf]; omega),
          slice_at b (t.start + t.length) 2 (by simp only [intOf]; omega) (by simp only [intOf]; omega), hn h0]
      simp only [e2]
      rfl

theorem tileLoop_unseen {β : Type} (env : Env) (o : Options) {b b' : Bytes} {off off' : Nat}
    (h : UnseenParts b b' off off') : ∃ K, ∀ f ≥ K, ∀ (csiz : Option Int) (fuel : Nat) (s : TileState), s.offset = off →
    ∀ k : TileState → Outcome β, (∀ s s' : TileState, s'.node = s.node → s'.tileIndices = s.tileIndices →
        s'.expected = s.expected → s'.found = s.found → k s' = k s) →
      tileLoop (fun off => tilePart env o f csiz off b') b' fuel { s with offset := (off' : Int) } >>= k =
      tileLoop (fun off => tilePart env o f csiz off b) b fuel s >>= k := by
  induction h with
  | @done off off' hd he =>
    refine ⟨0, fun f _ csiz fuel s ho k hk => ?_⟩
    cases fuel with
    | zero => rfl
    | succ fuel =>
      unfold tileLoop
      simp only [ho]
      rw [slice_at b' off' 2 (by omega) (by omega), slice_at b off 2 (by omega) (by omega), he]
      split
      · rw [if_neg (show sub b off 2 ≠ mSOT from hd), if_neg (show sub b off 2 ≠ mSOT from hd)]
        exact hk _ _ rfl rfl rfl rfl
      · exact hk _ _ rfl rfl rfl rfl
  | @last t off' hp h0 =>
    obtain ⟨K, hK⟩ := tilePart_unseen (env := env) (o := o) hp (fun h => absurd h0 h)
    refine ⟨K, fun f hf csiz fuel s ho k hk => ?_⟩
    cases fuel with
    | zero => rfl
    | succ fuel =>
      unfold tileLoop
      simp only [ho]
      rw [slice_at b' off' 2 (by omega) (by omega), slice_at b t.start 2 (by omega) (by omega),
        show sub b' off' 2 = sub b t.start 2 from sub_alike (i := 0) hp.2.1 (by omega), hK f hf csiz]
      split
      · split
        · cases hr : tilePart env o f csiz t.start b with
          | raised e => rfl
          | timeout => rfl
          | ok r =>
            have hn := tilePart_next hp.1 hr
            simp only [Outcome.bind_ok, hn, h0, Option.getD_some]
            cases needInt (Elem.findElementText r.node.chars ["sot", "isot"]) with
            | raised e => rfl
            | timeout => rfl
            | ok isot =>
              simp only [Outcome.bind_ok]
              cases needInt (Elem.findElementText r.node.chars ["sot", "tnsot"]) with
              | raised e => rfl
              | timeout => rfl
              | ok tnsot =>
                simp only [Outcome.bind_ok]
                by_cases hi : 0 ≤ isot ∧ isot < s.found.length
                · rw [if_pos hi, if_pos hi, if_neg (show ¬ ((off' : Int) + ((0 : Nat) : Int) ≠ off') by omega),
                    if_neg (show ¬ (((t.start + 0 : Nat) : Int) ≠ t.start) by omega)]
                  exact hk _ _ rfl rfl rfl rfl
                · rw [if_neg hi, if_neg hi]
                  exact hk _ _ rfl rfl rfl rfl
        · exact hk _ _ rfl rfl rfl rfl
      · exact hk _ _ rfl rfl rfl rfl
  | @step t off' hp h0 hnx hrest ih =>
    obtain ⟨K, hK⟩ := tilePart_unseen (env := env) (o := o) hp (fun _ => hnx)
    obtain ⟨K', hK'⟩ := ih
    refine ⟨K + K', fun f hf csiz fuel s ho k hk => ?_⟩
    cases fuel with
    | zero => rfl
    | succ fuel =>
      unfold tileLoop
      simp only [ho]
      rw [slice_at b' off' 2 (by omega) (by omega), slice_at b t.start 2 (by omega) (by omega),
        show sub b' off' 2 = sub b t.start 2 from sub_alike (i := 0) hp.2.1 (by omega), hK f (by omega) csiz]
      split
      · split
        · cases hr : tilePart env o f csiz t.start b with
          | raised e => rfl
          | timeout => rfl
          | ok r =>
            have hn := tilePart_next hp.1 hr
            simp only [Outcome.bind_ok, hn, Option.getD_some]
            cases needInt (Elem.findElementText r.node.chars ["sot", "isot"]) with
            | raised e => rfl
            | timeout => rfl
            | ok isot =>
              simp only [Outcome.bind_ok]
              cases needInt (Elem.findElementText r.node.chars ["sot", "tnsot"]) with
              | raised e => rfl
              | timeout => rfl
              | ok tnsot =>
                simp only [Outcome.bind_ok]
                by_cases hi : 0 ≤ isot ∧ isot < s.found.length
                · rw [if_pos hi, if_pos hi, if_pos (show (off' : Int) + t.length ≠ off' by omega),
                    if_pos (show ((t.start + t.length : Nat) : Int) ≠ t.start by omega)]
                  have := hK' f (by omega) csiz fuel
                  rw [show ((off' + t.length : Nat) : Int) = (off' : Int) + t.length by omega,
                    show ((t.start + t.length : Nat) : Int) = (t.start : Int) + t.length by omega] at this
                  exact this ⟨_, _, _, _, _, (t.start : Int) + t.length⟩ rfl k hk
                · rw [if_neg hi, if_neg hi]
                  exact hk _ _ rfl rfl rfl rfl
        · exact hk _ _ rfl rfl rfl rfl
      · exact hk _ _ rfl rfl rfl rfl

/-- Codestreams related in this way have the same outcome up to the last step. -/
theorem codestream_unseen_rel (env : Env) (o : Options) {b b' : Bytes} (h : UnseenCodestream b b')
    {S : Node → Node → Prop} (hS : slice b' ((b'.length : Int) - 2) b'.length = slice b ((b.length : Int) - 2) b.length →
      ∀ sz n node t, OutRel S (codestreamFinish o b sz n node t) (codestreamFinish o b' sz n node t)) :
    ∃ K, ∀ f ≥ K, OutRel S (codestream env o f b) (codestream env o f b') := by
  obtain ⟨siz, csiz, main, main', sot, sot', hsoc, hsoc', ⟨⟨first, hsiz, hmain⟩, hcs⟩, ⟨⟨first', hsiz', hmain'⟩, _⟩, hu,
    hp, hlast⟩ := h
  have h0 : SegAt b 0 SOC [] (some 2) := by rw [← hsoc]; exact .alone (by rw [hsoc]; decide)
  have h0' : SegAt b' 0 SOC [] (some 2) := by rw [← hsoc']; exact .alone (by rw [hsoc']; decide)
  have h2 : 2 ≤ b.length := by
    have := congrArg List.length hsoc
    rw [length_sub, show (SOC : Bytes).length = 2 from rfl] at this
    omega
  have h2' : 2 ≤ b'.length := by
    have := congrArg List.length hsoc'
    rw [length_sub, show (SOC : Bytes).length = 2 from rfl] at this
    omega
  have hslice : slice b' ((b'.length : Int) - 2) b'.length = slice b ((b.length : Int) - 2) b.length := by
    rw [slice_at b (b.length - 2) 2 (by omega) (by omega), slice_at b' (b'.length - 2) 2 (by omega) (by omega), hlast]
  obtain ⟨K, hK⟩ := tileLoop_unseen (β := Node) env o hp
  refine ⟨K + main.length + main'.length + 2, fun f hf => ?_⟩
  rw [codestream_eq h0 rfl hsiz, codestream_eq h0' rfl hsiz']
  cases hr : validateLeaf env o f none mSIZ siz with
  | raised e => exact .raised e
  | timeout => exact .timeout
  | ok r =>
    simp only [Outcome.bind_ok]
    cases hci : needInt (Elem.findElementText r.node.chars ["csiz"]) with
    | raised e => exact .raised e
    | timeout => exact .timeout
    | ok ci =>
      simp only [Outcome.bind_ok]
      rw [mainLoop_eq hmain (by omega) (by simp only [mainStart]; decide) (by simp only [mainStart, intOf]; omega) rfl,
        mainLoop_eq hmain' (by omega) (by simp only [mainStart]; decide) (by simp only [mainStart, intOf]; omega) rfl,
        show inTurn (segRun (segV env o f) (some ci)) (main'.filter fun x => decide (x.marker ∈ mainMarkers)) =
          inTurn (segRun (segV env o f) (some ci)) (main.filter fun x => decide (x.marker ∈ mainMarkers)) from
          unseenSegs_run hu]
      cases inTurn (segRun (segV env o f) (some ci)) (main.filter fun x => decide (x.marker ∈ mainMarkers)) with
      | raised e => exact .raised e
      | timeout => exact .timeout
      | ok rs =>
        simp only [Outcome.bind_ok]
        have e1 : mainEnd b' o.packetmarkers (mainStart o b' r (intOf (some first'))) main' (some sot') rs =
            { mainEnd b o.packetmarkers (mainStart o b r (intOf (some first))) main (some sot) rs with
              offset := (sot' : Int), offsetNext := (getMarkerSegment b' sot').next } := by
          unfold mainEnd mainStart headNode
          rw [hsoc, hsoc']
          simp only [lastMarker, unseenSegs_count hu (m := mPLM) (by decide), unseenSegs_count hu (m := mPPM) (by decide),
            unseenSegs_any hu (m := mCOD) (by decide), unseenSegs_any hu (m := mQCD) (by decide),
            unseenSegs_any hu (m := mCAP) (by decide), unseenSegs_any hu (m := mPRF) (by decide),
            unseenSegs_any hu (m := mCPF) (by decide)]
        rw [e1]
        generalize hs : mainEnd b o.packetmarkers (mainStart o b r (intOf (some first))) main (some sot) rs = s
        have ho : s.offset = sot := by rw [← hs]; rfl
        simp only
        refine OutRel.bind (OutRel.refl (R := Eq) (fun _ => rfl) _) ?_
        rintro rsiz _ _ _ rfl
        refine OutRel.bind (y := needInt (Elem.findElementText (mainNode o s rsiz).chars ["siz", "numberOfTiles"]))
          (OutRel.refl (R := Eq) (fun _ => rfl) _) ?_
        rintro tiles _ _ _ rfl
        show OutRel S _ (_ >>= codestreamFinish o b' r.node.chars (min tiles 65535) (mainNode o s rsiz))
        have e2 := hK f (by omega) (some ci) f
          ⟨{}, [], [], List.replicate (rangeLen (min tiles 65535)) 0, s.marker, s.offset⟩ ho
          (codestreamFinish o b' r.node.chars (min tiles 65535) (mainNode o s rsiz))
          (fun s s' h1 h2 h3 h4 => by unfold codestreamFinish; simp only [h1, h2, h3, h4])
        simp only at e2
        rw [e2]
        refine OutRel.bind (OutRel.refl (R := Eq) (fun _ => rfl) _) ?_
        rintro t _ _ _ rfl
        exact hS hslice _ _ _ _

/-- Codestreams related in this way have the same outcome, if they have the same length or the format is not that of a
bare codestream. -/
theorem codestream_unseen (env : Env) (o : Options) {b b' : Bytes} (h : UnseenCodestream b b')
    (hl : ¬ (o.format = .j2c ∨ o.format = .jhc) ∨ b'.length = b.length) :
    ∃ K, ∀ f ≥ K, codestream env o f b' = codestream env o f b := by
  obtain ⟨K, hK⟩ := codestream_unseen_rel env o h (S := fun n n' => n' = n) fun hs sz n node t => by
    have : codestreamFinish o b' sz n node t = codestreamFinish o b sz n node t := by
      unfold codestreamFinish
      rw [hs]
      rcases hl with hf | hl
      · rw [if_neg hf, if_neg hf]
      · rw [hl]
    rw [this]
    exact OutRel.refl (R := fun n n' => n' = n) (fun _ => rfl) _
  refine ⟨K, fun f hf => ?_⟩
  generalize hx : codestream env o f b = x
  generalize hy : codestream env o f b' = y
  have := hK f hf
  rw [hx, hy] at this
  cases this with
  | ok h => rw [h]
  | raised => rfl
  | timeout => rfl

/-- Same tests, and same properties but for the value of the compression ratio. -/
structure SameFinal (n n' : Node) : Prop where
  tests : n'.tests = n.tests
  chars : n'.chars.filter (fun e => e.tag != "compressionRatio") = n.chars.filter fun e => e.tag != "compressionRatio"
  ratio : (n'.chars.filter fun e => e.tag == "compressionRatio").length =
    (n.chars.filter fun e => e.tag == "compressionRatio").length

theorem SameFinal.refl (n : Node) : SameFinal n n := ⟨rfl, rfl, rfl⟩

theorem SameFinal.addRatio (n : Node) (v v' : PyVal) :
    SameFinal (n.addChar "compressionRatio" v) (n.addChar "compressionRatio" v') := by
  refine ⟨rfl, ?_, ?_⟩
  · simp only [Node.addChar, List.filter_append]; rfl
  · simp only [Node.addChar, List.filter_append, List.length_append]; rfl

theorem codestream_final (env : Env) (o : Options) {b b' : Bytes} (h : UnseenCodestream b b') :
    ∃ K, ∀ f ≥ K, OutRel SameFinal (codestream env o f b) (codestream env o f b') :=
  codestream_unseen_rel env o h fun hs sz n node t => by
    unfold codestreamFinish
    rw [hs]
    split
    · refine OutRel.bind (OutRel.refl (R := Eq) (fun _ => rfl) _) ?_
      rintro a _ _ _ rfl
      refine OutRel.bind (OutRel.refl (R := Eq) (fun _ => rfl) _) ?_
      rintro b _ _ _ rfl
      refine OutRel.bind (OutRel.refl (R := Eq) (fun _ => rfl) _) ?_
      rintro c _ _ _ rfl
      refine OutRel.bind (OutRel.refl (R := Eq) (fun _ => rfl) _) ?_
      rintro d _ _ _ rfl
      refine OutRel.bind (OutRel.refl (R := Eq) (fun _ => rfl) _) ?_
      rintro e _ _ _ rfl
      exact .ok (.addRatio ..)
    · exact .ok (.refl _)

theorem siz_final (o : Options) (nb nb' : Int) (n : Node) (ih sz : List Elem) :
    OutRel SameFinal (sizConsistency o nb n ih sz) (sizConsistency o nb' n ih sz) := by
  unfold sizConsistency
  refine OutRel.bind (OutRel.refl (R := Eq) (fun _ => rfl) _) ?_
  rintro a _ _ _ rfl
  refine OutRel.bind (OutRel.refl (R := Eq) (fun _ => rfl) _) ?_
  rintro b _ _ _ rfl
  refine OutRel.bind (OutRel.refl (R := Eq) (fun _ => rfl) _) ?_
  rintro c _ _ _ rfl
  refine OutRel.bind (OutRel.refl (R := Eq) (fun _ => rfl) _) ?_
  rintro d _ _ _ rfl
  refine OutRel.bind (OutRel.refl (R := Eq) (fun _ => rfl) _) ?_
  rintro ⟨e, f⟩ _ _ _ rfl
  simp only []
  split
  · refine OutRel.bind (OutRel.refl (R := Eq) (fun _ => rfl) _) ?_
    rintro g _ _ _ rfl
    refine OutRel.bind (OutRel.refl (R := Eq) (fun _ => rfl) _) ?_
    rintro i _ _ _ rfl
    refine OutRel.bind (OutRel.refl (R := Eq) (fun _ => rfl) _) ?_
    rintro j _ _ _ rfl
    exact .ok (.addRatio ..)
  · exact .ok (.refl _)

theorem jp2Finish_final (o : Options) (nb nb' : Int) (n : Node) (types : List Bytes) :
    OutRel SameFinal (jp2Finish o nb n types) (jp2Finish o nb' n types) := by
  rw [jp2Finish_eq, jp2Finish_eq]
  unfold jp2Last
  split
  · exact siz_final ..
  · exact .ok (.refl _)

mutual
theorem validateBox_unseen (env : Env) (o : Options) (hf : ¬ (o.format = .j2c ∨ o.format = .jhc)) : ∀ {x x'}, UnseenIn x x' → ∃ K, ∀ k ≥ K,
    validateBox env o k x'.type x'.payload = validateBox env o k x.type x.payload
  | _, _, .same => ⟨0, fun _ _ => rfl⟩
  | _, _, .unknown h1 h2 => ⟨0, fun _ _ => opaque_eq (.inl (unknown_type h1 h2))⟩
  | _, _, .ipr ht => ⟨0, fun _ _ => opaque_eq (.inr (by subst ht; exact (by decide : boxTypeOf (ascii "jp2i") = .intellectualPropertyBox)))⟩
  | _, _, .uuid (p := p) (p' := p') ht h1 h2 h3 => ⟨1, fun k hk => by
      obtain ⟨k, rfl⟩ : ∃ j, k = j + 1 := ⟨k - 1, by omega⟩
      subst ht
      show validateBox env o (k + 1) tagUuid _ = validateBox env o (k + 1) tagUuid _
      rw [validateBox, validateBox, show boxTypeOf tagUuid = .uuidBox from by decide]
      simp only [validateLeaf, show boxTypeOf tagUuid = .uuidBox from by decide, leaf, uuid_unseen (env := env) (o := o) h1 h2 h3]⟩
  | _, _, .codestream ht h => ⟨1, fun k hk => by
      obtain ⟨k, rfl⟩ : ∃ j, k = j + 1 := ⟨k - 1, by omega⟩
      subst ht
      show validateBox env o (k + 1) tagCodestream _ = validateBox env o (k + 1) tagCodestream _
      rw [validateBox, validateBox, show boxTypeOf tagCodestream = .contiguousCodestreamBox from by decide]
      simp only [C59_codestream env o _ h]⟩
  | _, _, .segments ht h => by
    obtain ⟨K, hK⟩ := codestream_unseen env o h (.inl hf)
    refine ⟨K + 1, fun k hk => ?_⟩
    obtain ⟨k, rfl⟩ : ∃ j, k = j + 1 := ⟨k - 1, by omega⟩
    subst ht
    show validateBox env o (k + 1) tagCodestream _ = validateBox env o (k + 1) tagCodestream _
    rw [validateBox, validateBox, show boxTypeOf tagCodestream = .contiguousCodestreamBox from by decide]
    simp only [hK k (by omega)]
  | _, _, .super (hs := hs) (hs' := hs') ht hb hb' hm => by
    obtain ⟨K, hK⟩ := boxes_unseen env o hf hm
    refine ⟨K + hs.length + hs'.length + 2, fun k hk => ?_⟩
    obtain ⟨k, rfl⟩ : ∃ j, k = j + 1 := ⟨k - 1, by omega⟩
    simp only [List.mem_cons, List.not_mem_nil, or_false] at ht
    rcases ht with rfl | rfl | rfl
    · show validateBox env o (k + 1) tagJp2Header _ = validateBox env o (k + 1) tagJp2Header _
      rw [validateBox, validateBox, show boxTypeOf tagJp2Header = .jp2HeaderBox from by decide]
      simp only [walkBoxes_eq hb (fuel := k) (by omega), walkBoxes_eq hb' (fuel := k) (by omega), hK k (by omega),
        unseen_types hm]
    · show validateBox env o (k + 1) tagResolution _ = validateBox env o (k + 1) tagResolution _
      rw [validateBox, validateBox, show boxTypeOf tagResolution = .resolutionBox from by decide]
      simp only [walkBoxes_eq hb (fuel := k) (by omega), walkBoxes_eq hb' (fuel := k) (by omega), hK k (by omega),
        unseen_types hm]
    · show validateBox env o (k + 1) tagUuidInfo _ = validateBox env o (k + 1) tagUuidInfo _
      rw [validateBox, validateBox, show boxTypeOf tagUuidInfo = .uuidInfoBox from by decide]
      simp only [walkBoxes_eq hb (fuel := k) (by omega), walkBoxes_eq hb' (fuel := k) (by omega), hK k (by omega),
        unseen_types hm]
theorem boxes_unseen (env : Env) (o : Options) (hf : ¬ (o.format = .j2c ∨ o.format = .jhc)) : ∀ {bs bs'}, Unseen bs bs' → ∃ K, ∀ k ≥ K,
    inTurn (fun x => validateBox env o k x.type x.payload) bs' = inTurn (fun x => validateBox env o k x.type x.payload) bs
  | _, _, .nil => ⟨0, fun _ _ => rfl⟩
  | _, _, .cons h1 h2 => by
    obtain ⟨K1, hK1⟩ := validateBox_unseen env o hf h1
    obtain ⟨K2, hK2⟩ := boxes_unseen env o hf h2
    refine ⟨K1 + K2, fun k hk => ?_⟩
    simp only [inTurn, hK1 k (by omega), hK2 k (by omega)]
end

/-- The outcomes for two files of the same length are the same. -/
theorem validateRoot_unseen (env : Env) (o : Options) {f f' : Bytes} (hl : f'.length = f.length)
    (h : UnseenData o.format f f') : ∃ K, ∀ k ≥ K, validateRoot env o k f' = validateRoot env o k f := by
  have boxed : ¬ (o.format = .j2c ∨ o.format = .jhc) → (∃ bs bs', Boxes f bs ∧ Boxes f' bs' ∧ Unseen bs bs') →
      ∃ K, ∀ k ≥ K, validateJP2 env o k f' = validateJP2 env o k f := by
    rintro hf ⟨bs, bs', hb, hb', hm⟩
    obtain ⟨K, hK⟩ := boxes_unseen env o hf hm
    refine ⟨K + bs.length + bs'.length + 1, fun k hk => ?_⟩
    unfold validateJP2
    simp only [walkBoxes_eq hb (fuel := k) (by omega), walkBoxes_eq hb' (fuel := k) (by omega), hK k (by omega),
      unseen_types hm, hl]
  unfold UnseenData at h
  unfold validateRoot
  cases hf : o.format <;> rw [hf] at h <;> simp only at h ⊢
  · exact boxed (by rw [hf]; decide) h
  · exact boxed (by rw [hf]; decide) h
  · rcases h with h | h
    · exact ⟨0, fun k _ => C59_codestream env o k h⟩
    · exact codestream_unseen env o h (.inr hl)
  · rcases h with h | h
    · exact ⟨0, fun k _ => C59_codestream env o k h⟩
    · exact codestream_unseen env o h (.inr hl)
  · exact ⟨0, fun _ _ => trivial⟩

/-- For any two files they differ only in the value of the compression ratio. -/
theorem validateRoot_final (env : Env) (o : Options) {f f' : Bytes} (h : UnseenData o.format f f') :
    ∃ K, ∀ k ≥ K, OutRel SameFinal (validateRoot env o k f) (validateRoot env o k f') := by
  have boxed : ¬ (o.format = .j2c ∨ o.format = .jhc) → (∃ bs bs', Boxes f bs ∧ Boxes f' bs' ∧ Unseen bs bs') →
      ∃ K, ∀ k ≥ K, OutRel SameFinal (validateJP2 env o k f) (validateJP2 env o k f') := by
    rintro hf ⟨bs, bs', hb, hb', hm⟩
    obtain ⟨K, hK⟩ := boxes_unseen env o hf hm
    refine ⟨K + bs.length + bs'.length + 1, fun k hk => ?_⟩
    unfold validateJP2
    simp only [walkBoxes_eq hb (fuel := k) (by omega), walkBoxes_eq hb' (fuel := k) (by omega), hK k (by omega),
      unseen_types hm]
    refine OutRel.bind (OutRel.refl (R := Eq) (fun _ => rfl) _) ?_
    rintro x _ _ _ rfl
    exact jp2Finish_final ..
  unfold UnseenData at h
  unfold validateRoot
  have same : SameHeaders f f' → ∃ K, ∀ k ≥ K, OutRel SameFinal (codestream env o k f) (codestream env o k f') := fun h =>
    ⟨0, fun k _ => by rw [C59_codestream env o k h]; exact OutRel.refl SameFinal.refl _⟩
  cases hf : o.format <;> rw [hf] at h <;> simp only at h ⊢
  · exact boxed (by rw [hf]; decide) h
  · exact boxed (by rw [hf]; decide) h
  · exact h.elim same (codestream_final env o)
  · exact h.elim same (codestream_final env o)
  · exact ⟨0, fun _ _ => OutRel.refl SameFinal.refl _⟩

/-- **C80.** Two files of the same length that differ only in the contents of boxes of unknown type, of intellectual
property boxes and of UUID boxes other than XMP, and in codestreams in what is not headers and markers, in the contents
of TLM, PPM and PPT segments and in marker segments that are not validated: the reports are the same after the file
information. -/
theorem C80_report {env : Env} {me : MixEnv} {fs fs' : FS} {fuel fuel' : Nat} {o : Options} {mix : Nat}
    {path path' : PyStr} {f f' : Bytes} (hr : fs.read path = .data f) (hr' : fs'.read path' = .data f') (hn : f ≠ [])
    (hl : f'.length = f.length) (h : UnseenData o.format f f') {rep rep' : Elem}
    (hc : checkOneFile env me fs fuel o mix path = .ok rep)
    (hc' : checkOneFile env me fs' fuel' o mix path' = .ok rep') :
    ∃ info info' rest, rep = .node "file" (info :: rest) ∧ rep' = .node "file" (info' :: rest) ∧
      info.tag = "fileInfo" ∧ info'.tag = "fileInfo" := by
  have hn' : f' ≠ [] := by
    rintro rfl
    exact hn (List.length_eq_zero_iff.1 hl.symm)
  obtain ⟨K, hK⟩ := validateRoot_unseen env o hl h
  obtain ⟨info, a, m, h1, h2, h3, rfl⟩ := checkOneFile_ok.1 hc
  obtain ⟨info', a', m', h1', h2', h3', rfl⟩ := checkOneFile_ok.1 hc'
  have g := (analyse_le env fs o (show fuel ≤ K + fuel + fuel' by omega) path).ok h2
  have g' := (analyse_le env fs' o (show fuel' ≤ K + fuel + fuel' by omega) path').ok h2'
  have e : analyse env fs' o (K + fuel + fuel') path' = analyse env fs o (K + fuel + fuel') path := by
    unfold analyse analyseTry fileToMemoryMap
    rw [hr, hr']
    cases f with
    | nil => exact absurd rfl hn
    | cons x xs =>
      cases f' with
      | nil => exact absurd rfl hn'
      | cons y ys => simp only [Outcome.bind_ok, hK (K + fuel + fuel') (by omega)]
  rw [e, g] at g'
  cases g'
  rw [h3] at h3'
  cases h3'
  exact ⟨info, info', _, rfl, rfl, fileInfo_tag h1, fileInfo_tag h1'⟩

/-- Finished runs of both, with any fuels. -/
theorem validateRoot_final_ended {env : Env} {o : Options} {f f' : Bytes} (h : UnseenData o.format f f') {k k' : Nat}
    (h1 : validateRoot env o k f ≠ .timeout) (h2 : validateRoot env o k' f' ≠ .timeout) :
    OutRel SameFinal (validateRoot env o k f) (validateRoot env o k' f') := by
  obtain ⟨K, hK⟩ := validateRoot_final env o h
  have := hK (K + k + k') (by omega)
  rcases validateRoot_le env o (f := k) (g := K + k + k') (by omega) f with e | e
  · exact absurd e h1
  rcases validateRoot_le env o (f := k') (g := K + k + k') (by omega) f' with e' | e'
  · exact absurd e' h2
  rw [e, e']; exact this

/-- **C80.** The same for two files of different length: the reports have the same status and failure message, the same
verdict, the same tests, and the same properties but for the value of the compression ratio. -/
theorem C80_lengths {env : Env} {me : MixEnv} {fs fs' : FS} {fuel fuel' : Nat} {o : Options} {mix : Nat}
    {path path' : PyStr} {f f' : Bytes} (hr : fs.read path = .data f) (hr' : fs'.read path' = .data f')
    (h : UnseenData o.format f f') {rep rep' : Elem} (hc : checkOneFile env me fs fuel o mix path = .ok rep)
    (hc' : checkOneFile env me fs' fuel' o mix path' = .ok rep') :
    part rep' "statusInfo" = part rep "statusInfo" ∧ part rep' "isValid" = part rep "isValid" ∧
    part rep' "tests" = part rep "tests" ∧
    ∃ ps ps', part rep "properties" = some (.node "properties" ps) ∧
      part rep' "properties" = some (.node "properties" ps') ∧
      ps'.filter (fun e => e.tag != "compressionRatio") = ps.filter (fun e => e.tag != "compressionRatio") ∧
      (ps'.filter fun e => e.tag == "compressionRatio").length =
        (ps.filter fun e => e.tag == "compressionRatio").length := by
  obtain ⟨info, a, m, h1, h2, h3, rfl⟩ := checkOneFile_ok.1 hc
  obtain ⟨info', a', m', h1', h2', h3', rfl⟩ := checkOneFile_ok.1 hc'
  obtain ⟨-, p1, p2, p3, p4, -, -⟩ := report_parts (fileInfo_tag h1) (o := o) (a := a) (mix := mix) (m := m)
  obtain ⟨-, q1, q2, q3, q4, -, -⟩ := report_parts (fileInfo_tag h1') (o := o) (a := a') (mix := mix) (m := m')
  rw [p1, p2, p3, p4, q1, q2, q3, q4]
  have key := @validateRoot_final_ended env o f f' h fuel fuel'
  rcases analyse_of_data hr h2 with ⟨n, w, hn, rfl⟩ | ⟨e, hn, rfl⟩ <;>
    rcases analyse_of_data hr' h2' with ⟨n', w', hn', rfl⟩ | ⟨e', hn', rfl⟩ <;>
    replace key := key (by rw [hn]; exact fun e => nomatch e) (by rw [hn']; exact fun e => nomatch e) <;>
    rw [hn, hn'] at key <;> cases key
  · rename_i hr
    have hv : n'.isValid = n.isValid := by unfold Node.isValid; rw [hr.tests]
    refine ⟨rfl, ?_, ?_, _, _, rfl, rfl, ?_, ?_⟩
    · simp only [analysisOf, hv]
    · simp only [analysisOf, hr.tests]
    · simp only [analysisOf]
      rw [readableL_filter env _ (fun t => t != "compressionRatio"), readableL_filter env _ (fun t => t != "compressionRatio"),
        hr.chars]
    · simp only [analysisOf]
      rw [readableL_filter env _ (fun t => t == "compressionRatio"), readableL_filter env _ (fun t => t == "compressionRatio"),
        readableL_length', readableL_length']
      exact hr.ratio
  · exact ⟨rfl, rfl, rfl, _, _, rfl, rfl, rfl, rfl⟩

/-- C80 (validity). -/
theorem C80_valid (env : Env) (o : Options) {f f' : Bytes} (h : UnseenData o.format f f') :
    FileValid env o f' ↔ FileValid env o f := by
  obtain ⟨K, hK⟩ := validateRoot_final env o h
  constructor
  · rintro ⟨k, n', hn, hv⟩
    have hg := hK (K + k) (by omega)
    rw [(validateRoot_le env o (f := k) (g := K + k) (by omega) f').ok hn] at hg
    generalize hx : validateRoot env o (K + k) f = x at hg
    cases hg with
    | ok hr => exact ⟨_, _, hx, by rw [← hr.tests]; exact hv⟩
  · rintro ⟨k, n, hn, hv⟩
    have hg := hK (K + k) (by omega)
    rw [(validateRoot_le env o (f := k) (g := K + k) (by omega) f).ok hn] at hg
    generalize hx : validateRoot env o (K + k) f' = x at hg
    cases hg with
    | ok hr => exact ⟨_, _, hx, by rw [hr.tests]; exact hv⟩

/-! ## Concrete files -/

/-- Contents of an intellectual property box, of a UUID box and of an unknown box inside the header. -/
def unseenWith (a b c : Bytes) : Bytes :=
  fileWith (box "abcd" a) (box "jp2i" b ++ box "uuid" (List.replicate 16 7 ++ c))

/-- The hypothesis of `C80_report`: three boxes with other contents. -/
theorem unseenWith_unseen : UnseenData .jp2 (unseenWith [1, 2] [60, 97, 47, 62] [5]) (unseenWith [9, 0] [0, 255, 3, 4] [6]) := by
  refine ⟨
    [⟨0, ascii "jP  ", [0x0d, 0x0a, 0x87, 0x0a]⟩, ⟨12, ascii "ftyp", ascii "jp2 " ++ be32 0 ++ ascii "jp2 "⟩,
      ⟨32, ascii "jp2h", headerWith (box "abcd" [1, 2])⟩, ⟨87, ascii "jp2i", [60, 97, 47, 62]⟩,
      ⟨99, ascii "uuid", List.replicate 16 7 ++ [5]⟩, ⟨124, ascii "jp2c", cs1⟩],
    [⟨0, ascii "jP  ", [0x0d, 0x0a, 0x87, 0x0a]⟩, ⟨12, ascii "ftyp", ascii "jp2 " ++ be32 0 ++ ascii "jp2 "⟩,
      ⟨32, ascii "jp2h", headerWith (box "abcd" [9, 0])⟩, ⟨87, ascii "jp2i", [0, 255, 3, 4]⟩,
      ⟨99, ascii "uuid", List.replicate 16 7 ++ [6]⟩, ⟨124, ascii "jp2c", cs1⟩],
    boxes_of 10 (by decide +kernel), boxes_of 10 (by decide +kernel),
    .cons .same (.cons .same (.cons ?_ (.cons (.ipr rfl) (.cons (.uuid rfl rfl (by decide) (by decide)) (.cons .same .nil)))))⟩
  exact .super (hs := [⟨0, ascii "ihdr", be32 1 ++ be32 1 ++ be16 1 ++ [7, 7, 0, 0]⟩, ⟨22, ascii "abcd", [1, 2]⟩,
      ⟨32, ascii "colr", [1, 0, 0] ++ be32 17⟩])
    (hs' := [⟨0, ascii "ihdr", be32 1 ++ be32 1 ++ be16 1 ++ [7, 7, 0, 0]⟩, ⟨22, ascii "abcd", [9, 0]⟩,
      ⟨32, ascii "colr", [1, 0, 0] ++ be32 17⟩]) (by simp)
    (boxes_of 10 (by decide +kernel)) (boxes_of 10 (by decide +kernel))
    (.cons .same (.cons (.unknown (by decide) (by decide)) (.cons .same .nil)))

/-- `C80_valid` at work: both are valid. -/
example : FileValid env0 (opts .jp2) (unseenWith [9, 0] [0, 255, 3, 4] [6]) :=
  (C80_valid env0 (opts .jp2) unseenWith_unseen).2 (fileValid_of 100 (by decide +kernel))

/-- Both reports of `C80_report` exist. -/
example : saysValid (reportOf (opts .jp2) 0 (unseenWith [1, 2] [60, 97, 47, 62] [5])) = true ∧
    saysValid (reportOf (opts .jp2) 0 (unseenWith [9, 0] [0, 255, 3, 4] [6])) = true := by
  decide +kernel

/-- The codestream `cs1` with something in its main header. -/
def csWith (x : Bytes) : Bytes := cs siz1 x (Sample.tilePart 0 0 1 [])

/-- A TLM segment with other contents, and a segment with an unknown marker in only one of the headers. -/
theorem csWith_unseen : UnseenCodestream (csWith ([0xff, 0x55] ++ be16 4 ++ [1, 2]))
    (csWith ([0xff, 0x55] ++ be16 5 ++ [9, 8, 7] ++ [0xff, 0x70] ++ be16 3 ++ [5])) := by
  refine ⟨_, 1, [⟨45, COD, _⟩, ⟨59, QCD, _⟩, ⟨65, TLM, _⟩], [⟨45, COD, _⟩, ⟨59, QCD, _⟩, ⟨65, TLM, _⟩, ⟨72, [0xff, 0x70], _⟩],
    71, 77, by decide, by decide,
    ⟨⟨45, .seg (L := 41) (by decide) (by decide),
      .step (.seg (L := 12) (by decide) (by decide)) (by decide) (.step (.seg (L := 4) (by decide) (by decide)) (by decide)
        (.step (.seg (L := 4) (by decide) (by decide)) (by decide) (.found (.seg (L := 10) (by decide) (by decide)))))⟩,
      by decide⟩,
    ⟨⟨45, .seg (L := 41) (by decide) (by decide),
      .step (.seg (L := 12) (by decide) (by decide)) (by decide) (.step (.seg (L := 4) (by decide) (by decide)) (by decide)
        (.step (.seg (L := 5) (by decide) (by decide)) (by decide) (.step (.seg (L := 3) (by decide) (by decide)) (by decide)
          (.found (.seg (L := 10) (by decide) (by decide))))))⟩, by decide⟩,
    .same (.same (.unread (by decide) (.more (by decide) .nil))), ?_, by decide⟩
  refine .step (t := ⟨71, 0, 14, 0, 1⟩) ⟨⟨by decide, by decide, by decide, by decide, by decide, by decide⟩, by decide,
    [], 83, [], 89, .found (.alone (by decide)), .found (.alone (by decide)), .nil⟩ (by decide) (by decide)
    (.done (by decide) (by decide))

/-- `C80_valid` at work for a bare codestream. -/
example : FileValid env0 (opts .j2c) (csWith ([0xff, 0x55] ++ be16 5 ++ [9, 8, 7] ++ [0xff, 0x70] ++ be16 3 ++ [5])) :=
  (C80_valid env0 (opts .j2c) (.inr csWith_unseen)).2 (fileValid_of 100 (by decide +kernel))

/-- Both reports of `C80_lengths` exist. -/
example : saysValid (reportOf (opts .j2c) 0 (csWith ([0xff, 0x55] ++ be16 4 ++ [1, 2]))) = true ∧
    saysValid (reportOf (opts .j2c) 0 (csWith ([0xff, 0x55] ++ be16 5 ++ [9, 8, 7] ++ [0xff, 0x70] ++ be16 3 ++ [5]))) = true := by
  decide +kernel

end Jpy
