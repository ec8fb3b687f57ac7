import Verif.Lemmas.Endless
import Verif.Lemmas.Fuel
import Verif.Props.Termination
import Verif.Props.Crashes
import Verif.Lemmas.Sample
/-! # Exactly when the analysis ends: C11, C12, C14 -/

set_option linter.unusedSimpArgs false

namespace Jpy
open Spec

theorem isCeil_le {a b q q' : Int} (hb : 0 < b) (h : IsCeil a b q) (h' : IsCeil a b q') : q ≤ q' := by
  have : b * (q - 1) < b * q' := Int.lt_of_lt_of_le h.1 h'.2
  have := Int.lt_of_mul_lt_mul_left this (by omega)
  omega

theorem isCeilOf_iff {a b q : Int} (hb : b ≠ 0) : IsCeilOf a b q ↔ q = ceilDiv a b := by
  unfold IsCeilOf
  rcases Int.lt_or_gt_of_ne hb with h | h
  · have e : ceilDiv a b = ceilDiv (-a) (-b) := by
      unfold ceilDiv
      rw [Int.neg_neg, ← Int.neg_fdiv_neg a (-b), Int.neg_neg]
    have hc := ceilDiv_isCeil (-a) (b := -b) (by omega)
    rw [e]
    constructor
    · rintro (⟨h0, -⟩ | ⟨-, h1⟩)
      · omega
      · have := isCeil_le (by omega) h1 hc
        have := isCeil_le (by omega) hc h1
        omega
    · rintro rfl
      exact .inr ⟨h, hc⟩
  · have hc := ceilDiv_isCeil a h
    constructor
    · rintro (⟨-, h1⟩ | ⟨h0, -⟩)
      · have := isCeil_le h h1 hc
        have := isCeil_le h hc h1
        omega
      · omega
    · rintro rfl
      exact .inl ⟨h, hc⟩

theorem tilesReckoned_iff {siz : Bytes} {n : Int} : TilesReckoned siz n ↔
    n = sizTiles (intOf (uint siz 4 4)) (intOf (uint siz 8 4)) (intOf (uint siz 20 4)) (intOf (uint siz 24 4))
      (intOf (uint siz 28 4)) (intOf (uint siz 32 4)) := by
  unfold TilesReckoned sizTiles
  simp only [reckoned_eq]
  generalize intOf (uint siz 4 4) = x, intOf (uint siz 8 4) = y, intOf (uint siz 20 4) = xt,
    intOf (uint siz 24 4) = yt, intOf (uint siz 28 4) = xo, intOf (uint siz 32 4) = yo
  by_cases h : xt ≠ 0 ∧ yt ≠ 0
  · rw [if_pos h]
    constructor
    · rintro (⟨h1 | h1, -⟩ | ⟨q1, q2, h1, h2, rfl⟩)
      · exact absurd h1 h.1
      · exact absurd h1 h.2
      · rw [(isCeilOf_iff h.1).1 h1, (isCeilOf_iff h.2).1 h2]
    · rintro rfl
      exact .inr ⟨_, _, (isCeilOf_iff h.1).2 rfl, (isCeilOf_iff h.2).2 rfl, rfl⟩
  · rw [if_neg h]
    constructor
    · rintro (⟨-, h1⟩ | ⟨q1, q2, h1, h2, -⟩)
      · exact h1
      · exfalso
        unfold IsCeilOf at h1 h2
        exact h ⟨by omega, by omega⟩
    · rintro rfl
      exact .inl ⟨by omega, rfl⟩

theorem segsTo_at {b stop : Bytes} {off : Nat} {ss e} (h : SegsTo b stop off ss e) :
    ∀ x ∈ ss, ∃ n, SegAt b x.start x.marker x.contents n := by
  induction h with
  | found => simp
  | step h1 _ _ ih =>
    intro x hx
    rcases List.mem_cons.1 hx with rfl | hx
    · exact ⟨_, h1⟩
    · exact ih x hx
  | broken h1 => intro x hx; rw [List.mem_singleton] at hx; subst hx; exact ⟨_, h1⟩

theorem segsTo_stop_py {b stop : Bytes} {off : Nat} {ss e} (h : SegsTo b stop off ss e) :
    ∀ k, e = some k → sub b k 2 = stop := by
  induction h with
  | found h => intro k hk; cases hk; exact (segAt_marker h).symm
  | step _ _ _ ih => exact ih
  | broken => intro k hk; cases hk

/-- A codestream that was read to its end is not endless. -/
theorem codestream_ok_finite {env o fuel} {b : Bytes} {nd} (h : codestream env o fuel b = .ok nd) : ¬ Endless b := by
  rintro ⟨m, c, k, siz, first, main, e, h0, h1, hse, hbad⟩
  have hl := segsTo_length hse
  have h := (codestream_le env o (f := fuel) (g := fuel + b.length + 3) (by omega) b).ok h
  generalize hg : fuel + b.length + 3 = g at h
  rw [codestream_eq h0 rfl h1] at h
  obtain ⟨r, hr, h⟩ := Outcome.bind_eq_ok.1 h
  obtain ⟨htag, -, -, -, -, -, hcs, -, -⟩ := siz_text hr
  have htiles := siz_tiles hr
  rw [reported_text hcs] at h
  simp only [needInt, Outcome.bind_ok] at h
  obtain ⟨s, hs, h⟩ := Outcome.bind_eq_ok.1 h
  have hx := (mainLoop_quiet _ _ _ _ _ _ _ _).2 s hs
  have hc0 : (mainStart o b r (intOf (some first))).node.chars = [r.charsElem] := headNode_chars _ _ _
  rw [mainLoop_eq (off := first) (ss := main) (e := e) hse (by omega) (by simp only [mainStart]; decide)
        (by simp only [mainStart, intOf]; omega) rfl] at hs
  obtain ⟨rs, hrs, hs⟩ := Outcome.bind_eq_ok.1 hs
  rcases hbad with ⟨x, hx, hp, ho⟩ | ⟨sot, tiles, i, rfl, ht, hlead, hbad⟩
  · obtain ⟨rx, -, hrx⟩ := inTurn_mem hrs (List.mem_filter.2 ⟨hx, by rw [hp]; decide⟩)
    obtain ⟨ry, hry, -⟩ := Outcome.bind_eq_ok.1 hrx
    obtain ⟨n, hn⟩ := segsTo_at hse x hx
    rw [hp] at hn
    have hfi : FieldIs x.contents 0 2 (x.contents.length ≤ ·) := by
      cases n with
      | some n => exact C12_hypothesis hn (by decide) (by have := ho.1; omega)
      | none =>
        generalize x.contents = cc, PLM = mk at hn ho
        cases hn
        exact absurd ho.1 (by simp)
    refine (C12_plm_partial env o none x.contents hfi).1 ⟨g, ?_⟩ ho
    rw [hp, if_neg (show PLM ∉ csizMarkers by decide)] at hry
    rw [show validateLeaf env o g none PLM x.contents = _ from hry]
    simp
  · obtain ⟨rsiz, -, h⟩ := Outcome.bind_eq_ok.1 h
    have hti : Elem.findElementText (mainNode o s rsiz).chars ["siz", "numberOfTiles"] = some (.int tiles) := by
      rw [← tilesReckoned_iff.1 ht] at htiles
      refine extends_text hc0 (hx.trans
        ⟨[.leaf "ppmCount" (.int s.ppmCount), .leaf "plmCount" (.int s.plmCount)], ?_⟩) htag htiles
      simp only [mainNode, testIf_chars, testFor_chars, Node.addChar, List.append_assoc]; rfl
    rw [hti] at h
    simp only [needInt, Outcome.bind_ok] at h
    obtain ⟨t, ht', -⟩ := Outcome.bind_eq_ok.1 h
    cases hs
    have hsot : slice b (sot : Int) ((sot : Int) + 2) = SOT := by rw [slice2]; exact segsTo_stop_py hse _ rfl
    obtain ⟨f', s', h2, h3, h4, h5, h6⟩ := tileLoop_leads hlead ht' ((lastMarker_eq hse).2 rfl) (by simp) rfl hsot
    subst h5
    rcases hbad with hb | hb
    · exact (tileLoop_step h2 h3 h4 h6).1 hb
    · exact tileLoop_circular _ _ _ h2 h3 h4 h6 hb

/-- A codestream that is not endless is read to its end. -/
theorem codestream_ends_py {env o fuel} {b : Bytes} (h : ¬ Endless b) (hf : 2 * b.length + 5 ≤ fuel) :
    Ends (codestream env o fuel b) := by
  obtain ⟨n0, h0, hn0⟩ := getMarkerSegment_spec b 0
  cases n0 with
  | none =>
    have hlt : b.length < 4 := by
      generalize (getMarkerSegment b ((0 : Nat) : Int)).marker = m, (getMarkerSegment b ((0 : Nat) : Int)).contents = c at h0
      cases h0 with
      | noLength hd hl => exact Nat.lt_of_lt_of_le (uint_none hl) (by omega)
    unfold codestream
    simp only
    have : (getMarkerSegment b (getMarkerSegment b 0).next).marker ≠ mSIZ := by
      rw [show (getMarkerSegment b 0).next = -9999 from hn0]
      have : slice b (-9999) (-9999 + 2) = [] := by
        unfold slice sliceIdx
        rw [if_pos (by omega), if_pos (by omega), show (-9999 + (b.length : Int)).toNat = 0 by omega,
          show (-9999 + 2 + (b.length : Int)).toNat = 0 by omega]
        simp
      unfold getMarkerSegment
      simp only [this]
      decide
    rw [if_neg this]
    exact Ends.ok _
  | some k =>
    obtain ⟨n1, h1, hn1⟩ := getMarkerSegment_spec b k
    by_cases hm : (getMarkerSegment b k).marker = mSIZ
    case neg =>
      unfold codestream
      simp only
      rw [show (getMarkerSegment b 0).next = k from hn0, if_neg hm]
      exact Ends.ok _
    rw [hm] at h1
    rw [codestream_eq h0 rfl h1]
    have hsmall : (getMarkerSegment b k).contents.length ≤ b.length := by
      generalize (getMarkerSegment b k).contents = c at h1
      generalize mSIZ = m at h1
      cases h1 <;> simp [length_sub] <;> omega
    refine Ends.bind (validateLeaf_ends (by omega) (fun h => absurd h (by decide))
      fun h => absurd h (by decide)) fun r hr => Ends.bind (needInt_ends _) fun csiz _ => ?_
    cases n1 with
    | none =>
      obtain ⟨fuel, rfl⟩ : ∃ k, fuel = k + 1 := ⟨fuel - 1, by omega⟩
      rw [mainLoop_stop (by simp [mainStart, intOf])]
      refine Ends.bind (Ends.ok _) fun s hs => Ends.bind (needInt_ends _) fun _ _ =>
        Ends.bind (needInt_ends _) fun _ _ => Ends.bind ?_ fun _ _ => codestreamFinish_ends _ _ _ _ _ _
      cases hs
      rw [tileLoop_stop (by simp only [mainStart]; decide)]
      exact Ends.ok _
    | some first =>
      obtain ⟨main, e, hse⟩ := segsTo_exists b SOT _ first (Nat.le_refl _)
      have hl := segsTo_length hse
      have hc0 : (mainStart o b r (intOf (some first))).node.chars = [r.charsElem] := headNode_chars _ _ _
      refine Ends.bind ?_ fun s hs => Ends.bind (needInt_ends _) fun rsiz _ =>
        Ends.bind (needInt_ends _) fun tiles htl => Ends.bind ?_ fun _ _ => codestreamFinish_ends _ _ _ _ _ _
      · rw [mainLoop_eq (off := first) (ss := main) (e := e) hse (by omega) (by simp only [mainStart]; decide)
          (by simp only [mainStart, intOf]; omega) rfl]
        refine Ends.bind (inTurn_ends fun x hx => ?_) fun _ _ => Ends.ok _
        obtain ⟨hx, hm⟩ := List.mem_filter.1 hx
        have := segsTo_small hse x hx
        refine segRun_ends (by omega) (fun h => ?_) fun hp ho =>
          h ⟨_, _, _, _, _, _, _, h0, h1, hse, .inl ⟨x, hx, hp, ho⟩⟩
        rw [h] at hm
        exact absurd hm (by decide)
      · have hx := (mainLoop_quiet _ _ _ _ _ _ _ _).2 s hs
        rw [mainLoop_eq (off := first) (ss := main) (e := e) hse (by omega) (by simp only [mainStart]; decide)
          (by simp only [mainStart, intOf]; omega) rfl] at hs
        obtain ⟨rs, -, hs⟩ := Outcome.bind_eq_ok.1 hs
        have htag := (siz_text hr).1
        have htiles := siz_tiles hr
        have hti : TilesReckoned (getMarkerSegment b k).contents tiles := by
          rw [extends_text hc0 (hx.trans
            ⟨[.leaf "ppmCount" (.int s.ppmCount), .leaf "plmCount" (.int s.plmCount)],
              by simp only [mainNode, testIf_chars, testFor_chars, Node.addChar, List.append_assoc]; rfl⟩)
            htag htiles] at htl
          cases htl
          exact tilesReckoned_iff.2 rfl
        cases hs
        cases e with
        | none =>
          obtain ⟨fuel, rfl⟩ : ∃ k, fuel = k + 1 := ⟨fuel - 1, by omega⟩
          rw [tileLoop_stop]
          · exact Ends.ok _
          · simp only [mainEnd]
            intro hc
            have := (lastMarker_eq hse).1 hc
            cases this
        | some k' =>
          refine tileLoop_ends_py (tiles := min tiles 65535) (start := k') hf (fun i hi => ⟨fun hb => ?_, fun hb => ?_⟩)
            _ _ [] List.nodup_nil (by simp) (by simp; omega) (by simp) .here (by simp)
          · exact h ⟨_, _, _, _, _, _, _, h0, h1, hse, .inr ⟨k', tiles, i, rfl, hti, hi, .inl hb⟩⟩
          · exact h ⟨_, _, _, _, _, _, _, h0, h1, hse, .inr ⟨k', tiles, i, rfl, hti, hi, .inr hb⟩⟩

/-! ## Boxes -/

theorem boxes_short {b : Bytes} {bs} (h : Boxes b bs) {x : FoundBox} (hx : x ∈ bs) :
    x.type.length < 4 → x.payload = [] := fun ht => by
  obtain ⟨n, hn⟩ := (boxesFrom_mem h hx).2.2
  exact boxAt_short_type hn ht

theorem walk_of_super {env o fuel t p r} (h : validateBox env o (fuel + 1) t p = .ok r) (ht : t ∈ superboxTypes) :
    ∃ x, walkBoxes (validateBox env o fuel) p fuel = .ok x := by
  unfold validateBox at h
  simp only [superboxTypes, List.mem_cons, List.not_mem_nil, or_false] at ht
  rcases ht with rfl | rfl | rfl
  · simp only [show boxTypeOf (ascii "jp2h") = .jp2HeaderBox by decide] at h
    obtain ⟨x, hx, -⟩ := Outcome.bind_eq_ok.1 h; exact ⟨x, hx⟩
  · simp only [show boxTypeOf (ascii "res ") = .resolutionBox by decide] at h
    obtain ⟨x, hx, -⟩ := Outcome.bind_eq_ok.1 h; exact ⟨x, hx⟩
  · simp only [show boxTypeOf (ascii "uinf") = .uuidInfoBox by decide] at h
    obtain ⟨x, hx, -⟩ := Outcome.bind_eq_ok.1 h; exact ⟨x, hx⟩

theorem walk_ok_box {env o fuel p n types} (h : walkBoxes (validateBox env o fuel) p fuel = .ok (n, types)) {d t q}
    (hb : HasBox p d t q) : ∃ f r, validateBox env o f t q = .ok r := by
  induction hb with
  | top hbs hx =>
    obtain ⟨rs, h1, -, -⟩ := walkBoxes_ok hbs h
    obtain ⟨r, -, hr⟩ := inTurn_mem h1 hx
    exact ⟨fuel, r, hr⟩
  | inside _ ht hbs hx ih =>
    obtain ⟨f, r, hr⟩ := ih
    cases f with
    | zero => cases hr
    | succ f =>
      obtain ⟨⟨n', types'⟩, hw⟩ := walk_of_super hr ht
      obtain ⟨rs, h1, -, -⟩ := walkBoxes_ok hbs hw
      obtain ⟨r', -, hr'⟩ := inTurn_mem h1 hx
      exact ⟨f, r', hr'⟩

/-- A box that was validated without an exception has nothing in it that raises one. -/
theorem box_ok_safe {env o fuel t p r} (hs : t.length < 4 → p = []) (h : validateBox env o fuel t p = .ok r) :
    ¬ CrashIn t p := by
  rintro (hc | ⟨rfl, hc⟩ | ⟨ht, d, t', p', hb, hc⟩)
  · exact leafBox_ok_safe h hs hc
  · obtain ⟨k, hk⟩ := jp2c_result h
    exact codestream_ok_safe hk hc
  · cases fuel with
    | zero => cases h
    | succ fuel =>
      obtain ⟨⟨n, types⟩, hw⟩ := walk_of_super h ht
      obtain ⟨f, r', hr'⟩ := walk_ok_box hw hb
      rcases hc with hc | ⟨rfl, hc⟩
      · exact leafBox_ok_safe hr' (hasBox_short_type hb) hc
      · obtain ⟨k, hk⟩ := jp2c_result hr'
        exact codestream_ok_safe hk hc

theorem box_quiet {env o t p} (h : ¬ CrashIn t p) : ∀ fuel, Quiet (validateBox env o fuel t p)
  | 0 => Quiet.timeout
  | fuel + 1 => by
    have h1 : ¬ CrashBox t p := fun hc => h (.inl hc)
    have hw : t ∈ superboxTypes → Quiet (walkBoxes (validateBox env o fuel) p fuel) := fun ht =>
      walkBoxes_quiet fuel fun bs hbs x hx => validateBox_quiet (b := p)
        (fun d t' p' hb => ⟨fun hc => h (.inr (.inr ⟨ht, d, t', p', hb, .inl hc⟩)),
          fun e hc => h (.inr (.inr ⟨ht, d, t', p', hb, .inr ⟨e, hc⟩⟩))⟩) fuel 1 _ _ (.top hbs hx)
    unfold validateBox
    cases ht : boxTypeOf t
    case jp2HeaderBox => exact Quiet.bind (hw (superbox_type (.inl ht))) fun _ _ => Quiet.ok _
    case resolutionBox => exact Quiet.bind (hw (superbox_type (.inr (.inl ht)))) fun _ _ => Quiet.ok _
    case uuidInfoBox => exact Quiet.bind (hw (superbox_type (.inr (.inr ht)))) fun _ _ => Quiet.ok _
    case contiguousCodestreamBox =>
      have := (boxTypeOf_iff (k := tagCodestream) rfl (by decide) t).1 ht
      subst this
      exact Quiet.bind (codestream_quiet (fun hc => h (.inr (.inl ⟨rfl, hc⟩))) _) fun _ _ => Quiet.ok _
    case tilePart =>
      have := (boxTypeOf_iff (k := mSOT) rfl (by decide) t).1 ht
      subst this
      exact (h1 (.marker (by decide))).elim
    all_goals exact leafBox_quiet h1

theorem inTurn_ends_pre {α β : Type} {f : α → Outcome β} : ∀ {xs : List α},
    (∀ pre x post, xs = pre ++ x :: post → (∀ y ∈ pre, ∃ r, f y = .ok r) → Ends (f x)) → Ends (inTurn f xs)
  | [], _ => Ends.ok _
  | x :: xs, h => Ends.bind (h [] x xs rfl (by simp)) fun y hy =>
      Ends.bind (inTurn_ends_pre fun pre z post e hp => h (x :: pre) z post (by rw [e]; rfl) (by
        intro w hw
        rcases List.mem_cons.1 hw with rfl | hw
        · exact ⟨y, hy⟩
        · exact hp w hw)) fun _ _ => Ends.ok _

theorem inTurn_hangs {α β : Type} {f : α → Outcome β} {x : α} {post : List α} (hx : f x = .timeout) :
    ∀ {pre : List α}, (∀ y ∈ pre, Quiet (f y)) → inTurn f (pre ++ x :: post) = .timeout
  | [], _ => by simp only [List.nil_append, inTurn, hx]; rfl
  | y :: pre, h => by
    have ih := inTurn_hangs (post := post) hx (pre := pre) fun z hz => h z (by simp [hz])
    simp only [List.cons_append, inTurn]
    cases hy : f y with
    | ok r => simp only [Outcome.bind_ok, ih]; rfl
    | raised e => exact absurd hy (h y (by simp) e)
    | timeout => rfl

theorem walk_ends_pre {sub : Bytes → Bytes → Outcome BoxResult} {b : Bytes} {fuel : Nat}
    (hf : b.length < fuel) (h : ∀ pre x post, Boxes b (pre ++ x :: post) →
      (∀ y ∈ pre, ∃ r, sub y.type y.payload = .ok r) → Ends (sub x.type x.payload)) :
    Ends (walkBoxes sub b fuel) := by
  obtain ⟨bs, hb⟩ := boxes_exists b
  have := boxesFrom_length hb
  rw [walkBoxes_eq hb (by omega)]
  exact Ends.bind (inTurn_ends_pre fun pre x post e hp => h pre x post (e ▸ hb) hp) fun _ _ => Ends.ok _

theorem codestream_ends_or {env o fuel} {b : Bytes} (h : ¬ (¬ CrashCodestream b ∧ Endless b))
    (hf : 2 * b.length + 5 ≤ fuel) : Ends (codestream env o fuel b) := by
  by_cases hc : CrashCodestream b
  · obtain ⟨m, c, siz, k, n', h0, h1, hd⟩ := hc
    rw [codestream_eq h0 rfl h1, C26_siz_crash env o fuel none siz hd]
    exact Ends.raised _
  · exact codestream_ends_py (fun he => h ⟨hc, he⟩) hf

theorem codestream_hangs {env o fuel} {b : Bytes} (hc : ¬ CrashCodestream b) (h : Endless b) :
    codestream env o fuel b = .timeout := by
  cases he : codestream env o fuel b with
  | ok n => exact absurd h (codestream_ok_finite he)
  | raised e => exact absurd he (codestream_quiet hc fuel e)
  | timeout => rfl

theorem box_ends {env o} : ∀ (fuel : Nat) (t p : Bytes), (t.length < 4 → p = []) → ¬ Hangs t p →
    2 * p.length + 6 ≤ fuel → Ends (validateBox env o fuel t p)
  | 0, _, _, _, _, hf => absurd hf (by omega)
  | fuel + 1, t, p, hs, hh, hf => by
    have hw : t ∈ superboxTypes → Ends (walkBoxes (validateBox env o fuel) p fuel) := fun ht =>
      walk_ends_pre (by omega) fun pre x post hbs hp =>
        box_ends fuel x.type x.payload (boxes_short hbs (by simp))
          (fun hx => hh (.inside ht hbs (fun y hy => by
            obtain ⟨r, hr⟩ := hp y hy
            exact box_ok_safe (boxes_short hbs (by simp [hy])) hr) hx))
          (by have := (boxesFrom_mem hbs (x := x) (by simp)).2.1; omega)
    have hempty : ∀ k, k < 4 → t.length < 4 → ¬ OpenEnded p k := by
      intro k _ ht ho
      rw [hs ht] at ho
      exact absurd ho.1 (by simp)
    unfold validateBox
    cases ht : boxTypeOf t
    case jp2HeaderBox => exact Ends.bind (hw (superbox_type (.inl ht))) fun _ _ => Ends.ok _
    case resolutionBox => exact Ends.bind (hw (superbox_type (.inr (.inl ht)))) fun _ _ => Ends.ok _
    case uuidInfoBox => exact Ends.bind (hw (superbox_type (.inr (.inr ht)))) fun _ _ => Ends.ok _
    case contiguousCodestreamBox =>
      have := (boxTypeOf_iff (k := tagCodestream) rfl (by decide) t).1 ht
      subst this
      exact Ends.bind (codestream_ends_or (fun ⟨h1, h2⟩ => hh (.codestream h1 h2)) (by omega)) fun _ _ => Ends.ok _
    case tilePart => exact Ends.raised _
    all_goals
      refine validateLeaf_ends (by omega) (fun e ho => ?_) (fun e ho => ?_)
      all_goals
        rw [hs (by rw [e]; decide)] at ho
        exact absurd ho.1 (by simp)

theorem box_hangs {env o t p} (h : Hangs t p) : ∀ fuel, validateBox env o fuel t p = .timeout := by
  induction h with
  | codestream hc he =>
    intro fuel
    cases fuel with
    | zero => rfl
    | succ fuel =>
      unfold validateBox
      simp only [show boxTypeOf (ascii "jp2c") = .contiguousCodestreamBox by decide, codestream_hangs hc he]
      rfl
  | @inside t p pre x post ht hbs hp hx ih =>
    intro fuel
    have hbig : validateBox env o (fuel + (pre ++ x :: post).length + 2) t p = .timeout := by
      have hw : walkBoxes (validateBox env o (fuel + (pre ++ x :: post).length + 1)) p
          (fuel + (pre ++ x :: post).length + 1) = .timeout := by
        rw [walkBoxes_eq hbs (by omega),
          inTurn_hangs (f := fun y : FoundBox => validateBox env o _ y.type y.payload) (ih _)
            fun y hy => box_quiet (hp y hy) _]
        rfl
      unfold validateBox
      simp only [superboxTypes, List.mem_cons, List.not_mem_nil, or_false] at ht
      rcases ht with rfl | rfl | rfl
      · simp only [show boxTypeOf (ascii "jp2h") = .jp2HeaderBox by decide, hw]; rfl
      · simp only [show boxTypeOf (ascii "res ") = .resolutionBox by decide, hw]; rfl
      · simp only [show boxTypeOf (ascii "uinf") = .uuidInfoBox by decide, hw]; rfl
    rcases validateBox_le env o (f := fuel) (g := fuel + (pre ++ x :: post).length + 2) (by omega) t p with h | h
    · exact h
    · rw [h, hbig]

/-- The boxes inside of a superbox of a file are boxes of the file. -/
theorem hasBox_trans {b : Bytes} {d t p} (h : HasBox b d t p) (ht : t ∈ superboxTypes) {d' t' p'}
    (h' : HasBox p d' t' p') : ∃ e, HasBox b e t' p' := by
  induction h' with
  | top hbs hx => exact ⟨_, .inside h ht hbs hx⟩
  | inside _ ht' hbs hx ih =>
    obtain ⟨e, he⟩ := ih
    exact ⟨_, .inside he ht' hbs hx⟩

/-! ## Files -/

theorem root_ends {env o fuel} {b : Bytes} (h : ¬ NeverEnds o.format b) (hf : 2 * b.length + 6 ≤ fuel) :
    Ends (validateRoot env o fuel b) := by
  have key : (¬ ∃ pre x post, Boxes b (pre ++ x :: post) ∧ (∀ y ∈ pre, ¬ CrashIn y.type y.payload) ∧
      Hangs x.type x.payload) → Ends (validateJP2 env o fuel b) := fun h =>
    Ends.bind (walk_ends_pre (by omega) fun pre x post hbs hp =>
      box_ends fuel x.type x.payload (boxes_short hbs (by simp))
        (fun hx => h ⟨pre, x, post, hbs, fun y hy => by
          obtain ⟨r, hr⟩ := hp y hy
          exact box_ok_safe (boxes_short hbs (by simp [hy])) hr, hx⟩)
        (by have := (boxesFrom_mem hbs (x := x) (by simp)).2.1; omega)) fun _ _ => jp2Finish_ends _ _ _ _
  unfold validateRoot
  cases hfm : o.format <;> rw [hfm] at h <;> simp only
  · exact key h
  · exact key h
  · exact codestream_ends_or h (by omega)
  · exact codestream_ends_or h (by omega)
  · exact Ends.raised _

theorem root_hangs {env o} {b : Bytes} (h : NeverEnds o.format b) (fuel : Nat) :
    validateRoot env o fuel b = .timeout := by
  have key : (∃ pre x post, Boxes b (pre ++ x :: post) ∧ (∀ y ∈ pre, ¬ CrashIn y.type y.payload) ∧
      Hangs x.type x.payload) → validateJP2 env o fuel b = .timeout := by
    rintro ⟨pre, x, post, hbs, hp, hx⟩
    have hbig : validateJP2 env o (fuel + (pre ++ x :: post).length + 1) b = .timeout := by
      unfold validateJP2
      rw [walkBoxes_eq hbs (by omega),
        inTurn_hangs (f := fun y : FoundBox => validateBox env o _ y.type y.payload) (box_hangs hx _)
          fun y hy => box_quiet (hp y hy) _]
      rfl
    rcases validateJP2_le env o (f := fuel) (g := fuel + (pre ++ x :: post).length + 1) (by omega) b with h | h
    · exact h
    · rw [h, hbig]
  unfold validateRoot
  cases hfm : o.format <;> rw [hfm] at h <;> simp only
  · exact key h
  · exact key h
  · exact codestream_hangs h.1 h.2
  · exact codestream_hangs h.1 h.2
  · exact absurd h id

/-- C11: if the contents of a file are none of those of `NeverEnds`, no loop over boxes, marker segments, tile-parts or
packet lengths runs more often, and no recursion goes deeper, than two times the number of bytes of the file plus six.
These are the loops that stop at a condition; the others count up to a number that is read beforehand. The hypotheses
on `getsize` and `modified` say that the operating system answers. -/
theorem C11_bound (env : Env) (me : MixEnv) (fs : FS) (o : Options) (mix : Nat) (path : PyStr)
    (hs : fs.getsize path ≠ .timeout) (hm : fs.modified path ≠ .timeout)
    (h : (∃ e, fs.read path = .error e) ∨ ¬ NeverEnds o.format (bytesRead (fs.read path))) (fuel : Nat)
    (hf : 2 * (bytesRead (fs.read path)).length + 6 ≤ fuel) :
    checkOneFile env me fs fuel o mix path ≠ .timeout := by
  rw [checkOneFile_eq]
  refine Ends.bind (Ends.bind hs fun _ _ => Ends.bind hm fun _ _ => Ends.ok _) fun info _ =>
    Ends.bind ?_ fun a _ => Ends.bind ?_ fun m _ => Ends.ok _
  · have : Ends (analyseTry env fs o fuel path) := by
      refine Ends.bind (fileToMemoryMap_ends fs path) fun x hx => ?_
      obtain ⟨b, w⟩ := x
      have := fileToMemoryMap_bytes hx
      subst this
      rcases h with ⟨e, he⟩ | h
      · unfold fileToMemoryMap at hx
        rw [he] at hx
        cases hx
      · exact Ends.bind (root_ends h (by omega)) fun _ _ => Ends.ok _
    unfold analyse
    cases ha : analyseTry env fs o fuel path with
    | ok a => exact Ends.ok _
    | raised e => exact Ends.ok _
    | timeout => exact absurd ha this
  · unfold mixOutput
    split
    · exact Ends.bind (generateMix_ends _ _ _) fun _ _ => Ends.ok _
    · exact Ends.ok _

/-- C11, exactly when: if the operating system tells the size and time of the file, then its analysis ends if and
only if the file cannot be read or its contents are none of those of `NeverEnds`: the codestreams with a list of
packet lengths that breaks off within a length, or with tile-parts that lead back to themselves. So these are all the
files for which C11 fails. -/
theorem C11_exact (env : Env) (me : MixEnv) (fs : FS) (o : Options) (mix : Nat) (path : PyStr) {s m}
    (hs : fs.getsize path = .ok s) (hm : fs.modified path = .ok m) :
    (∃ fuel, checkOneFile env me fs fuel o mix path ≠ .timeout) ↔
      (∃ e, fs.read path = .error e) ∨ ¬ NeverEnds o.format (bytesRead (fs.read path)) := by
  constructor
  · rintro ⟨fuel, hf⟩
    by_cases hr : ∃ e, fs.read path = .error e
    · exact .inl hr
    · refine .inr fun hn => hf (checkOneFile_timeout hs hm (fun data fmm h => ?_) fun e he => hr ⟨e, he⟩)
      have := fileToMemoryMap_bytes h
      subst this
      exact root_hangs hn fuel
  · intro h
    exact ⟨_, C11_bound env me fs o mix path (by rw [hs]; simp) (by rw [hm]; simp) h _ (Nat.le_refl _)⟩

/-- Contents without anything that raises an exception keep the analysis from ending exactly if one of their
codestreams is endless. -/
theorem C11_codestreams {f : Format} {b : Bytes} (hc : ¬ Crashes f b) :
    NeverEnds f b ↔ ∃ p, FollowedIn f b p ∧ Endless p := by
  constructor
  · have key : ∀ {t p}, Hangs t p → (t = ascii "jp2c" ∧ Endless p) ∨
        (t ∈ superboxTypes ∧ ∃ d q, HasBox p d (ascii "jp2c") q ∧ Endless q) := by
      intro t p h
      induction h with
      | codestream _ he => exact .inl ⟨rfl, he⟩
      | @inside t p pre x post ht hbs _ _ ih =>
        refine .inr ⟨ht, ?_⟩
        have htop : HasBox p 1 x.type x.payload := .top hbs (by simp)
        rcases ih with ⟨e, he⟩ | ⟨hx, d, q, hq, he⟩
        · exact ⟨1, x.payload, e ▸ htop, he⟩
        · exact ⟨_, q, (hasBox_trans htop hx hq).choose_spec, he⟩
    intro h
    have jp2 : (∃ pre x post, Boxes b (pre ++ x :: post) ∧ (∀ y ∈ pre, ¬ CrashIn y.type y.payload) ∧
        Hangs x.type x.payload) → ∃ p, (∃ d, HasBox b d (ascii "jp2c") p) ∧ Endless p := by
      rintro ⟨pre, x, post, hbs, -, hx⟩
      have htop : HasBox b 1 x.type x.payload := .top hbs (by simp)
      rcases key hx with ⟨e, he⟩ | ⟨hx, d, q, hq, he⟩
      · exact ⟨x.payload, ⟨1, e ▸ htop⟩, he⟩
      · exact ⟨q, hasBox_trans htop hx hq, he⟩
    cases f
    · exact jp2 h
    · exact jp2 h
    · exact ⟨b, rfl, h.2⟩
    · exact ⟨b, rfl, h.2⟩
    · exact absurd h id
  · rintro ⟨p, hp, he⟩
    apply Classical.byContradiction
    intro hn
    let o : Options := Sample.opts f
    have hends := root_ends (env := Sample.env0) (o := o) (fuel := 2 * b.length + 6) hn (Nat.le_refl _)
    have hquiet := validateRoot_quiet (env := Sample.env0) (o := o) (fuel := 2 * b.length + 6) hc
    have : ∃ n, validateRoot Sample.env0 o (2 * b.length + 6) b = .ok n := by
      cases hv : validateRoot Sample.env0 o (2 * b.length + 6) b with
      | ok n => exact ⟨n, rfl⟩
      | raised e => exact absurd hv (hquiet e)
      | timeout => exact absurd hv hends
    obtain ⟨n, hv⟩ := this
    have jp2 : validateJP2 Sample.env0 o (2 * b.length + 6) b = .ok n → (∃ d, HasBox b d (ascii "jp2c") p) → False := by
      rintro hv ⟨d, hb⟩
      obtain ⟨f, r, hr⟩ := hasBox_ok hv hb
      obtain ⟨k, hk⟩ := jp2c_result hr
      exact codestream_ok_finite hk he
    unfold validateRoot at hv
    have hfo : o.format = f := rfl
    rw [hfo] at hv
    cases f
    · exact jp2 hv hp
    · exact jp2 hv hp
    · cases hp; exact codestream_ok_finite hv he
    · cases hp; exact codestream_ok_finite hv he
    · exact absurd trivial hc

/-- C41 and C11 together: without MIX output there is a report that says that the analysis was successful exactly if
the file can be read, has none of the features of `Crashes`, and no codestream in it is endless. -/
theorem C41_exact (env : Env) (me : MixEnv) (fs : FS) (o : Options) (path : PyStr) {s m}
    (hs : fs.getsize path = .ok s) (hm : fs.modified path = .ok m) :
    (∃ fuel rep, checkOneFile env me fs fuel o 0 path = .ok rep ∧ status rep "success" = [.str "True"]) ↔
      (∀ e, fs.read path ≠ .error e) ∧ ¬ Crashes o.format (bytesRead (fs.read path)) ∧
        ∀ p, FollowedIn o.format (bytesRead (fs.read path)) p → ¬ Endless p := by
  constructor
  · rintro ⟨fuel, rep, h, hsu⟩
    obtain ⟨h1, h2⟩ := (C41_partial env me fs fuel o 0 path rep h).1 hsu
    refine ⟨h1, h2, fun p hp he => ?_⟩
    rcases (C11_exact env me fs o 0 path hs hm).1 ⟨fuel, by rw [h]; simp⟩ with ⟨e, he⟩ | hn
    · exact h1 e he
    · exact hn ((C11_codestreams h2).2 ⟨p, hp, he⟩)
  · rintro ⟨h1, h2, h3⟩
    have hn : ¬ NeverEnds o.format (bytesRead (fs.read path)) := fun hn => by
      obtain ⟨p, hp, he⟩ := (C11_codestreams h2).1 hn
      exact h3 p hp he
    obtain ⟨fuel, hf⟩ := (C11_exact env me fs o 0 path hs hm).2 (.inr hn)
    have hinfo : ∃ info, fileInfo fs path = .ok info := by unfold fileInfo; rw [hs, hm]; exact ⟨_, rfl⟩
    obtain ⟨info, hinfo⟩ := hinfo
    cases hc : checkOneFile env me fs fuel o 0 path with
    | timeout => exact absurd hc hf
    | ok rep => exact ⟨fuel, rep, hc, (C41_partial env me fs fuel o 0 path rep hc).2 ⟨h1, h2⟩⟩
    | raised e =>
      exfalso
      rw [checkOneFile_eq, hinfo, Outcome.bind_ok] at hc
      unfold analyse at hc
      cases ha : analyseTry env fs o fuel path with
      | ok a => rw [ha] at hc; cases hc
      | raised e => rw [ha] at hc; cases hc
      | timeout => rw [ha] at hc; cases hc

/-- C14, exactly when: a codestream is followed to an end if and only if it raises an exception at its SIZ segment or
is not endless. -/
theorem C14_exact (env : Env) (o : Options) (b : Bytes) :
    (∃ fuel, codestream env o fuel b ≠ .timeout) ↔ CrashCodestream b ∨ ¬ Endless b := by
  constructor
  · rintro ⟨fuel, hf⟩
    by_cases hc : CrashCodestream b
    · exact .inl hc
    · exact .inr fun he => hf (codestream_hangs hc he)
  · intro h
    refine ⟨2 * b.length + 5, codestream_ends_or ?_ (Nat.le_refl _)⟩
    rintro ⟨h1, h2⟩
    rcases h with h | h
    · exact h1 h
    · exact h h2

/-- C14: where tile-parts lead back to themselves, one of them lacks its tile-part length. So tile-parts that have
their lengths are never followed for ever. -/
theorem C14_cycle {b : Bytes} {tiles i : Int} (h : Circular b tiles i) :
    ∃ k c n, LeadsTo b tiles i k ∧ PySegAt b k SOT c n ∧ uint c 4 4 = none := by
  apply Classical.byContradiction
  intro hn
  have hstep : ∀ {k j}, LeadsTo b tiles i k → NextPart b tiles k j → k < j := by
    rintro k j hk ⟨c, n, hs, -, hj, hne, -⟩
    rcases hu : uint c 4 4 with _ | v
    · exact absurd ⟨k, c, n, hk, hs, hu⟩ hn
    · unfold reckoned at hj
      rw [hu] at hj
      simp only at hj
      omega
  have hle : ∀ {k j}, LeadsTo b tiles k j → LeadsTo b tiles i k → k ≤ j := by
    intro k j h
    induction h with
    | here => intro _; exact Int.le_refl _
    | step h1 _ ih =>
      intro hk
      have := hstep hk h1
      have := ih (LeadsTo_snoc hk h1)
      omega
  obtain ⟨j, h1, h2⟩ := h
  have := hstep .here h1
  have := hle h2 (.step h1 .here)
  omega

/-! ## Examples -/

/-- The codestream of `C11_false` is endless by its packet lengths. -/
theorem endlessPlm_endless : Endless Sample.endlessPlm := by
  have hP : SegAt Sample.endlessPlm 45 PLM [0, 5, 0, 1, 0x80] (some 52) :=
    segAt_mk (L := 5) (by decide) (by decide) (by decide) (by decide) rfl
  obtain ⟨main, e, hse⟩ := segsTo_exists Sample.endlessPlm SOT _ 52 (Nat.le_refl _)
  exact ⟨SOC, [], 2, sub Sample.endlessPlm 4 41, 45, _, e, .alone (by decide),
    segAt_mk (L := 41) (by decide) (by decide) (by decide) rfl rfl, .step hP (by decide) hse,
    .inl ⟨⟨45, PLM, [0, 5, 0, 1, 0x80]⟩, by simp, rfl, by decide, 0x80, rfl, by decide⟩⟩

/-- The codestream of `C14_false` is endless. -/
theorem endlessChain_endless : Endless Sample.endlessChain := by
  apply Classical.byContradiction
  intro h
  exact codestream_ends_py (env := Sample.env0) (o := Sample.opts .j2c) h (Nat.le_refl _) (chain_endless _ _ _)

/-- In the codestream of `C14_false` the first tile-part leads to the second and the second back to the first. -/
theorem endlessChain_circular : Circular Sample.endlessChain 1 45 := by
  have e1 : pyBytes Sample.endlessChain 45 (45 + 2) = SOT := by decide +kernel
  have e2 : pyBytes Sample.endlessChain 10044 (10044 + 2) = SOT := by decide +kernel
  have f1 : pyBytes Sample.endlessChain (45 + 2) (45 + 2 + (10 : Nat)) = [0, 10, 0, 0, 0, 0, 0x27, 0x0f, 0, 1] := by
    decide +kernel
  have f2 : pyBytes Sample.endlessChain (10044 + 2) (10044 + 2 + (4 : Nat)) = [0, 4, 0, 0] := by decide +kernel
  have s1 := PySegAt.seg (b := Sample.endlessChain) (i := 45) (x := 0) (y := 10) (L := 10) (by rw [e1]; decide)
    (by decide +kernel) rfl
  have s2 := PySegAt.seg (b := Sample.endlessChain) (i := 10044) (x := 0) (y := 4) (L := 4) (by rw [e2]; decide)
    (by decide +kernel) rfl
  rw [e1, f1] at s1
  rw [e2, f2] at s2
  exact ⟨10044, ⟨_, _, s1, ⟨0, by decide, by decide⟩, by decide, by decide, e2⟩,
    .step ⟨_, _, s2, ⟨0, by decide, by decide⟩, by decide, by decide, e1⟩ .here⟩

/-- The sample file is not among those whose analysis never ends, and its codestream is not endless. -/
example : ¬ NeverEnds .jp2 Sample.jp2b ∧ ∀ p, FollowedIn .jp2 Sample.jp2b p → ¬ Endless p := by
  obtain ⟨rep, h, -⟩ := Sample.jp2b_valid
  have hs : status rep "success" = [.str "True"] := by
    have : (match Sample.reportOf (Sample.opts .jp2) 0 Sample.jp2b with
      | .ok rep => decide (status rep "success" = [.str "True"]) | _ => false) = true := by decide +kernel
    unfold Sample.reportOf at this
    rw [h] at this
    simpa using this
  refine ⟨?_, ((C41_exact _ _ _ (Sample.opts .jp2) _ rfl rfl).1 ⟨_, rep, h, hs⟩).2.2⟩
  rcases (C11_exact _ _ _ (Sample.opts .jp2) 0 _ rfl rfl).1 ⟨200, by rw [h]; simp⟩ with ⟨e, he⟩ | hn
  · cases he
  · exact hn

end Jpy
