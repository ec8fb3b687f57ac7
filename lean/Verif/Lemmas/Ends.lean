import Verif.Lemmas.Ipl
import Verif.Lemmas.Cs
import Verif.Lemmas.TileLoop
/-! # Computations that end -/

namespace Jpy
open Spec

/-- The computation ends, with a result or an exception. -/
def Ends {α : Type} (x : Outcome α) : Prop := x ≠ .timeout

theorem Ends.ok {α : Type} (a : α) : Ends (.ok a) := by simp [Ends]
theorem Ends.pure {α : Type} (a : α) : Ends (pure a : Outcome α) := by simp [Ends]
theorem Ends.raised {α : Type} (e : Exn) : Ends (.raised e : Outcome α) := by simp [Ends]
theorem Ends.bind {α β : Type} {x : Outcome α} {f : α → Outcome β} (h : Ends x) (hf : ∀ a, x = .ok a → Ends (f a)) :
    Ends (x >>= f) := by
  cases x with
  | ok a => exact hf a rfl
  | raised e => exact Ends.raised e
  | timeout => exact absurd rfl h

macro "ends" : tactic => `(tactic| repeat (first
  | exact Ends.ok _ | exact Ends.pure _ | exact Ends.raised _ | assumption
  | (refine Ends.bind ?_ fun _ _ => ?_) | split))

theorem needInt_ends (v) : Ends (needInt v) := by unfold needInt; ends
theorem uuidStr_ends (b) : Ends (uuidStr b) := by unfold uuidStr; ends
theorem uuidListLoop_ends (c) : ∀ n i, Ends (uuidListLoop c n i)
  | 0, i => by unfold uuidListLoop; ends
  | n + 1, i => by
    unfold uuidListLoop
    refine Ends.bind (uuidStr_ends _) fun _ _ => Ends.bind (uuidListLoop_ends c n _) fun _ _ => Ends.pure _
theorem withCsiz_ends (csiz f) : Ends (withCsiz csiz f) := by unfold withCsiz; ends

theorem leaf_ends (env o fuel csiz t bType c) (h1 : t ≠ .plt) (h2 : t ≠ .plm) :
    Ends (leaf env o fuel csiz t bType c) := by
  cases t
  case plt => exact absurd rfl h1
  case plm => exact absurd rfl h2
  case uuidBox => exact Ends.bind (uuidStr_ends _) fun _ _ => Ends.pure _
  case captureResolutionBox => show Ends (resolutionLeaf _ _); unfold resolutionLeaf; simp only; ends
  case displayResolutionBox => show Ends (resolutionLeaf _ _); unfold resolutionLeaf; simp only; ends
  case uuidListBox => exact Ends.bind (uuidListLoop_ends _ _ _) fun _ _ => Ends.pure _
  case siz => show Ends (siz _ _); unfold siz; simp only; ends
  case coc => exact withCsiz_ends _ _
  case rgn => exact withCsiz_ends _ _
  case qcc => exact withCsiz_ends _ _
  case poc => exact withCsiz_ends _ _
  case crg => exact withCsiz_ends _ _
  all_goals exact Ends.ok _


/-! ## Marker segments -/

theorem ipl_ends {c : Bytes} {l : Int} {i fuel : Nat} (h : ¬ OpenEnded c i) (hf : c.length < fuel) :
    iplLoop c l fuel i ≠ .timeout := by
  obtain ⟨fuel, rfl⟩ : ∃ k, fuel = k + 1 := ⟨fuel - 1, by omega⟩
  by_cases hi : c.length ≤ i
  · rw [iplLoop_short hi]; simp
  · have hne : c ≠ [] := by rintro rfl; simp at hi
    have hl := List.getLast?_eq_some_getLast hne
    have h2 : ¬ (128 ≤ (c.getLast hne).toNat) := fun hx => h ⟨by omega, _, hl, hx⟩
    obtain ⟨es, hes⟩ := iplLoop_ends (l := l) hl (by omega) _ i (Nat.le_refl _) (fuel := fuel + 1) (by omega) (by omega)
    rw [hes]; simp

theorem validateLeaf_ends {env o fuel csiz m c} (hf : c.length < fuel)
    (h1 : m = PLT → ¬ OpenEnded c 3) (h2 : m = PLM → ¬ OpenEnded c 4) :
    Ends (validateLeaf env o fuel csiz m c) := by
  refine Ends.bind ?_ fun _ _ => Ends.ok _
  by_cases hp : boxTypeOf m = .plt
  · rw [hp]
    have := (boxTypeOf_iff (k := mPLT) rfl (by decide) m).1 hp
    exact Ends.bind (Ends.bind (ipl_ends (h1 this) hf) fun _ _ => Ends.ok _) fun _ _ => Ends.ok _
  by_cases hq : boxTypeOf m = .plm
  · rw [hq]
    have := (boxTypeOf_iff (k := mPLM) rfl (by decide) m).1 hq
    exact Ends.bind (Ends.bind (ipl_ends (h2 this) hf) fun _ _ => Ends.ok _) fun _ _ => Ends.ok _
  exact leaf_ends _ _ _ _ _ _ _ hp hq

theorem inTurn_ends {α β : Type} {f : α → Outcome β} : ∀ {xs : List α}, (∀ x ∈ xs, Ends (f x)) →
    Ends (inTurn f xs)
  | [], _ => Ends.ok _
  | x :: xs, h => Ends.bind (h x (by simp)) fun _ _ =>
      Ends.bind (inTurn_ends fun y hy => h y (by simp [hy])) fun _ _ => Ends.ok _

theorem segsTo_small {b stop : Bytes} {off : Nat} {ss e} (h : SegsTo b stop off ss e) :
    ∀ x ∈ ss, x.contents.length ≤ b.length := by
  have hs : ∀ {off m c n}, SegAt b off m c n → c.length ≤ b.length := by
    intro off m c n h
    cases h <;> simp [length_sub] <;> omega
  induction h with
  | found => simp
  | step h1 _ _ ih =>
    intro x hx
    rcases List.mem_cons.1 hx with rfl | hx
    · exact hs h1
    · exact ih x hx
  | broken h1 => intro x hx; rw [List.mem_singleton] at hx; subst hx; exact hs h1

theorem segRun_ends {env o fuel csiz} {x : FoundSeg} (hf : x.contents.length < fuel)
    (h1 : x.marker = PLT → ¬ OpenEnded x.contents 3) (h2 : x.marker = PLM → ¬ OpenEnded x.contents 4) :
    Ends (segRun (segV env o fuel) csiz x) :=
  Ends.bind (validateLeaf_ends hf h1 h2) fun _ _ => Ends.ok _

/-! ## Tile-parts -/

theorem tilePart_ends {env o fuel csiz} {b : Bytes} {off : Nat} {c n ss e}
    (hs : SegAt b off SOT c (some n)) (hse : SegsTo b SOD n ss e) (hf : b.length + 3 < fuel)
    (hp : ∀ x ∈ ss, x.marker = PLT → ¬ OpenEnded x.contents 3) :
    Ends (tilePart env o fuel csiz off b) := by
  rw [tilePart_unfold (c := c) (n := some n) hs]
  refine Ends.bind ?_ fun _ _ => Ends.ok _
  have hl := segsTo_length hse
  rw [tpLoop_eq (off := n) (ss := ss) (e := e) hse (by omega) (by simp only; decide)
    (by simp only [intOf]; omega) rfl]
  refine Ends.bind (inTurn_ends fun x hx => ?_) fun _ _ => Ends.ok _
  obtain ⟨hx, hm⟩ := List.mem_filter.1 hx
  have := segsTo_small hse x hx
  refine segRun_ends (by omega) (hp x hx) fun h => ?_
  rw [h] at hm
  exact absurd hm (by decide)

theorem tileLoop_ends {env o f csiz} {b : Bytes} {first main k} (h : Followable b)
    (hms : MainStart b first) (hmain : SegsTo b SOT first main (some k)) (hf : b.length + 3 < f) :
    ∀ (j fuel off : Nat) (s : TileState), b.length - off ≤ j → j + 1 < fuel → s.offset = off →
      (sub b off 2 = SOT → SotReached b k off) →
      Ends (tileLoop (fun x => tilePart env o f csiz x b) b fuel s) := by
  intro j
  induction j with
  | zero =>
    intro fuel off s hj hfu ho hr
    obtain ⟨fuel, rfl⟩ : ∃ k, fuel = k + 1 := ⟨fuel - 1, by omega⟩
    rw [tileLoop, ho, slice2]
    have : sub b off 2 ≠ mSOT := by
      have : sub b off 2 = [] := by
        apply List.eq_nil_of_length_eq_zero; rw [length_sub]; omega
      rw [this]; decide
    simp only [if_neg this]
    split <;> exact Ends.ok _
  | succ j ih =>
    intro fuel off s hj hfu ho hr
    obtain ⟨fuel, rfl⟩ : ∃ k, fuel = k + 1 := ⟨fuel - 1, by omega⟩
    rw [tileLoop, ho, slice2]
    split
    case isFalse => exact Ends.ok _
    simp only
    by_cases hm : sub b off 2 = mSOT
    case neg => rw [if_neg hm]; exact Ends.ok _
    rw [if_pos hm]
    have hrch := hr hm
    obtain ⟨c, n, hs, hc⟩ := h.sot first main k off hms hmain hrch
    obtain ⟨ss, e, hse⟩ := segsTo_exists b SOD _ n (Nat.le_refl _)
    refine Ends.bind (tilePart_ends hs hse hf (h.plt first main k off c n ss e hms hmain hrch hs hse))
      fun r hr' => Ends.bind (needInt_ends _) fun i _ => Ends.bind (needInt_ends _) fun t _ => ?_
    rw [tilePart_unfold (c := c) (n := some n) hs] at hr'
    obtain ⟨st, -, hr'⟩ := Outcome.bind_eq_ok.1 hr'
    cases hr'
    have hu : uint c 4 4 = uint b (off + 6) 4 := by
      generalize hmk : SOT = mk at hs
      cases hs with
      | alone hd => rw [← hmk] at hd; exact absurd hd (by decide)
      | @seg L hd hl =>
        have h8 : 8 ≤ L := by rw [length_sub] at hc; omega
        exact uint_sub (by omega) (by omega)
    obtain ⟨len, hlen⟩ : ∃ v, uint c 4 4 = some v := by
      unfold uint; rw [if_pos (by omega)]; exact ⟨_, rfl⟩
    simp only [tpResult, hlen, intOf, Option.getD_some]
    split
    case isFalse => exact Ends.ok _
    by_cases h0 : len = 0
    · rw [if_neg (by omega)]; exact Ends.ok _
    rw [if_pos (by omega)]
    refine ih fuel (off + len) _ (by omega) (by omega) (by simp) fun hm' => ?_
    exact SotReached.next hrch (hu ▸ hlen) h0 hm'

/-! ## Codestreams -/

theorem needInts_ends : ∀ vs, Ends (needInts vs)
  | [] => Ends.ok _
  | _ :: vs => Ends.bind (needInt_ends _) fun _ _ => Ends.bind (needInts_ends vs) fun _ _ => Ends.ok _

theorem codestreamFinish_ends (o b sc nt n t) : Ends (codestreamFinish o b sc nt n t) := by
  unfold codestreamFinish
  simp only
  split
  · exact Ends.bind (needInts_ends _) fun _ _ => Ends.bind (needInt_ends _) fun _ _ =>
      Ends.bind (needInt_ends _) fun _ _ => Ends.bind (needInt_ends _) fun _ _ =>
      Ends.bind (needInt_ends _) fun _ _ => Ends.ok _
  · exact Ends.ok _

theorem codestream_ends {env o fuel} {b : Bytes} (h : Followable b) (hf : b.length + 3 < fuel) :
    Ends (codestream env o fuel b) := by
  obtain ⟨n0, h0, hn0⟩ := getMarkerSegment_spec b 0
  cases n0 with
  | none =>
    have hlt : b.length < 4 := by
      generalize (getMarkerSegment b ((0 : Nat) : Int)).marker = m, (getMarkerSegment b ((0 : Nat) : Int)).contents = c at h0
      cases h0 with
      | noLength hd hl => exact Nat.lt_of_lt_of_le (uint_none hl) (by omega)
    unfold codestream
    simp only
    have : (getMarkerSegment b (getMarkerSegment b 0).next).marker ≠ mSIZ := by
      rw [show (getMarkerSegment b 0).next = -9999 from hn0]
      have : slice b (-9999) (-9999 + 2) = [] := by
        unfold slice sliceIdx
        rw [if_pos (by omega), if_pos (by omega), show (-9999 + (b.length : Int)).toNat = 0 by omega,
          show (-9999 + 2 + (b.length : Int)).toNat = 0 by omega]
        simp
      unfold getMarkerSegment
      simp only [this]
      decide
    rw [if_neg this]
    exact Ends.ok _
  | some k =>
    obtain ⟨n1, h1, hn1⟩ := getMarkerSegment_spec b k
    by_cases hm : (getMarkerSegment b k).marker = mSIZ
    case neg =>
      unfold codestream
      simp only
      rw [show (getMarkerSegment b 0).next = k from hn0, if_neg hm]
      exact Ends.ok _
    rw [hm] at h1
    rw [codestream_eq h0 rfl h1]
    have hsmall : (getMarkerSegment b k).contents.length ≤ b.length := by
      generalize (getMarkerSegment b k).contents = c at h1
      generalize mSIZ = m at h1
      cases h1 <;> simp [length_sub] <;> omega
    refine Ends.bind (validateLeaf_ends (by omega) (fun h => absurd h (by decide))
      fun h => absurd h (by decide)) fun r _ => Ends.bind (needInt_ends _) fun csiz _ => ?_
    cases n1 with
    | none =>
      obtain ⟨fuel, rfl⟩ : ∃ k, fuel = k + 1 := ⟨fuel - 1, by omega⟩
      rw [mainLoop_stop (by simp [mainStart, intOf])]
      refine Ends.bind (Ends.ok _) fun s hs => Ends.bind (needInt_ends _) fun _ _ =>
        Ends.bind (needInt_ends _) fun _ _ => Ends.bind ?_ fun _ _ => codestreamFinish_ends _ _ _ _ _ _
      cases hs
      rw [tileLoop_stop (by simp only [mainStart]; decide)]
      exact Ends.ok _
    | some first =>
      have hms : MainStart b first := ⟨_, _, _, _, h0, h1⟩
      obtain ⟨main, e, hse⟩ := segsTo_exists b SOT _ first (Nat.le_refl _)
      have hl := segsTo_length hse
      rw [mainLoop_eq (off := first) (ss := main) (e := e) hse (by omega) (by simp only [mainStart]; decide)
        (by simp only [mainStart, intOf]; omega) rfl]
      refine Ends.bind (Ends.bind (inTurn_ends fun x hx => ?_) fun _ _ => Ends.ok _) fun s hs =>
        Ends.bind (needInt_ends _) fun _ _ =>
        Ends.bind (needInt_ends _) fun _ _ => Ends.bind ?_ fun _ _ => codestreamFinish_ends _ _ _ _ _ _
      · obtain ⟨hx, hm⟩ := List.mem_filter.1 hx
        have := segsTo_small hse x hx
        refine segRun_ends (by omega) (fun h => ?_) (h.plm first main e hms hse x hx)
        rw [h] at hm
        exact absurd hm (by decide)
      · obtain ⟨rs, -, hs⟩ := Outcome.bind_eq_ok.1 hs
        cases hs
        cases e with
        | none =>
          obtain ⟨fuel, rfl⟩ : ∃ k, fuel = k + 1 := ⟨fuel - 1, by omega⟩
          rw [tileLoop_stop]
          · exact Ends.ok _
          · simp only [mainEnd]
            intro hc
            have := (lastMarker_eq hse).1 hc
            cases this
        | some k' =>
          exact tileLoop_ends h hms hse hf b.length fuel k' _ (by omega) (by omega) rfl fun hm => .first hm

/-! ## Boxes and files -/

theorem superbox_type {t : Bytes} (h : boxTypeOf t = .jp2HeaderBox ∨ boxTypeOf t = .resolutionBox ∨
    boxTypeOf t = .uuidInfoBox) : t ∈ superboxTypes := by
  rcases h with h | h | h
  · rw [(boxTypeOf_iff (k := tagJp2Header) rfl (by decide) t).1 h]; decide
  · rw [(boxTypeOf_iff (k := tagResolution) rfl (by decide) t).1 h]; decide
  · rw [(boxTypeOf_iff (k := tagUuidInfo) rfl (by decide) t).1 h]; decide

theorem walk_ends {sub : Bytes → Bytes → Outcome BoxResult} {b : Bytes} {fuel : Nat}
    (hf : b.length < fuel) (h : ∀ bs, Boxes b bs → ∀ x ∈ bs, Ends (sub x.type x.payload)) :
    Ends (walkBoxes sub b fuel) := by
  obtain ⟨bs, hb⟩ := boxes_exists b
  have := boxesFrom_length hb
  rw [walkBoxes_eq hb (by omega)]
  exact Ends.bind (inTurn_ends (h bs hb)) fun _ _ => Ends.ok _

theorem validateBox_ends {env o} {b : Bytes}
    (h : ∀ d p, HasBox b d (ascii "jp2c") p → Followable p)
    (h2 : ∀ d t p, HasBox b d t p → (t = PLT → ¬ OpenEnded p 3) ∧ (t = PLM → ¬ OpenEnded p 4)) :
    ∀ (fuel d : Nat) (t p : Bytes), HasBox b d t p → p.length + 4 < fuel → Ends (validateBox env o fuel t p)
  | 0, _, _, _, _, hf => absurd hf (by omega)
  | fuel + 1, d, t, p, hb, hf => by
    have hw : t ∈ superboxTypes → Ends (walkBoxes (validateBox env o fuel) p fuel) := fun ht =>
      walk_ends (by omega) fun bs hbs x hx =>
        validateBox_ends h h2 fuel (d + 1) _ _ (.inside hb ht hbs hx)
          (by have := (boxesFrom_mem hbs hx).2.1; omega)
    unfold validateBox
    cases ht : boxTypeOf t
    case jp2HeaderBox => exact Ends.bind (hw (superbox_type (.inl ht))) fun _ _ => Ends.ok _
    case resolutionBox => exact Ends.bind (hw (superbox_type (.inr (.inl ht)))) fun _ _ => Ends.ok _
    case uuidInfoBox => exact Ends.bind (hw (superbox_type (.inr (.inr ht)))) fun _ _ => Ends.ok _
    case contiguousCodestreamBox =>
      have := (boxTypeOf_iff (k := tagCodestream) rfl (by decide) t).1 ht
      subst this
      exact Ends.bind (codestream_ends (h d p hb) (by omega)) fun _ _ => Ends.ok _
    case tilePart => exact Ends.raised _
    all_goals exact validateLeaf_ends (by omega) (h2 d t p hb).1 (h2 d t p hb).2

theorem bpcValues_ends (c n a b) : Ends (bpcValues c n a b) := by
  unfold bpcValues
  split
  · split <;> exact Ends.ok _
  · exact Ends.bind (needInt_ends _) fun _ _ => Ends.ok _

theorem jp2Finish_ends (o l n ts) : Ends (jp2Finish o l n ts) := by
  unfold jp2Finish
  simp only
  split
  · unfold sizConsistency
    simp only
    refine Ends.bind (needInt_ends _) fun _ _ => Ends.bind (needInt_ends _) fun _ _ =>
      Ends.bind (needInt_ends _) fun _ _ => Ends.bind (needInt_ends _) fun _ _ =>
      Ends.bind (bpcValues_ends _ _ _ _) fun _ _ => ?_
    split
    · exact Ends.bind (needInts_ends _) fun _ _ => Ends.bind (needInt_ends _) fun _ _ =>
        Ends.bind (needInt_ends _) fun _ _ => Ends.ok _
    · exact Ends.ok _
  · exact Ends.ok _

/-! ## MIX -/

theorem findText_ends (p l) : Ends (findText p l) := by unfold findText; ends
theorem asStr_ends (v) : Ends (asStr v) := by unfold asStr; ends
theorem asText_ends (v) : Ends (asText v) := by unfold asText; ends
theorem orValueError_ends {α : Type} (v : Option α) : Ends (orValueError v) := by unfold orValueError; ends
theorem asTexts_ends : ∀ vs, Ends (asTexts vs)
  | [] => Ends.ok _
  | _ :: vs => Ends.bind (asText_ends _) fun _ _ => Ends.bind (asTexts_ends vs) fun _ _ => Ends.ok _
theorem findValueInRDF_ends (r n t) : Ends (findValueInRDF r n t) := by unfold findValueInRDF; ends

macro "mixends" : tactic => `(tactic| repeat (first
  | exact Ends.ok _ | exact Ends.pure _ | exact Ends.raised _ | exact findText_ends _ _ | exact asStr_ends _
  | exact asText_ends _ | exact orValueError_ends _ | exact asTexts_ends _ | exact findValueInRDF_ends _ _ _
  | (refine Ends.bind ?_ fun _ _ => ?_) | split))

theorem addIfExist_ends (me r n t d) : Ends (addIfExist me r n t d) := by unfold addIfExist; mixends
theorem mixBdoi_ends (me f p) : Ends (mixBdoi me f p) := by unfold mixBdoi; simp only; mixends
theorem mixPhotometric_ends (me p) : Ends (mixPhotometric me p) := by unfold mixPhotometric; mixends
theorem mixCodec_ends (p) : Ends (mixCodec p) := by unfold mixCodec; mixends
theorem mixBio_ends (me f p) : Ends (mixBio me f p) := by
  unfold mixBio; simp only
  repeat (first
    | exact mixPhotometric_ends _ _ | exact mixCodec_ends _ | exact findText_ends _ _
    | exact Ends.ok _
    | (refine Ends.bind ?_ fun _ _ => ?_))
theorem mixIcm_ends (me p) : Ends (mixIcm me p) := by
  unfold mixIcm; simp only
  repeat (first
    | exact addIfExist_ends _ _ _ _ _ | exact findValueInRDF_ends _ _ _ | exact asText_ends _
    | exact Ends.ok _
    | (refine Ends.bind ?_ fun _ _ => ?_) | split)
theorem mixSpatial_ends (me f p) : Ends (mixSpatial me f p) := by unfold mixSpatial; simp only; mixends
theorem mixIam_ends (me f p) : Ends (mixIam me f p) := by
  unfold mixIam; simp only
  repeat (first
    | exact mixSpatial_ends _ _ _ | exact findText_ends _ _ | exact asTexts_ends _
    | exact Ends.ok _ | exact Ends.raised _
    | (refine Ends.bind ?_ fun _ _ => ?_) | split)
theorem generateMix_ends (me f p) : Ends (generateMix me f p) := by
  unfold generateMix; simp only
  exact Ends.bind (mixBdoi_ends _ _ _) fun _ _ => Ends.bind (mixBio_ends _ _ _) fun _ _ =>
    Ends.bind (mixIcm_ends _ _) fun _ _ => Ends.bind (mixIam_ends _ _ _) fun _ _ => Ends.ok _

end Jpy
