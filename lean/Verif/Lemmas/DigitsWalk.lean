import Verif.Lemmas.Digits
import Verif.Lemmas.ReportNames
import Verif.Props.Endless
import Verif.Props.Shows
/-! # Where long integers occur in the results of a run -/

namespace Jpy
open Spec

set_option exponentiation.threshold 2000

/-! ## Tests and warnings -/

/-- No long integers in the tests and warnings. -/
structure Mute (d : Nat) (n : Node) : Prop where
  tests : ¬ BigL d n.tests
  warnings : ¬ BigL d n.warnings

theorem bigV_bool {d b} : ¬ BigV d (.bool b) := fun ⟨_, h, _⟩ => nomatch h
theorem bigV_str {d s} : ¬ BigV d (.str s) := fun ⟨_, h, _⟩ => nomatch h
theorem bigV_flt {d s} : ¬ BigV d (.flt s) := fun ⟨_, h, _⟩ => nomatch h

theorem bigL_testElems {d v ts} : ¬ BigL d (testElems v ts) := by
  intro h
  obtain ⟨e, he, x, hx, h⟩ := bigL_iff.1 h
  obtain ⟨t, -, rfl⟩ := List.mem_map.1 he
  exact bigV_bool (bigL_leaf.1 (bigL_iff.2 ⟨_, List.mem_singleton.2 rfl, x, hx, h⟩))

theorem bigL_warningsOf {d} : ∀ ss : List Step, ¬ BigL d (warningsOf ss)
  | [] => bigL_nil
  | .warn m :: ss => by
    rw [warningsOf, bigL_cons, bigL_leaf]
    rintro (h | h)
    · exact bigV_str h
    · exact bigL_warningsOf ss h
  | .char _ _ :: ss => bigL_warningsOf ss
  | .elem _ :: ss => bigL_warningsOf ss
  | .test _ _ :: ss => bigL_warningsOf ss

theorem mute_run {d v ss} : Mute d (Node.run v {} ss) where
  tests := by
    rw [run_tests, bigL_append]
    rintro (h | h)
    · exact bigL_nil h
    · exact bigL_testElems h
  warnings := by
    rw [run_warnings, bigL_append]
    rintro (h | h)
    · exact bigL_nil h
    · exact bigL_warningsOf _ h

theorem mute_test {d v n name r} (h : Mute d n) : Mute d (Node.testFor v n name r) where
  tests := by
    rw [testFor_tests, bigL_append]
    rintro (h' | h')
    · exact h.tests h'
    · exact bigL_testElems h'
  warnings := by rw [testFor_warnings]; exact h.warnings

theorem bigL_appendIf {d cs t c} (h : ¬ BigL d cs) (h' : ¬ BigL d c) : ¬ BigL d (Elem.appendIfNotEmpty cs (.node t c)) := by
  unfold Elem.appendIfNotEmpty
  split
  · rw [bigL_append, bigL_node]
    exact fun hh => hh.elim h h'
  · exact h

theorem mute_absorb {d n r} (h : Mute d n) (hr : Mute d r.node) : Mute d (n.absorb r) :=
  ⟨bigL_appendIf h.tests hr.tests, bigL_appendIf h.warnings hr.warnings⟩

theorem mute_quiet {d n r} (h : Mute d n) (hr : Mute d r.node) : Mute d (n.absorbQuiet r) :=
  ⟨bigL_appendIf h.tests hr.tests, bigL_appendIf h.warnings hr.warnings⟩

/-- An invariant of every run. -/
def muteRel (env : Env) (o : Options) (d : Nat) : NodeRel env o o where
  R _ n1 n2 := n1 = n2 ∧ Mute d n1
  L _ r1 r2 := r1 = r2 ∧ Mute d r1.node
  empty _ := ⟨rfl, ⟨bigL_nil, bigL_nil⟩⟩
  test name r h _ := by
    obtain ⟨rfl, h⟩ := h
    exact ⟨rfl, mute_test h⟩
  char name v _ h := by
    obtain ⟨rfl, h⟩ := h
    exact ⟨rfl, ⟨h.tests, h.warnings⟩⟩
  absorb h hr _ := by
    obtain ⟨rfl, h⟩ := h
    obtain ⟨rfl, hr⟩ := hr
    exact ⟨rfl, mute_absorb h hr⟩
  packet h hr _ := by
    obtain ⟨rfl, h⟩ := h
    obtain ⟨rfl, hr⟩ := hr
    refine ⟨rfl, ?_⟩
    unfold Node.absorbPacket
    split
    · exact mute_absorb h hr
    · exact mute_quiet h hr
  leaf h1 h2 _ _ := by
    rw [h1] at h2
    cases h2
    exact ⟨rfl, mute_run⟩
  sot c := ⟨rfl, mute_run⟩
  super tag ht h := by
    obtain ⟨rfl, h⟩ := h
    exact ⟨rfl, h⟩
  code h := by obtain ⟨rfl, h⟩ := h; exact ⟨rfl, h⟩
  tile h := by obtain ⟨rfl, h⟩ := h; exact ⟨rfl, h⟩
  tiles h := by obtain ⟨rfl, h⟩ := h; exact ⟨rfl, h⟩
  look h _ := by rw [h.1]

theorem validateRoot_mute {env : Env} {o : Options} {fuel b n} (d : Nat) (h : validateRoot env o fuel b = .ok n) :
    Mute d n := by
  have := validateRoot_rel (muteRel env o d) rfl fuel b
  rw [h] at this
  cases this with
  | ok h => exact h.2

/-! ## Tile-parts -/

section
variable {env : Env} {d : Nat}

theorem leaf_notBig (hx : XmlTexts env) (hd : 640 ≤ d) {o fuel csiz m c r}
    (h : validateLeaf env o fuel csiz m c = .ok r) (h1 : boxTypeOf m ≠ .prf) (h2 : boxTypeOf m ≠ .cpf) :
    ¬ BigL d [r.charsElem] := by
  obtain ⟨ss, hss, rfl⟩ := (validateLeaf_ok rfl).1 h
  rw [BoxResult.charsElem, bigL_node, run_chars]
  exact charsOf_small hd (leaf_small hx hss h1 h2)

theorem count_small {d k l : Nat} (hd : 640 ≤ d) (hl : l < 10 ^ 639) (hk : k ≤ 2 * l + 4) : ¬ BigV d (.int k) := by
  rw [bigV_int]
  have h1 : 10 ^ 640 ≤ 10 ^ d := Nat.pow_le_pow_right (by decide) hd
  have h2 : 2 * 10 ^ 639 + 4 ≤ 10 ^ 640 := by decide +kernel
  rw [Int.natAbs_natCast]
  omega

/-- What holds at every step in a tile-part. -/
structure TPSmall (d : Nat) (b : Bytes) (s : TPState) : Prop where
  chars : ¬ BigL d s.node.chars
  place : s.offsetNext ≠ -9999 → ((s.pltCount + s.pptCount : Nat) : Int) ≤ s.offset + b.length + 2
  bound : s.pltCount + s.pptCount ≤ 2 * b.length + 4

theorem next_ge {b : Bytes} {off : Int} (h : (getMarkerSegment b off).next ≠ -9999) :
    off + 2 ≤ (getMarkerSegment b off).next := by
  unfold getMarkerSegment at h ⊢
  simp only at h ⊢
  by_cases hm : slice b off (off + 2) ∈ [mSOC, mSOD, mEOC, mEPH]
  · rw [if_pos hm, if_neg (by decide)]
    omega
  · rw [if_neg hm] at h ⊢
    by_cases hl : bytesToUShortInt (slice b (off + 2) (off + 4)) = -9999
    · rw [if_pos hl] at h
      exact absurd rfl h
    · rw [if_neg hl]
      unfold bytesToUShortInt doConv at hl ⊢
      split at hl
      · rename_i h2
        rw [if_pos h2]; omega
      · exact absurd rfl hl

theorem absorb_big {n : Node} {r : BoxResult} : BigL d (n.absorb r).chars ↔ BigL d n.chars ∨ BigL d [r.charsElem] := by
  rw [absorb_chars, bigL_append]

theorem packet_small {pm} {n : Node} {r : BoxResult} (h : ¬ BigL d n.chars) (h' : ¬ BigL d [r.charsElem]) :
    ¬ BigL d (n.absorbPacket pm r).chars := by
  unfold Node.absorbPacket
  split
  · rw [absorb_big]; exact fun hh => hh.elim h h'
  · exact h

theorem tpStep_small (hx : XmlTexts env) (hd : 640 ≤ d) {o f csiz b s s'} (hs : TPSmall d b s) (hne : s.offsetNext ≠ -9999)
    (ho : s.offset = s.offsetNext)
    (h : tpStep (fun mk c cs => validateLeaf env o f cs mk c) o.packetmarkers csiz b s = .ok s') :
    TPSmall d b s' ∧ s'.offset = s'.offsetNext := by
  rw [tpStep_eq] at h
  simp only at h
  have hp := hs.place hne
  split at h
  · rename_i hm
    obtain ⟨r, hr, h⟩ := Outcome.bind_eq_ok.1 h
    cases h
    have ht : boxTypeOf (getMarkerSegment b s.offset).marker ≠ .prf ∧ boxTypeOf (getMarkerSegment b s.offset).marker ≠ .cpf := by
      revert hm
      generalize (getMarkerSegment b s.offset).marker = mk
      revert mk; decide
    have hsm := leaf_notBig hx hd hr ht.1 ht.2
    have hin := slice_inside (b := b) (i := s.offset) (n := 2) (by
      intro he
      have : (getMarkerSegment b s.offset).marker = [] := he
      rw [this] at hm
      revert hm; decide)
    refine ⟨⟨?_, fun hn => ?_, ?_⟩, rfl⟩
    · simp only
      split
      · exact packet_small hs.chars hsm
      · rw [absorb_big]; exact fun hh => hh.elim hs.chars hsm
    · have := next_ge hn
      simp only
      have : ¬ ((getMarkerSegment b s.offset).marker = mPLT ∧ (getMarkerSegment b s.offset).marker = mPPT) := by
        rintro ⟨h1, h2⟩; rw [h1] at h2; revert h2; decide
      split <;> split <;> first | omega | (exfalso; exact this ⟨by assumption, by assumption⟩)
    · simp only
      have : ¬ ((getMarkerSegment b s.offset).marker = mPLT ∧ (getMarkerSegment b s.offset).marker = mPPT) := by
        rintro ⟨h1, h2⟩; rw [h1] at h2; revert h2; decide
      split <;> split <;> first | omega | (exfalso; exact this ⟨by assumption, by assumption⟩)
  · cases h
    refine ⟨⟨hs.chars, fun hn => ?_, hs.bound⟩, rfl⟩
    have := next_ge hn
    simp only; omega

theorem tpLoop_small (hx : XmlTexts env) (hd : 640 ≤ d) {o f csiz b} : ∀ (fuel : Nat) {s s' : TPState}, TPSmall d b s →
    s.offset = s.offsetNext →
    tpLoop (fun mk c cs => validateLeaf env o f cs mk c) o.packetmarkers csiz b fuel s = .ok s' → TPSmall d b s'
  | 0, _, _, _, _, h => nomatch h
  | fuel + 1, s, s', hs, ho, h => by
    unfold tpLoop at h
    split at h
    · rename_i hc
      obtain ⟨s1, h1, h⟩ := Outcome.bind_eq_ok.1 h
      obtain ⟨hs1, ho1⟩ := tpStep_small hx hd hs hc.2 ho h1
      exact tpLoop_small hx hd fuel hs1 ho1 h
    · cases h; exact hs

theorem tilePart_small (hx : XmlTexts env) (hd : 640 ≤ d) {o fuel csiz off b r} (hl : b.length < 10 ^ 639)
    (hm : slice b off (off + 2) = mSOT) (h : tilePart env o fuel csiz off b = .ok r) : ¬ BigL d r.node.chars := by
  unfold tilePart at h
  obtain ⟨s, hs, h⟩ := Outcome.bind_eq_ok.1 h
  cases h
  have hin := slice_inside (b := b) (i := off) (n := 2) (by rw [show ((2 : Nat) : Int) = 2 from rfl, hm]; decide)
  have h1 := tpLoop_small hx hd fuel ⟨?_, ?_, ?_⟩ rfl hs
  · simp only [testIf_chars]
    unfold tpFinish
    simp only [testIf_chars, testFor_chars, Node.addChar, bigL_append, bigL_leaf]
    have := h1.bound
    rintro ((h | h) | h)
    · exact h1.chars h
    · exact count_small hd hl (k := s.pltCount) (by omega) h
    · exact count_small hd hl (k := s.pptCount) (by omega) h
  · simp only [absorb_big, BoxResult.charsElem, bigL_node, run_chars]
    rintro (h | h)
    · exact bigL_nil h
    · exact charsOf_small hd (smalls_sot _) h
  · intro hn
    have := next_ge hn
    simp only; omega
  · simp

theorem tileLoop_small {tp : Int → Outcome BoxResult} {b : Bytes}
    (htp : ∀ off r, slice b off (off + 2) = mSOT → tp off = .ok r → ¬ BigL d r.node.chars) :
    ∀ (fuel : Nat) {s s' : TileState}, ¬ BigL d s.node.chars → tileLoop tp b fuel s = .ok s' → ¬ BigL d s'.node.chars
  | 0, _, _, _, h => nomatch h
  | fuel + 1, s, s', hs, h => by
    unfold tileLoop at h
    simp only at h
    split at h
    · split at h
      · rename_i hm
        obtain ⟨r, hr, h⟩ := Outcome.bind_eq_ok.1 h
        obtain ⟨i, -, h⟩ := Outcome.bind_eq_ok.1 h
        obtain ⟨j, -, h⟩ := Outcome.bind_eq_ok.1 h
        have hn : ¬ BigL d (s.node.absorb r).chars := by
          rw [absorb_big, BoxResult.charsElem, bigL_node]
          exact fun hh => hh.elim hs (htp _ _ hm hr)
        split at h
        · split at h
          · exact tileLoop_small htp fuel (by exact hn) h
          · cases h; exact hn
        · cases h; exact hn
      · cases h; exact hs
    · cases h; exact hs

/-! ## Codestreams -/

theorem absorbSegs_big {pm : Bool} {q : List Bytes} {rs : List (Bytes × BoxResult)} {n : Node}
    (hq : ∀ r ∈ rs, r.1 ∈ q → ¬ BigL d [r.2.charsElem]) :
    BigL d (absorbSegs pm q n rs).chars ↔ BigL d n.chars ∨ ∃ r ∈ rs, BigL d [r.2.charsElem] := by
  unfold absorbSegs
  induction rs generalizing n with
  | nil => simp
  | cons r rs ih =>
    rw [List.foldl_cons, ih fun r hr => hq r (List.mem_cons_of_mem _ hr)]
    have hr := hq r (List.mem_cons_self ..)
    have key : BigL d (if r.1 ∈ q then n.absorbPacket pm r.2 else n.absorb r.2).chars ↔
        BigL d n.chars ∨ BigL d [r.2.charsElem] := by
      split
      · rename_i hm
        unfold Node.absorbPacket
        split
        · exact absorb_big
        · exact ⟨.inl, fun h => h.elim id fun h => absurd h (hr hm)⟩
      · exact absorb_big
    rw [key, or_assoc]
    simp

theorem compressionRatio_small {a b c e} : Small (compressionRatio a b c e) := by
  unfold compressionRatio
  split
  · trivial
  · exact small_of (by decide)

theorem finish_big (hd : 640 ≤ d) {o : Options} {b : Bytes} {sizChars : List Elem} {nTiles : Int} {node : Node}
    {t : TileState} {n : Node} (h : codestreamFinish o b sizChars nTiles node t = .ok n) :
    BigL d n.chars ↔ BigL d node.chars ∨ BigL d t.node.chars := by
  unfold codestreamFinish at h
  simp only at h
  split at h
  · obtain ⟨depths, -, h⟩ := Outcome.bind_eq_ok.1 h
    obtain ⟨y, -, h⟩ := Outcome.bind_eq_ok.1 h
    obtain ⟨y', -, h⟩ := Outcome.bind_eq_ok.1 h
    obtain ⟨x, -, h⟩ := Outcome.bind_eq_ok.1 h
    obtain ⟨x', -, h⟩ := Outcome.bind_eq_ok.1 h
    cases h
    simp only [Node.addChar, testIf_chars, testFor_chars, bigL_append, absorb_big, bigL_leaf, BoxResult.charsElem, bigL_node]
    exact ⟨fun h => h.elim id fun h => absurd h (small_notBig hd compressionRatio_small), .inl⟩
  · cases h
    simp only [testIf_chars, testFor_chars, absorb_big, BoxResult.charsElem, bigL_node]

theorem mainSeg_big (hx : XmlTexts env) (hd : 640 ≤ d) {o fuel csiz m c r} (hm : m ∈ mainMarkers)
    (h : validateLeaf env o fuel csiz m c = .ok r) :
    BigL d [r.charsElem] ↔ (m = PRF ∧ 10 ^ d ≤ (profileNumber 4095 c).natAbs) ∨
      (m = CPF ∧ 10 ^ d ≤ (profileNumber (-1) c).natAbs) := by
  by_cases h1 : m = PRF
  · subst h1
    obtain ⟨ss, hss, rfl⟩ := (validateLeaf_ok (t := .prf) (by decide)).1 h
    cases hss
    rw [BoxResult.charsElem, bigL_node, run_chars]
    show BigL d (charsOf _) ↔ _
    rw [prf_big hd]
    exact ⟨fun h => .inl ⟨rfl, h⟩, fun h => h.elim (·.2) fun h => absurd h.1 (by decide)⟩
  · by_cases h2 : m = CPF
    · subst h2
      obtain ⟨ss, hss, rfl⟩ := (validateLeaf_ok (t := .cpf) (by decide)).1 h
      cases hss
      rw [BoxResult.charsElem, bigL_node, run_chars]
      show BigL d (charsOf _) ↔ _
      rw [cpf_big hd]
      exact ⟨fun h => .inr ⟨rfl, h⟩, fun h => h.elim (fun h => absurd h.1 (by decide)) (·.2)⟩
    · have ht : boxTypeOf m ≠ .prf ∧ boxTypeOf m ≠ .cpf := by
        constructor
        · intro h; exact h1 ((boxTypeOf_iff (k := mPRF) rfl (by decide) m).1 h)
        · intro h; exact h2 ((boxTypeOf_iff (k := mCPF) rfl (by decide) m).1 h)
      constructor
      · exact fun hb => absurd hb (leaf_notBig hx hd h ht.1 ht.2)
      · rintro (h | h)
        · exact absurd h.1 h1
        · exact absurd h.1 h2

theorem segCount_le {m : Bytes} {ss : List FoundSeg} : segCount m ss ≤ ss.length := List.length_filter_le ..

theorem mainStart_unique {b : Bytes} {i j : Nat} (h : MainStart b i) (h' : MainStart b j) : i = j := by
  obtain ⟨m, c, k, siz, h1, h2⟩ := h
  obtain ⟨m', c', k', siz', h1', h2'⟩ := h'
  obtain ⟨-, -, e⟩ := segAt_unique h1 h1'
  cases e
  obtain ⟨-, -, e⟩ := segAt_unique h2 h2'
  cases e
  rfl

theorem longNumber_iff {b : Bytes} {first main e} (h1 : MainStart b first) (h2 : SegsTo b SOT first main e) :
    LongNumber d b ↔ ∃ x ∈ main, (x.marker = PRF ∧ 10 ^ d ≤ (profileNumber 4095 x.contents).natAbs) ∨
      (x.marker = CPF ∧ 10 ^ d ≤ (profileNumber (-1) x.contents).natAbs) := by
  constructor
  · rintro ⟨first', main', e', h1', h2', h⟩
    cases mainStart_unique h1 h1'
    cases (segsTo_unique h2 h2').1
    exact h
  · exact fun h => ⟨_, _, _, h1, h2, h⟩

theorem codestream_big (hx : XmlTexts env) (hd : 640 ≤ d) {o fuel b n} (hl : b.length < 10 ^ 639)
    (h : codestream env o fuel b = .ok n) : BigL d n.chars ↔ LongNumber d b := by
  by_cases hm : ∃ first, MainStart b first
  · obtain ⟨first, hms⟩ := hm
    obtain ⟨main, e, hse⟩ := segsTo_exists b mSOT _ first (Nat.le_refl _)
    rw [longNumber_iff hms hse]
    obtain ⟨m, c, k, siz, h0, h1⟩ := hms
    have hlen := segsTo_length hse
    have h := (codestream_le env o (f := fuel) (g := fuel + b.length + 3) (by omega) b).ok h
    generalize hg : fuel + b.length + 3 = g at h
    rw [codestream_eq h0 rfl h1] at h
    obtain ⟨r, hr, h⟩ := Outcome.bind_eq_ok.1 h
    obtain ⟨csiz, hcs, h⟩ := Outcome.bind_eq_ok.1 h
    obtain ⟨s, hs, h⟩ := Outcome.bind_eq_ok.1 h
    rw [mainLoop_eq (off := first) (ss := main) (e := e) hse (by omega) (by simp only [mainStart]; decide)
        (by simp only [mainStart, intOf]; omega) rfl] at hs
    obtain ⟨rs, hrs, hs⟩ := Outcome.bind_eq_ok.1 hs
    cases hs
    obtain ⟨rsiz, -, h⟩ := Outcome.bind_eq_ok.1 h
    obtain ⟨tiles, -, h⟩ := Outcome.bind_eq_ok.1 h
    obtain ⟨t, ht, h⟩ := Outcome.bind_eq_ok.1 h
    rw [finish_big hd h]
    have ht' : ¬ BigL d t.node.chars :=
      tileLoop_small (fun off r hm hr => tilePart_small hx hd hl hm hr) g bigL_nil ht
    have hsiz : ¬ BigL d [r.charsElem] := leaf_notBig hx hd hr (by decide) (by decide)
    have hres : ∀ y ∈ rs, ∃ x ∈ main, x.marker ∈ mainMarkers ∧ y.1 = x.marker ∧
        validateLeaf env o g (some csiz) x.marker x.contents = .ok y.2 := by
      intro y hy
      obtain ⟨x, hxm, hy⟩ := inTurn_mem' hrs hy
      obtain ⟨hxm, hmk⟩ := List.mem_filter.1 hxm
      obtain ⟨e1, e2⟩ := segRun_ok.1 hy
      exact ⟨x, hxm, of_decide_eq_true hmk, e1, e2⟩
    have key : BigL d (mainNode o (mainEnd b o.packetmarkers (mainStart o b r (intOf (some first))) main e rs) rsiz).chars ↔
        ∃ y ∈ rs, BigL d [y.2.charsElem] := by
      unfold mainNode
      simp only [testIf_chars, testFor_chars, Node.addChar, bigL_append, bigL_leaf, mainEnd, mainStart, Nat.zero_add]
      have h1 : ¬ BigV d (.int (segCount mPPM main : Nat)) :=
        count_small hd hl (by have := segCount_le (m := mPPM) (ss := main); omega)
      have h2 : ¬ BigV d (.int (segCount mPLM main : Nat)) :=
        count_small hd hl (by have := segCount_le (m := mPLM) (ss := main); omega)
      rw [absorbSegs_big, headNode_chars]
      · constructor
        · rintro (((h | h) | h) | h)
          · exact absurd h hsiz
          · exact h
          · exact absurd h h1
          · exact absurd h h2
        · exact fun h => .inl (.inl (.inr h))
      · intro y hy hq
        obtain ⟨x, -, -, e1, e2⟩ := hres y hy
        rw [e1] at hq
        refine leaf_notBig hx hd e2 ?_ ?_ <;> revert hq <;> generalize x.marker = mk <;> revert mk <;> decide
    rw [key]
    constructor
    · rintro (⟨y, hy, hb⟩ | h)
      · obtain ⟨x, hxm, hmk, -, e2⟩ := hres y hy
        exact ⟨x, hxm, (mainSeg_big hx hd hmk e2).1 hb⟩
      · exact absurd h ht'
    · rintro ⟨x, hxm, hb⟩
      have hmk : x.marker ∈ mainMarkers := by
        rcases hb with h | h <;> rw [h.1] <;> decide
      obtain ⟨y, hy, hry⟩ := inTurn_mem hrs (List.mem_filter.2 ⟨hxm, decide_eq_true hmk⟩)
      exact .inl ⟨y, hy, (mainSeg_big hx hd hmk (segRun_ok.1 hry).2).2 hb⟩
  · have hn : ¬ LongNumber d b := fun ⟨first, _, _, h, _⟩ => hm ⟨first, h⟩
    refine ⟨fun hb => ?_, fun h => absurd h hn⟩
    exfalso
    obtain ⟨n0, h0, hn0⟩ := getMarkerSegment_spec b 0
    by_cases hs : (getMarkerSegment b (getMarkerSegment b 0).next).marker = mSIZ
    · cases n0 with
      | none =>
        have hlt : b.length < 4 := by
          generalize (getMarkerSegment b ((0 : Nat) : Int)).marker = m, (getMarkerSegment b ((0 : Nat) : Int)).contents = c at h0
          cases h0 with
          | noLength hd hl => exact Nat.lt_of_lt_of_le (uint_none hl) (by omega)
        rw [show (getMarkerSegment b 0).next = -9999 from hn0] at hs
        have : slice b (-9999) (-9999 + 2) = [] := by
          unfold slice sliceIdx
          rw [if_pos (by omega), if_pos (by omega), show (-9999 + (b.length : Int)).toNat = 0 by omega,
            show (-9999 + 2 + (b.length : Int)).toNat = 0 by omega]
          simp
        unfold getMarkerSegment at hs
        simp only [this] at hs
        exact absurd hs (by decide)
      | some k =>
        rw [show (getMarkerSegment b 0).next = k from hn0] at hs
        obtain ⟨n1, h1, -⟩ := getMarkerSegment_spec b k
        rw [hs] at h1
        cases n1 with
        | some first => exact hm ⟨first, _, _, k, _, h0, h1⟩
        | none =>
          refine codestream_ok_safe h ⟨_, _, _, k, none, h0, h1, ?_⟩
          generalize (getMarkerSegment b (k : Int)).contents = c, mSIZ = mk at h1
          cases h1 with
          | noLength hd hl => exact fun hf => nomatch hf
    · unfold codestream at h
      simp only at h
      rw [if_neg hs] at h
      cases h
      simp only [testFor_chars] at hb
      exact bigL_nil hb

/-! ## Boxes -/

/-- A codestream with a long number in a box of type `t` with these contents. -/
def LongIn (d : Nat) (t p : Bytes) : Prop :=
  (t = ascii "jp2c" ∧ LongNumber d p) ∨ (t ∈ superboxTypes ∧ ∃ e q, HasBox p e (ascii "jp2c") q ∧ LongNumber d q)

theorem hasBox_outer {b : Bytes} {e t p} (h : HasBox b e t p) : ∃ bs x, Boxes b bs ∧ x ∈ bs ∧
    ((t = x.type ∧ p = x.payload) ∨ (x.type ∈ superboxTypes ∧ ∃ e', HasBox x.payload e' t p)) := by
  induction h with
  | top hb hx => exact ⟨_, _, hb, hx, .inl ⟨rfl, rfl⟩⟩
  | inside _ ht hbs hx ih =>
    obtain ⟨bs, y, hb, hy, h⟩ := ih
    refine ⟨bs, y, hb, hy, .inr ?_⟩
    rcases h with ⟨rfl, rfl⟩ | ⟨hs, e', h⟩
    · exact ⟨ht, _, .top hbs hx⟩
    · exact ⟨hs, _, .inside h ht hbs hx⟩

theorem longIn_boxes {b : Bytes} {bs} (hb : Boxes b bs) :
    (∃ x ∈ bs, LongIn d x.type x.payload) ↔ ∃ e q, HasBox b e (ascii "jp2c") q ∧ LongNumber d q := by
  constructor
  · rintro ⟨x, hx, ⟨ht, hl⟩ | ⟨hs, e, q, hq, hl⟩⟩
    · exact ⟨1, _, ht ▸ .top hb hx, hl⟩
    · obtain ⟨e', h⟩ := hasBox_trans (.top hb hx) hs hq
      exact ⟨e', q, h, hl⟩
  · rintro ⟨e, q, hq, hl⟩
    obtain ⟨bs', x, hb', hx, h⟩ := hasBox_outer hq
    cases boxes_unique hb hb'
    rcases h with ⟨h1, rfl⟩ | ⟨hs, e', h⟩
    · exact ⟨x, hx, .inl ⟨h1.symm, hl⟩⟩
    · exact ⟨x, hx, .inr ⟨hs, e', q, h, hl⟩⟩

theorem bigL_map {rs : List BoxResult} : BigL d (rs.map (·.charsElem)) ↔ ∃ r ∈ rs, BigL d r.node.chars := by
  induction rs with
  | nil => simp [bigL_nil]
  | cons r rs ih => rw [List.map_cons, bigL_cons, ih, BoxResult.charsElem, bigL_node]; simp

theorem walk_big {sub : Bytes → Bytes → Outcome BoxResult} {b : Bytes} {fuel n types}
    (hs : ∀ t p r, p.length < b.length → (t.length < 4 → p = []) → sub t p = .ok r → (BigL d r.node.chars ↔ LongIn d t p))
    (hw : walkBoxes sub b fuel = .ok (n, types)) :
    BigL d n.chars ↔ ∃ e q, HasBox b e (ascii "jp2c") q ∧ LongNumber d q := by
  obtain ⟨bs, hb⟩ := boxes_exists b
  obtain ⟨rs, hrs, rfl, -⟩ := walkBoxes_ok hb hw
  rw [chars_foldl_absorb, bigL_append, bigL_map, ← longIn_boxes hb]
  have key : ∀ x ∈ bs, ∀ r, sub x.type x.payload = .ok r → (BigL d r.node.chars ↔ LongIn d x.type x.payload) := by
    intro x hx r hr
    obtain ⟨-, hl, n, hn⟩ := boxesFrom_mem hb hx
    exact hs _ _ _ (by omega) (boxAt_short_type hn) hr
  constructor
  · rintro (h | ⟨r, hr, h⟩)
    · exact absurd h bigL_nil
    · obtain ⟨x, hx, hr⟩ := inTurn_mem' hrs hr
      exact ⟨x, hx, (key x hx r hr).1 h⟩
  · rintro ⟨x, hx, h⟩
    obtain ⟨r, hr, hxr⟩ := inTurn_mem hrs hx
    exact .inr ⟨r, hr, (key x hx r hxr).2 h⟩

theorem jp2HeaderFinish_chars_digits (o n ts) : (jp2HeaderFinish o n ts).chars = n.chars := by
  unfold jp2HeaderFinish
  cases o.format <;> simp only [testFor_chars, testIf_chars]

theorem profile_nil {start : Int} : profileNumber start [] = start := by
  unfold profileNumber
  have : (uint [] 0 2).getD 0 = 0 := by decide
  rw [this]
  simp

theorem validateBox_big (hx : XmlTexts env) (hd : 640 ≤ d) {o} : ∀ (fuel : Nat) {t p r}, p.length < 10 ^ 639 →
    (t.length < 4 → p = []) → validateBox env o fuel t p = .ok r → (BigL d r.node.chars ↔ LongIn d t p)
  | 0, _, _, _, _, _, h => nomatch h
  | fuel + 1, t, p, r, hl, hsh, h => by
    have hw : ∀ {n types}, walkBoxes (validateBox env o fuel) p fuel = .ok (n, types) → t ∈ superboxTypes →
        (BigL d n.chars ↔ LongIn d t p) := by
      intro n types hn ht
      rw [walk_big (fun t' p' r' hl' hs' hr' => validateBox_big hx hd fuel (Nat.lt_trans hl' hl) hs' hr') hn]
      constructor
      · exact fun h => .inr ⟨ht, h⟩
      · rintro (⟨rfl, -⟩ | h)
        · exact absurd ht (by decide)
        · exact h.2
    have hno : t ∉ superboxTypes → t ≠ ascii "jp2c" → ¬ LongIn d t p := by
      rintro h1 h2 (h | h)
      · exact h2 h.1
      · exact h1 h.1
    unfold validateBox at h
    cases ht : boxTypeOf t
    case jp2HeaderBox =>
      rw [ht] at h
      obtain ⟨⟨n, ts⟩, hn, h⟩ := Outcome.bind_eq_ok.1 h
      cases h
      rw [← hw hn (superbox_type (.inl ht))]
      simp only [jp2HeaderFinish_chars_digits]
    case resolutionBox =>
      rw [ht] at h
      obtain ⟨⟨n, ts⟩, hn, h⟩ := Outcome.bind_eq_ok.1 h
      cases h
      rw [← hw hn (superbox_type (.inr (.inl ht)))]
      simp only [resolutionFinish, testFor_chars]
    case uuidInfoBox =>
      rw [ht] at h
      obtain ⟨⟨n, ts⟩, hn, h⟩ := Outcome.bind_eq_ok.1 h
      cases h
      rw [← hw hn (superbox_type (.inr (.inr ht)))]
      simp only [uuidInfoFinish, testFor_chars]
    case contiguousCodestreamBox =>
      rw [ht] at h
      obtain ⟨n, hn, h⟩ := Outcome.bind_eq_ok.1 h
      cases h
      have := (boxTypeOf_iff (k := tagCodestream) rfl (by decide) t).1 ht
      subst this
      simp only
      rw [codestream_big hx hd hl hn]
      constructor
      · exact fun h => .inl ⟨rfl, h⟩
      · rintro (h | h)
        · exact h.2
        · exact absurd h.1 (by decide)
    case tilePart => rw [ht] at h; cases h
    case prf =>
      have := (boxTypeOf_iff (k := mPRF) rfl (by decide) t).1 ht
      subst this
      rw [ht] at h
      simp only at h
      have hp := hsh (by decide)
      subst hp
      refine ⟨fun hb => ?_, fun h => absurd h (hno (by decide) (by decide))⟩
      exfalso
      have := (mainSeg_big hx hd (by decide) h).1 (by rw [BoxResult.charsElem, bigL_node]; exact hb)
      simp only [profile_nil] at this
      rcases this with h | h
      · exact absurd (bigV_int.2 h.2) (small_notBig hd (small_of (by decide)))
      · exact absurd h.1 (by decide)
    case cpf =>
      have := (boxTypeOf_iff (k := mCPF) rfl (by decide) t).1 ht
      subst this
      rw [ht] at h
      simp only at h
      have hp := hsh (by decide)
      subst hp
      refine ⟨fun hb => ?_, fun h => absurd h (hno (by decide) (by decide))⟩
      exfalso
      have := (mainSeg_big hx hd (by decide) h).1 (by rw [BoxResult.charsElem, bigL_node]; exact hb)
      simp only [profile_nil] at this
      rcases this with h | h
      · exact absurd h.1 (by decide)
      · exact absurd (bigV_int.2 h.2) (small_notBig hd (small_of (by decide)))
    all_goals
      rw [ht] at h
      simp only at h
      have hb := leaf_notBig hx hd h (by rw [ht]; decide) (by rw [ht]; decide)
      rw [BoxResult.charsElem, bigL_node] at hb
      refine ⟨fun h => absurd h hb, fun h => absurd h (hno ?_ ?_)⟩
      · intro hs
        have key : ∀ t ∈ superboxTypes, boxTypeOf t = .jp2HeaderBox ∨ boxTypeOf t = .resolutionBox ∨ boxTypeOf t = .uuidInfoBox := by
          decide
        have := key t hs
        rw [ht] at this
        revert this; decide
      · rintro rfl
        revert ht; decide

theorem sizConsistency_big (hd : 640 ≤ d) {o k n ih sz m} (h : sizConsistency o k n ih sz = .ok m) :
    BigL d m.chars ↔ BigL d n.chars := by
  unfold sizConsistency at h
  obtain ⟨a1, -, h⟩ := Outcome.bind_eq_ok.1 h
  obtain ⟨a2, -, h⟩ := Outcome.bind_eq_ok.1 h
  obtain ⟨a3, -, h⟩ := Outcome.bind_eq_ok.1 h
  obtain ⟨a4, -, h⟩ := Outcome.bind_eq_ok.1 h
  obtain ⟨⟨a5, a6⟩, -, h⟩ := Outcome.bind_eq_ok.1 h
  simp only at h
  split at h
  · obtain ⟨a7, -, h⟩ := Outcome.bind_eq_ok.1 h
    obtain ⟨a8, -, h⟩ := Outcome.bind_eq_ok.1 h
    obtain ⟨a9, -, h⟩ := Outcome.bind_eq_ok.1 h
    cases h
    simp only [Node.addChar, testFor_chars, bigL_append, bigL_leaf]
    exact ⟨fun h => h.elim id fun h => absurd h (small_notBig hd compressionRatio_small), .inl⟩
  · cases h
    simp only [testFor_chars]

theorem jp2Finish_big (hd : 640 ≤ d) {o k n types m} (h : jp2Finish o k n types = .ok m) :
    BigL d m.chars ↔ BigL d n.chars := by
  unfold jp2Finish at h
  simp only [] at h
  split at h
  · rw [sizConsistency_big hd h]; simp only [testFor_chars, testIf_chars]
  · cases h; simp only [testFor_chars, testIf_chars]

theorem validateRoot_big (hx : XmlTexts env) (hd : 640 ≤ d) {o fuel b n} (hl : b.length < 10 ^ 639)
    (h : validateRoot env o fuel b = .ok n) : BigL d n.chars ↔ ∃ p, FollowedIn o.format b p ∧ LongNumber d p := by
  have hjp2 : validateJP2 env o fuel b = .ok n →
      (BigL d n.chars ↔ ∃ p, (∃ e, HasBox b e (ascii "jp2c") p) ∧ LongNumber d p) := by
    intro h
    unfold validateJP2 at h
    obtain ⟨⟨m, ts⟩, hm, h⟩ := Outcome.bind_eq_ok.1 h
    rw [jp2Finish_big hd h, walk_big (fun t' p' r' hl' hs' hr' => validateBox_big hx hd fuel (Nat.lt_trans hl' hl) hs' hr') hm]
    exact ⟨fun ⟨e, q, h1, h2⟩ => ⟨q, ⟨e, h1⟩, h2⟩, fun ⟨q, ⟨e, h1⟩, h2⟩ => ⟨e, q, h1, h2⟩⟩
  have hcs : codestream env o fuel b = .ok n → (BigL d n.chars ↔ ∃ p, p = b ∧ LongNumber d p) := by
    intro h
    rw [codestream_big hx hd hl h]
    exact ⟨fun h => ⟨b, rfl, h⟩, fun ⟨_, h1, h2⟩ => h1 ▸ h2⟩
  unfold validateRoot at h
  unfold FollowedIn
  cases hf : o.format <;> rw [hf] at h <;> simp only at h ⊢
  · exact hjp2 h
  · exact hjp2 h
  · exact hcs h
  · exact hcs h
  · cases h
end

end Jpy
