import Verif.Lemmas.Cs
import Verif.Props.Segments
import Verif.Spec.Sample
/-! # Codestreams: C23, C24, C25 -/

set_option linter.unusedSimpArgs false

namespace Jpy
open Spec

/-- C23 (characterisation): a codestream passes exactly when it has the structure of the
specification. -/
theorem C23_codestream (env : Env) (o : Options) (b : Bytes) :
    CodestreamPasses env o b ↔ ∃ p : CodestreamParts, p.Ok env o b := by
  constructor
  · rintro ⟨fuel, n, h, hv⟩
    obtain ⟨p, hp, -⟩ := codestream_forward h ((isValid_iff n).2 hv)
    exact ⟨p, hp⟩
  · rintro ⟨p, hp⟩
    obtain ⟨fuel, n, h, hv⟩ := codestream_backward hp
    exact ⟨fuel, n, h, (isValid_iff n).1 hv⟩

/-- Concrete codestreams that pass. -/
theorem passes_of_okValid {env : Env} {o : Options} {b : Bytes} (k : Nat)
    (h : Sample.okValid (codestream env o k b) = true) : CodestreamPasses env o b := by
  unfold Sample.okValid at h
  split at h
  · rename_i n hn
    exact ⟨k, n, hn, (isValid_iff n).1 h⟩
  · cases h

example : CodestreamPasses Sample.env0 (Sample.opts .j2c) Sample.cs2 :=
  passes_of_okValid 200 (by decide +kernel)

section
variable {env : Env} {o : Options} {b : Bytes} (h : CodestreamPasses env o b)
include h

/-- C23: a codestream that passes starts with SOC and SIZ, has a COD and a QCD segment before the first
SOT marker, a CAP segment there when Rsiz announces it, and ends with EOC. -/
theorem C23_framing : ∃ siz csiz main sot, MainHeader b siz csiz main sot ∧
    sub b 0 2 = SOC ∧ HasSeg main COD ∧ HasSeg main QCD ∧
    (FieldIs siz 2 2 (fun r => bit 14 r = 1 ∧ bit 15 r = 0) → HasSeg main CAP) ∧
    2 ≤ b.length ∧ sub b (b.length - 2) 2 = EOC := by
  obtain ⟨p, hp⟩ := (C23_codestream env o b).1 h
  exact ⟨p.siz, p.csiz, p.main, p.sot, ⟨⟨_, hp.sizAt, hp.mainAt⟩, hp.csiz⟩, hp.soc, hp.cod, hp.qcd, hp.cap,
    hp.eoc.1, hp.eoc.2⟩

end

/-! ## Chains of tile-parts -/

theorem at_unique {b : Bytes} {t t' : TilePartInfo} (h : t.At b) (h' : t'.At b) (hs : t.start = t'.start) :
    t = t' := by
  obtain ⟨s, i, l, p, n⟩ := t
  obtain ⟨s', i', l', p', n'⟩ := t'
  cases hs
  have h1 := h.index; have h2 := h'.index
  have h3 := h.length; have h4 := h'.length
  have h5 := h.part; have h6 := h'.part
  have h7 := h.parts; have h8 := h'.parts
  simp only at *
  rw [h1] at h2; cases h2
  rw [h3] at h4; cases h4
  rw [h5] at h6; cases h6
  rw [h7] at h8; cases h8
  rfl

/-- What follows a visited tile-part is visited. -/
theorem visited_next {b : Bytes} {n : Int} {off : Nat} {ts} (hv : Visited b n off ts) {t : TilePartInfo}
    (ht : t ∈ ts) (hi : (t.index : Int) < n) (hl : t.length ≠ 0) (hs : sub b (t.start + t.length) 2 = SOT) :
    ∃ t' ∈ ts, t'.start = t.start + t.length := by
  induction hv with
  | done => cases ht
  | last h1 h2 =>
    have : t = _ := List.mem_singleton.1 ht
    subst this
    rcases h2 with h | h
    · omega
    · exact absurd h hl
  | step h1 h2 h3 h4 ih =>
    rcases List.mem_cons.1 ht with rfl | ht
    · generalize he : t.start + t.length = e at h4 hs
      cases h4 with
      | done hn => exact absurd hs hn
      | last h5 h6 => exact ⟨_, by simp, rfl⟩
      | step h5 h6 h7 h8 => exact ⟨_, by simp, rfl⟩
    · obtain ⟨t', h5, h6⟩ := ih ht
      exact ⟨t', by simp [h5], h6⟩

/-- Every visited tile-part has a SOT segment. -/
theorem visited_at {b : Bytes} {n : Int} {off : Nat} {ts} (hv : Visited b n off ts) :
    ∀ t ∈ ts, t.At b := by
  induction hv with
  | done => intro t ht; cases ht
  | last h1 h2 => intro t ht; rw [List.mem_singleton.1 ht]; exact h1
  | step h1 h2 h3 h4 ih =>
    intro t ht
    rcases List.mem_cons.1 ht with rfl | ht
    · exact h1
    · exact ih t ht

/-- Every reached offset is that of a visited tile-part. -/
theorem reached_visited {b : Bytes} {n : Int} {first off : Nat} {ts} (hv : Visited b n first ts)
    (hr : Reached b n first off) : ∃ t ∈ ts, t.start = off := by
  induction hr with
  | first hs =>
    cases hv with
    | done hn => exact absurd hs hn
    | last => exact ⟨_, by simp, rfl⟩
    | step => exact ⟨_, by simp, rfl⟩
  | next h1 h2 h3 h4 h5 ih =>
    obtain ⟨t', ht', hs'⟩ := ih
    have := at_unique (visited_at hv t' ht') h2 hs'
    subst this
    exact visited_next hv ht' h3 h4 h5

/-- If all tile indices are those of tiles, everything is visited. -/
theorem chain_visited {b : Bytes} {n : Int} {off : Nat} {ts} (hc : Chain b off ts)
    (hi : ∀ t ∈ ts, (t.index : Int) < n) : Visited b n off ts := by
  induction hc with
  | done h => exact .done h
  | last h1 h2 => exact .last h1 (.inr h2)
  | step h1 h2 h3 ih =>
    exact .step h1 (hi _ (by simp)) h2 (ih fun t ht => hi t (by simp [ht]))

theorem visited_unique {b : Bytes} {n : Int} {off : Nat} {ts ts'} (h : Visited b n off ts)
    (h' : Visited b n off ts') : ts = ts' := by
  induction h generalizing ts' with
  | done hn =>
    cases h' with
    | done => rfl
    | last h1 => exact absurd h1.marker hn
    | step h1 => exact absurd h1.marker hn
  | @last t h1 h2 =>
    generalize he : t.start = off at h'
    cases h' with
    | done hn => exact absurd h1.marker (he ▸ hn)
    | last h3 h4 => rw [at_unique h1 h3 he]
    | step h3 h4 h5 =>
      have := at_unique h1 h3 he
      subst this
      rcases h2 with h | h
      · omega
      · exact absurd h h5
  | @step t ts h1 h2 h3 h4 ih =>
    generalize he : t.start = off at h'
    cases h' with
    | done hn => exact absurd h1.marker (he ▸ hn)
    | last h5 h6 =>
      have := at_unique h1 h5 he
      subst this
      rcases h6 with h | h
      · omega
      · exact absurd h h3
    | step h5 h6 h7 h8 =>
      have := at_unique h1 h5 he
      subst this
      rw [ih h8]

theorem mainHeader_unique {b siz siz' : Bytes} {csiz csiz' main main' sot sot'}
    (h : MainHeader b siz csiz main sot) (h' : MainHeader b siz' csiz' main' sot') :
    siz = siz' ∧ csiz = csiz' ∧ main = main' ∧ sot = sot' := by
  obtain ⟨f, h1, h2⟩ := h.segs
  obtain ⟨f', h1', h2'⟩ := h'.segs
  obtain ⟨-, rfl, e⟩ := segAt_unique h1 h1'
  cases e
  obtain ⟨rfl, rfl⟩ := segsTo_unique h2 h2'
  have h3 := h.comps
  rw [h'.comps] at h3
  cases h3
  exact ⟨rfl, rfl, rfl, rfl⟩

theorem mainHeader_of {env o b} {p : CodestreamParts} (hp : p.Ok env o b) :
    MainHeader b p.siz p.csiz p.main p.sot := ⟨⟨_, hp.sizAt, hp.mainAt⟩, hp.csiz⟩

theorem tiles_unique {env o b} {p : CodestreamParts} (hp : p.Ok env o b) {n : Int}
    (hn : TileCount p.siz n) : n = p.tiles := by
  obtain ⟨k, hk⟩ := hp.sizPasses
  obtain ⟨⟨-, -, -, -, -, hx, hy, -⟩, -⟩ := (C26_siz_partial env o k none p.siz).1 hk
  exact tileCount_unique hx hy hn hp.tiles

section
variable {env : Env} {o : Options} {b : Bytes} (h : CodestreamPasses env o b)
include h

/-- C24, partial. In a codestream that passes, with `N` tiles (65535 if there are more) and tile-parts
`ts` following each other from the first SOT: if every tile-part has the index of a tile, or if a
visited tile-part declares the number of its tile-parts, then the indices of the visited tile-parts are
exactly 0 .. N-1; in the second case the number declared last for each tile is the number of its visited
tile-parts. Missing: without declared numbers, a tile-part with an index of `N` or more can take the
place of a missing tile, see `C24_false`. -/
theorem C24_tiles_partial {siz csiz main sot n} (hm : MainHeader b siz csiz main (some sot))
    (hn : TileCount siz n) {ts} (hv : Visited b (min n 65535) sot ts) :
    ((∃ t ∈ ts, t.parts ≠ 0) ∨ (∀ t ∈ ts, (t.index : Int) < min n 65535) →
      ∀ i : Nat, (∃ t ∈ ts, t.index = i) ↔ (i : Int) < min n 65535) ∧
    ((∃ t ∈ ts, t.parts ≠ 0) → ∀ i : Nat, (i : Int) < min n 65535 →
      declared ts i = some (partCount ts i)) := by
  obtain ⟨p, hp⟩ := (C23_codestream env o b).1 h
  obtain ⟨e1, e2, e3, e4⟩ := mainHeader_unique hm (mainHeader_of hp)
  subst e1
  have en := tiles_unique hp hn
  have hpv := hp.visited
  rw [← e4] at hpv
  simp only [← en] at hpv
  have := visited_unique hv hpv
  subst this
  obtain ⟨l, hnd, hmem, hlen⟩ := hp.indices
  rw [← en] at hlen
  have hdecl := hp.declared
  rw [← en] at hdecl
  refine ⟨?_, fun hd => (hdecl hd).1⟩
  rintro (hd | hall) i
  · -- all of 0 .. N-1 occur, and there are N
    have hall : ∀ i : Nat, (i : Int) < min n 65535 → i ∈ l := fun i hi => by
      have := (hdecl hd).1 i hi
      obtain ⟨t, ht, e, -⟩ := declared_some_mem this
      exact (hmem i).2 ⟨t, ht, e⟩
    rw [← hmem]
    constructor
    · intro hil
      refine Classical.byContradiction fun hge => ?_
      have hsub : (i :: List.range l.length).Nodup := by
        rw [List.nodup_cons]
        refine ⟨fun h => ?_, List.nodup_range⟩
        have := List.mem_range.1 h
        omega
      have := hsub.length_le_of_subset (l₂ := l) (by
        intro x hx
        rcases List.mem_cons.1 hx with rfl | hx
        · exact hil
        · exact hall x (by have := List.mem_range.1 hx; omega))
      simp at this
      omega
    · exact hall i
  · rw [← hmem]
    constructor
    · intro hil
      obtain ⟨t, ht, rfl⟩ := (hmem i).1 hil
      exact hall t ht
    · intro hi
      refine Classical.byContradiction fun hnot => ?_
      have := (show (i :: l).Nodup from List.nodup_cons.2 ⟨hnot, hnd⟩).length_le_of_subset
        (l₂ := List.range l.length) (by
          intro x hx
          rw [List.mem_range]
          rcases List.mem_cons.1 hx with rfl | hx
          · omega
          · obtain ⟨t, ht, rfl⟩ := (hmem x).1 hx
            have := hall t ht
            omega)
      simp at this
      omega

/-- C24: in every case the number of different indices is the number of tiles. -/
theorem C24_count {siz csiz main sot n} (hm : MainHeader b siz csiz main (some sot))
    (hn : TileCount siz n) {ts} (hv : Visited b (min n 65535) sot ts) :
    ∃ l : List Nat, l.Nodup ∧ (∀ i, i ∈ l ↔ ∃ t ∈ ts, t.index = i) ∧ (l.length : Int) = min n 65535 := by
  obtain ⟨p, hp⟩ := (C23_codestream env o b).1 h
  obtain ⟨e1, e2, e3, e4⟩ := mainHeader_unique hm (mainHeader_of hp)
  subst e1
  have en := tiles_unique hp hn
  have hpv := hp.visited
  rw [← e4] at hpv
  simp only [← en] at hpv
  have := visited_unique hv hpv
  subst this
  have := hp.indices
  rwa [← en] at this

/-- C25, partial: in a codestream that passes, every tile-part up to the first one whose index is not
that of a tile conforms: it reaches SOD, is followed by SOT or EOC where Psot says, has COD, COC, QCD,
QCC and RGN only as first tile-part of its tile, and at most one COC and QCC per component. Missing: the
tile-parts after one with an index out of range are not looked at, see `C25_false`. -/
theorem C25_tileparts_partial {siz csiz main sot n} (hm : MainHeader b siz csiz main (some sot))
    (hn : TileCount siz n) {off} (hr : Reached b (min n 65535) sot off) :
    ∃ t : TilePartInfo, t.start = off ∧ t.Ok env o csiz b := by
  obtain ⟨p, hp⟩ := (C23_codestream env o b).1 h
  obtain ⟨e1, e2, e3, e4⟩ := mainHeader_unique hm (mainHeader_of hp)
  subst e1 e2
  have en := tiles_unique hp hn
  have hpv := hp.visited
  rw [← e4] at hpv
  simp only [← en] at hpv
  obtain ⟨t, ht, hs⟩ := reached_visited hpv hr
  exact ⟨t, hs, hp.tpsOk t ht⟩

/-- C25 for all tile-parts, when all their indices are those of tiles. -/
theorem C25_chain_partial {siz csiz main sot n} (hm : MainHeader b siz csiz main (some sot))
    (hn : TileCount siz n) {ts} (hc : Chain b sot ts) (hi : ∀ t ∈ ts, (t.index : Int) < min n 65535) :
    ∀ t ∈ ts, t.Ok env o csiz b := by
  obtain ⟨p, hp⟩ := (C23_codestream env o b).1 h
  obtain ⟨e1, e2, e3, e4⟩ := mainHeader_unique hm (mainHeader_of hp)
  subst e1 e2
  have en := tiles_unique hp hn
  have hpv := hp.visited
  rw [← e4] at hpv
  simp only [← en] at hpv
  have := visited_unique (chain_visited hc hi) hpv
  subst this
  exact hp.tpsOk

/-- C25 (main header): at most one COC and one QCC segment per component. -/
theorem C25_main {siz csiz main sot} (hm : MainHeader b siz csiz main sot) :
    OnePerComponent csiz main COC ∧ OnePerComponent csiz main QCC := by
  obtain ⟨p, hp⟩ := (C23_codestream env o b).1 h
  obtain ⟨e1, e2, e3, e4⟩ := mainHeader_unique hm (mainHeader_of hp)
  subst e2 e3
  exact ⟨hp.coc, hp.qcc⟩

end

/-! ## Counterexamples -/

theorem segAt_mk {b m c : Bytes} {off L n : Nat} (hm : sub b off 2 = m) (hd : m ∉ delimiters)
    (hL : uint b (off + 2) 2 = some L) (hc : sub b (off + 2) L = c) (hn : off + 2 + L = n) :
    SegAt b off m c (some n) := by
  subst hm hc hn
  exact .seg hd hL

/-- The main header of the sample codestreams: SIZ, COD, QCD and then SOT at offset 65. -/
theorem sample_main {b : Bytes} (h0 : sub b 2 2 = SIZ) (h1 : uint b 4 2 = some 41)
    (h2 : sub b 45 2 = COD) (h3 : uint b 47 2 = some 12) (h4 : sub b 59 2 = QCD) (h5 : uint b 61 2 = some 4)
    (h6 : sub b 65 2 = SOT) (h7 : uint b 67 2 = some 10) (h8 : uint (sub b 4 41) 36 2 = some 1) :
    MainHeader b (sub b 4 41) 1 [⟨45, COD, sub b 47 12⟩, ⟨59, QCD, sub b 61 4⟩] (some 65) := by
  refine ⟨⟨45, segAt_mk h0 (by decide) h1 rfl rfl, ?_⟩, h8⟩
  refine .step (n := 59) (segAt_mk h2 (by decide) h3 rfl rfl) (by decide) ?_
  refine .step (n := 65) (segAt_mk h4 (by decide) h5 rfl rfl) (by decide) ?_
  exact .found (segAt_mk h6 (by decide) h7 rfl rfl)

/-- C24 is false without the restriction: a codestream with one tile passes although its only tile-part
is for tile 5. -/
theorem C24_false : ∃ env o b siz csiz main sot n ts, CodestreamPasses env o b ∧
    MainHeader b siz csiz main (some sot) ∧ TileCount siz n ∧ Chain b sot ts ∧ n = 1 ∧
    ¬ ∀ i : Nat, (∃ t ∈ ts, t.index = i) ↔ (i : Int) < n := by
  refine ⟨Sample.env0, Sample.opts .j2c, Sample.csTile5, _, _, _, 65, 1, [⟨65, 5, 14, 0, 0⟩],
    passes_of_okValid 200 (by decide +kernel),
    sample_main (by decide) (by decide) (by decide) (by decide) (by decide) (by decide) (by decide)
      (by decide) (by decide), ?_, ?_, rfl, ?_⟩
  · exact ⟨1, 1, 1, 1, 0, 0, 1, 1, by decide, by decide, by decide, by decide, by decide, by decide,
      ⟨by decide, by decide⟩, ⟨by decide, by decide⟩, rfl⟩
  · refine .step (t := ⟨65, 5, 14, 0, 0⟩) ⟨by decide, by decide, by decide, by decide, by decide, by decide⟩
      (by decide) (.done (by decide))
  · intro h
    have := (h 5).1 ⟨_, List.mem_singleton.2 rfl, rfl⟩
    omega

/-- C25 is false without the restriction: a codestream passes although its third tile-part has no SOD
marker; the second one has an index that is not that of a tile. -/
theorem C25_false : ∃ env o b siz csiz main sot ts, CodestreamPasses env o b ∧
    MainHeader b siz csiz main (some sot) ∧ Chain b sot ts ∧
    ∃ t ∈ ts, ¬ ∃ ss k, SegsTo b SOD (t.start + 12) ss (some k) := by
  refine ⟨Sample.env0, Sample.opts .j2c, Sample.csBroken, _, _, _, 65,
    [⟨65, 0, 14, 0, 0⟩, ⟨79, 7, 14, 0, 0⟩, ⟨93, 1, 14, 0, 0⟩],
    passes_of_okValid 200 (by decide +kernel),
    sample_main (by decide) (by decide) (by decide) (by decide) (by decide) (by decide) (by decide)
      (by decide) (by decide), ?_, ⟨93, 1, 14, 0, 0⟩, by simp, ?_⟩
  · refine .step (t := ⟨65, 0, 14, 0, 0⟩) ⟨by decide, by decide, by decide, by decide, by decide, by decide⟩
      (by decide) ?_
    refine .step (t := ⟨79, 7, 14, 0, 0⟩) ⟨by decide, by decide, by decide, by decide, by decide, by decide⟩
      (by decide) ?_
    exact .step (t := ⟨93, 1, 14, 0, 0⟩) ⟨by decide, by decide, by decide, by decide, by decide, by decide⟩
      (by decide) (.done (by decide))
  · rintro ⟨ss, k, hk⟩
    have hs : SegAt Sample.csBroken 105 [0xff, 0x94] _ (some 65604) :=
      segAt_mk (L := 65497) (by decide) (by decide) (by decide) rfl rfl
    have h2 : SegAt Sample.csBroken 65604 [] [] none := by
      have e : sub Sample.csBroken 65604 2 = [] := by decide
      rw [← e]
      exact .noLength (by decide) (by decide)
    have h3 : SegsTo Sample.csBroken SOD 105 [⟨105, [0xff, 0x94], _⟩, ⟨65604, [], []⟩] none :=
      .step hs (by decide) (.broken h2 (by decide))
    have := (segsTo_unique hk h3).2
    cases this

/-- The property that a valid image has tile-parts fails too: a codestream with no tiles at all passes. -/
theorem C23_no_tileparts : ∃ env o b siz csiz main, CodestreamPasses env o b ∧
    MainHeader b siz csiz main none := by
  refine ⟨Sample.env0, Sample.opts .j2c, Sample.csEmpty, sub Sample.csEmpty 4 41, 1,
    [⟨45, COD, sub Sample.csEmpty 47 12⟩, ⟨59, QCD, sub Sample.csEmpty 61 4⟩, ⟨65, [0xff, 0xaa], sub Sample.csEmpty 67 65497⟩, ⟨65564, [], []⟩],
    passes_of_okValid 200 (by decide +kernel), ⟨⟨45, segAt_mk (L := 41) (by decide) (by decide) (by decide) rfl rfl, ?_⟩, by decide⟩⟩
  refine .step (n := 59) (segAt_mk (L := 12) (by decide) (by decide) (by decide) rfl rfl) (by decide) ?_
  refine .step (n := 65) (segAt_mk (L := 4) (by decide) (by decide) (by decide) rfl rfl) (by decide) ?_
  refine .step (n := 65564) (segAt_mk (L := 65497) (by decide) (by decide) (by decide) rfl rfl) (by decide) ?_
  refine .broken ?_ (by decide)
  have e : sub Sample.csEmpty 65564 2 = [] := by decide
  rw [← e]
  exact .noLength (by decide) (by decide)

/-! ## Concrete cases -/

/-- Codestream of a 2 × 1 image with two tiles of one tile-part each. -/
def csTwo : Bytes := Sample.cs Sample.siz2one [] (Sample.tilePart 0 0 1 [] ++ Sample.tilePart 1 0 1 [])

/-- C23, C24, C25: a codestream that meets all hypotheses, with declared numbers of tile-parts and with
indices of tiles only. -/
example : CodestreamPasses Sample.env0 (Sample.opts .j2c) csTwo ∧ ∃ siz csiz main ts,
    MainHeader csTwo siz csiz main (some 65) ∧ TileCount siz 2 ∧ Visited csTwo (min 2 65535) 65 ts ∧
    Chain csTwo 65 ts ∧ ts.length = 2 ∧ (∃ t ∈ ts, t.parts ≠ 0) ∧ (∀ t ∈ ts, (t.index : Int) < min 2 65535) ∧
    Reached csTwo (min 2 65535) 65 79 := by
  have a1 : TilePartInfo.At csTwo ⟨65, 0, 14, 0, 1⟩ :=
    ⟨by decide, by decide, by decide, by decide, by decide, by decide⟩
  have a2 : TilePartInfo.At csTwo ⟨79, 1, 14, 0, 1⟩ :=
    ⟨by decide, by decide, by decide, by decide, by decide, by decide⟩
  refine ⟨passes_of_okValid 200 (by decide +kernel), _, _, _, [⟨65, 0, 14, 0, 1⟩, ⟨79, 1, 14, 0, 1⟩],
    sample_main (by decide) (by decide) (by decide) (by decide) (by decide) (by decide) (by decide)
      (by decide) (by decide), ?_, ?_, ?_, rfl, ⟨_, List.mem_cons_self .., by decide⟩, ?_, ?_⟩
  · exact ⟨2, 1, 1, 1, 0, 0, 2, 1, by decide, by decide, by decide, by decide, by decide, by decide,
      ⟨by decide, by decide⟩, ⟨by decide, by decide⟩, rfl⟩
  · exact .step (t := ⟨65, 0, 14, 0, 1⟩) a1 (by decide) (by decide)
      (.step (t := ⟨79, 1, 14, 0, 1⟩) a2 (by decide) (by decide) (.done (by decide)))
  · exact .step (t := ⟨65, 0, 14, 0, 1⟩) a1 (by decide)
      (.step (t := ⟨79, 1, 14, 0, 1⟩) a2 (by decide) (.done (by decide)))
  · intro t ht
    simp only [List.mem_cons, List.not_mem_nil, or_false] at ht
    rcases ht with rfl | rfl <;> decide
  · exact .next (t := ⟨65, 0, 14, 0, 1⟩) (.first (by decide)) a1 (by decide) (by decide) (by decide)

end Jpy
