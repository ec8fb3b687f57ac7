import Verif.Spec.TileOrder
import Verif.Props.MainHeader
import Verif.Props.Generate
import Verif.Props.Metadata
import Verif.Props.Wrap
/-!
# C67: the order of tile-parts, and exchanging codestreams
-/

namespace Jpy
open Spec Sample

theorem framed_at {t : GenTilePart} (h : t.Framed) {b pre post : Bytes} (hb : b = pre ++ (t.bytes ++ post)) :
    (foundAt pre.length t).At b := by
  have hl := h.length
  have h1 := h.index
  have h2 := h.part
  have h3 := h.parts
  have hb : b = pre ++ (SOT ++ (beBytes 2 10 ++ (beBytes 2 t.index ++ (beBytes 4 t.length ++
      (beBytes 1 t.part ++ (beBytes 1 t.parts ++ (segBytes t.segs ++ SOD ++ t.data ++ post))))))) := by
    rw [hb]; simp [GenTilePart.bytes]
  constructor
  · exact sub_mid' hb rfl rfl
  · exact uint_beBytes (pre := pre ++ SOT) (by rw [hb]; simp only [List.append_assoc, foundAt]; rfl) (by simp [SOT, foundAt]) (by decide)
  · exact uint_beBytes (pre := pre ++ SOT ++ beBytes 2 10) (by rw [hb]; simp only [List.append_assoc, foundAt]; rfl)
      (by simp [SOT, foundAt, length_beBytes]) (by simp [foundAt]; omega)
  · exact uint_beBytes (pre := pre ++ SOT ++ beBytes 2 10 ++ beBytes 2 t.index) (by rw [hb]; simp only [List.append_assoc, foundAt]; rfl)
      (by simp [SOT, foundAt, length_beBytes]) (by simp [foundAt]; omega)
  · exact uint_beBytes (pre := pre ++ SOT ++ beBytes 2 10 ++ beBytes 2 t.index ++ beBytes 4 t.length)
      (by rw [hb]; simp only [List.append_assoc, foundAt]; rfl) (by simp [SOT, foundAt, length_beBytes]) (by simp [foundAt]; omega)
  · exact uint_beBytes (pre := pre ++ SOT ++ beBytes 2 10 ++ beBytes 2 t.index ++ beBytes 4 t.length ++
      beBytes 1 t.part) (by rw [hb]; simp only [List.append_assoc, foundAt]; rfl) (by simp [SOT, foundAt, length_beBytes])
      (by simp [foundAt]; omega)

/-- The header of a tile-part as found. -/
theorem framed_header {t : GenTilePart} (h : t.Framed) {b pre post : Bytes} (hb : b = pre ++ (t.bytes ++ post)) :
    ∃ ss k, SegsTo b SOD (pre.length + 12) ss (some k) ∧ ss.map (fun x => (x.marker, x.contents)) = t.segs := by
  have hpre : (pre ++ SOT ++ beBytes 2 10 ++ beBytes 2 t.index ++ beBytes 4 t.length ++ beBytes 1 t.part ++
      beBytes 1 t.parts).length = pre.length + 12 := by simp [SOT, length_beBytes]
  obtain ⟨ss, hs1, hs2⟩ := segsTo_gen (stop := SOD) t.segs (b := b) (pre := pre ++ SOT ++ beBytes 2 10 ++
      beBytes 2 t.index ++ beBytes 4 t.length ++ beBytes 1 t.part ++ beBytes 1 t.parts)
    (rest := SOD ++ t.data ++ post) (by rw [hb]; simp [GenTilePart.bytes]) (fun s hs => by
      obtain ⟨ha, hd, hf⟩ := h.segs s hs
      exact ⟨ha, hd, fun e => hd (by rw [e]; decide), hf⟩) (by
      have : sub b ((pre ++ SOT ++ beBytes 2 10 ++ beBytes 2 t.index ++ beBytes 4 t.length ++
          beBytes 1 t.part ++ beBytes 1 t.parts).length + (segBytes t.segs).length) 2 = SOD :=
        sub_mid' (x := SOD) (pre := pre ++ SOT ++ beBytes 2 10 ++ beBytes 2 t.index ++ beBytes 4 t.length ++
            beBytes 1 t.part ++ beBytes 1 t.parts ++ segBytes t.segs) (post := t.data ++ post)
            (by rw [hb]; simp [GenTilePart.bytes]) (by simp only [List.length_append]) rfl
      have h2 := SegAt.alone (b := b) (off := (pre ++ SOT ++ beBytes 2 10 ++ beBytes 2 t.index ++
          beBytes 4 t.length ++ beBytes 1 t.part ++ beBytes 1 t.parts).length + (segBytes t.segs).length)
          (by rw [this]; decide)
      rw [this] at h2
      exact ⟨_, _, h2⟩)
  rw [hpre] at hs1
  exact ⟨ss, _, hs1, hs2⟩

/-- A tile-part as written is valid exactly if it follows the rules. -/
theorem framed_ok {env : Env} {o : Options} {csiz : Nat} {t : GenTilePart} (h : t.Framed) (hi : t.index ≤ 65534)
    {b pre post : Bytes} (hb : b = pre ++ (t.bytes ++ post))
    (hnext : sub b (pre.length + t.length) 2 = SOT ∨ sub b (pre.length + t.length) 2 = EOC) :
    (foundAt pre.length t).Ok env o csiz b ↔ t.Rules env o csiz := by
  obtain ⟨ss, k, h1, h2⟩ := framed_header h hb
  constructor
  · intro hk
    obtain ⟨ss', k', g1, g2, g3, g4, g5⟩ := hk.header
    obtain ⟨rfl, -⟩ := segsTo_unique h1 g1
    refine ⟨hk.part, ?_, ?_, ?_, ?_⟩
    · rw [← h2]; exact (segsPass_eq _ _ _ _ _).1 g2
    · intro s hs hm
      refine g3 s.1 hm ((hasSeg_eq _ _).2 ⟨s.2, ?_⟩)
      rw [h2]; exact hs
    · rw [← h2]; exact (onePer_eq _ _ _).1 g4
    · rw [← h2]; exact (onePer_eq _ _ _).1 g5
  · intro hk
    refine ⟨framed_at h hb, hi, ?_, hk.part, ⟨ss, k, h1, ?_, ?_, ?_, ?_⟩, fun _ => hnext⟩
    · right
      show 14 ≤ t.length
      unfold GenTilePart.length
      omega
    · rw [segsPass_eq, h2]; exact hk.segs
    · intro m hm hs
      obtain ⟨c, hc⟩ := (hasSeg_eq _ _).1 hs
      rw [h2] at hc
      exact hk.first _ hc hm
    · rw [onePer_eq, h2]; exact hk.coc
    · rw [onePer_eq, h2]; exact hk.qcc

/-- The tile-parts found are those written. -/
theorem visited_framed {env : Env} {o : Options} {csiz : Nat} {n : Int} : ∀ (tps : List GenTilePart)
    {b pre : Bytes} (_ : b = pre ++ (tps.flatMap GenTilePart.bytes ++ EOC))
    (_ : ∀ t ∈ tps, t.Framed) (_ : ∀ t ∈ tps, (t.index : Int) < min n 65535),
    (sub b pre.length 2 = if tps = [] then EOC else SOT) ∧
    ∃ ts, Visited b (min n 65535) pre.length ts ∧ ((∀ t ∈ ts, t.Ok env o csiz b) ↔ ∀ t ∈ tps, t.Rules env o csiz) ∧
      ts.map (fun t => (t.index, t.parts)) = tps.map fun t => (t.index, t.parts)
  | [], b, pre, hb, _, _ => by
    have : sub b pre.length 2 = EOC := sub_mid' (x := EOC) (post := []) (by rw [hb]; simp) rfl rfl
    refine ⟨by simp [this], [], .done ?_, by simp, rfl⟩
    rw [this]; decide
  | t :: tps, b, pre, hb, hc, hi => by
    have ht := hc t (by simp)
    have hti := hi t (by simp)
    have hb1 : b = pre ++ (t.bytes ++ (tps.flatMap GenTilePart.bytes ++ EOC)) := by rw [hb]; simp
    have hat := framed_at ht hb1
    have e : (pre ++ t.bytes).length = pre.length + t.length := by rw [List.length_append, length_tilePart]
    obtain ⟨h1, ts, h2, h3, h4⟩ := visited_framed (env := env) (o := o) (csiz := csiz) tps (b := b) (pre := pre ++ t.bytes)
      (by rw [hb1]; simp) (fun x hx => hc x (by simp [hx])) (fun x hx => hi x (by simp [hx]))
    rw [e] at h1 h2
    have hok : (foundAt pre.length t).Ok env o csiz b ↔ t.Rules env o csiz := by
      refine framed_ok ht (by omega) hb1 ?_
      rw [h1]
      split <;> simp
    refine ⟨by rw [if_neg (by simp)]; exact hat.marker, foundAt pre.length t :: ts, ?_, ?_, ?_⟩
    · refine .step hat hti ?_ h2
      show t.length ≠ 0
      unfold GenTilePart.length
      omega
    · simp only [List.forall_mem_cons, hok, h3]
    · simp [h4, foundAt]

/-- Counting: a set of as many numbers below `n` as there are contains all of them. -/
theorem all_below {n : Nat} {l : List Nat} (hn : l.Nodup) (hl : ∀ i ∈ l, i < n) (hc : l.length = n) : ∀ i < n, i ∈ l := by
  intro i hi
  refine Classical.byContradiction fun h => ?_
  have h1 : (i :: l).Nodup := List.nodup_cons.2 ⟨h, hn⟩
  have h2 : ∀ j ∈ i :: l, j ∈ List.range n := by
    intro j hj
    rcases List.mem_cons.1 hj with rfl | hj
    · exact List.mem_range.2 hi
    · exact List.mem_range.2 (hl j hj)
  have := h1.length_le_of_subset h2
  simp at this
  omega

/-- What is found in a codestream as written. -/
theorem framed_found {env : Env} {o : Options} {csiz : Nat} {n : Int} {g : GenCodestream} (h : g.Framed csiz n) :
    ∃ ss sot ts, SegAt g.bytes 2 SIZ g.siz (some (4 + g.siz.length)) ∧ SegsTo g.bytes SOT (4 + g.siz.length) ss (some sot) ∧
      ss.map (fun x => (x.marker, x.contents)) = g.main ∧ Visited g.bytes (min n 65535) sot ts ∧
      ((∀ t ∈ ts, t.Ok env o csiz g.bytes) ↔ ∀ t ∈ g.tps, t.Rules env o csiz) ∧
      ts.map (fun t => (t.index, t.parts)) = g.tps.map fun t => (t.index, t.parts) := by
  have hsizAt : SegAt g.bytes 2 SIZ g.siz (some (4 + g.siz.length)) :=
    segAt_here (pre := SOC) (post := segBytes g.main ++ g.tps.flatMap GenTilePart.bytes ++ EOC)
      (by simp [GenCodestream.bytes]) rfl (by decide) h.sizLength
  have hpre : (SOC ++ SIZ ++ g.siz).length = 4 + g.siz.length := by simp [SOC, SIZ]; omega
  obtain ⟨hv1, ts, hv2, hv3, hv4⟩ := visited_framed (env := env) (o := o) (csiz := csiz) g.tps (b := g.bytes)
    (pre := SOC ++ SIZ ++ g.siz ++ segBytes g.main) (by simp [GenCodestream.bytes]) h.tps h.index
  have hsotAt : ∃ c n, SegAt g.bytes ((SOC ++ SIZ ++ g.siz).length + (segBytes g.main).length) SOT c n := by
    cases hg : g.tps with
    | nil => exact absurd hg h.some
    | cons t rest =>
      have hat := framed_at (h.tps t (by simp [hg])) (b := g.bytes)
        (pre := SOC ++ SIZ ++ g.siz ++ segBytes g.main) (post := rest.flatMap GenTilePart.bytes ++ EOC)
        (by simp [GenCodestream.bytes, hg])
      have hm := hat.marker
      have := SegAt.seg (b := g.bytes) (off := (SOC ++ SIZ ++ g.siz ++ segBytes g.main).length)
        (by rw [show sub g.bytes (SOC ++ SIZ ++ g.siz ++ segBytes g.main).length 2 = SOT from hm]; decide) hat.segLength
      rw [show sub g.bytes (SOC ++ SIZ ++ g.siz ++ segBytes g.main).length 2 = SOT from hm] at this
      rw [List.length_append] at this
      exact ⟨_, _, this⟩
  obtain ⟨ss, hs1, hs2⟩ := segsTo_gen (stop := SOT) g.main (b := g.bytes) (pre := SOC ++ SIZ ++ g.siz)
    (rest := g.tps.flatMap GenTilePart.bytes ++ EOC) (by simp [GenCodestream.bytes]) h.main hsotAt
  rw [hpre] at hs1
  refine ⟨ss, _, ts, hsizAt, hs1, hs2, ?_, hv3, hv4⟩
  have hlen : (SOC ++ SIZ ++ g.siz ++ segBytes g.main).length = 4 + g.siz.length + (segBytes g.main).length := by
    rw [List.length_append, hpre]
  rwa [hlen] at hv2

theorem hasSeg_main {ss : List FoundSeg} {l : List (Bytes × Bytes)} (e : ss.map (fun x => (x.marker, x.contents)) = l)
    (m : Bytes) : HasSeg ss m ↔ ∃ s ∈ l, s.1 = m := by
  rw [hasSeg_eq, e]
  constructor
  · rintro ⟨c, h⟩; exact ⟨_, h, rfl⟩
  · rintro ⟨s, h, rfl⟩; exact ⟨s.2, h⟩

/-- Declarations found and written. -/
theorem declared_eq {ts : List TilePartInfo} {tps : List GenTilePart}
    (e : ts.map (fun t => (t.index, t.parts)) = tps.map fun t => (t.index, t.parts)) (i : Nat) :
    declared ts i = lastDeclared (ofTile i tps) ∧ partCount ts i = (ofTile i tps).length := by
  constructor
  · have := congrArg (fun l => ((l.filter fun x : Nat × Nat => x.1 == i && x.2 != 0).getLast?).map (·.2)) e
    simp only [List.filter_map, List.getLast?_map, Option.map_map] at this
    simp only [declared, lastDeclared, ofTile, List.filter_filter]
    refine this.trans ?_
    simp only [Function.comp_def]
    congr 3
    funext t
    exact Bool.and_comm ..
  · have := congrArg (fun l => (l.filter fun x : Nat × Nat => x.1 == i).length) e
    simp only [List.filter_map, List.length_map] at this
    exact this

/-- C67 (exact): a codestream made of complete marker segments and tile-parts is valid exactly if it follows the rules; these
look at the tile-parts of each tile separately. -/
theorem C67_exact (env : Env) (o : Options) {csiz : Nat} {n : Int} {g : GenCodestream} (h : g.Framed csiz n) :
    CodestreamPasses env o g.bytes ↔ g.Rules env o csiz n := by
  obtain ⟨ss, sot, ts, h1, h2, h3, h4, h5, h6⟩ := framed_found (env := env) (o := o) h
  have mem : ∀ (i k : Nat), (∃ t ∈ ts, t.index = i ∧ t.parts = k) ↔ ∃ t ∈ g.tps, t.index = i ∧ t.parts = k := by
    intro i k
    have e : (i, k) ∈ ts.map (fun t => (t.index, t.parts)) ↔ (i, k) ∈ g.tps.map fun t => (t.index, t.parts) := by rw [h6]
    simpa only [List.mem_map, Prod.mk.injEq] using e
  have hasTile : ∀ i : Nat, (∃ t ∈ ts, t.index = i) ↔ ∃ t ∈ g.tps, t.index = i := by
    intro i
    constructor
    · rintro ⟨t, ht, e⟩
      obtain ⟨u, hu, e1, -⟩ := (mem i t.parts).1 ⟨t, ht, e, rfl⟩
      exact ⟨u, hu, e1⟩
    · rintro ⟨t, ht, e⟩
      obtain ⟨u, hu, e1, -⟩ := (mem i t.parts).2 ⟨t, ht, e, rfl⟩
      exact ⟨u, hu, e1⟩
  have hasParts : (∃ t ∈ ts, t.parts ≠ 0) ↔ ∃ t ∈ g.tps, t.parts ≠ 0 := by
    constructor
    · rintro ⟨t, ht, e⟩
      obtain ⟨u, hu, -, e1⟩ := (mem t.index t.parts).1 ⟨t, ht, rfl, rfl⟩
      exact ⟨u, hu, by rw [e1]; exact e⟩
    · rintro ⟨t, ht, e⟩
      obtain ⟨u, hu, -, e1⟩ := (mem t.index t.parts).2 ⟨t, ht, rfl, rfl⟩
      exact ⟨u, hu, by rw [e1]; exact e⟩
  have idx : ∀ t ∈ ts, (t.index : Int) < min n 65535 := by
    intro t ht
    obtain ⟨u, hu, e⟩ := (hasTile t.index).1 ⟨t, ht, rfl⟩
    have := h.index u hu
    rwa [e] at this
  have ofTile_ne : ∀ i, ofTile i g.tps ≠ [] ↔ ∃ t ∈ g.tps, t.index = i := by
    intro i
    constructor
    · intro hne
      obtain ⟨t, ht⟩ := List.exists_mem_of_ne_nil _ hne
      simp only [ofTile, List.mem_filter, beq_iff_eq] at ht
      exact ⟨t, ht.1, ht.2⟩
    · rintro ⟨t, ht, e⟩
      exact List.ne_nil_of_mem (a := t) (by simp [ofTile, ht, e])
  obtain ⟨t0, ht0⟩ := List.exists_mem_of_ne_nil _ h.some
  have hpos := h.index t0 ht0
  obtain ⟨N, hN⟩ : ∃ N : Nat, (N : Int) = min n 65535 := ⟨(min n 65535).toNat, by omega⟩
  constructor
  · intro hp
    obtain ⟨p, hk⟩ := (C23_codestream env o _).1 hp
    obtain ⟨-, e1, e2⟩ := segAt_unique hk.sizAt h1
    simp only [Option.some.injEq] at e2
    have ec : p.csiz = csiz := by
      have := hk.csiz; rw [e1, h.comps] at this; exact (Option.some.inj this).symm
    have hm := hk.mainAt
    rw [e2] at hm
    obtain ⟨e3, e4⟩ := segsTo_unique hm h2
    have en : p.tiles = n := (tiles_unique hk (e1 ▸ h.tiles)).symm
    have hv := hk.visited
    rw [e4] at hv
    simp only [en] at hv
    have e5 := visited_unique hv h4
    have hall := hk.tpsOk
    rw [e5, ec] at hall
    refine ⟨e1 ▸ hk.sizPasses, ?_, ?_, ?_, ?_, ?_, ?_, h5.1 hall, ?_, ?_⟩
    · have := (segsPass_eq _ _ _ _ _).1 hk.mainPasses
      rwa [e3, h3, ec] at this
    · have := hk.cod; rw [e3] at this; exact (hasSeg_main h3 _).1 this
    · have := hk.qcd; rw [e3] at this; exact (hasSeg_main h3 _).1 this
    · intro hf
      have := hk.cap (by rw [e1]; exact hf)
      rw [e3] at this; exact (hasSeg_main h3 _).1 this
    · have := hk.coc; rwa [e3, onePer_eq, h3, ec] at this
    · have := hk.qcc; rwa [e3, onePer_eq, h3, ec] at this
    · obtain ⟨l, l1, l2, l3⟩ := hk.indices
      rw [e5] at l2
      rw [en] at l3
      intro i hi
      rw [ofTile_ne, ← hasTile, ← l2]
      refine all_below (n := N) l1 (fun j hj => ?_) (by omega) i (by omega)
      obtain ⟨t, ht, rfl⟩ := (l2 j).1 hj
      have := idx t ht
      omega
    · by_cases hd : ∃ t ∈ ts, t.parts ≠ 0
      · right
        have := hk.declared (by rw [e5]; exact hd)
        rw [e5, en] at this
        intro i hi
        have := this.1 i hi
        rwa [(declared_eq h6 i).1, (declared_eq h6 i).2] at this
      · left
        intro t ht
        exact Classical.byContradiction fun hne => hd (hasParts.2 ⟨t, ht, hne⟩)
  · intro hr
    refine (C23_codestream env o _).2 ⟨⟨g.siz, 4 + g.siz.length, csiz, ss, some sot, n, ts⟩, ?_⟩
    refine ⟨sub_mid' (x := SOC) (pre := []) (by simp [GenCodestream.bytes]; rfl) rfl rfl, h1, hr.siz, h.comps, h2, ?_,
      (hasSeg_main h3 _).2 hr.cod, (hasSeg_main h3 _).2 hr.qcd, fun hf => (hasSeg_main h3 _).2 (hr.cap hf), h.tiles, h4,
      h5.2 hr.tps, ?_, ?_, ?_, ?_, ?_⟩
    · rw [segsPass_eq, h3]; exact hr.main
    · refine ⟨List.range N, List.nodup_range, fun i => ?_, by simp [hN]⟩
      rw [List.mem_range]
      constructor
      · intro hi
        exact (hasTile i).2 ((ofTile_ne i).1 (hr.every i (by omega)))
      · rintro ⟨t, ht, rfl⟩
        have := idx t ht
        omega
    · intro hd
      refine ⟨fun i hi => ?_, fun t ht _ => idx t ht⟩
      rcases hr.declared with h0 | h0
      · obtain ⟨t, ht, hne⟩ := hasParts.1 hd
        exact absurd (h0 t ht) hne
      · show declared ts i = some (partCount ts i)
        rw [(declared_eq h6 i).1, (declared_eq h6 i).2]
        exact h0 i hi
    · rw [onePer_eq, h3]; exact hr.coc
    · rw [onePer_eq, h3]; exact hr.qcc
    · have hl : g.bytes.length = (SOC ++ SIZ ++ g.siz ++ segBytes g.main ++ g.tps.flatMap GenTilePart.bytes).length + 2 := by
        rw [show (2 : Nat) = EOC.length from rfl, ← List.length_append]
        rfl
      refine ⟨by omega, ?_⟩
      rw [hl, Nat.add_sub_cancel]
      exact sub_mid' (x := EOC) (post := []) (by simp [GenCodestream.bytes]) rfl rfl

theorem mem_ofTile {tps : List GenTilePart} {t : GenTilePart} : t ∈ tps ↔ t ∈ ofTile t.index tps := by simp [ofTile]

/-- C67: tile-parts of different tiles may follow each other in any order: two codestreams with the same headers, in which
every tile has the same tile-parts in the same order, are both valid or both invalid. -/
theorem C67_order (env : Env) (o : Options) {csiz : Nat} {n : Int} {g g' : GenCodestream} (h : g.Framed csiz n)
    (hs : g'.siz = g.siz) (hm : g'.main = g.main) (ht : ∀ i, ofTile i g'.tps = ofTile i g.tps) :
    CodestreamPasses env o g'.bytes ↔ CodestreamPasses env o g.bytes := by
  have mem : ∀ t, t ∈ g'.tps ↔ t ∈ g.tps := by
    intro t; rw [mem_ofTile, ht, ← mem_ofTile]
  have h' : g'.Framed csiz n := by
    refine ⟨hs ▸ h.sizLength, hs ▸ h.comps, hs ▸ h.tiles, hm ▸ h.main, fun e => ?_, fun t h0 => h.tps t ((mem t).1 h0),
      fun t h0 => h.index t ((mem t).1 h0)⟩
    obtain ⟨t, h0⟩ := List.exists_mem_of_ne_nil _ h.some
    have := (mem t).2 h0
    rw [e] at this
    cases this
  rw [C67_exact env o h, C67_exact env o h']
  constructor
  · intro r
    refine ⟨hs ▸ r.siz, hm ▸ r.main, hm ▸ r.cod, hm ▸ r.qcd, ?_, hm ▸ r.coc, hm ▸ r.qcc, fun t h0 => r.tps t ((mem t).2 h0),
      fun i hi => ht i ▸ r.every i hi, ?_⟩
    · have := r.cap; rwa [hs, hm] at this
    · rcases r.declared with h0 | h0
      · exact .inl fun t h1 => h0 t ((mem t).2 h1)
      · exact .inr fun i hi => by rw [← ht i]; exact h0 i hi
  · intro r
    refine ⟨hs ▸ r.siz, hm ▸ r.main, hm ▸ r.cod, hm ▸ r.qcd, ?_, hm ▸ r.coc, hm ▸ r.qcc, fun t h0 => r.tps t ((mem t).1 h0),
      fun i hi => by rw [ht i]; exact r.every i hi, ?_⟩
    · have := r.cap; rwa [← hs, ← hm] at this
    · rcases r.declared with h0 | h0
      · exact .inl fun t h1 => h0 t ((mem t).1 h1)
      · exact .inr fun i hi => by rw [ht i]; exact h0 i hi

/-! ## Exchanging the codestream of a file -/

theorem split_at_first {α : Type} {P : α → Prop} : ∀ {A C B D : List α} {a c : α}, A ++ a :: B = C ++ c :: D → P a →
    (∀ x ∈ C, ¬ P x) → (A = C ∧ a = c ∧ B = D) ∨ ∃ M, A = C ++ c :: M ∧ D = M ++ a :: B
  | [], [], B, D, a, c, h, _, _ => by
    simp only [List.nil_append, List.cons.injEq] at h; exact .inl ⟨rfl, h⟩
  | [], y :: C, B, D, a, c, h, ha, hC => by
    simp only [List.nil_append, List.cons_append, List.cons.injEq] at h
    exact absurd (h.1 ▸ ha) (hC y (by simp))
  | x :: A, [], B, D, a, c, h, _, _ => by
    simp only [List.nil_append, List.cons_append, List.cons.injEq] at h
    exact .inr ⟨A, by rw [h.1]; rfl, h.2.symm⟩
  | x :: A, y :: C, B, D, a, c, h, ha, hC => by
    simp only [List.cons_append, List.cons.injEq] at h
    rcases split_at_first h.2 ha (fun z hz => hC z (by simp [hz])) with ⟨e1, e2⟩ | ⟨M, e1, e2⟩
    · exact .inl ⟨by rw [h.1, e1], e2⟩
    · exact .inr ⟨M, by rw [h.1, e1]; rfl, e2⟩

/-- C67 (file): a codestream in a valid JP2 or JPH file may be replaced by any valid codestream with the same SIZ
segment. The length of the box may be stored in either way. -/
theorem C67_file (env : Env) (o : Options) (hfmt : o.format = .jp2 ∨ o.format = .jph) {n : Nat} {pre : Bytes}
    (h : WholeBoxes n pre) {p e p' e' siz : Bytes} (he : EncodesBox (ascii "jp2c") p e)
    (he' : EncodesBox (ascii "jp2c") p' e') (hs : SizOf p siz) (hs' : SizOf p' siz)
    (hp : CodestreamPasses env o p') (post : Bytes)
    (hv : FileValid env o (pre ++ e ++ post)) : FileValid env o (pre ++ e' ++ post) := by
  obtain ⟨ps, hlen, hw⟩ := boxes_whole h
  obtain ⟨qs, hq⟩ := boxes_exists post
  obtain ⟨r1, hr1, er1⟩ := boxes_one (by decide) he post hq
  obtain ⟨s1, hs1, es1⟩ := boxes_one (by decide) he' post hq
  obtain ⟨bs, h1, e1⟩ := hw [] _ r1 hr1
  obtain ⟨bs', h2, e2⟩ := hw [] _ s1 hs1
  have h1 : Boxes (pre ++ e ++ post) bs := by simpa [Boxes] using h1
  have h2 : Boxes (pre ++ e' ++ post) bs' := by simpa [Boxes] using h2
  rw [er1] at e1
  rw [es1] at e2
  obtain ⟨l, hl⟩ := (C17_layout env o _ hfmt).1 hv
  cases boxes_unique h1 hl.boxes
  have hp' : BoxPasses env o (ascii "jp2c") p' := (jp2c_passes env o p').2 hp
  have key := split_at_first (P := fun y : Bytes × Bytes => y.1 = ascii "jp2c") (A := ps) (a := (ascii "jp2c", p))
    (C := sh l.sig :: sh l.ft :: (l.pre.map sh ++ sh l.hd :: l.mid.map sh)) (c := sh l.cs) (B := qs.map sh)
    (D := l.post.map sh) (by rw [← e1]; simp [Layout.rest]) rfl
    (by
      intro y hy hj
      rcases List.mem_cons.1 hy with rfl | hy
      · exact absurd (hl.sig.symm.trans hj) (by decide)
      rcases List.mem_cons.1 hy with rfl | hy
      · exact absurd (hl.ft.symm.trans hj) (by decide)
      rcases List.mem_append.1 hy with hy | hy
      · obtain ⟨z, hz, rfl⟩ := List.mem_map.1 hy
        exact hl.firstCs.1 ⟨z, hz, hj⟩
      rcases List.mem_cons.1 hy with rfl | hy
      · exact absurd (hl.hd.symm.trans hj) (by decide)
      · obtain ⟨z, hz, rfl⟩ := List.mem_map.1 hy
        exact hl.firstCs.2 ⟨z, hz, hj⟩)
  -- the boxes of the new file, one by one
  have hnew : ∃ csn : Bytes × Bytes, ∃ postn : List (Bytes × Bytes), bs'.map sh = (sh l.sig :: sh l.ft :: (l.pre.map sh ++ sh l.hd :: l.mid.map sh)) ++
      csn :: postn ∧ csn.1 = ascii "jp2c" ∧ (∃ m, SegAt csn.2 2 SIZ l.siz m) ∧ BoxPasses env o csn.1 csn.2 ∧
      postn.map (·.1) = l.post.map (·.type) ∧ ∀ y ∈ postn, BoxPasses env o y.1 y.2 := by
    obtain ⟨m0, hm0⟩ := hl.siz
    rcases key with ⟨k1, k2, k3⟩ | ⟨M, k1, k2⟩
    · have kp : p = l.cs.payload := congrArg Prod.snd k2
      have ez : l.siz = siz := by
        obtain ⟨m1, hm1⟩ := hs.2
        rw [kp] at hm1
        exact (segAt_unique hm0 hm1).2.1
      refine ⟨(ascii "jp2c", p'), qs.map sh, by rw [e2, k1], rfl, by rw [ez]; exact hs'.2, hp', ?_, ?_⟩
      · rw [k3]; simp [sh]
      · intro y hy
        rw [k3] at hy
        obtain ⟨z, hz, rfl⟩ := List.mem_map.1 hy
        exact hl.passes z (by simp [Layout.rest, hz])
    · refine ⟨sh l.cs, M ++ (ascii "jp2c", p') :: qs.map sh, by rw [e2, k1]; simp, hl.cs, ⟨m0, hm0⟩, hl.passes l.cs (by simp [Layout.rest]), ?_, ?_⟩
      · have := congrArg (List.map Prod.fst) k2
        simp only [List.map_append, List.map_cons] at this ⊢
        rw [← this]; simp [sh]
      · intro y hy
        rcases List.mem_append.1 hy with hy | hy
        · have : y ∈ l.post.map sh := by rw [k2]; simp [hy]
          obtain ⟨z, hz, rfl⟩ := List.mem_map.1 this
          exact hl.passes z (by simp [Layout.rest, hz])
        rcases List.mem_cons.1 hy with rfl | hy
        · exact hp'
        · have : y ∈ l.post.map sh := by rw [k2]; simp [hy]
          obtain ⟨z, hz, rfl⟩ := List.mem_map.1 this
          exact hl.passes z (by simp [Layout.rest, hz])
  obtain ⟨csn, postn, e3, c1, c2, c3, c4, c5⟩ := hnew
  simp only [List.cons_append, List.append_assoc] at e3
  obtain ⟨sig', r1, rfl, f1, e3⟩ := List.map_eq_cons_iff.1 e3
  obtain ⟨ft', r2, rfl, f2, e3⟩ := List.map_eq_cons_iff.1 e3
  obtain ⟨pre', r3, rfl, f3, e3⟩ := List.map_eq_append_iff.1 e3
  obtain ⟨hd', r4, rfl, f4, e3⟩ := List.map_eq_cons_iff.1 e3
  obtain ⟨mid', r5, rfl, f5, e3⟩ := List.map_eq_append_iff.1 e3
  obtain ⟨cs', post', rfl, f6, f7⟩ := List.map_eq_cons_iff.1 e3
  have t1 : sig'.type = l.sig.type := congrArg Prod.fst f1
  have t2 : ft'.type = l.ft.type := congrArg Prod.fst f2
  have t4 : hd'.type = l.hd.type := congrArg Prod.fst f4
  have p4 : hd'.payload = l.hd.payload := congrArg Prod.snd f4
  have t6 : cs'.type = ascii "jp2c" := (congrArg Prod.fst f6).trans c1
  have p6 : cs'.payload = csn.2 := congrArg Prod.snd f6
  -- the types of the boxes are the same
  have ty : ∀ {a b : List FoundBox}, a.map (·.type) = b.map (·.type) → ∀ t, Has a t ↔ Has b t := by
    intro a b e t
    have : ascii t ∈ a.map (·.type) ↔ ascii t ∈ b.map (·.type) := by rw [e]
    simpa only [List.mem_map, Has] using this
  have q3 : pre'.map (·.type) = l.pre.map (·.type) := by
    have := congrArg (List.map Prod.fst) f3; simpa [sh, Function.comp_def] using this
  have q5 : mid'.map (·.type) = l.mid.map (·.type) := by
    have := congrArg (List.map Prod.fst) f5; simpa [sh, Function.comp_def] using this
  have q7 : post'.map (·.type) = l.post.map (·.type) := by
    have := congrArg (List.map Prod.fst) f7; rw [c4] at this; simpa [sh, Function.comp_def] using this
  have qr : (pre' ++ hd' :: (mid' ++ cs' :: post')).map (·.type) = l.rest.map (·.type) := by
    simp [Layout.rest, q3, q5, q7, t4, t6, hl.cs]
  have qa : (mid' ++ cs' :: post').map (·.type) = (l.mid ++ l.cs :: l.post).map (·.type) := by
    simp [q5, q7, t6, hl.cs]
  refine (C17_layout env o _ hfmt).2 ⟨⟨sig', ft', pre', hd', mid', cs', post', l.ih, l.hrest, l.siz⟩, ?_⟩
  refine ⟨h2, ?_, t1.trans hl.sig, t2.trans hl.ft, t4.trans hl.hd, t6, fun hh => hl.oneSig ((ty qr _).1 hh),
    fun hh => hl.oneFt ((ty qr _).1 hh), ⟨fun hh => hl.oneHd.1 ((ty q3 _).1 hh), fun hh => hl.oneHd.2 ((ty qa _).1 hh)⟩,
    ⟨fun hh => hl.firstCs.1 ((ty q3 _).1 hh), fun hh => hl.firstCs.2 ((ty q5 _).1 hh)⟩, ?_, ?_,
    fun hf => (ty qr _).2 (hl.ipr hf), hl.image⟩
  · intro y hy
    have hm : sh y ∈ (sig' :: ft' :: (pre' ++ hd' :: (mid' ++ cs' :: post'))).map sh := List.mem_map_of_mem hy
    have hold : sh y ∈ (l.sig :: l.ft :: l.rest).map sh → BoxPasses env o y.type y.payload :=
      fun h => fileValid_passes hfmt hv h1 h
    simp only [List.map_append, List.map_cons, f1, f2, f3, f4, f5, f6, f7, List.mem_append, List.mem_cons] at hm
    simp only [Layout.rest, List.map_append, List.map_cons, List.mem_append, List.mem_cons] at hold
    rcases hm with h | h | h | h | h | h | h
    · exact hold (.inl h)
    · exact hold (.inr (.inl h))
    · exact hold (.inr (.inr (.inl h)))
    · exact hold (.inr (.inr (.inr (.inl h))))
    · exact hold (.inr (.inr (.inr (.inr (.inl h)))))
    · rw [show y.type = csn.1 from congrArg Prod.fst h, show y.payload = csn.2 from congrArg Prod.snd h]
      exact c3
    · exact c5 (sh y) h
  · show Boxes hd'.payload _
    rw [p4]; exact hl.header
  · show ∃ n, SegAt cs'.payload 2 SIZ l.siz n
    rw [p6]; exact c2

/-! ## The hypotheses are met -/

namespace TileOrderEx
open MainHeaderEx

/-- Tile-parts of `cs2`: one of the first tile, two of the second. -/
def a : GenTilePart := ⟨0, 0, 1, [], []⟩
def b0 : GenTilePart := ⟨1, 0, 2, [(COC, be16 9 ++ [0, 0, 0, 4, 4, 0, 0])], []⟩
def b1 : GenTilePart := ⟨1, 1, 2, [], []⟩

def g : GenCodestream := ⟨siz2.drop 2, segs, [a, b0, b1]⟩

/-- With the tile-part of the first tile between those of the second. -/
def g' : GenCodestream := ⟨siz2.drop 2, segs, [b0, a, b1]⟩

theorem g_bytes : g.bytes = cs2 := by decide +kernel

theorem g_framed : g.Framed 3 2 := by
  refine ⟨siz_length, by decide +kernel, ⟨2, 1, 1, 1, 0, 0, 2, 1, by decide +kernel, by decide +kernel, by decide +kernel,
    by decide +kernel, by decide +kernel, by decide +kernel, ⟨by decide, by decide⟩, ⟨by decide, by decide⟩, rfl⟩, segs_header, by simp [g], ?_, ?_⟩
  · intro t ht
    simp only [g, List.mem_cons, List.not_mem_nil, or_false] at ht
    rcases ht with rfl | rfl | rfl
    · exact ⟨by decide, by decide, by decide, by decide +kernel, by simp [a]⟩
    · refine ⟨by decide, by decide, by decide, by decide +kernel, ?_⟩
      intro s hs
      rcases List.mem_singleton.1 hs with rfl
      exact ⟨by decide +kernel, by decide +kernel, List.length _, by decide +kernel, rfl⟩
    · exact ⟨by decide, by decide, by decide, by decide +kernel, by simp [b1]⟩
  · intro t ht
    simp only [g, List.mem_cons, List.not_mem_nil, or_false] at ht
    rcases ht with rfl | rfl | rfl <;> decide

theorem g'_passes : CodestreamPasses env0 (opts .j2c) g'.bytes := by
  refine (C67_order env0 (opts .j2c) (g' := g') g_framed rfl rfl fun i => ?_).2 ?_
  · by_cases h0 : i = 0
    · subst h0; rfl
    · by_cases h1 : i = 1
      · subst h1; rfl
      · simp [ofTile, g, g', a, b0, b1, Ne.symm h0, Ne.symm h1, List.filter_cons]
  · rw [g_bytes]
    exact passes_of_okValid 200 (by decide +kernel)

/-- The codestream of a 1 × 1 image with a comment. -/
def csComment : Bytes := cs siz1 (COM ++ be16 5 ++ be16 1 ++ [104]) (Sample.tilePart 0 0 1 [])

theorem sizCs1 : SizOf cs1 (siz1.drop 2) :=
  ⟨by decide +kernel, _, .seg (b := cs1) (off := 2) (L := 41) (by decide +kernel) (by decide +kernel)⟩

theorem sizComment : SizOf csComment (siz1.drop 2) :=
  ⟨by decide +kernel, _, .seg (b := csComment) (off := 2) (L := 41) (by decide +kernel) (by decide +kernel)⟩

theorem encodesComment : EncodesBox (ascii "jp2c") csComment (box "jp2c" csComment) :=
  .short (l := be32 (8 + csComment.length)) rfl (by decide +kernel)

/-- The codestream of a JP2 file replaced by the one with the comment. -/
example : FileValid env0 (opts .jp2) (sig ++ ftyp "jp2 " ++ box "jp2h" (headerWith []) ++ box "jp2c" csComment ++ []) :=
  C67_file env0 (opts .jp2) (.inl rfl) wholeHeader encodesCs encodesComment sizCs1 sizComment
    (passes_of_okValid 200 (by decide +kernel)) [] (fileValid_of 100 (by decide +kernel))

end TileOrderEx

end Jpy
