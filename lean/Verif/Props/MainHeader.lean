import Verif.Spec.MainHeader
import Verif.Lemmas.Generate
import Verif.Props.Codestream
import Verif.Props.Files
import Verif.Props.Unknown
import Verif.Props.SegmentValues
/-!
# C66: the segments of a main header may come in any order, and comments may be added
-/

namespace Jpy
open Spec Sample

section
variable (a a' post : Bytes)

/-- An offset after the first part of the data, when that part is replaced by another one. -/
def mv (n : Nat) : Nat := a'.length + (n - a.length)

theorem sub_mv {off : Nat} (h : a.length ≤ off) (k n : Nat) :
    sub (a' ++ post) (mv a a' off + k) n = sub (a ++ post) (off + k) n := by
  obtain ⟨i, rfl⟩ : ∃ i, off = a.length + i := ⟨off - a.length, by omega⟩
  have : mv a a' (a.length + i) + k = a'.length + (i + k) := by unfold mv; omega
  rw [this, sub_shift, show a.length + i + k = a.length + (i + k) by omega, sub_shift]

theorem uint_mv {off : Nat} (h : a.length ≤ off) (k n : Nat) :
    uint (a' ++ post) (mv a a' off + k) n = uint (a ++ post) (off + k) n := by
  obtain ⟨i, rfl⟩ : ∃ i, off = a.length + i := ⟨off - a.length, by omega⟩
  have : mv a a' (a.length + i) + k = a'.length + (i + k) := by unfold mv; omega
  rw [this, uint_shift, show a.length + i + k = a.length + (i + k) by omega, uint_shift]

theorem mv_add {off : Nat} (h : a.length ≤ off) (k : Nat) : mv a a' (off + k) = mv a a' off + k := by
  unfold mv; omega

theorem segAt_mv {off : Nat} (h : a.length ≤ off) {m c n} (hs : SegAt (a ++ post) off m c n) :
    SegAt (a' ++ post) (mv a a' off) m c (n.map (mv a a')) := by
  have e := sub_mv a a' post h 0 2
  simp only [Nat.add_zero] at e
  cases hs with
  | alone hd =>
    rw [← e] at hd ⊢
    rw [Option.map_some, mv_add a a' h]; exact .alone hd
  | @seg L hd hu =>
    rw [← e] at hd ⊢
    rw [← uint_mv a a' post h] at hu
    rw [Option.map_some, Nat.add_assoc, mv_add a a' h, ← sub_mv a a' post h, ← Nat.add_assoc]
    exact .seg hd hu
  | noLength hd hu =>
    rw [← e] at hd ⊢
    rw [← uint_mv a a' post h] at hu
    exact .noLength hd hu

/-- A segment after the replaced part. -/
def mvSeg (x : FoundSeg) : FoundSeg := ⟨mv a a' x.start, x.marker, x.contents⟩

theorem segsTo_mv {stop : Bytes} {off : Nat} {ss e} (hs : SegsTo (a ++ post) stop off ss e) (h : a.length ≤ off) :
    SegsTo (a' ++ post) stop (mv a a' off) (ss.map (mvSeg a a')) (e.map (mv a a')) := by
  induction hs with
  | found hs => exact .found (segAt_mv a a' post h hs)
  | step hs hm _ ih => exact .step (segAt_mv a a' post h hs) hm (ih (by have := segAt_next hs; omega))
  | broken hs hm => exact .broken (segAt_mv a a' post h hs) hm

theorem segsTo_stop_ge {b stop : Bytes} {off : Nat} {ss e} (hs : SegsTo b stop off ss e) : ∀ k, e = some k → off ≤ k := by
  induction hs with
  | found _ => rintro k ⟨⟩; exact Nat.le_refl _
  | step hs _ _ ih => intro k hk; have := ih k hk; have := segAt_next hs; omega
  | broken _ _ => rintro k ⟨⟩

/-- A tile-part after the replaced part. -/
def mvTp (t : TilePartInfo) : TilePartInfo := { t with start := mv a a' t.start }

theorem at_mv {t : TilePartInfo} (h : a.length ≤ t.start) (ht : t.At (a ++ post)) : (mvTp a a' t).At (a' ++ post) := by
  have e := sub_mv a a' post h 0 2
  simp only [Nat.add_zero] at e
  exact ⟨e.trans ht.marker, (uint_mv a a' post h 2 2).trans ht.segLength, (uint_mv a a' post h 4 2).trans ht.index,
    (uint_mv a a' post h 6 4).trans ht.length, (uint_mv a a' post h 10 1).trans ht.part,
    (uint_mv a a' post h 11 1).trans ht.parts⟩

theorem visited_mv {n : Int} {off : Nat} {ts} (hv : Visited (a ++ post) n off ts) (h : a.length ≤ off) :
    Visited (a' ++ post) n (mv a a' off) (ts.map (mvTp a a')) ∧ ∀ t ∈ ts, a.length ≤ t.start := by
  induction hv with
  | @done off hs =>
    refine ⟨.done ?_, by simp⟩
    have e := sub_mv a a' post h 0 2
    simp only [Nat.add_zero] at e
    rwa [e]
  | @last t ht hl =>
    exact ⟨.last (t := mvTp a a' t) (at_mv a a' post h ht) hl, by simpa using h⟩
  | @step t ts ht hi hl _ ih =>
    obtain ⟨ih1, ih2⟩ := ih (by omega)
    refine ⟨.step (t := mvTp a a' t) (at_mv a a' post h ht) hi hl ?_, ?_⟩
    · rw [mv_add a a' h] at ih1; exact ih1
    · intro x hx
      rcases List.mem_cons.1 hx with rfl | hx
      · exact h
      · exact ih2 x hx

theorem segsPass_map {env o csiz handled} {ss ss' : List FoundSeg}
    (e : ss'.map (fun x => (x.marker, x.contents)) = ss.map fun x => (x.marker, x.contents))
    (h : SegsPass env o csiz handled ss) : SegsPass env o csiz handled ss' := by
  intro x hx
  have : (x.marker, x.contents) ∈ ss.map fun x => (x.marker, x.contents) := by
    rw [← e]; exact List.mem_map.2 ⟨x, hx, rfl⟩
  obtain ⟨y, hy, ey⟩ := List.mem_map.1 this
  simp only [Prod.mk.injEq] at ey
  rw [← ey.1, ← ey.2]; exact h y hy

theorem hasSeg_map {ss ss' : List FoundSeg} {m : Bytes}
    (e : ss'.map (fun x => (x.marker, x.contents)) = ss.map fun x => (x.marker, x.contents)) (h : HasSeg ss' m) :
    HasSeg ss m := by
  obtain ⟨x, hx, hm⟩ := h
  have : (x.marker, x.contents) ∈ ss.map fun x => (x.marker, x.contents) := by
    rw [← e]; exact List.mem_map.2 ⟨x, hx, rfl⟩
  obtain ⟨y, hy, ey⟩ := List.mem_map.1 this
  simp only [Prod.mk.injEq] at ey
  exact ⟨y, hy, ey.1.trans hm⟩

theorem onePer_eq (csiz : Nat) (ss : List FoundSeg) (m : Bytes) : OnePerComponent csiz ss m ↔
    EachComponentOnce csiz (ss.map fun x => (x.marker, x.contents)) m := by
  unfold OnePerComponent EachComponentOnce
  simp only [List.filter_map, List.map_map, Function.comp_def]

theorem mvSegs_eq (ss : List FoundSeg) : (ss.map (mvSeg a a')).map (fun x => (x.marker, x.contents)) =
    ss.map fun x => (x.marker, x.contents) := by
  rw [List.map_map]; rfl

theorem ok_mv {env o csiz} {t : TilePartInfo} (h : a.length ≤ t.start) (ht : t.Ok env o csiz (a ++ post)) :
    (mvTp a a' t).Ok env o csiz (a' ++ post) := by
  refine ⟨at_mv a a' post h ht.at_, ht.index, ht.length, ht.part, ?_, ?_⟩
  · obtain ⟨ss, k, h1, h2, h3, h4, h5⟩ := ht.header
    have := segsTo_mv a a' post h1 (by omega)
    rw [mv_add a a' h] at this
    refine ⟨_, _, this, segsPass_map (mvSegs_eq a a' ss) h2, fun m hm hs => h3 m hm (hasSeg_map (mvSegs_eq a a' ss) hs), ?_, ?_⟩
    · rw [onePer_eq, mvSegs_eq, ← onePer_eq]; exact h4
    · rw [onePer_eq, mvSegs_eq, ← onePer_eq]; exact h5
  · intro hl
    have := ht.next hl
    show sub (a' ++ post) (mv a a' t.start + t.length) 2 = SOT ∨ sub (a' ++ post) (mv a a' t.start + t.length) 2 = EOC
    rw [sub_mv a a' post h]; exact this

end

/-- The segments at the start of a header, and the rest of it. -/
theorem segs_enc {stop : Bytes} : ∀ (l : List (Bytes × Bytes)) (pre post : Bytes)
    (_ : ∀ s ∈ l, s.1.length = 2 ∧ s.1 ∉ delimiters ∧ s.1 ≠ stop ∧ FieldIs s.2 0 2 (· = s.2.length)),
    ∃ fs : List FoundSeg, fs.map (fun x => (x.marker, x.contents)) = l ∧ ∀ ss e,
      SegsTo (pre ++ (segBytes l ++ post)) stop pre.length ss e ↔
        ∃ ss2, ss = fs ++ ss2 ∧ SegsTo (pre ++ (segBytes l ++ post)) stop (pre.length + (segBytes l).length) ss2 e
  | [], pre, post, _ => ⟨[], rfl, fun ss e => by simp [segBytes]⟩
  | s :: l, pre, post, hs => by
    obtain ⟨h1, h2, h3, h4⟩ := hs s (by simp)
    have eb : pre ++ (segBytes (s :: l) ++ post) = pre ++ s.1 ++ s.2 ++ (segBytes l ++ post) := by
      rw [segBytes_cons]; simp
    have hat : SegAt (pre ++ (segBytes (s :: l) ++ post)) pre.length s.1 s.2 (some (pre.length + 2 + s.2.length)) :=
      segAt_here (post := segBytes l ++ post) (by rw [segBytes_cons]; simp) h1 h2 h4
    have e : (pre ++ s.1 ++ s.2).length = pre.length + 2 + s.2.length := by simp [h1]; omega
    have e' : pre.length + 2 + s.2.length + (segBytes l).length = pre.length + (segBytes (s :: l)).length := by
      rw [segBytes_cons]; simp; omega
    obtain ⟨fs, h5, h6⟩ := segs_enc (stop := stop) l (pre ++ s.1 ++ s.2) post (fun x hx => hs x (by simp [hx]))
    rw [← eb, e, e'] at h6
    refine ⟨⟨pre.length, s.1, s.2⟩ :: fs, by simp [h5], fun ss en => ?_⟩
    constructor
    · intro h
      cases h with
      | found hf =>
        exact absurd (segAt_unique hat hf).1 h3
      | step hf hm hr =>
        obtain ⟨rfl, rfl, e9⟩ := segAt_unique hat hf
        cases e9
        obtain ⟨ss2, rfl, h8⟩ := (h6 _ _).1 hr
        exact ⟨ss2, rfl, h8⟩
      | broken hf _ =>
        obtain ⟨-, -, e9⟩ := segAt_unique hat hf
        cases e9
    · rintro ⟨ss2, rfl, h8⟩
      exact .step hat h3 ((h6 _ _).2 ⟨ss2, rfl, h8⟩)

theorem hasSeg_eq (ss : List FoundSeg) (m : Bytes) :
    HasSeg ss m ↔ ∃ c, (m, c) ∈ ss.map fun x => (x.marker, x.contents) := by
  constructor
  · rintro ⟨x, hx, e⟩; exact ⟨x.contents, List.mem_map.2 ⟨x, hx, by rw [e]⟩⟩
  · rintro ⟨c, h⟩
    obtain ⟨x, hx, e⟩ := List.mem_map.1 h
    exact ⟨x, hx, congrArg Prod.fst e⟩

theorem segsPass_eq (env : Env) (o : Options) (csiz : Nat) (handled : List Bytes) (ss : List FoundSeg) :
    SegsPass env o csiz handled ss ↔ ∀ s ∈ ss.map (fun x => (x.marker, x.contents)), s.1 ∈ handled →
      SegPasses env o (some csiz) s.1 s.2 := by
  simp [SegsPass]

/-- The parts of a codestream with given SIZ and first segments. -/
theorem parts_split {env : Env} {o : Options} {siz post : Bytes} {l : List (Bytes × Bytes)} (hl : ∀ s ∈ l, HeaderSeg s)
    (hz : FieldIs siz 0 2 (· = siz.length)) {p : CodestreamParts} (hp : p.Ok env o (codestreamOf siz l post)) :
    p.siz = siz ∧ p.first = (SOC ++ (SIZ ++ siz)).length ∧
    ∃ fs ss2, p.main = fs ++ ss2 ∧ fs.map (fun x => (x.marker, x.contents)) = l ∧
      SegsTo (codestreamOf siz l post) SOT (SOC ++ (SIZ ++ siz) ++ segBytes l).length ss2 p.sot := by
  have hsz : SegAt (codestreamOf siz l post) 2 SIZ siz (some (2 + 2 + siz.length)) :=
    segAt_here (pre := SOC) (post := segBytes l ++ post) (by simp [codestreamOf]) rfl (by decide) hz
  obtain ⟨-, e1, e2⟩ := segAt_unique hp.sizAt hsz
  have e3 : p.first = (SOC ++ (SIZ ++ siz)).length := by
    simp only [Option.some.injEq] at e2; rw [e2]; simp [SOC, SIZ]; omega
  refine ⟨e1, e3, ?_⟩
  have eb : codestreamOf siz l post = (SOC ++ (SIZ ++ siz)) ++ (segBytes l ++ post) := by simp [codestreamOf]
  obtain ⟨fs, h1, h2⟩ := segs_enc (stop := SOT) l (SOC ++ (SIZ ++ siz)) post hl
  have hm := hp.mainAt
  rw [e3, eb] at hm
  obtain ⟨ss2, h3, h4⟩ := (h2 _ _).1 hm
  refine ⟨fs, ss2, h3, h1, ?_⟩
  rw [eb, List.length_append (as := SOC ++ (SIZ ++ siz))]; exact h4

/-- C66: whether a codestream passes depends on the segments at the start of its main header only through
the COD, COC, QCD, QCC and CAP segments among them, in any order, and through whether each of them
passes. -/
theorem C66_segments (env : Env) (o : Options) {siz post : Bytes} {csiz : Nat} {l l' : List (Bytes × Bytes)}
    (hz : FieldIs siz 0 2 (· = siz.length)) (hc : uint siz 36 2 = some csiz)
    (hl : ∀ s ∈ l, HeaderSeg s) (hl' : ∀ s ∈ l', HeaderSeg s) (hpost : 2 ≤ post.length)
    (hp : (l.filter fun s => decide (s.1 ∈ countedSegs)).Perm (l'.filter fun s => decide (s.1 ∈ countedSegs)))
    (hn : ∀ s ∈ l', s.1 ∉ countedSegs → s.1 ∈ mainSegments → SegPasses env o (some csiz) s.1 s.2)
    (h : CodestreamPasses env o (codestreamOf siz l post)) : CodestreamPasses env o (codestreamOf siz l' post) := by
  obtain ⟨p, hp0⟩ := (C23_codestream env o _).1 h
  obtain ⟨e1, e2, fs, ss2, e3, e4, e5⟩ := parts_split hl hz hp0
  have ec : p.csiz = csiz := by
    have := hp0.csiz; rw [e1, hc] at this; exact (Option.some.inj this).symm
  have eb : ∀ l, codestreamOf siz l post = (SOC ++ (SIZ ++ siz)) ++ (segBytes l ++ post) := by intro l; simp [codestreamOf]
  have eb2 : ∀ l, codestreamOf siz l post = (SOC ++ (SIZ ++ siz) ++ segBytes l) ++ post := fun _ => rfl
  -- the same segments with and without the position
  have mem : ∀ {m : Bytes}, m ∈ countedSegs → ∀ c, (m, c) ∈ l → (m, c) ∈ l' := by
    intro m hm c h
    have : (m, c) ∈ l.filter fun s => decide (s.1 ∈ countedSegs) := List.mem_filter.2 ⟨h, by simpa using hm⟩
    exact (List.mem_filter.1 (hp.mem_iff.1 this)).1
  have mem' : ∀ {m : Bytes}, m ∈ countedSegs → ∀ c, (m, c) ∈ l' → (m, c) ∈ l := by
    intro m hm c h
    have : (m, c) ∈ l'.filter fun s => decide (s.1 ∈ countedSegs) := List.mem_filter.2 ⟨h, by simpa using hm⟩
    exact (List.mem_filter.1 (hp.mem_iff.2 this)).1
  let a := SOC ++ (SIZ ++ siz) ++ segBytes l
  let a' := SOC ++ (SIZ ++ siz) ++ segBytes l'
  have hz' : SegAt (codestreamOf siz l' post) 2 SIZ siz (some (2 + 2 + siz.length)) :=
    segAt_here (pre := SOC) (post := segBytes l' ++ post) (by simp [codestreamOf]) rfl (by decide) hz
  have hlen : 2 + 2 + siz.length = (SOC ++ (SIZ ++ siz)).length := by simp [SOC, SIZ]; omega
  rw [hlen] at hz'
  obtain ⟨fs', g1, g2⟩ := segs_enc (stop := SOT) l' (SOC ++ (SIZ ++ siz)) post hl'
  have e5' : SegsTo (a ++ post) SOT a.length ss2 p.sot := e5
  have e6 := segsTo_mv a a' post e5' (Nat.le_refl _)
  have m0 : mv a a' a.length = a'.length := by unfold mv; omega
  rw [m0] at e6
  have e7 : SegsTo (codestreamOf siz l' post) SOT (SOC ++ (SIZ ++ siz)).length (fs' ++ ss2.map (mvSeg a a'))
      (p.sot.map (mv a a')) := by
    rw [eb]
    refine (g2 _ _).2 ⟨_, rfl, ?_⟩
    rw [← List.length_append, ← eb]; exact e6
  have hmap : (fs' ++ ss2.map (mvSeg a a')).map (fun x => (x.marker, x.contents)) =
      l' ++ ss2.map fun x => (x.marker, x.contents) := by
    rw [List.map_append, g1, mvSegs_eq]
  have hmap0 : p.main.map (fun x => (x.marker, x.contents)) = l ++ ss2.map fun x => (x.marker, x.contents) := by
    rw [e3, List.map_append, e4]
  have has : ∀ m ∈ countedSegs, HasSeg p.main m → HasSeg (fs' ++ ss2.map (mvSeg a a')) m := by
    intro m hm h
    rw [hasSeg_eq, hmap0] at h
    rw [hasSeg_eq, hmap]
    obtain ⟨c, h⟩ := h
    rcases List.mem_append.1 h with h | h
    · exact ⟨c, List.mem_append_left _ (mem hm c h)⟩
    · exact ⟨c, List.mem_append_right _ h⟩
  have once : ∀ m ∈ countedSegs, OnePerComponent p.csiz p.main m →
      OnePerComponent p.csiz (fs' ++ ss2.map (mvSeg a a')) m := by
    intro m hm h
    rw [onePer_eq, hmap0] at h
    rw [onePer_eq, hmap]
    unfold EachComponentOnce at h ⊢
    refine List.Perm.nodup (List.Perm.map _ ?_) h
    rw [List.filter_append, List.filter_append]
    refine List.Perm.append_right _ ?_
    have f : ∀ q : List (Bytes × Bytes), q.filter (fun s => s.1 == m) =
        (q.filter fun s => decide (s.1 ∈ countedSegs)).filter fun s => s.1 == m := by
      intro q
      rw [List.filter_filter]
      congr 1; funext s
      by_cases hs : s.1 = m
      · simp [hs, hm]
      · simp [hs]
    rw [f l, f l']
    exact hp.filter _
  refine (C23_codestream env o _).2 ⟨⟨siz, (SOC ++ (SIZ ++ siz)).length, p.csiz, fs' ++ ss2.map (mvSeg a a'),
    p.sot.map (mv a a'), p.tiles, p.tps.map (mvTp a a')⟩, ?_⟩
  have hge : ∀ k, p.sot = some k → a.length ≤ k := segsTo_stop_ge e5'
  have hvis : ∀ t ∈ p.tps, a.length ≤ t.start := by
    have hv := hp0.visited
    cases hs : p.sot with
    | none => rw [hs] at hv; simp only at hv; rw [hv]; simp
    | some k =>
      rw [hs] at hv
      exact (visited_mv a a' post (by simpa only [eb2] using hv) (hge k hs)).2
  refine ⟨by rw [eb]; simp [SOC, sub], hz', e1 ▸ hp0.sizPasses, by rw [ec]; exact hc, e7, ?_, has COD (by decide) hp0.cod,
    has QCD (by decide) hp0.qcd, fun hf => has CAP (by decide) (hp0.cap (by rw [e1]; exact hf)), by
      have := hp0.tiles; rw [e1] at this; exact this, ?_, ?_, ?_, ?_, once COC (by decide) hp0.coc, once QCC (by decide) hp0.qcc, ?_⟩
  · rw [segsPass_eq, hmap]
    have old := (segsPass_eq _ _ _ _ _).1 hp0.mainPasses
    rw [hmap0] at old
    intro s hs hm
    rcases List.mem_append.1 hs with h | h
    · by_cases hk : s.1 ∈ countedSegs
      · exact old s (List.mem_append_left _ (mem' hk s.2 h)) hm
      · show SegPasses env o (some ((p.csiz : Nat) : Int)) _ _
        rw [ec]; exact hn s h hk hm
    · exact old s (List.mem_append_right _ h) hm
  · have hv := hp0.visited
    cases hs : p.sot with
    | none => rw [hs] at hv; simp only at hv; simp [hv]
    | some k =>
      rw [hs] at hv
      exact (visited_mv a a' post (by simpa only [eb2] using hv) (hge k hs)).1
  · intro t ht
    obtain ⟨t0, h0, rfl⟩ := List.mem_map.1 ht
    exact ok_mv a a' post (hvis t0 h0) (hp0.tpsOk t0 h0)
  · obtain ⟨il, i1, i2, i3⟩ := hp0.indices
    refine ⟨il, i1, fun i => ?_, i3⟩
    rw [i2]
    constructor
    · rintro ⟨t, ht, e⟩; exact ⟨mvTp a a' t, List.mem_map_of_mem ht, e⟩
    · rintro ⟨t, ht, e⟩
      obtain ⟨t0, h0, rfl⟩ := List.mem_map.1 ht
      exact ⟨t0, h0, e⟩
  · have fil : ∀ (q : TilePartInfo → Bool) (_ : ∀ t, q (mvTp a a' t) = q t), 
        (p.tps.map (mvTp a a')).filter q = (p.tps.filter q).map (mvTp a a') := by
      intro q hq
      rw [List.filter_map]
      congr 2; funext t; exact hq t
    intro hd
    obtain ⟨t, ht, hne⟩ := hd
    obtain ⟨t0, h0, rfl⟩ := List.mem_map.1 ht
    obtain ⟨d1, d2⟩ := hp0.declared ⟨t0, h0, hne⟩
    refine ⟨fun i hi => ?_, fun t ht => ?_⟩
    · have := d1 i hi
      simp only [declared, partCount] at this ⊢
      rw [fil _ (fun _ => rfl), fil _ (fun _ => rfl), List.getLast?_map, List.length_map, Option.map_map]
      exact this
    · obtain ⟨t1, h1, rfl⟩ := List.mem_map.1 ht
      exact d2 t1 h1
  · obtain ⟨-, h2⟩ := hp0.eoc
    refine ⟨by rw [eb2]; simp; omega, ?_⟩
    have fin : ∀ x : Bytes, sub (x ++ post) ((x ++ post).length - 2) 2 = sub post (post.length - 2) 2 := by
      intro x
      have : (x ++ post).length - 2 = x.length + (post.length - 2) := by simp; omega
      rw [this, sub_shift]
    rw [eb2, fin] at h2 ⊢
    exact h2

/-- Every segment of the header of a codestream that passes, passes. -/
theorem codestream_seg {env : Env} {o : Options} {siz post : Bytes} {csiz : Nat} {l : List (Bytes × Bytes)}
    (hz : FieldIs siz 0 2 (· = siz.length)) (hc : uint siz 36 2 = some csiz) (hl : ∀ s ∈ l, HeaderSeg s)
    (h : CodestreamPasses env o (codestreamOf siz l post)) {s : Bytes × Bytes} (hs : s ∈ l) (hm : s.1 ∈ mainSegments) :
    SegPasses env o (some csiz) s.1 s.2 := by
  obtain ⟨p, hp0⟩ := (C23_codestream env o _).1 h
  obtain ⟨e1, -, fs, ss2, e3, e4, -⟩ := parts_split hl hz hp0
  have ec : p.csiz = csiz := by
    have := hp0.csiz; rw [e1, hc] at this; exact (Option.some.inj this).symm
  have := (segsPass_eq _ _ _ _ _).1 hp0.mainPasses s (by rw [e3, List.map_append, e4]; exact List.mem_append_left _ hs) hm
  rw [ec] at this; exact this

theorem codestream_csiz {env : Env} {o : Options} {siz post : Bytes} {l : List (Bytes × Bytes)}
    (hz : FieldIs siz 0 2 (· = siz.length)) (hl : ∀ s ∈ l, HeaderSeg s)
    (h : CodestreamPasses env o (codestreamOf siz l post)) : ∃ csiz, uint siz 36 2 = some csiz := by
  obtain ⟨p, hp0⟩ := (C23_codestream env o _).1 h
  obtain ⟨e1, -⟩ := parts_split hl hz hp0
  exact ⟨p.csiz, e1 ▸ hp0.csiz⟩

/-- C66: the order of the marker segments in the main header, after SIZ, does not matter. -/
theorem C66_order (env : Env) (o : Options) {siz post : Bytes} {l l' : List (Bytes × Bytes)}
    (hz : FieldIs siz 0 2 (· = siz.length)) (hl : ∀ s ∈ l, HeaderSeg s) (hpost : 2 ≤ post.length) (hp : l.Perm l') :
    CodestreamPasses env o (codestreamOf siz l post) ↔ CodestreamPasses env o (codestreamOf siz l' post) := by
  suffices H : ∀ {l l' : List (Bytes × Bytes)}, (∀ s ∈ l, HeaderSeg s) → l.Perm l' →
      CodestreamPasses env o (codestreamOf siz l post) → CodestreamPasses env o (codestreamOf siz l' post) from
    ⟨H hl hp, H (fun s hs => hl s (hp.mem_iff.2 hs)) hp.symm⟩
  intro l l' hl hp h
  obtain ⟨csiz, hc⟩ := codestream_csiz hz hl h
  exact C66_segments env o hz hc hl (fun s hs => hl s (hp.mem_iff.2 hs)) hpost (hp.filter _)
    (fun s hs _ hm => codestream_seg hz hc hl h (hp.mem_iff.2 hs) hm) h

/-- C66: a codestream with one more marker segment in the main header, not one of COD, COC, QCD, QCC and CAP,
passes exactly if it passes without and the segment passes. Segments with a marker that is not one of the
main header's are not looked at. -/
theorem C66_insert (env : Env) (o : Options) {siz post : Bytes} {csiz : Nat} {l1 l2 : List (Bytes × Bytes)}
    {s : Bytes × Bytes} (hz : FieldIs siz 0 2 (· = siz.length)) (hc : uint siz 36 2 = some csiz)
    (h1 : ∀ s ∈ l1, HeaderSeg s) (h2 : ∀ s ∈ l2, HeaderSeg s) (hs : HeaderSeg s) (hpost : 2 ≤ post.length)
    (hm : s.1 ∉ countedSegs) :
    CodestreamPasses env o (codestreamOf siz (l1 ++ s :: l2) post) ↔
      CodestreamPasses env o (codestreamOf siz (l1 ++ l2) post) ∧
        (s.1 ∈ mainSegments → SegPasses env o (some csiz) s.1 s.2) := by
  have hl : ∀ x ∈ l1 ++ l2, HeaderSeg x := fun x hx => (List.mem_append.1 hx).elim (h1 x) (h2 x)
  have hl' : ∀ x ∈ l1 ++ s :: l2, HeaderSeg x := by
    intro x hx
    rcases List.mem_append.1 hx with h | h
    · exact h1 x h
    · rcases List.mem_cons.1 h with rfl | h
      · exact hs
      · exact h2 x h
  have ef : (l1 ++ s :: l2).filter (fun s => decide (s.1 ∈ countedSegs)) =
      (l1 ++ l2).filter fun s => decide (s.1 ∈ countedSegs) := by
    simp [List.filter_append, hm]
  constructor
  · intro h
    refine ⟨C66_segments env o hz hc hl' hl hpost (by rw [ef]) (fun x hx _ hk => codestream_seg hz hc hl' h ?_ hk) h,
      fun hk => codestream_seg hz hc hl' h (by simp) hk⟩
    rcases List.mem_append.1 hx with h | h <;> simp [h]
  · rintro ⟨h, hp⟩
    refine C66_segments env o hz hc hl hl' hpost (by rw [ef]) (fun x hx _ hk => ?_) h
    rcases List.mem_append.1 hx with hx | hx
    · exact codestream_seg hz hc hl h (List.mem_append_left _ hx) hk
    · rcases List.mem_cons.1 hx with rfl | hx
      · exact hp hk
      · exact codestream_seg hz hc hl h (List.mem_append_right _ hx) hk

/-- C66: adding a comment to a codestream leaves it valid exactly if the comment conforms. -/
theorem C66_comment (env : Env) (o : Options) {siz post c : Bytes} {csiz : Nat} {l1 l2 : List (Bytes × Bytes)}
    (hz : FieldIs siz 0 2 (· = siz.length)) (hc : uint siz 36 2 = some csiz)
    (h1 : ∀ s ∈ l1, HeaderSeg s) (h2 : ∀ s ∈ l2, HeaderSeg s) (hs : FieldIs c 0 2 (· = c.length)) (hpost : 2 ≤ post.length) :
    CodestreamPasses env o (codestreamOf siz (l1 ++ (COM, c) :: l2) post) ↔
      CodestreamPasses env o (codestreamOf siz (l1 ++ l2) post) ∧ ComOk env.catC c := by
  rw [C66_insert env o hz hc h1 h2 ⟨rfl, by show COM ∉ delimiters; decide, by show COM ≠ SOT; decide, hs⟩ hpost (by show COM ∉ countedSegs; decide)]
  refine and_congr Iff.rfl ⟨fun h => ?_, fun h _ => ⟨0, (C30_com env o 0 _ c).2 h⟩⟩
  obtain ⟨f, hf⟩ := h (by show COM ∈ mainSegments; decide)
  exact (C30_com env o f _ c).1 hf

/-- C66: marker segments with an unknown marker make a codestream neither valid nor invalid. -/
theorem C66_unknown (env : Env) (o : Options) {siz post : Bytes} {csiz : Nat} {l1 l2 : List (Bytes × Bytes)}
    {s : Bytes × Bytes} (hz : FieldIs siz 0 2 (· = siz.length)) (hc : uint siz 36 2 = some csiz)
    (h1 : ∀ s ∈ l1, HeaderSeg s) (h2 : ∀ s ∈ l2, HeaderSeg s) (hs : HeaderSeg s) (hpost : 2 ≤ post.length)
    (hm : s.1 ∉ mainSegments) :
    CodestreamPasses env o (codestreamOf siz (l1 ++ s :: l2) post) ↔
      CodestreamPasses env o (codestreamOf siz (l1 ++ l2) post) := by
  have hk : s.1 ∉ countedSegs := by
    intro h
    have key : ∀ m ∈ countedSegs, m ∈ mainSegments := by decide
    exact hm (key _ h)
  rw [C66_insert env o hz hc h1 h2 hs hpost hk]
  exact ⟨fun h => h.1, fun h => ⟨h, fun h => absurd h hm⟩⟩

/-! ## The hypotheses are met -/

namespace MainHeaderEx

/-- Segments of the main header of `cs2`: COD, QCD, a comment, RGN, COC and QCC. -/
def segs : List (Bytes × Bytes) :=
  [(COD, codSeg.drop 2), (QCD, qcdSeg.drop 2), (COM, be16 6 ++ be16 1 ++ [104, 105]), (RGN, be16 5 ++ [1, 0, 3]),
    (COC, be16 9 ++ [2, 0, 0, 4, 4, 0, 0]), (QCC, be16 5 ++ [1, 0x20, 8])]

/-- The tile-parts of `cs2`. -/
def tps : Bytes :=
  Sample.tilePart 0 0 1 [] ++ Sample.tilePart 1 0 2 ([0xff, 0x53] ++ be16 9 ++ [0, 0, 0, 4, 4, 0, 0]) ++ Sample.tilePart 1 1 2 [] ++ EOC

theorem cs2_eq : codestreamOf (siz2.drop 2) segs tps = cs2 := by decide +kernel

theorem segs_header : ∀ s ∈ segs, HeaderSeg s := by
  simp only [segs, List.forall_mem_cons, List.not_mem_nil, false_implies, implies_true, and_true]
  refine ⟨?_, ?_, ?_, ?_, ?_, ?_⟩ <;>
    exact ⟨by decide +kernel, by decide +kernel, by decide +kernel, List.length _, by decide +kernel, rfl⟩

theorem siz_length : FieldIs (siz2.drop 2) 0 2 (· = (siz2.drop 2).length) := ⟨47, by decide +kernel, by decide +kernel⟩

theorem cs2_passes : CodestreamPasses env0 (opts .j2c) (codestreamOf (siz2.drop 2) segs tps) := by
  rw [cs2_eq]
  exact passes_of_okValid 200 (by decide +kernel)

/-- The main header of `cs2` in reverse order. -/
example : CodestreamPasses env0 (opts .j2c) (codestreamOf (siz2.drop 2) segs.reverse tps) :=
  (C66_order env0 (opts .j2c) siz_length segs_header (by decide +kernel) segs.reverse_perm.symm).1 cs2_passes

/-- A comment and a segment with an unknown marker added in front. -/
example : CodestreamPasses env0 (opts .j2c)
    (codestreamOf (siz2.drop 2) ([] ++ (COM, be16 5 ++ be16 1 ++ [104]) :: segs) tps) ∧
    CodestreamPasses env0 (opts .j2c)
      (codestreamOf (siz2.drop 2) ([] ++ ([0xff, 0x99], be16 5 ++ [1, 2, 3]) :: segs) tps) := by
  refine ⟨(C66_comment env0 (opts .j2c) (csiz := 3) siz_length (by decide +kernel) (by simp) segs_header
    ⟨5, by decide +kernel, by decide +kernel⟩ (by decide +kernel)).2 ⟨cs2_passes, ?_⟩,
    (C66_unknown env0 (opts .j2c) (csiz := 3) siz_length (by decide +kernel) (by simp) segs_header
    ⟨by decide +kernel, by decide +kernel, by decide +kernel, 5, by decide +kernel, by decide +kernel⟩ (by decide +kernel)
    (by decide +kernel)).2 cs2_passes⟩
  refine ⟨5, by decide +kernel, by decide, 1, by decide +kernel, .inr ⟨rfl, fun x hx => ?_⟩⟩
  have e : sub (be16 5 ++ be16 1 ++ [104]) 4 (5 - 4) = [104] := by decide +kernel
  rw [e] at hx
  rcases List.mem_singleton.1 hx with rfl
  exact .inl (by decide +kernel)

end MainHeaderEx

end Jpy
