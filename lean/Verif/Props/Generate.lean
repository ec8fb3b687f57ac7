import Verif.Lemmas.Generate
/-! # Conforming files are accepted: C50 -/

set_option linter.unusedSimpArgs false

namespace Jpy
open Spec

/-- C50 (codestream): a codestream put together from conforming parts passes. -/
theorem C50_codestream (env : Env) (o : Options) {csiz n : Nat} {g : GenCodestream}
    (h : g.Conforms env.catC o.format csiz n) : CodestreamPasses env o g.bytes := by
  obtain ⟨htc, hn1, hn2⟩ := h.tiles
  -- SIZ
  have hsizAt : SegAt g.bytes 2 SIZ g.siz (some (4 + g.siz.length)) :=
    segAt_here (pre := SOC) (post := segBytes g.main ++ g.tps.flatMap GenTilePart.bytes ++ EOC)
      (by simp [GenCodestream.bytes]) rfl (by decide) h.sizLength
  -- tile-parts
  have hpre : (SOC ++ SIZ ++ g.siz).length = 4 + g.siz.length := by simp [SOC, SIZ]; omega
  obtain ⟨hv1, ts, hv2, hv3, hv4⟩ := visited_gen (env := env) (o := o) hn2 g.tps (b := g.bytes)
    (pre := SOC ++ SIZ ++ g.siz ++ segBytes g.main) (by simp [GenCodestream.bytes]) h.tps
  have hne : g.tps ≠ [] := by
    obtain ⟨t, ht, -⟩ := h.every 0 (by omega)
    exact List.ne_nil_of_mem ht
  rw [if_neg hne] at hv1
  have hsotAt : ∃ c n, SegAt g.bytes ((SOC ++ SIZ ++ g.siz).length + (segBytes g.main).length) SOT c n := by
    cases hg : g.tps with
    | nil => exact absurd hg hne
    | cons t rest =>
      have hat := tilePart_at (h.tps t (by simp [hg])) hn2 (b := g.bytes)
        (pre := SOC ++ SIZ ++ g.siz ++ segBytes g.main) (post := rest.flatMap GenTilePart.bytes ++ EOC)
        (by simp [GenCodestream.bytes, hg])
      have hm := hat.marker
      have := SegAt.seg (b := g.bytes) (off := (SOC ++ SIZ ++ g.siz ++ segBytes g.main).length)
        (by rw [show sub g.bytes (SOC ++ SIZ ++ g.siz ++ segBytes g.main).length 2 = SOT from hm]; decide) hat.segLength
      rw [show sub g.bytes (SOC ++ SIZ ++ g.siz ++ segBytes g.main).length 2 = SOT from hm] at this
      rw [List.length_append] at this
      exact ⟨_, _, this⟩
  -- main header
  obtain ⟨ss, hs1, hs2⟩ := segsTo_gen (stop := SOT) g.main (b := g.bytes) (pre := SOC ++ SIZ ++ g.siz)
    (rest := g.tps.flatMap GenTilePart.bytes ++ EOC) (by simp [GenCodestream.bytes]) (fun s hs => by
      obtain ⟨ha, -, hf⟩ := h.main.segs s hs
      refine ⟨?_, ?_, ?_, hf⟩ <;> revert ha <;> generalize s.1 = m <;> revert m <;> decide) hsotAt
  obtain ⟨g1, g2, g3, g4⟩ := header_gen h.main hs2
  rw [hpre] at hs1
  have hmin : min (n : Int) 65535 = n := by omega
  have hlen : (SOC ++ SIZ ++ g.siz ++ segBytes g.main).length = 4 + g.siz.length + (segBytes g.main).length := by
    rw [List.length_append, hpre]
  rw [hlen] at hv2
  have hmap : ∀ p : Nat × Nat → Bool, (ts.filter fun t => p (t.index, t.parts)).length =
      (g.tps.filter fun t => p (t.index, t.parts)).length := by
    intro p
    have := congrArg (fun l => (l.filter p).length) hv4
    simp only [List.filter_map, List.length_map] at this
    exact this
  have hmem : ∀ t ∈ ts, ∃ u ∈ g.tps, u.index = t.index ∧ u.parts = t.parts := by
    intro t ht
    have : (t.index, t.parts) ∈ g.tps.map fun t => (t.index, t.parts) := hv4 ▸ List.mem_map.2 ⟨t, ht, rfl⟩
    obtain ⟨u, hu, e⟩ := List.mem_map.1 this
    simp only [Prod.mk.injEq] at e
    exact ⟨u, hu, e.1, e.2⟩
  have hmem' : ∀ u ∈ g.tps, ∃ t ∈ ts, t.index = u.index ∧ t.parts = u.parts := by
    intro u hu
    have : (u.index, u.parts) ∈ ts.map fun t => (t.index, t.parts) := hv4 ▸ List.mem_map.2 ⟨u, hu, rfl⟩
    obtain ⟨t, ht, e⟩ := List.mem_map.1 this
    simp only [Prod.mk.injEq] at e
    exact ⟨t, ht, e.1, e.2⟩
  refine (C23_codestream env o g.bytes).2 ⟨⟨g.siz, 4 + g.siz.length, csiz, ss,
    some (4 + g.siz.length + (segBytes g.main).length), n, ts⟩, ?_⟩
  constructor
  · exact sub_mid' (x := SOC) (pre := []) (by simp [GenCodestream.bytes]; rfl) rfl rfl
  · exact hsizAt
  · exact ⟨0, (C26_siz_partial env o 0 none g.siz).2 h.siz⟩
  · exact h.comps
  · exact hs1
  · exact g1
  · exact (g4 COD).2 h.cod
  · exact (g4 QCD).2 h.qcd
  · exact fun hc => (g4 CAP).2 (h.cap hc)
  · exact htc
  · simp only [hmin]
    exact hv2
  · exact hv3
  · simp only [hmin]
    refine ⟨List.range n, List.nodup_range, fun i => ?_, by simp⟩
    rw [List.mem_range]
    constructor
    · intro hi
      obtain ⟨u, hu, rfl⟩ := h.every i hi
      obtain ⟨t, ht, e, -⟩ := hmem' u hu
      exact ⟨t, ht, e⟩
    · rintro ⟨t, ht, rfl⟩
      obtain ⟨u, hu, e, -⟩ := hmem t ht
      rw [← e]
      exact (h.tps u hu).index
  · simp only [hmin]
    rintro ⟨t, ht, htp⟩
    rcases h.declared with hd | hd
    · obtain ⟨u, hu, -, e⟩ := hmem t ht
      exact absurd (e ▸ hd u hu) htp
    refine ⟨fun i hi => ?_, fun t ht _ => ?_⟩
    · obtain ⟨u, hu, rfl⟩ := h.every i (by omega)
      obtain ⟨t, ht, e1, e2⟩ := hmem' u hu
      have hpos : ∀ u ∈ g.tps, u.parts ≠ 0 := by
        intro u hu
        rw [hd u hu]
        have : u ∈ g.tps.filter fun v => v.index == u.index := by simp [hu]
        have := List.length_pos_of_mem this
        omega
      have hin : t ∈ ts.filter fun t => t.index == u.index && t.parts != 0 := by
        rw [List.mem_filter]
        refine ⟨ht, ?_⟩
        have := hpos u hu
        rw [e1, e2]
        simp [this]
      unfold Spec.declared
      cases hl : (ts.filter fun t => t.index == u.index && t.parts != 0).getLast? with
      | none => rw [List.getLast?_eq_none_iff] at hl; rw [hl] at hin; cases hin
      | some v =>
        have hv := List.mem_of_getLast? hl
        rw [List.mem_filter, Bool.and_eq_true, beq_iff_eq] at hv
        obtain ⟨w, hw, e3, e4⟩ := hmem v hv.1
        simp only [Option.map_some, Option.some.injEq]
        rw [← e4, hd w hw, e3, hv.2.1]
        exact (hmap fun x => x.1 == u.index).symm
    · obtain ⟨u, hu, e, -⟩ := hmem t ht
      have := (h.tps u hu).index
      rw [← e]
      omega
  · exact g2
  · exact g3
  · have hl : g.bytes.length = (SOC ++ SIZ ++ g.siz ++ segBytes g.main ++ g.tps.flatMap GenTilePart.bytes).length + 2 := by
      rw [show (2 : Nat) = EOC.length from rfl, ← List.length_append]
      rfl
    refine ⟨by omega, ?_⟩
    rw [hl, Nat.add_sub_cancel]
    exact sub_mid' (x := EOC) (post := []) (by simp [GenCodestream.bytes]) rfl rfl

/-! ## Boxes -/

/-- The main header of a codestream put together from conforming parts. -/
theorem gen_mainHeader {env : Env} {o : Options} {csiz n : Nat} {g : GenCodestream}
    (h : g.Conforms env.catC o.format csiz n) :
    ∃ ss sot, MainHeader g.bytes g.siz csiz ss sot ∧ ss.map (fun x => (x.marker, x.contents)) = g.main ∧
      sot = some (SOC ++ SIZ ++ g.siz ++ segBytes g.main).length := by
  obtain ⟨htc, hn1, hn2⟩ := h.tiles
  have hsizAt : SegAt g.bytes 2 SIZ g.siz (some (4 + g.siz.length)) :=
    segAt_here (pre := SOC) (post := segBytes g.main ++ g.tps.flatMap GenTilePart.bytes ++ EOC)
      (by simp [GenCodestream.bytes]) rfl (by decide) h.sizLength
  have hpre : (SOC ++ SIZ ++ g.siz).length = 4 + g.siz.length := by simp [SOC, SIZ]; omega
  have hne : g.tps ≠ [] := by
    obtain ⟨t, ht, -⟩ := h.every 0 (by omega)
    exact List.ne_nil_of_mem ht
  have hsotAt : ∃ c n, SegAt g.bytes ((SOC ++ SIZ ++ g.siz).length + (segBytes g.main).length) SOT c n := by
    cases hg : g.tps with
    | nil => exact absurd hg hne
    | cons t rest =>
      have hat := tilePart_at (h.tps t (by simp [hg])) hn2 (b := g.bytes)
        (pre := SOC ++ SIZ ++ g.siz ++ segBytes g.main) (post := rest.flatMap GenTilePart.bytes ++ EOC)
        (by simp [GenCodestream.bytes, hg])
      have hm := hat.marker
      have := SegAt.seg (b := g.bytes) (off := (SOC ++ SIZ ++ g.siz ++ segBytes g.main).length)
        (by rw [show sub g.bytes (SOC ++ SIZ ++ g.siz ++ segBytes g.main).length 2 = SOT from hm]; decide) hat.segLength
      rw [show sub g.bytes (SOC ++ SIZ ++ g.siz ++ segBytes g.main).length 2 = SOT from hm] at this
      rw [List.length_append] at this
      exact ⟨_, _, this⟩
  obtain ⟨ss, hs1, hs2⟩ := segsTo_gen (stop := SOT) g.main (b := g.bytes) (pre := SOC ++ SIZ ++ g.siz)
    (rest := g.tps.flatMap GenTilePart.bytes ++ EOC) (by simp [GenCodestream.bytes]) (fun s hs => by
      obtain ⟨ha, -, hf⟩ := h.main.segs s hs
      refine ⟨?_, ?_, ?_, hf⟩ <;> revert ha <;> generalize s.1 = m <;> revert m <;> decide) hsotAt
  rw [hpre] at hs1
  exact ⟨ss, _, ⟨⟨_, hsizAt, hs1⟩, h.comps⟩, hs2, by rw [List.length_append, hpre]⟩

theorem has_map {bs : List FoundBox} {l : List (Bytes × Bytes)}
    (h : bs.map (fun x => (x.type, x.payload)) = l) {t : String} : Has bs t ↔ HasType l t := by
  subst h
  constructor
  · rintro ⟨x, hx, e⟩; exact ⟨_, List.mem_map.2 ⟨x, hx, rfl⟩, e⟩
  · rintro ⟨y, hy, e⟩
    obtain ⟨x, hx, rfl⟩ := List.mem_map.1 hy
    exact ⟨x, hx, e⟩

theorem number_map {bs : List FoundBox} {l : List (Bytes × Bytes)}
    (h : bs.map (fun x => (x.type, x.payload)) = l) {t : String} :
    number bs t = (l.filter fun x => x.1 == ascii t).length := by
  subst h
  unfold number
  rw [List.filter_map, List.length_map]
  rfl

/-- A box with a conforming payload passes. -/
theorem conforming_box {env : Env} {o : Options} {t p : Bytes}
    (h : ConformingBox o.format (fun d => (env.parseXml d).isSome = true) t p) : BoxPasses env o t p := by
  cases h with
  | ihdr h => exact (passes_of fun fuel => C19_ihdr_accepted env o fuel _).2 h.1
  | bpcc h => exact (passes_of fun fuel => C21_bpcc env o fuel _).2 h
  | colr h => exact (passes_of fun fuel => C35_colr_accepted env o fuel _).2 (h 4096)
  | pclr h => exact (passes_of fun fuel => C36_palette env o fuel _).2 h
  | cmap h => exact (passes_of fun fuel => C36_cmap env o fuel _).2 h
  | cdef h => exact (passes_of fun fuel => C36_cdef env o fuel _).2 h
  | resc h => exact (passes_of fun fuel => C34_res env o fuel _ tagCaptureResolution (.inl rfl)).2 h
  | resd h => exact (passes_of fun fuel => C34_res env o fuel _ tagDisplayResolution (.inr rfl)).2 h
  | @res l c he hl hne hnd =>
    obtain ⟨bs, hb, hm⟩ := (C10_roundtrip he).1
    refine (C34_superbox env o p).2 ⟨bs, hb, fun x hx => ?_, ?_, ?_, ?_⟩
    · obtain ⟨ht, hr⟩ := hl (x.type, x.payload) (hm ▸ List.mem_map.2 ⟨x, hx, rfl⟩)
      refine (passes_of fun fuel => C34_res env o fuel _ x.type ?_).2 hr
      exact ht
    · rw [has_map hm, has_map hm]
      cases l with
      | nil => exact absurd rfl hne
      | cons x l =>
        rcases (hl x (by simp)).1 with e | e
        · exact .inl ⟨x, by simp, e⟩
        · exact .inr ⟨x, by simp, e⟩
    · rw [number_map hm]
      have := (List.nodup_iff_count.1 hnd) (ascii "resc")
      rw [List.count_eq_countP, List.countP_map, List.countP_eq_length_filter] at this
      exact this
    · rw [number_map hm]
      have := (List.nodup_iff_count.1 hnd) (ascii "resd")
      rw [List.count_eq_countP, List.countP_map, List.countP_eq_length_filter] at this
      exact this
  | jp2i =>
    refine ⟨1, ?_⟩
    rw [validateBox_leaf env o 0 _ p (t := .intellectualPropertyBox) (by decide) rfl]
    exact (accepted_leaf env o 0 none _ p (t := .intellectualPropertyBox) (by decide)).2 ⟨[], rfl, rfl⟩
  | xml h =>
    refine ⟨1, ?_⟩
    rw [validateBox_leaf env o 0 _ p (t := .xmlBox) (by decide) rfl]
    exact (accepted_leaf env o 0 none _ p (t := .xmlBox) (by decide)).2
      ⟨_, rfl, (allTrue_xmlSteps env o.nullxml p).trans h⟩
  | uuid h1 h2 => exact (passes_of fun fuel => C37_uuid env o fuel _).2 ⟨h1, h2⟩
  | @uinf ulst url c he h1 h2 =>
    obtain ⟨bs, hb, hm⟩ := (C10_roundtrip he).1
    refine (C37_uinf env o p).2 ⟨bs, hb, fun x hx => ?_, ?_, ?_⟩
    · have : (x.type, x.payload) ∈ [(ascii "ulst", ulst), (ascii "url ", url)] :=
        hm ▸ List.mem_map.2 ⟨x, hx, rfl⟩
      simp only [List.mem_cons, Prod.mk.injEq, List.not_mem_nil, or_false] at this
      rcases this with ⟨e1, e2⟩ | ⟨e1, e2⟩
      · rw [e1, e2]; exact (passes_of fun fuel => C37_ulst env o fuel _).2 h1
      · rw [e1, e2]; exact (passes_of fun fuel => C38_url env o fuel _).2 h2
    · rw [number_map hm]; rfl
    · rw [number_map hm]; rfl
  | unknown h1 h2 =>
    obtain ⟨r, hr, ht, -⟩ := C42_unknown env o 0 t p h2 (not_marker_of_length (by omega))
    exact ⟨1, r, hr, by rw [ht]; exact (fun _ h => nomatch h)⟩

/-- The mandatory top-level boxes are not among the other boxes. -/
theorem conforming_type {fmt : Format} {P : Bytes → Prop} {t p : Bytes} (h : ConformingBox fmt P t p) :
    t ≠ ascii "jP  " ∧ t ≠ ascii "ftyp" ∧ t ≠ ascii "jp2h" ∧ t ≠ ascii "jp2c" := by
  cases h
  case unknown h1 h2 =>
    refine ⟨?_, ?_, ?_, ?_⟩ <;> rintro rfl <;> exact h2 (by decide)
  all_goals decide

/-- C50 (file): every encoding of a file put together from conforming parts is valid. -/
theorem C50_file (env : Env) (o : Options) {csiz n : Nat} {g : GenFile} {b : Bytes}
    (hfmt : o.format = .jp2 ∨ o.format = .jph)
    (h : g.Conforms env.catC o.format (fun d => (env.parseXml d).isSome = true) csiz n)
    (he : g.Encodes b) : FileValid env o b := by
  obtain ⟨hd, heh, heb⟩ := he
  obtain ⟨bs, hb, hm⟩ := (C10_roundtrip heb).1
  obtain ⟨hs, hhb, hhm⟩ := (C10_roundtrip heh).1
  -- the boxes of the JP2 header
  obtain ⟨ih, hrest, rfl, eih, hhr⟩ := List.map_eq_cons_iff.1 hhm
  simp only [Prod.mk.injEq] at eih
  obtain ⟨ei1, ei2⟩ := eih
  -- the boxes of the file
  obtain ⟨b5, post, rfl, hm, mpost⟩ := List.map_eq_append_iff.1 hm
  obtain ⟨b4, csb, rfl, hm, mcs⟩ := List.map_eq_append_iff.1 hm
  obtain ⟨b3, mid, rfl, hm, mmid⟩ := List.map_eq_append_iff.1 hm
  obtain ⟨b2, hdb, rfl, hm, mhd⟩ := List.map_eq_append_iff.1 hm
  obtain ⟨b1, pre, rfl, hm, mpre⟩ := List.map_eq_append_iff.1 hm
  obtain ⟨sig, b1', rfl, esig, hm⟩ := List.map_eq_cons_iff.1 hm
  obtain ⟨ft, b1'', rfl, eft, hm⟩ := List.map_eq_cons_iff.1 hm
  obtain rfl := List.map_eq_nil_iff.1 hm
  obtain ⟨hdx, hdb', rfl, ehd, hm⟩ := List.map_eq_cons_iff.1 mhd
  obtain rfl := List.map_eq_nil_iff.1 hm
  obtain ⟨csx, csb', rfl, ecs, hm⟩ := List.map_eq_cons_iff.1 mcs
  obtain rfl := List.map_eq_nil_iff.1 hm
  simp only [Prod.mk.injEq] at esig eft ehd ecs
  clear hm mhd mcs
  obtain ⟨es1, es2⟩ := esig
  obtain ⟨ef1, ef2⟩ := eft
  obtain ⟨eh1, eh2⟩ := ehd
  obtain ⟨ec1, ec2⟩ := ecs
  -- the other boxes
  have hoth : ∀ x ∈ pre ++ mid ++ post, ConformingBox o.format (fun d => (env.parseXml d).isSome = true) x.type x.payload := by
    intro x hx
    refine h.others (x.type, x.payload) ?_
    rw [← mpre, ← mmid, ← mpost, ← List.map_append, ← List.map_append]
    exact List.mem_map.2 ⟨x, hx, rfl⟩
  have hno : ∀ (l : List FoundBox), (∀ x ∈ l, x ∈ pre ++ mid ++ post) →
      ¬ Has l "jP  " ∧ ¬ Has l "ftyp" ∧ ¬ Has l "jp2h" ∧ ¬ Has l "jp2c" := by
    intro l hl
    refine ⟨?_, ?_, ?_, ?_⟩ <;> rintro ⟨x, hx, e⟩
    · exact (conforming_type (hoth x (hl x hx))).1 e
    · exact (conforming_type (hoth x (hl x hx))).2.1 e
    · exact (conforming_type (hoth x (hl x hx))).2.2.1 e
    · exact (conforming_type (hoth x (hl x hx))).2.2.2 e
  have npre := hno pre (fun x hx => by simp [hx])
  have nmid := hno mid (fun x hx => by simp [hx])
  have npost := hno post (fun x hx => by simp [hx])
  have hdt := ih.type
  have hhas : ∀ t : String, t ≠ "ihdr" → ascii t ≠ ascii "ihdr" →
      (Has (ih :: hrest) t ↔ HasType g.header t) := by
    intro t _ ht
    rw [has_cons, ei1, has_map hhr]
    constructor
    · rintro (e | e)
      · exact absurd e.symm ht
      · exact e
    · exact .inr
  have hnum : ∀ t : String, ascii t ≠ ascii "ihdr" →
      number (ih :: hrest) t = (g.header.filter fun x => x.1 == ascii t).length := by
    intro t ht
    rw [number_cons_ne (by rw [ei1]; exact fun e => ht e.symm), number_map hhr]
  have hcolr : Has (ih :: hrest) "colr" := by
    rw [hhas _ (by decide) (by decide)]
    obtain ⟨a, m, z, e, -, hm, hc, -⟩ := h.colour
    obtain ⟨x, m', rfl⟩ := List.exists_cons_of_ne_nil hm
    exact ⟨x, by simp [e], hc x (by simp)⟩
  -- the JP2 header passes
  have hheader : BoxPasses env o (ascii "jp2h") hd := by
    refine (C18_header env o hd).2 ⟨ih, hrest, hhb, ?_, ei1, ?_, ?_⟩
    · intro x hx
      rcases List.mem_cons.1 hx with rfl | hx
      · rw [ei1, ei2]; exact conforming_box (.ihdr h.ihdr)
      · exact conforming_box (h.header (x.type, x.payload) (hhr ▸ List.mem_map.2 ⟨x, hx, rfl⟩))
    · rw [has_map hhr]; exact h.oneIhdr
    refine ⟨?_, ?_, ?_, ?_, ?_, ?_, ?_, fun _ => hcolr, fun _ _ => hcolr, fun _ hn => absurd hcolr hn, ?_⟩
    · rw [hnum _ (by decide)]; exact h.once _ (by decide)
    · rw [hnum _ (by decide)]; exact h.once _ (by decide)
    · rw [hnum _ (by decide)]; exact h.once _ (by decide)
    · rw [hnum _ (by decide)]; exact h.once _ (by decide)
    · rw [hnum _ (by decide)]; exact h.once _ (by decide)
    · rw [hhas _ (by decide) (by decide), hhas _ (by decide) (by decide)]; exact h.palette
    · obtain ⟨a, m, z, e, ha, -, hc, hz⟩ := h.colour
      rw [e] at hhr
      obtain ⟨l1, z', rfl, hhr', mz⟩ := List.map_eq_append_iff.1 hhr
      obtain ⟨a', m', rfl, ma, mm⟩ := List.map_eq_append_iff.1 hhr'
      refine ⟨ih :: a', m', z', by simp, ?_, ?_, ?_⟩
      · rw [has_cons, has_map ma, ei1]
        rintro (e | e)
        · exact absurd e (by decide)
        · exact ha e
      · intro x hx
        exact hc (x.type, x.payload) (mm ▸ List.mem_map.2 ⟨x, hx, rfl⟩)
      · rw [has_map mz]; exact hz
    · rintro ⟨v, hv, hv2⟩
      rw [ei2] at hv
      obtain ⟨v', hv', hd'⟩ := h.depths
      rw [hv] at hv'; cases hv'
      rw [if_pos hv2] at hd'
      obtain ⟨x, hx, e, -⟩ := hd'
      rw [hhas _ (by decide) (by decide)]
      exact ⟨x, hx, e⟩
  have hcs : BoxPasses env o (ascii "jp2c") g.cs.bytes := by
    obtain ⟨k, nd, hk, hv⟩ := C50_codestream env o h.cs
    refine ⟨k + 1, ⟨"contiguousCodestreamBox", nd, none⟩, ?_, hv⟩
    have hbt : boxTypeOf (ascii "jp2c") = .contiguousCodestreamBox := by decide
    unfold validateBox
    rw [hbt, hk]
    rfl
  rw [C17_layout env o b hfmt]
  refine ⟨⟨sig, ft, pre, hdx, mid, csx, post, ih, hrest, g.cs.siz⟩, ?_⟩
  constructor
  · simpa [Layout.rest] using hb
  · intro x hx
    simp only [Layout.rest, List.mem_cons, List.mem_append] at hx
    rcases hx with rfl | rfl | hx | rfl | hx | rfl | hx
    · rw [es1, es2]; exact (passes_of fun fuel => C16_signature env o fuel _).2 rfl
    · rw [ef1, ef2]; exact (passes_of fun fuel => C16_ftyp env o fuel _).2 h.ftyp
    · exact conforming_box (hoth x (by simp [hx]))
    · rw [eh1, eh2]; exact hheader
    · exact conforming_box (hoth x (by simp [hx]))
    · rw [ec1, ec2]; exact hcs
    · exact conforming_box (hoth x (by simp [hx]))
  · exact es1
  · exact ef1
  · exact eh1
  · exact ec1
  · simp only [Layout.rest, has_append, has_cons, eh1, ec1]
    rintro (e | e | e | e | e)
    · exact npre.1 e
    · exact absurd e (by decide)
    · exact nmid.1 e
    · exact absurd e (by decide)
    · exact npost.1 e
  · simp only [Layout.rest, has_append, has_cons, eh1, ec1]
    rintro (e | e | e | e | e)
    · exact npre.2.1 e
    · exact absurd e (by decide)
    · exact nmid.2.1 e
    · exact absurd e (by decide)
    · exact npost.2.1 e
  · refine ⟨npre.2.2.1, ?_⟩
    simp only [has_append, has_cons, ec1]
    rintro (e | e | e)
    · exact nmid.2.2.1 e
    · exact absurd e (by decide)
    · exact npost.2.2.1 e
  · exact ⟨npre.2.2.2, nmid.2.2.2⟩
  · simp only [eh2]; exact hhb
  · simp only [ec2]
    refine ⟨_, segAt_here (pre := SOC) (post := segBytes g.cs.main ++ g.cs.tps.flatMap GenTilePart.bytes ++ EOC)
      (by simp [GenCodestream.bytes]) rfl (by decide) h.cs.sizLength⟩
  · intro hi
    simp only [ei2] at hi
    obtain ⟨x, hx, e⟩ := h.ipr hi
    rw [← mpre, ← mmid, ← mpost, ← List.map_append, ← List.map_append] at hx
    obtain ⟨y, hy, rfl⟩ := List.mem_map.1 hx
    refine ⟨y, ?_, e⟩
    simp only [Layout.rest, List.mem_cons, List.mem_append] at hy ⊢
    rcases hy with (hy | hy) | hy <;> simp [hy]
  · obtain ⟨hh, y, y0, h1, h2, h3, h4⟩ := h.height
    obtain ⟨w, x, x0, w1, w2, w3, w4⟩ := h.width
    obtain ⟨v, hv, hdp⟩ := h.depths
    simp only [ei2]
    refine ⟨hh, w, csiz, x, y, x0, y0, v, h1, w1, h.comps, hv, w2, h2, w3, h3, h4, w4, h.cs.comps, ?_, ?_⟩
    · intro hne
      rw [if_neg hne] at hdp
      exact hdp
    · intro he
      rw [if_pos he] at hdp
      obtain ⟨z, hz, e1, e2, e3⟩ := hdp
      rw [← hhr] at hz
      obtain ⟨z', hz', rfl⟩ := List.mem_map.1 hz
      exact ⟨z', by simp [hz'], e1, e2, e3⟩

/-! ## Reports -/

/-- Contents without failed tests are reported valid, whatever the name of the file. -/
theorem reported_of_fileValid {env : Env} {me : MixEnv} {fs : FS} {o : Options} {path : PyStr} {b : Bytes}
    (hr : fs.read path = .data b) (hs : ∃ n, fs.getsize path = .ok n) (hm : ∃ t, fs.modified path = .ok t)
    (h : FileValid env o b) : ∃ f0, ∀ fuel ≥ f0, ReportedValid env me fs fuel o 0 path := by
  obtain ⟨f0, n, h, hv⟩ := h
  refine ⟨f0, fun fuel hf => ?_⟩
  have h' := Le.ok (validateRoot_le env o hf b) h
  obtain ⟨sz, hs⟩ := hs
  obtain ⟨t, hm⟩ := hm
  obtain ⟨info, hi⟩ : ∃ info, fileInfo fs path = .ok info := by
    unfold fileInfo
    rw [hs, Outcome.bind_ok, hm, Outcome.bind_ok]
    exact ⟨_, rfl⟩
  obtain ⟨fmm, hfm⟩ : ∃ fmm, fileToMemoryMap fs path = .ok (b, fmm) := by
    unfold fileToMemoryMap
    rw [hr]
    cases b <;> exact ⟨_, rfl⟩
  have ha : analyse env fs o fuel path = .ok (analysisOf env n fmm) := by
    unfold analyse analyseTry
    rw [hfm, Outcome.bind_ok]
    simp only [h', Outcome.bind_ok]
    rfl
  refine ⟨_, checkOneFile_ok.2 ⟨info, _, [], hi, ha, rfl, rfl⟩, ?_⟩
  rw [verdict_eq (fileInfo_tag hi)]
  simp only [analysisOf, (isValid_iff n).2 hv]
  rfl

/-- C50: a file put together from conforming parts is reported valid: a JP2 or JPH file by boxes, a
codestream file by marker segments. -/
theorem C50_reported {env : Env} {me : MixEnv} {fs : FS} {o : Options} {path : PyStr} {b : Bytes} {csiz n : Nat}
    (hr : fs.read path = .data b) (hs : ∃ n, fs.getsize path = .ok n) (hm : ∃ t, fs.modified path = .ok t)
    (hc : (o.format = .jp2 ∨ o.format = .jph) ∧
        (∃ g : GenFile, g.Conforms env.catC o.format (fun d => (env.parseXml d).isSome = true) csiz n ∧ g.Encodes b) ∨
      (o.format = .j2c ∨ o.format = .jhc) ∧
        ∃ g : GenCodestream, g.Conforms env.catC o.format csiz n ∧ b = g.bytes) :
    ∃ f0, ∀ fuel ≥ f0, ReportedValid env me fs fuel o 0 path := by
  refine reported_of_fileValid hr hs hm ?_
  rcases hc with ⟨hf, g, h1, h2⟩ | ⟨hf, g, h1, rfl⟩
  · exact C50_file env o hf h1 h2
  · exact (C23_file env o _ hf).2 (C50_codestream env o h1)

/-! ## Images of all sizes -/

theorem uint_single {c : Bytes} {v : UInt8} {k : Nat} (h : c[k]? = some v) : uint c k 1 = some v.toNat := by
  obtain ⟨hk, rfl⟩ := List.getElem?_eq_some_iff.1 h
  unfold uint sub
  rw [if_pos (by omega), List.drop_eq_getElem_cons hk, List.take_succ_cons, List.take_zero]
  simp [be]

theorem uint_replicate {pre x : Bytes} {n k w v : Nat} (hx : uint x k w = some v) : ∀ {i : Nat}, i < n →
    uint (pre ++ (List.replicate n x).flatten) (pre.length + x.length * i + k) w = some v := by
  induction n generalizing pre with
  | zero => intro i hi; omega
  | succ n ih =>
    intro i hi
    cases i with
    | zero =>
      exact uint_part (pre := pre) (c := x) (post := (List.replicate n x).flatten)
        (by rw [List.replicate_succ, List.flatten_cons]) (by omega) hx
    | succ i =>
      have := ih (pre := pre ++ x) (i := i) (by omega)
      rw [List.replicate_succ, List.flatten_cons, ← List.append_assoc]
      rw [← this]
      congr 1
      rw [List.length_append, Nat.mul_succ]
      omega

section
variable {i : Image} (h : i.Ok)
include h

theorem image_tiles : 1 ≤ i.tiles := by
  unfold Image.tiles
  have h1 := h.width
  have h2 := h.height
  have h3 := h.tileWidth
  have h4 := h.tileHeight
  have a : 1 ≤ (i.width + i.tileWidth - 1) / i.tileWidth := by
    rw [Nat.le_div_iff_mul_le (by omega)]; omega
  have b : 1 ≤ (i.height + i.tileHeight - 1) / i.tileHeight := by
    rw [Nat.le_div_iff_mul_le (by omega)]; omega
  exact Nat.mul_pos a b

theorem image_siz :
    uint i.siz 0 2 = some (38 + 3 * i.comps) ∧ uint i.siz 2 2 = some 0 ∧ uint i.siz 4 4 = some i.width ∧
    uint i.siz 8 4 = some i.height ∧ uint i.siz 12 4 = some 0 ∧ uint i.siz 16 4 = some 0 ∧
    uint i.siz 20 4 = some i.tileWidth ∧ uint i.siz 24 4 = some i.tileHeight ∧
    uint i.siz 28 4 = some 0 ∧ uint i.siz 32 4 = some 0 ∧ uint i.siz 36 2 = some i.comps ∧
    ∀ k < i.comps, uint i.siz (38 + 3 * k) 1 = some (i.depth - 1) ∧ uint i.siz (38 + 3 * k + 1) 1 = some 1 ∧
      uint i.siz (38 + 3 * k + 2) 1 = some 1 := by
  obtain ⟨h1, h1'⟩ := h.width
  obtain ⟨h2, h2'⟩ := h.height
  obtain ⟨h3, h3'⟩ := h.tileWidth
  obtain ⟨h4, h4'⟩ := h.tileHeight
  obtain ⟨h5, h5'⟩ := h.comps
  obtain ⟨h6, h6'⟩ := h.depth
  unfold Image.siz
  refine ⟨?_, ?_, ?_, ?_, ?_, ?_, ?_, ?_, ?_, ?_, ?_, fun k hk => ?_⟩
  · exact uint_beBytes (pre := []) (by simp only [List.append_assoc, List.nil_append]; rfl) rfl (by omega)
  · exact uint_beBytes (pre := beBytes 2 (38 + 3 * i.comps)) (by simp only [List.append_assoc]; rfl)
      (by simp only [length_beBytes]) (by omega)
  · exact uint_beBytes (pre := beBytes 2 (38 + 3 * i.comps) ++ beBytes 2 0) (by simp only [List.append_assoc]; rfl)
      (by simp only [length_beBytes, List.length_append]) (by omega)
  · exact uint_beBytes (pre := beBytes 2 (38 + 3 * i.comps) ++ beBytes 2 0 ++ beBytes 4 i.width)
      (by simp only [List.append_assoc]; rfl) (by simp only [length_beBytes, List.length_append]) (by omega)
  · exact uint_beBytes (pre := beBytes 2 (38 + 3 * i.comps) ++ beBytes 2 0 ++ beBytes 4 i.width ++
      beBytes 4 i.height)
      (by simp only [List.append_assoc]; rfl) (by simp only [length_beBytes, List.length_append]) (by omega)
  · exact uint_beBytes (pre := beBytes 2 (38 + 3 * i.comps) ++ beBytes 2 0 ++ beBytes 4 i.width ++
      beBytes 4 i.height ++ beBytes 4 0)
      (by simp only [List.append_assoc]; rfl) (by simp only [length_beBytes, List.length_append]) (by omega)
  · exact uint_beBytes (pre := beBytes 2 (38 + 3 * i.comps) ++ beBytes 2 0 ++ beBytes 4 i.width ++
      beBytes 4 i.height ++ beBytes 4 0 ++ beBytes 4 0)
      (by simp only [List.append_assoc]; rfl) (by simp only [length_beBytes, List.length_append]) (by omega)
  · exact uint_beBytes (pre := beBytes 2 (38 + 3 * i.comps) ++ beBytes 2 0 ++ beBytes 4 i.width ++
      beBytes 4 i.height ++ beBytes 4 0 ++ beBytes 4 0 ++ beBytes 4 i.tileWidth)
      (by simp only [List.append_assoc]; rfl) (by simp only [length_beBytes, List.length_append]) (by omega)
  · exact uint_beBytes (pre := beBytes 2 (38 + 3 * i.comps) ++ beBytes 2 0 ++ beBytes 4 i.width ++
      beBytes 4 i.height ++ beBytes 4 0 ++ beBytes 4 0 ++ beBytes 4 i.tileWidth ++ beBytes 4 i.tileHeight)
      (by simp only [List.append_assoc]; rfl) (by simp only [length_beBytes, List.length_append]) (by omega)
  · exact uint_beBytes (pre := beBytes 2 (38 + 3 * i.comps) ++ beBytes 2 0 ++ beBytes 4 i.width ++
      beBytes 4 i.height ++ beBytes 4 0 ++ beBytes 4 0 ++ beBytes 4 i.tileWidth ++ beBytes 4 i.tileHeight ++ beBytes 4 0)
      (by simp only [List.append_assoc]; rfl) (by simp only [length_beBytes, List.length_append]) (by omega)
  · exact uint_beBytes (pre := beBytes 2 (38 + 3 * i.comps) ++ beBytes 2 0 ++ beBytes 4 i.width ++
      beBytes 4 i.height ++ beBytes 4 0 ++ beBytes 4 0 ++ beBytes 4 i.tileWidth ++ beBytes 4 i.tileHeight ++ beBytes 4 0 ++
      beBytes 4 0)
      (by simp only [List.append_assoc]; rfl) (by simp only [length_beBytes, List.length_append]) (by omega)
  · have hx : ∀ j v, uint (beBytes 1 (i.depth - 1) ++ [1, 1]) j 1 = some v →
        uint (beBytes 2 (38 + 3 * i.comps) ++ beBytes 2 0 ++ beBytes 4 i.width ++
      beBytes 4 i.height ++ beBytes 4 0 ++ beBytes 4 0 ++ beBytes 4 i.tileWidth ++ beBytes 4 i.tileHeight ++ beBytes 4 0 ++
      beBytes 4 0 ++ beBytes 2 i.comps ++ (List.replicate i.comps (beBytes 1 (i.depth - 1) ++ [1, 1])).flatten)
          (38 + 3 * k + j) 1 = some v := by
      intro j v hv
      have := uint_replicate (pre := beBytes 2 (38 + 3 * i.comps) ++ beBytes 2 0 ++ beBytes 4 i.width ++
        beBytes 4 i.height ++ beBytes 4 0 ++ beBytes 4 0 ++ beBytes 4 i.tileWidth ++ beBytes 4 i.tileHeight ++
        beBytes 4 0 ++ beBytes 4 0 ++ beBytes 2 i.comps) hv hk
      simpa only [length_beBytes, List.length_append, List.length_cons, List.length_nil] using this
    refine ⟨hx 0 _ ?_, hx 1 _ ?_, hx 2 _ ?_⟩
    · exact uint_beBytes (pre := []) (post := [1, 1]) rfl rfl (by omega)
    · exact uint_single (v := 1) rfl
    · exact uint_single (v := 1) rfl

theorem image_conforms (catC : Char → Bool) {fmt : Format} (hf : fmt = .jp2 ∨ fmt = .j2c) :
    i.codestream.Conforms catC fmt i.comps i.tiles := by
  obtain ⟨s0, s2, s4, s8, s12, s16, s20, s24, s28, s32, s36, s38⟩ := image_siz h
  have hlen : i.siz.length = 38 + 3 * i.comps := by
    simp only [Image.siz, List.length_append, length_beBytes, List.length_flatten, List.map_replicate,
      List.sum_replicate_nat, List.length_cons, List.length_nil]
    omega
  have h1 := h.width
  have h2 := h.height
  have h3 := h.tileWidth
  have h4 := h.tileHeight
  have h5 := h.comps
  have h6 := h.depth
  have hceil : ∀ a b : Nat, 1 ≤ b → 1 ≤ a → IsCeil ((a : Int) - (0 : Nat)) b ((a + b - 1) / b : Nat) := by
    intro a b hb ha
    have e := Nat.div_add_mod (a + b - 1) b
    have l := Nat.mod_lt (a + b - 1) (show 0 < b by omega)
    generalize (a + b - 1) / b = q at e
    generalize (a + b - 1) % b = r at e l
    unfold IsCeil
    have e' : ((b * q : Nat) : Int) + r = a + b - 1 := by omega
    rw [Int.natCast_mul] at e'
    rw [Int.mul_sub]
    constructor <;> omega
  constructor
  · refine ⟨⟨⟨0, s2, ?_⟩, ⟨_, s4, h1.1⟩, ⟨_, s8, h2.1⟩, ⟨_, s12, by decide⟩, ⟨_, s16, by decide⟩, ⟨_, s20, h3.1⟩,
      ⟨_, s24, h4.1⟩, ⟨_, s28, by decide⟩, ⟨_, s32, by decide⟩, ⟨_, s36, h5.1, h5.2, ⟨_, s0, rfl⟩, ?_⟩⟩, ⟨0, s2, ?_⟩⟩
    · rcases hf with rfl | rfl <;> simp [RsizOk]
    · intro k hk
      obtain ⟨c0, c1, c2⟩ := s38 k hk
      exact ⟨⟨_, c0, by omega⟩, ⟨_, c1, by omega⟩, ⟨_, c2, by omega⟩⟩
    · exact .inr (by decide)
  · exact ⟨_, s0, hlen.symm⟩
  · exact s36
  · refine ⟨⟨_, _, _, _, _, _, _, _, s4, s8, s20, s24, s28, s32, hceil _ _ h3.1 h1.1, hceil _ _ h4.1 h2.1, ?_⟩,
      image_tiles h, h.tiles⟩
    unfold Image.tiles
    exact Int.natCast_mul _ _
  · constructor
    · intro s hs
      simp only [Image.codestream, List.mem_cons, List.not_mem_nil, or_false] at hs
      rcases hs with rfl | rfl
      · refine ⟨by decide, .cod ⟨⟨0, by decide, by decide⟩, ⟨1, by decide, by decide⟩, ⟨0, by decide, by decide⟩,
          ⟨12, by decide, by decide, by decide, 0, by decide, 5, by decide, by decide, by decide, ?_⟩,
          ⟨4, by decide, 4, by decide, by decide, by decide, by decide⟩, ⟨1, by decide, by decide⟩⟩, 12, by decide, by decide⟩
        intro hb
        exact absurd hb (by decide)
      · exact ⟨by decide, .qcd ⟨⟨4, by decide, by decide⟩, ⟨0x40, by decide, by decide⟩⟩, 4, by decide, by decide⟩
    · exact List.nodup_nil
    · exact List.nodup_nil
  · exact ⟨(COD, [0, 12, 0, 0, 0, 1, 0, 5, 4, 4, 0, 1]), by simp [Image.codestream], rfl⟩
  · exact ⟨(QCD, [0, 4, 0x40, 0x48]), by simp [Image.codestream], rfl⟩
  · rintro ⟨v, hv, hb, -⟩
    simp only [Image.codestream] at hv
    rw [s2] at hv; cases hv
    exact absurd hb (by decide)
  · intro t ht
    simp only [Image.codestream, List.mem_map, List.mem_range] at ht
    obtain ⟨k, hk, rfl⟩ := ht
    have := h.data k hk
    refine ⟨hk, by simp, by simp, ?_, ⟨(fun s hs => nomatch hs), ?_, ?_⟩, (fun s hs => nomatch hs)⟩
    · simp only [GenTilePart.length, segBytes, List.flatMap_nil, List.length_nil]
      omega
    · exact List.nodup_nil
    · exact List.nodup_nil
  · intro k hk
    exact ⟨⟨k, 0, 1, [], i.data k⟩, List.mem_map.2 ⟨k, List.mem_range.2 hk, rfl⟩, rfl⟩
  · refine .inr fun t ht => ?_
    simp only [Image.codestream, List.mem_map, List.mem_range] at ht
    obtain ⟨k, hk, rfl⟩ := ht
    simp only [Image.codestream, List.filter_map, List.length_map]
    have hn : (List.range i.tiles).Nodup := List.nodup_range
    have := hn.count (a := k)
    rw [List.count_eq_countP, List.countP_eq_length_filter, if_pos (List.mem_range.2 hk)] at this
    exact this.symm

/-- C50 (images): the JP2 file of every image, of any size, tiling, number and depth of components and
with any packet data, is valid. -/
theorem C50_images (env : Env) (o : Options) (hf : o.format = .jp2) {b : Bytes} (he : i.file.Encodes b) :
    FileValid env o b := by
  refine C50_file env o (.inl hf) (csiz := i.comps) (n := i.tiles) (g := i.file) ?_ he
  obtain ⟨s0, s2, s4, s8, s12, s16, s20, s24, s28, s32, s36, s38⟩ := image_siz h
  have h1 := h.width
  have h2 := h.height
  have h5 := h.comps
  have h6 := h.depth
  have i0 : uint i.file.ihdr 0 4 = some i.height :=
    uint_beBytes (pre := []) (by simp only [Image.file, List.append_assoc, List.nil_append]; rfl) rfl (by omega)
  have i4 : uint i.file.ihdr 4 4 = some i.width :=
    uint_beBytes (pre := beBytes 4 i.height) (by simp only [Image.file, List.append_assoc]; rfl)
      (by simp only [length_beBytes]) (by omega)
  have i8 : uint i.file.ihdr 8 2 = some i.comps :=
    uint_beBytes (pre := beBytes 4 i.height ++ beBytes 4 i.width) (by simp only [Image.file, List.append_assoc]; rfl)
      (by simp only [length_beBytes, List.length_append]) (by omega)
  have i10 : uint i.file.ihdr 10 1 = some (i.depth - 1) :=
    uint_beBytes (pre := beBytes 4 i.height ++ beBytes 4 i.width ++ beBytes 2 i.comps)
      (by simp only [Image.file, List.append_assoc]; rfl)
      (by simp only [length_beBytes, List.length_append]) (by omega)
  have ilast : ∀ k v, uint ([7, 0, 0] : Bytes) k 1 = some v → uint i.file.ihdr (11 + k) 1 = some v := by
    intro k v hv
    exact uint_part (pre := beBytes 4 i.height ++ beBytes 4 i.width ++ beBytes 2 i.comps ++ beBytes 1 (i.depth - 1))
      (c := [7, 0, 0]) (post := []) (by simp only [Image.file, List.append_assoc, List.append_nil])
      (by simp only [length_beBytes, List.length_append]) hv
  have i11 := ilast 0 7 (by decide)
  have i12 := ilast 1 0 (by decide)
  have i13 := ilast 2 0 (by decide)
  have ilen : i.file.ihdr.length = 14 := by
    simp only [Image.file, List.length_append, length_beBytes, List.length_cons, List.length_nil]
  have hcol : (∀ k, ColrOk k o.format [1, 0, 0, 0, 0, 0, if i.comps < 3 then 17 else 16]) := by
    intro k
    rw [hf]
    refine ⟨⟨0, by split <;> decide, rfl⟩, ⟨0, by split <;> decide, rfl⟩, 1, by split <;> decide, .inl rfl, fun _ => ⟨rfl, ?_⟩,
      fun h => absurd h (by decide), fun h => absurd h (by decide)⟩
    split
    · exact ⟨17, by decide, by decide⟩
    · exact ⟨16, by decide, by decide⟩
  have noType : ∀ t : String, ascii t ≠ ascii "colr" → ¬ HasType i.file.header t := by
    rintro t ht ⟨x, hx, e⟩
    simp only [Image.file, List.mem_cons, List.not_mem_nil, or_false] at hx
    subst hx
    exact ht e.symm
  constructor
  · rw [hf]
    simp only [Image.file]
    refine ⟨by decide, ⟨0, by decide, rfl⟩, fun br hbr => ?_⟩
    cases hbr
    exact ⟨by decide, 0, by decide, by decide⟩
  · exact ⟨⟨ilen, ⟨_, i0, h2.1⟩, ⟨_, i4, h1.1⟩, ⟨_, i8, h5⟩, ⟨_, i11, rfl⟩, ⟨_, i12, by omega⟩, ⟨_, i13, by omega⟩⟩,
      ⟨_, i10, .inl (by omega)⟩⟩
  · intro x hx
    simp [Image.file] at hx
  · intro x hx
    simp only [Image.file, List.mem_cons, List.not_mem_nil, or_false] at hx
    subst hx
    exact .colr hcol
  · exact noType _ (by decide)
  · intro t ht
    exact Nat.le_trans (List.length_filter_le _ _) (by simp [Image.file])
  · exact ⟨fun hh => absurd hh (noType _ (by decide)), fun hh => absurd hh (noType _ (by decide))⟩
  · refine ⟨[], _, [], (by simp only [Image.file, List.nil_append, List.append_nil]; rfl),
      (fun ⟨_, hx, _⟩ => nomatch hx), by simp, ?_, (fun ⟨_, hx, _⟩ => nomatch hx)⟩
    intro x hx
    simp only [List.mem_cons, List.not_mem_nil, or_false] at hx
    subst hx
    rfl
  · rintro ⟨v, hv, hv1⟩
    have hv' : uint i.file.ihdr 13 1 = some v := hv
    rw [i13] at hv'; cases hv'
    cases hv1
  · exact image_conforms h env.catC (.inl hf)
  · exact ⟨_, _, _, i0, s8, s16, rfl⟩
  · exact ⟨_, _, _, i4, s4, s12, rfl⟩
  · exact i8
  · refine ⟨_, i10, ?_⟩
    show if i.depth - 1 = 255 then _ else _
    rw [if_neg (by omega)]
    exact fun k hk => (s38 k hk).1

end

/-- The hypotheses of `C50_images` can be met: a 640 × 480 image with three components and 256 × 256
tiles. -/
example : (⟨640, 480, 256, 256, 3, 8, fun _ => [1, 2, 3]⟩ : Image).Ok :=
  ⟨by decide, by decide, by decide, by decide, by decide, by decide, by decide, by decide⟩

end Jpy
