import Verif.Spec.Generate
import Verif.Props.Files
import Verif.Props.Walk
import Verif.Props.Packets
import Verif.Props.SegmentValues
import Verif.Props.Uuid
/-! # Byte strings put together from parts -/

set_option linter.unusedSimpArgs false

namespace Jpy
open Spec

theorem length_beBytes : ∀ (w v : Nat), (beBytes w v).length = w
  | 0, _ => rfl
  | w + 1, v => by simp [beBytes, length_beBytes w v]

theorem be_beBytes_mod : ∀ (w v : Nat), be (beBytes w v) = v % 256 ^ w
  | 0, v => by simp [beBytes, be, Nat.mod_one]
  | w + 1, v => by
    rw [beBytes, be, length_beBytes, be_beBytes_mod w v, Nat.pow_succ, Nat.mod_mul]
    have : (UInt8.ofNat (v / 256 ^ w % 256)).toNat = v / 256 ^ w % 256 := by
      simp
    rw [this, Nat.mul_comm (256 ^ w), Nat.add_comm]

theorem be_beBytes {w v : Nat} (h : v < 256 ^ w) : be (beBytes w v) = v := by
  rw [be_beBytes_mod, Nat.mod_eq_of_lt h]

/-- A field of a part is a field of the whole. -/
theorem uint_part {b pre c post : Bytes} {off k w v : Nat} (hb : b = pre ++ (c ++ post))
    (ho : off = pre.length + k) (h : uint c k w = some v) : uint b off w = some v := by
  subst hb ho
  have hle := uint_some_le h
  have hs : sub (pre ++ (c ++ post)) (pre.length + k) w = sub c k w := by
    unfold sub
    rw [← List.drop_drop, List.drop_left, List.drop_append_of_le_length (by omega)]
    exact List.take_append_of_le_length (by simp; omega)
  unfold uint at h ⊢
  rw [if_pos hle] at h
  rw [if_pos (by simp; omega), hs]
  exact h

/-- A number written in `w` bytes. -/
theorem uint_beBytes {b pre post : Bytes} {off w v : Nat} (hb : b = pre ++ (beBytes w v ++ post))
    (ho : off = pre.length) (hv : v < 256 ^ w) : uint b off w = some v := by
  rw [uint_mid' hb ho (length_beBytes w v).symm, be_beBytes hv]

/-- A marker segment whose length field is its length. -/
theorem segAt_here {b pre m c post : Bytes} (hb : b = pre ++ (m ++ (c ++ post))) (hm : m.length = 2)
    (hd : m ∉ delimiters) (hc : FieldIs c 0 2 (· = c.length)) :
    SegAt b pre.length m c (some (pre.length + 2 + c.length)) := by
  have h1 : sub b pre.length 2 = m := sub_mid' hb rfl hm.symm
  obtain ⟨L, hL, rfl⟩ := hc
  have h2 : uint b (pre.length + 2) 2 = some c.length :=
    uint_part (pre := pre ++ m) (c := c) (post := post) (k := 0) (by simp [hb]) (by simp [hm]) hL
  have h3 : sub b (pre.length + 2) c.length = c :=
    sub_mid' (pre := pre ++ m) (post := post) (by simp [hb]) (by simp [hm]) rfl
  have := SegAt.seg (b := b) (off := pre.length) (L := c.length) (by rw [h1]; exact hd) h2
  rwa [h1, h3] at this

theorem segBytes_cons (s : Bytes × Bytes) (l : List (Bytes × Bytes)) :
    segBytes (s :: l) = s.1 ++ s.2 ++ segBytes l := by simp [segBytes]

/-- The segments of a header that is followed by the marker `stop`. -/
theorem segsTo_gen {stop : Bytes} : ∀ (l : List (Bytes × Bytes)) {b pre rest : Bytes}
    (_ : b = pre ++ (segBytes l ++ rest))
    (_ : ∀ s ∈ l, s.1.length = 2 ∧ s.1 ∉ delimiters ∧ s.1 ≠ stop ∧ FieldIs s.2 0 2 (· = s.2.length))
    (_ : ∃ c n, SegAt b (pre.length + (segBytes l).length) stop c n),
    ∃ ss, SegsTo b stop pre.length ss (some (pre.length + (segBytes l).length)) ∧
      ss.map (fun x => (x.marker, x.contents)) = l
  | [], b, pre, rest, _, _, ⟨c, n, h⟩ => by
    simp only [segBytes, List.flatMap_nil, List.length_nil, Nat.add_zero] at h
    exact ⟨[], by simpa [segBytes] using SegsTo.found h, rfl⟩
  | s :: l, b, pre, rest, hb, hs, hstop => by
    obtain ⟨h1, h2, h3, h4⟩ := hs s (by simp)
    have hat : SegAt b pre.length s.1 s.2 (some (pre.length + 2 + s.2.length)) :=
      segAt_here (post := segBytes l ++ rest) (by rw [hb, segBytes_cons]; simp) h1 h2 h4
    have e : (pre ++ s.1 ++ s.2).length = pre.length + 2 + s.2.length := by simp [h1]; omega
    have e' : (pre ++ s.1 ++ s.2).length + (segBytes l).length = pre.length + (segBytes (s :: l)).length := by
      rw [segBytes_cons]; simp; omega
    obtain ⟨ss, h5, h6⟩ := segsTo_gen (stop := stop) l (b := b) (pre := pre ++ s.1 ++ s.2) (rest := rest)
      (by rw [hb, segBytes_cons]; simp) (fun x hx => hs x (by simp [hx])) (by rw [e']; exact hstop)
    rw [e'] at h5
    rw [e] at h5
    exact ⟨⟨pre.length, s.1, s.2⟩ :: ss, .step hat h3 h5, by simp [h6]⟩

/-- Conforming segments pass. -/
theorem conforming_passes {env : Env} {o : Options} {csiz : Nat} {m c : Bytes}
    (h : ConformingSeg env.catC o.format csiz m c) : SegPasses env o (some csiz) m c := by
  have noTests : ∀ {t : BoxType} {m c : Bytes}, boxTypeOf m = t → (∃ fuel ss, leaf env o fuel (some (csiz : Int)) t m c = .ok ss ∧
      allTrue ss = true) → SegPasses env o (some csiz) m c := by
    rintro t m c ht ⟨fuel, ss, h1, h2⟩
    exact ⟨fuel, (accepted_leaf env o fuel _ m c ht).2 ⟨ss, h1, h2⟩⟩
  cases h with
  | cod h => exact ⟨0, (C27_cod env o 0 _ c).2 h⟩
  | coc h => exact ⟨0, (C27_coc env o 0 _ c).2 h⟩
  | qcd h => exact ⟨0, (C28_qcd env o 0 _ c).2 h⟩
  | qcc h => exact ⟨0, (C28_qcc env o 0 _ c).2 h⟩
  | rgn h => exact ⟨0, (C29_rgn env o 0 _ c).2 h⟩
  | poc h => exact ⟨0, (C29_poc env o 0 _ c).2 h⟩
  | crg h => exact ⟨0, (C29_crg env o 0 _ c).2 h⟩
  | com h => exact ⟨0, (C30_com env o 0 _ c).2 h⟩
  | cap h =>
    refine ⟨0, (C31_cap_partial env o 0 _ c ?_).2 h⟩
    obtain ⟨_, _, _, h2, _⟩ := h
    exact uint_some_le h2
  | prf h1 h2 => exact ⟨0, (C32_prf_accepted env o 0 _ c).2 ⟨h1, h2⟩⟩
  | tlm => exact noTests (t := .tlm) (by decide) ⟨0, [], rfl, rfl⟩
  | ppm => exact noTests (t := .ppm) (by decide) ⟨0, [], rfl, rfl⟩
  | ppt => exact noTests (t := .ppt) (by decide) ⟨0, [], rfl, rfl⟩
  | @plm len z n es h2 hl hes =>
    obtain ⟨f0, hf⟩ := C13_plm_values env o (some csiz) len z n es hes h2 hl
    obtain ⟨r, hr, -⟩ := hf f0 (Nat.le_refl _)
    obtain ⟨ss, h3, rfl⟩ := (validateLeaf_ok (t := .plm) (by decide)).1 hr
    refine noTests (t := .plm) (by decide) ⟨f0, ss, h3, ?_⟩
    simp only [leaf, plm, Outcome.bind_eq_ok] at h3
    obtain ⟨s, -, h3⟩ := h3
    cases h3
    rfl
  | @plt len z es h2 hl hes =>
    obtain ⟨f0, hf⟩ := C13_plt_values env o (some csiz) len z es hes h2 hl
    obtain ⟨r, hr, -⟩ := hf f0 (Nat.le_refl _)
    obtain ⟨ss, h3, rfl⟩ := (validateLeaf_ok (t := .plt) (by decide)).1 hr
    refine noTests (t := .plt) (by decide) ⟨f0, ss, h3, ?_⟩
    simp only [leaf, plt, Outcome.bind_eq_ok] at h3
    obtain ⟨s, -, h3⟩ := h3
    cases h3
    rfl

/-- What a conforming header gives for the segments found. -/
theorem header_gen {env : Env} {o : Options} {csiz : Nat} {allowed : List Bytes} {l : List (Bytes × Bytes)}
    (h : ConformingHeader env.catC o.format csiz allowed l) {ss : List FoundSeg}
    (hs : ss.map (fun x => (x.marker, x.contents)) = l) :
    SegsPass env o csiz allowed ss ∧ OnePerComponent csiz ss COC ∧ OnePerComponent csiz ss QCC ∧
      ∀ m, HasSeg ss m ↔ ∃ s ∈ l, s.1 = m := by
  subst hs
  refine ⟨fun x hx _ => ?_, ?_, ?_, fun m => ?_⟩
  · exact conforming_passes (h.segs (x.marker, x.contents) (List.mem_map.2 ⟨x, hx, rfl⟩)).2.1
  · have := h.coc
    unfold EachComponentOnce at this
    rw [List.filter_map, List.map_map] at this
    unfold OnePerComponent
    simpa only [Function.comp_def] using this
  · have := h.qcc
    unfold EachComponentOnce at this
    rw [List.filter_map, List.map_map] at this
    unfold OnePerComponent
    simpa only [Function.comp_def] using this
  · constructor
    · rintro ⟨x, hx, rfl⟩
      exact ⟨_, List.mem_map.2 ⟨x, hx, rfl⟩, rfl⟩
    · rintro ⟨s, hs, rfl⟩
      obtain ⟨x, hx, rfl⟩ := List.mem_map.1 hs
      exact ⟨x, hx, rfl⟩

/-! ## Tile-parts -/

theorem length_tilePart (t : GenTilePart) : t.bytes.length = t.length := by
  simp [GenTilePart.bytes, GenTilePart.length, length_beBytes, SOT, SOD]; omega

/-- The tile-part found where one was written. -/
def foundAt (start : Nat) (t : GenTilePart) : TilePartInfo := ⟨start, t.index, t.length, t.part, t.parts⟩

theorem tilePart_at {catC fmt csiz n} {t : GenTilePart} (h : t.Conforms catC fmt csiz n) (hn : n ≤ 65535)
    {b pre post : Bytes} (hb : b = pre ++ (t.bytes ++ post)) : (foundAt pre.length t).At b := by
  have hl := h.length
  have h1 := h.index
  have h2 := h.part
  have h3 := h.parts
  have hb : b = pre ++ (SOT ++ (beBytes 2 10 ++ (beBytes 2 t.index ++ (beBytes 4 t.length ++
      (beBytes 1 t.part ++ (beBytes 1 t.parts ++ (segBytes t.segs ++ SOD ++ t.data ++ post))))))) := by
    rw [hb]; simp [GenTilePart.bytes]
  constructor
  · exact sub_mid' hb rfl rfl
  · exact uint_beBytes (pre := pre ++ SOT) (by rw [hb]; simp only [List.append_assoc, foundAt]; rfl) (by simp [SOT, foundAt]) (by decide)
  · exact uint_beBytes (pre := pre ++ SOT ++ beBytes 2 10) (by rw [hb]; simp only [List.append_assoc, foundAt]; rfl)
      (by simp [SOT, foundAt, length_beBytes]) (by simp [foundAt]; omega)
  · exact uint_beBytes (pre := pre ++ SOT ++ beBytes 2 10 ++ beBytes 2 t.index) (by rw [hb]; simp only [List.append_assoc, foundAt]; rfl)
      (by simp [SOT, foundAt, length_beBytes]) (by simp [foundAt]; omega)
  · exact uint_beBytes (pre := pre ++ SOT ++ beBytes 2 10 ++ beBytes 2 t.index ++ beBytes 4 t.length)
      (by rw [hb]; simp only [List.append_assoc, foundAt]; rfl) (by simp [SOT, foundAt, length_beBytes]) (by simp [foundAt]; omega)
  · exact uint_beBytes (pre := pre ++ SOT ++ beBytes 2 10 ++ beBytes 2 t.index ++ beBytes 4 t.length ++
      beBytes 1 t.part) (by rw [hb]; simp only [List.append_assoc, foundAt]; rfl) (by simp [SOT, foundAt, length_beBytes])
      (by simp [foundAt]; omega)

theorem tilePart_ok {env : Env} {o : Options} {csiz n : Nat} {t : GenTilePart}
    (h : t.Conforms env.catC o.format csiz n) (hn : n ≤ 65535) {b pre post : Bytes}
    (hb : b = pre ++ (t.bytes ++ post))
    (hnext : sub b (pre.length + t.length) 2 = SOT ∨ sub b (pre.length + t.length) 2 = EOC) :
    (foundAt pre.length t).Ok env o csiz b := by
  have h1 := h.index
  refine ⟨tilePart_at h hn hb, ?_, ?_, h.part, ?_, fun _ => hnext⟩
  · show t.index ≤ 65534
    omega
  · right
    show 14 ≤ t.length
    unfold GenTilePart.length
    omega
  · have hpre : (pre ++ SOT ++ beBytes 2 10 ++ beBytes 2 t.index ++ beBytes 4 t.length ++ beBytes 1 t.part ++
        beBytes 1 t.parts).length = pre.length + 12 := by simp [SOT, length_beBytes]
    obtain ⟨ss, hs1, hs2⟩ := segsTo_gen (stop := SOD) t.segs (b := b) (pre := pre ++ SOT ++ beBytes 2 10 ++
        beBytes 2 t.index ++ beBytes 4 t.length ++ beBytes 1 t.part ++ beBytes 1 t.parts)
      (rest := SOD ++ t.data ++ post) (by rw [hb]; simp [GenTilePart.bytes]) (fun s hs => by
        obtain ⟨ha, -, hf⟩ := h.header.segs s hs
        refine ⟨?_, ?_, ?_, hf⟩ <;> revert ha <;> generalize s.1 = m <;> revert m <;> decide) (by
        have : sub b ((pre ++ SOT ++ beBytes 2 10 ++ beBytes 2 t.index ++ beBytes 4 t.length ++
            beBytes 1 t.part ++ beBytes 1 t.parts).length + (segBytes t.segs).length) 2 = SOD :=
          sub_mid' (x := SOD) (pre := pre ++ SOT ++ beBytes 2 10 ++ beBytes 2 t.index ++ beBytes 4 t.length ++
              beBytes 1 t.part ++ beBytes 1 t.parts ++ segBytes t.segs) (post := t.data ++ post)
              (by rw [hb]; simp [GenTilePart.bytes]) (by simp only [List.length_append]) rfl
        have h2 := SegAt.alone (b := b) (off := (pre ++ SOT ++ beBytes 2 10 ++ beBytes 2 t.index ++
            beBytes 4 t.length ++ beBytes 1 t.part ++ beBytes 1 t.parts).length + (segBytes t.segs).length)
            (by rw [this]; decide)
        rw [this] at h2
        exact ⟨_, _, h2⟩)
    rw [hpre] at hs1
    obtain ⟨g1, g2, g3, g4⟩ := header_gen h.header hs2
    refine ⟨ss, _, hs1, g1, fun m hm hh => ?_, g2, g3⟩
    obtain ⟨s, hs, rfl⟩ := (g4 m).1 hh
    exact h.first s hs hm

theorem visited_gen {env : Env} {o : Options} {csiz n : Nat} (hn : n ≤ 65535) : ∀ (tps : List GenTilePart)
    {b pre : Bytes} (_ : b = pre ++ (tps.flatMap GenTilePart.bytes ++ EOC))
    (_ : ∀ t ∈ tps, t.Conforms env.catC o.format csiz n),
    (sub b pre.length 2 = if tps = [] then EOC else SOT) ∧
    ∃ ts, Visited b n pre.length ts ∧ (∀ t ∈ ts, t.Ok env o csiz b) ∧
      ts.map (fun t => (t.index, t.parts)) = tps.map fun t => (t.index, t.parts)
  | [], b, pre, hb, _ => by
    have : sub b pre.length 2 = EOC := sub_mid' (x := EOC) (post := []) (by rw [hb]; simp) rfl rfl
    refine ⟨by simp [this], [], .done ?_, by simp, rfl⟩
    rw [this]; decide
  | t :: tps, b, pre, hb, hc => by
    have ht := hc t (by simp)
    have hb1 : b = pre ++ (t.bytes ++ (tps.flatMap GenTilePart.bytes ++ EOC)) := by rw [hb]; simp
    have hat := tilePart_at ht hn hb1
    have e : (pre ++ t.bytes).length = pre.length + t.length := by rw [List.length_append, length_tilePart]
    obtain ⟨h1, ts, h2, h3, h4⟩ := visited_gen hn tps (b := b) (pre := pre ++ t.bytes) (by rw [hb1]; simp)
      (fun x hx => hc x (by simp [hx]))
    rw [e] at h1 h2
    refine ⟨by rw [if_neg (by simp)]; exact hat.marker, foundAt pre.length t :: ts, ?_, ?_, ?_⟩
    · refine .step hat ?_ ?_ h2
      · have := ht.index
        show (t.index : Int) < n
        omega
      · show t.length ≠ 0
        unfold GenTilePart.length
        omega
    · intro x hx
      rcases List.mem_cons.1 hx with rfl | hx
      · refine tilePart_ok ht hn hb1 ?_
        rw [h1]
        split <;> simp
      · exact h3 x hx
    · simp [h4, foundAt]

end Jpy
