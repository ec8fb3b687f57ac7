import Verif.Props.Fields
import Verif.Props.Walk
import Verif.Props.Codestream
import Verif.Props.Uuid
import Verif.Props.SegmentValues
import Verif.Props.Packets
import Verif.Props.Exact
import Verif.Spec.Shows
import Verif.Lemmas.Sample
/-!
# C54: the report mirrors the file, with its values
-/

set_option linter.unusedSimpArgs false
set_option linter.unusedVariables false

namespace Jpy
open Spec

/-- More fuel does not change a result. -/
theorem leaf_same {env : Env} {o : Options} {f g : Nat} {csiz m c r r'} (h : validateLeaf env o f csiz m c = .ok r)
    (h' : validateLeaf env o (max g f) csiz m c = .ok r') : r = r' := by
  rcases validateLeaf_le env o (Nat.le_max_right g f) csiz m c with e | e <;> rw [h] at e
  · cases e
  · rw [h'] at e
    cases e
    rfl

/-- The elements for an XML document. -/
theorem xmlSteps_shows (env : Env) (o : Options) (b : Bytes) :
    ShowsXml env o b (charsOf (xmlSteps env o.nullxml b)) := by
  unfold xmlSteps
  refine ⟨fun doc hd => by rw [hd]; rfl, fun hn hf => by rw [hn, hf]; rfl, fun hn hf => ?_⟩
  rw [hn, hf]
  obtain ⟨n, hd, hl⟩ := strip_decomp b
  refine ⟨_, n, hd, hl, ?_⟩
  simp only [if_true]
  cases env.parseXml (removeNullTerminator b) <;> rfl

/-- The values of a marker segment. -/
theorem seg_values {env o fuel} {csiz : Nat} {m c r}
    (h : validateLeaf env o fuel (some (csiz : Int)) m c = .ok r) :
    SegValues env o.format csiz m c r.node.chars where
  siz := by rintro rfl; exact C53_siz _ _ _ _ _ _ h
  cod := by rintro rfl; exact C53_cod _ _ _ _ _ _ h
  coc := by rintro rfl; exact C53_coc _ _ _ _ _ _ h
  rgn := by rintro rfl; exact C53_rgn _ _ _ _ _ _ h
  qcd := by rintro rfl; exact C53_qcd _ _ _ _ _ _ h
  qcc := by rintro rfl; exact C53_qcc _ _ _ _ _ _ h
  poc := by rintro rfl; exact C53_poc _ _ _ _ _ _ h
  crg := by rintro rfl; exact C53_crg _ _ _ _ _ _ h
  com := by rintro rfl; exact C53_com _ _ _ _ _ _ h
  cap := by rintro rfl; exact C53_cap _ _ _ _ _ _ h
  prf := by rintro rfl; exact C53_prf _ _ _ _ _ _ h
  cpf := by rintro rfl; exact C53_cpf _ _ _ _ _ _ h
  plm := by rintro rfl; exact C53_plm _ _ _ _ _ _ h
  plt := by rintro rfl; exact C53_plt _ _ _ _ _ _ h
  capability := by rintro rfl n s hn hs; exact C53_capability _ _ _ _ _ _ h hn hs
  parts := by rintro rfl p hp; exact C31_cap_values _ _ _ _ _ _ _ h hp
  codPrecincts := by rintro rfl st lv h1 h2; exact C27_cod_precincts _ _ _ _ _ _ _ _ h h1 h2
  cocPrecincts := by rintro rfl st lv h1 h2; exact C27_coc_precincts _ _ _ _ _ _ _ _ h h1 h2
  steps := by rintro rfl l s h1 h2; exact (C28_qcd_values_partial _ _ _ _ _ _ _ _ h h1 h2).2.2
  stepsComponent := by rintro rfl l s h1 h2; exact (C28_qcc_values _ _ _ _ _ _ _ _ h h1 h2).2.2
  comment := by rintro rfl l s h1 h2; exact C30_comment_value _ _ _ _ _ _ _ _ h h1 h2
  prfNumber := by rintro rfl l p h1 h2; exact (C32_prf_number_exact _ _ _ _ _ _ _ _ h h1 h2).1
  cpfNumber := by rintro rfl l p h1 h2; exact (C32_cpf_number_exact _ _ _ _ _ _ _ _ h h1 h2).1
  packets := by
    rintro rfl len z ps rfl h2 hl hp
    obtain ⟨f0, hf⟩ := C13_plt_values env o (some (csiz : Int)) len z ps hp h2 hl
    obtain ⟨r', h3, h4⟩ := hf (max f0 fuel) (by omega)
    cases (leaf_same h h3)
    exact h4
  packetsMain := by
    rintro rfl len z n ps rfl h2 hl hp
    obtain ⟨f0, hf⟩ := C13_plm_values env o (some (csiz : Int)) len z n ps hp h2 hl
    obtain ⟨r', h3, h4⟩ := hf (max f0 fuel) (by omega)
    cases (leaf_same h h3)
    exact h4

/-- The values of a box. -/
theorem box_values {env o fuel t p r} (h : validateBox env o (fuel + 1) t p = .ok r) :
    BoxValues env o t p r.node.chars where
  ftyp := by rintro rfl; exact C53_ftyp _ _ _ _ _ h
  ihdr := by rintro rfl; exact C53_ihdr _ _ _ _ _ h
  bpcc := by rintro rfl; exact C53_bpcc _ _ _ _ _ h
  cmap := by rintro rfl; exact C53_cmap _ _ _ _ _ h
  cdef := by rintro rfl; exact C53_cdef _ _ _ _ _ h
  pclr := by rintro rfl; exact C53_pclr _ _ _ _ _ h
  colr := by rintro rfl; exact C53_colr _ _ _ _ _ h
  resc := by rintro rfl; exact C53_resc _ _ _ _ _ h
  resd := by rintro rfl; exact C53_resd _ _ _ _ _ h
  url := by rintro rfl; exact C53_url _ _ _ _ _ h
  profile := by rintro rfl hm; exact C53_icc_text _ _ _ _ _ h hm
  entries := by rintro rfl nE nPC w h1 h2 h3 h4; exact C36_palette_values _ _ _ _ _ _ _ _ h h1 h2 h3 h4
  columns := by rintro rfl nE nPC w h1 h2 h3; exact C36_palette_values_exact _ _ _ _ _ _ _ _ h h1 h2 h3
  resolution := by
    intro x ht hr vN vD hN hD vE hE h0 h2 h4 h6 h8 h9
    exact C34_res_values _ _ _ _ _ _ ht _ h hr _ _ _ _ _ _ h0 h2 h4 h6 h8 h9
  xml := by
    rintro rfl
    obtain ⟨ss, h1, rfl⟩ := (validateBox_ok (t := .xmlBox) (by decide) rfl).1 h
    cases h1
    rw [run_chars]
    exact xmlSteps_shows _ _ _
  uuid := by
    rintro rfl hx
    obtain ⟨ss, h1, rfl⟩ := (validateBox_ok (t := .uuidBox) (by decide) rfl).1 h
    simp only [leaf, uuidBox] at h1
    rw [slice_at p 0 16 (x := 0) (y := 16) rfl rfl, sub_zero,
      show slice p 16 (p.length : Int) = p.drop 16 from slice_to_end p 16] at h1
    by_cases hl : 16 ≤ p.length
    · have ht : (p.take 16).length = 16 := by simp; omega
      rw [uuidStr_ok ht] at h1
      simp only [Outcome.bind_ok, Outcome.ok.injEq, uuidText_eq_xmp ht, if_neg hx] at h1
      subst h1
      rw [run_chars]
      exact ⟨_, uuidText_isUuidText ht, rfl⟩
    · rw [uuidStr_raised (by simp; omega)] at h1
      cases h1
  xmp := by
    rintro rfl hx
    obtain ⟨ss, h1, rfl⟩ := (validateBox_ok (t := .uuidBox) (by decide) rfl).1 h
    simp only [leaf, uuidBox] at h1
    rw [slice_at p 0 16 (x := 0) (y := 16) rfl rfl, sub_zero,
      show slice p 16 (p.length : Int) = p.drop 16 from slice_to_end p 16] at h1
    by_cases hl : 16 ≤ p.length
    · have ht : (p.take 16).length = 16 := by simp; omega
      rw [uuidStr_ok ht] at h1
      simp only [Outcome.bind_ok, Outcome.ok.injEq, uuidText_eq_xmp ht, if_pos hx] at h1
      subst h1
      rw [run_chars]
      exact xmlSteps_shows _ _ _
    · rw [uuidStr_raised (by simp; omega)] at h1
      cases h1
  uuids := by rintro rfl n hn; exact C37_ulst_values _ _ _ _ _ _ h hn
  location := by rintro rfl; exact C38_url_value _ _ _ _ _ h
  unknown := by
    intro hl hk
    obtain ⟨r', h1, -, h2, -⟩ := C42_unknown env o fuel t p hk (not_marker_of_length (by omega))
    rw [h1] at h
    cases h
    exact h2

theorem seg_name {m : Bytes} (h : m ∈ mainSegments ∨ m ∈ tilePartSegments ∨ m = SIZ) :
    (m, (boxTypeOf m).name) ∈ segNames := by
  have h1 : ∀ m ∈ mainSegments, (m, (boxTypeOf m).name) ∈ segNames := by decide +kernel
  have h2 : ∀ m ∈ tilePartSegments, (m, (boxTypeOf m).name) ∈ segNames := by decide +kernel
  rcases h with h | h | rfl
  · exact h1 m h
  · exact h2 m h
  · decide +kernel

/-- The elements for the segments of a header. -/
theorem shows_segs {env o fuel} {csiz : Nat} {l q : List Bytes}
    (hl : ∀ m ∈ l, m ∈ mainSegments ∨ m ∈ tilePartSegments)
    (hq : ∀ m ∈ l, (m ∈ packetSegments ↔ m ∈ q)) : ∀ (ss : List FoundSeg) (rs) (n : Node),
    inTurn (segRun (segV env o fuel) (some (csiz : Int))) (ss.filter fun x => decide (x.marker ∈ l)) = .ok rs →
    ∃ es, (absorbSegs o.packetmarkers q n rs).chars = n.chars ++ es ∧ ShowsSegs env o csiz l ss es
  | [], rs, n, h => by
    cases h
    exact ⟨[], by simp [absorbSegs], .nil⟩
  | x :: ss, rs, n, h => by
    rw [List.filter_cons] at h
    by_cases hx : x.marker ∈ l
    · rw [if_pos (decide_eq_true hx)] at h
      obtain ⟨y, hy, h⟩ := Outcome.bind_eq_ok.1 h
      obtain ⟨ys, hys, h⟩ := Outcome.bind_eq_ok.1 h
      cases h
      obtain ⟨y1, y2⟩ := y
      obtain ⟨e1, hy⟩ := segRun_ok.1 hy
      simp only at e1
      subst e1
      have hn : (x.marker, y2.charsElem.tag) ∈ segNames := by
        have := seg_name ((hl _ hx).imp_right Or.inl)
        rw [← validateLeaf_tag hy] at this
        exact this
      have hrec := fun n => shows_segs hl hq ss ys n hys
      show ∃ es, (absorbSegs o.packetmarkers q (if x.marker ∈ q then n.absorbPacket o.packetmarkers y2
        else n.absorb y2) ys).chars = _ ∧ _
      by_cases hp : x.marker ∈ q
      · rw [if_pos hp]
        unfold Node.absorbPacket
        by_cases hpm : o.packetmarkers = true
        · rw [if_pos hpm]
          obtain ⟨es, h1, h2⟩ := hrec (n.absorb y2)
          refine ⟨y2.charsElem :: es, by rw [h1, absorb_chars]; simp, ?_⟩
          exact .show hx (fun _ => hpm) hn (seg_values hy) h2
        · rw [if_neg hpm]
          obtain ⟨es, h1, h2⟩ := hrec (n.absorbQuiet y2)
          refine ⟨es, h1, .skip (.inr ⟨(hq _ hx).2 hp, by simpa using hpm⟩) h2⟩
      · rw [if_neg hp]
        obtain ⟨es, h1, h2⟩ := hrec (n.absorb y2)
        refine ⟨y2.charsElem :: es, by rw [h1, absorb_chars]; simp, ?_⟩
        exact .show hx (fun hm => absurd ((hq _ hx).1 hm) hp) hn (seg_values hy) h2
    · rw [if_neg (by simpa using hx)] at h
      obtain ⟨es, h1, h2⟩ := shows_segs hl hq ss rs n h
      exact ⟨es, h1, .skip (.inl hx) h2⟩

/-- The segment at the start of a tile-part. -/
theorem segAt_of_at {b : Bytes} {t : TilePartInfo} (ht : t.At b) :
    SegAt b t.start mSOT (sub b (t.start + 2) 10) (some (t.start + 12)) := by
  obtain ⟨c, n, hs⟩ := segAt_sot ht.marker
  have hm := hs
  generalize e : mSOT = mm at hs
  cases hs with
  | alone hd => rw [show sub b t.start 2 = mSOT from ht.marker] at hd; exact absurd hd (by decide)
  | noLength hd hl => rw [ht.segLength] at hl; cases hl
  | @seg L hd hL =>
    rw [ht.segLength] at hL
    cases hL
    rw [← e]
    exact hm

/-- The state at the start of the header of a tile-part. -/
def tpStart (v : Bool) (c : Bytes) (n : Nat) : TPState :=
  { node := sotNode v c, pltCount := 0, pptCount := 0, marker := mSOT, offset := n, offsetNext := n }

/-- The element for a tile-part. -/
theorem shows_tilePart {env o fuel} {csiz : Nat} {b : Bytes} {t : TilePartInfo} (ht : t.At b) {r}
    (h : tilePart env o fuel (some (csiz : Int)) (t.start : Nat) b = .ok r) :
    ShowsTilePart env o csiz b t r.charsElem ∧
    Elem.findElementText r.node.chars ["sot", "isot"] = some (.int t.index) ∧
    r.returnOffset = some ((t.start : Int) + t.length) := by
  have hs := segAt_of_at ht
  rw [tilePart_unfold hs] at h
  obtain ⟨s, hl, hr⟩ := Outcome.bind_eq_ok.1 h
  cases hr
  obtain ⟨ss, e, hse⟩ := segsTo_exists b mSOD _ (t.start + 12) (Nat.le_refl _)
  obtain ⟨s0, hs0, heq⟩ := tilePart_eq (env := env) (o := o) (csiz := csiz) hs hse (fuel := fuel)
    (lf := fuel + ss.length + 2) (by omega)
  have hl' := (tpLoop_le (seg1 := segV env o fuel) (fun _ _ _ => .refl _) o.packetmarkers
    (some (csiz : Int)) b _ (show fuel ≤ fuel + ss.length + 2 by omega)).ok hl
  simp only [intOf] at hl'
  have hl2 := tpLoop_eq (seg := segV env o fuel) (pm := o.packetmarkers) (csiz := some (csiz : Int)) hse
    (fuel := fuel + ss.length + 2) (s := tpStart o.verbose (sub b (t.start + 2) 10) (t.start + 12)) (by omega)
    (by simp only [tpStart]; decide) (by simp only [tpStart]; omega) rfl
  have hl' := hl2.symm.trans hl'
  obtain ⟨rs, hrs, he⟩ := Outcome.bind_eq_ok.1 hl'
  cases he
  obtain ⟨es, h1, h2⟩ := shows_segs (l := tilePartSegments) (q := [mPLT, mPPT]) (fun m hm => Or.inr hm)
    (by decide +kernel) ss rs (sotNode o.verbose (sub b (t.start + 2) 10)) hrs
  have hidx : uint (sub b (t.start + 2) 10) 2 2 = some t.index := by
    rw [uint_sub (by omega) (by omega)]; exact ht.index
  have hlen : uint (sub b (t.start + 2) 10) 4 4 = some t.length := by
    rw [uint_sub (by omega) (by omega)]; exact ht.length
  refine ⟨?_, ?_, ?_⟩
  · have hch : (tpResult o b t.start (intOf (uint (sub b (t.start + 2) 10) 4 4)) (tpEnd o.packetmarkers
        (tpStart o.verbose (sub b (t.start + 2) 10) (t.start + 12)) ss e rs)).charsElem = .node "tilePart" (.node "sot"
          (Node.run o.verbose {} (sot (sub b (t.start + 2) 10))).chars :: (es ++
        [.leaf "pltCount" (.int (segNumber PLT ss)), .leaf "pptCount" (.int (segNumber PPT ss))])) := by
      unfold tpResult BoxResult.charsElem tpFinish
      simp only [testIf_chars, Node.addChar, testFor_chars, tpEnd, tpStart, h1, Nat.zero_add, List.append_assoc]
      rfl
    rw [hch]
    exact .mk rfl (C53_sot _ _) hse h2
  · rw [tpResult_text (s0 := tpStart o.verbose (sub b (t.start + 2) 10) (t.start + 12))
      hrs rfl (sot_fields _).1, hidx]
    rfl
  · rw [hlen]; rfl

/-- The elements for the tile-parts that are visited. -/
theorem shows_tileParts {env o f} {csiz : Nat} {b : Bytes} {n : Int} {off ts} (hv : Visited b n off ts) :
    ∀ fuel s s', tileLoop (fun x => tilePart env o f (some (csiz : Int)) x b) b fuel s = .ok s' →
    s.marker = mSOT → s.offset = ((off : Nat) : Int) → s.found.length = n.toNat →
    ∃ es, s'.node.chars = s.node.chars ++ es ∧ ShowsTileParts env o csiz b ts es := by
  induction hv with
  | @done off hx =>
    intro fuel s s' h hm ho hn
    cases fuel with
    | zero => cases h
    | succ fuel =>
      rw [tileLoop, if_pos hm, ho, slice2] at h
      simp only [] at h
      rw [if_neg (show ¬ sub b off 2 = mSOT from hx)] at h
      cases h
      exact ⟨[], by simp, .nil⟩
  | @last t ht hlast =>
    intro fuel s s' h hm ho hn
    cases fuel with
    | zero => cases h
    | succ fuel =>
      rw [tileLoop, if_pos hm, ho, slice2] at h
      simp only [] at h
      rw [if_pos (show sub b t.start 2 = mSOT from ht.marker)] at h
      obtain ⟨r, hr, h⟩ := Outcome.bind_eq_ok.1 h
      obtain ⟨isot, hi, h⟩ := Outcome.bind_eq_ok.1 h
      obtain ⟨tnsot, htn, h⟩ := Outcome.bind_eq_ok.1 h
      obtain ⟨h1, h2, h3⟩ := shows_tilePart ht hr
      rw [h2] at hi
      cases hi
      rw [h3] at h
      refine ⟨[r.charsElem], ?_, .cons h1 .nil⟩
      by_cases hin : 0 ≤ (t.index : Int) ∧ (t.index : Int) < (s.found.length : Int)
      · rw [if_pos hin] at h
        have : t.length = 0 := by rcases hlast with h | h <;> omega
        rw [if_neg (by simp [this])] at h
        cases h
        rfl
      · rw [if_neg hin] at h
        cases h
        rfl
  | @step t ts ht hlt hne _ ih =>
    intro fuel s s' h hm ho hn
    cases fuel with
    | zero => cases h
    | succ fuel =>
      rw [tileLoop, if_pos hm, ho, slice2] at h
      simp only [] at h
      rw [if_pos (show sub b t.start 2 = mSOT from ht.marker)] at h
      obtain ⟨r, hr, h⟩ := Outcome.bind_eq_ok.1 h
      obtain ⟨isot, hi, h⟩ := Outcome.bind_eq_ok.1 h
      obtain ⟨tnsot, htn, h⟩ := Outcome.bind_eq_ok.1 h
      obtain ⟨h1, h2, h3⟩ := shows_tilePart ht hr
      rw [h2] at hi
      cases hi
      rw [h3] at h
      rw [if_pos (by omega), if_pos (by simp only [Option.getD_some]; omega)] at h
      obtain ⟨es, h4, h5⟩ := ih _ _ _ h ht.marker (by simp) (by rw [List.length_modify]; exact hn)
      refine ⟨r.charsElem :: es, ?_, .cons h1 h5⟩
      rw [h4, absorb_chars]; simp

theorem cs_finish_chars {o : Options} {b : Bytes} {sizChars : List Elem} {nTiles : Int} {node : Node}
    {t : TileState} {n : Node} (h : codestreamFinish o b sizChars nTiles node t = .ok n) :
    ∃ ratio, n.chars = node.chars ++ [.node "tileParts" t.node.chars] ++ ratio ∧
      (o.format = .jp2 ∨ o.format = .jph → ratio = []) ∧
      (o.format = .j2c ∨ o.format = .jhc → ∃ v, ratio = [.leaf "compressionRatio" v]) := by
  unfold codestreamFinish at h
  simp only at h
  split at h
  · rename_i hf
    obtain ⟨depths, h1, h⟩ := Outcome.bind_eq_ok.1 h
    obtain ⟨y, h2, h⟩ := Outcome.bind_eq_ok.1 h
    obtain ⟨y', h3, h⟩ := Outcome.bind_eq_ok.1 h
    obtain ⟨x, h4, h⟩ := Outcome.bind_eq_ok.1 h
    obtain ⟨x', h5, h⟩ := Outcome.bind_eq_ok.1 h
    cases h
    refine ⟨[.leaf "compressionRatio" (compressionRatio b.length depths (y - y') (x - x'))], ?_, ?_,
      fun _ => ⟨_, rfl⟩⟩
    · simp only [Node.addChar, testFor_chars, testIf_chars, Node.absorb]
      rfl
    · intro hf'
      rcases hf with e | e <;> rw [e] at hf' <;> simp at hf'
  · rename_i hf
    cases h
    refine ⟨[], ?_, fun _ => rfl, fun h => absurd h hf⟩
    simp only [Node.addChar, testFor_chars, testIf_chars, Node.absorb, List.append_nil]
    rfl

theorem siz_shows_tiles {env o fuel csiz c r} (h : validateLeaf env o fuel csiz mSIZ c = .ok r)
    {k : Nat} (hk : uint c 36 2 = some k) :
    ∃ v, reported r.node "numberOfTiles" = [.int v] ∧
      (FieldIs c 20 4 (1 ≤ ·) → FieldIs c 24 4 (1 ≤ ·) → TileCount c v) := by
  have hlen := uint_some_le hk
  obtain ⟨v4, h4⟩ : ∃ v, uint c 4 4 = some v := ⟨_, uint_pos (by omega)⟩
  obtain ⟨v8, h8⟩ : ∃ v, uint c 8 4 = some v := ⟨_, uint_pos (by omega)⟩
  obtain ⟨v20, h20⟩ : ∃ v, uint c 20 4 = some v := ⟨_, uint_pos (by omega)⟩
  obtain ⟨v24, h24⟩ : ∃ v, uint c 24 4 = some v := ⟨_, uint_pos (by omega)⟩
  obtain ⟨v28, h28⟩ : ∃ v, uint c 28 4 = some v := ⟨_, uint_pos (by omega)⟩
  obtain ⟨v32, h32⟩ : ∃ v, uint c 32 4 = some v := ⟨_, uint_pos (by omega)⟩
  obtain ⟨ss, h1, rfl⟩ := (validateLeaf_ok (t := .siz) (by decide)).1 h
  refine ⟨sizTiles v4 v8 v20 v24 v28 v32, ?_, ?_⟩
  · simp only [leaf, siz] at h1
    split at h1
    · cases h1
    · cases h1
      rw [reported_run]
      rep
      simp only [ite_self, List.nil_append]
      simp (disch := omega) only [u32_slice]
      simp only [Int.reduceToNat, h4, h8, h20, h24, h28, h32, intOf]
  · rintro ⟨x, hx, hx1⟩ ⟨y, hy, hy1⟩
    rw [h20] at hx; rw [h24] at hy
    cases hx; cases hy
    refine ⟨v4, v8, v20, v24, v28, v32, ceilDiv (v4 - v28) v20, ceilDiv (v8 - v32) v24, h4, h8, h20,
      h24, h28, h32, ceilDiv_isCeil _ (by omega), ceilDiv_isCeil _ (by omega), ?_⟩
    unfold sizTiles
    rw [if_pos (by omega)]

/-- C54 (codestream): if a codestream starts with SOC and SIZ and its validation ends, the properties are:
the SIZ segment, the other segments of the main header in order, the counts, and one element for each
visited tile-part in order with its own segments, each with the values stored in the file. -/
theorem C54_codestream (env : Env) (o : Options) (fuel : Nat) (b : Bytes) (n : Node)
    (h : codestream env o fuel b = .ok n) (hsoc : sub b 0 2 = SOC) (siz : Bytes) (csiz : Nat)
    (main : List FoundSeg) (sot : Option Nat) (hm : MainHeader b siz csiz main sot) :
    ShowsCodestream env o b siz csiz main sot n.chars := by
  obtain ⟨⟨first, hs1, hse⟩, hcs⟩ := hm
  obtain ⟨n0, hs0, -⟩ := getMarkerSegment_spec b 0
  have hn02 : n0 = some 2 := by
    generalize (getMarkerSegment b ((0 : Nat) : Int)).contents = cc at hs0
    generalize (getMarkerSegment b ((0 : Nat) : Int)).marker = mm at hs0
    cases hs0 with
    | alone => rfl
    | seg hd => exact absurd (show sub b 0 2 ∈ delimiters by rw [hsoc]; decide) hd
    | noLength hd => exact absurd (show sub b 0 2 ∈ delimiters by rw [hsoc]; decide) hd
  subst hn02
  rw [codestream_eq hs0 rfl hs1] at h
  obtain ⟨r, h1, h⟩ := Outcome.bind_eq_ok.1 h
  obtain ⟨cs, h2, h⟩ := Outcome.bind_eq_ok.1 h
  obtain ⟨s, h3, h⟩ := Outcome.bind_eq_ok.1 h
  obtain ⟨rsiz, h4, h⟩ := Outcome.bind_eq_ok.1 h
  obtain ⟨tiles, h5, h⟩ := Outcome.bind_eq_ok.1 h
  obtain ⟨t, h6, hend⟩ := Outcome.bind_eq_ok.1 h
  obtain ⟨htag, -, -, -, -, -, tcsiz, -⟩ := siz_text h1
  rw [reported_text tcsiz, hcs] at h2
  cases h2
  have h3' := (mainLoop_le (seg1 := segV env o fuel) (fun _ _ _ => .refl _) o.packetmarkers
    (some (csiz : Int)) b _ (show fuel ≤ fuel + main.length + 2 by omega)).ok h3
  rw [mainLoop_eq hse (by omega) (show mSIZ ≠ mSOT by decide) (by simp [mainStart, intOf]) rfl] at h3'
  obtain ⟨rs, hrs, hs⟩ := Outcome.bind_eq_ok.1 h3'
  cases hs
  obtain ⟨segs, hsegs, hshow⟩ := shows_segs (l := mainSegments) (q := [mPLM, mPPM]) (fun m hm => Or.inl hm)
    (by decide +kernel) main rs (headNode o b r) hrs
  rw [headNode_chars] at hsegs
  have hmain : (mainNode o (mainEnd b o.packetmarkers (mainStart o b r (intOf (some first))) main sot rs)
      rsiz).chars = r.charsElem :: (segs ++ [.leaf "ppmCount" (.int (segNumber PPM main)),
        .leaf "plmCount" (.int (segNumber PLM main))]) := by
    unfold mainNode
    simp only [testIf_chars, testFor_chars, Node.addChar, mainEnd, mainStart, hsegs, Nat.zero_add]
    simp
    exact ⟨rfl, rfl⟩
  obtain ⟨ratio, hch, hr1, hr2⟩ := cs_finish_chars hend
  have hn : valuesOf r.node.chars "numberOfTiles" = [.int tiles] ∧
      (FieldIs siz 20 4 (1 ≤ ·) → FieldIs siz 24 4 (1 ≤ ·) → TileCount siz tiles) := by
    obtain ⟨v, hv, hv'⟩ := siz_shows_tiles h1 hcs
    rw [hmain, first_text htag hv] at h5
    cases h5
    exact ⟨hv, hv'⟩
  have hfin : n.chars = r.charsElem :: (segs ++ [.leaf "ppmCount" (.int (segNumber PPM main)),
      .leaf "plmCount" (.int (segNumber PLM main)), .node "tileParts" t.node.chars] ++ ratio) := by
    rw [hch, hmain]; simp
  rw [hfin]
  have h1' : validateLeaf env o fuel (some (csiz : Int)) SIZ siz = .ok r := by
    rw [← h1]; exact validateLeaf_csiz (by decide) _ _
  refine .mk htag (seg_values h1') hn.1 hn.2 hshow ?_ ?_ hr1 hr2
  · rintro k ts rfl hv
    have hm : lastMarker mSOT main (some k) = mSOT := (lastMarker_eq hse).2 rfl
    obtain ⟨es, e1, e2⟩ := shows_tileParts hv _ _ _ h6 hm rfl (by simp [rangeLen])
    rw [e1]
    exact e2
  · rintro rfl
    have hne : lastMarker mSOT main none ≠ mSOT := by
      intro hh
      have := (lastMarker_eq hse).1 hh
      cases this
    cases fuel with
    | zero => cases h6
    | succ fuel =>
      have h6' := (tileLoop_stop (s := tileStart (min tiles 65535) main none) hne).symm.trans h6
      cases h6'
      rfl

/-- The name of a box with any type, also a shortened one. -/
theorem leaf_name {env o fuel t p r} (h : validateBox env o (fuel + 1) t p = .ok r) :
    (boxTypeOf t).name = boxName t ∨ (t.length = 2 ∧ (t, (boxTypeOf t).name) ∈ segNames) := by
  by_cases hu : boxTypeOf t = .unknownBox
  · exact .inl (by rw [boxName_unknown hu, hu]; rfl)
  · have h1 := boxTypeOf_mem rfl hu
    have hall : ∀ x ∈ typeMap, x.2 = .tilePart ∨ x.2.name = boxName x.1 ∨
        (x.1.length = 2 ∧ (x.1, x.2.name) ∈ segNames) := by decide +kernel
    rcases hall _ h1 with e | e
    · unfold validateBox at h
      simp only at e
      rw [e] at h
      cases h
    · exact e

theorem showsV_inTurn {o : Options} {f : FoundBox → Outcome BoxResult} {g : BoxResult → Elem} :
    ∀ {bs : List FoundBox} {rs}, inTurn f bs = .ok rs →
    (∀ x ∈ bs, ∀ r, f x = .ok r → ShowsBoxV env o x.type x.payload (g r)) → ShowsBoxesV env o bs (rs.map g)
  | [], rs, h, _ => by cases h; exact .nil
  | x :: xs, rs, h, hx => by
    obtain ⟨y, hy, h⟩ := Outcome.bind_eq_ok.1 h
    obtain ⟨ys, hys, h⟩ := Outcome.bind_eq_ok.1 h
    cases h
    exact .cons (hx x (by simp) y hy) (showsV_inTurn hys fun z hz => hx z (by simp [hz]))

/-- C54 (box): the element for a box, with the boxes inside it and the stored values. -/
theorem C54_box (env : Env) (o : Options) : ∀ (fuel : Nat) (t p : Bytes) (r : BoxResult),
    validateBox env o fuel t p = .ok r → ShowsBoxV env o t p r.charsElem
  | 0, _, _, _, h => by cases h
  | fuel + 1, t, p, r, h => by
    have htag : r.charsElem.tag = (boxTypeOf t).name := (validateBox_tag h)
    by_cases hs : t ∈ superboxTypes
    · obtain ⟨bs, hb⟩ := boxes_exists p
      have h4 : t.length = 4 := by
        have : ∀ x ∈ superboxTypes, x.length = 4 := by decide
        exact this t hs
      refine .super hs (by rw [htag, boxName_eq h4]) hb ?_
      have key : ∀ n types, walkBoxes (validateBox env o fuel) p fuel = .ok (n, types) →
          ShowsBoxesV env o bs n.chars := by
        intro n types hw
        obtain ⟨rs, hr, rfl, -⟩ := walkBoxes_ok hb hw
        rw [chars_foldl_absorb]
        exact showsV_inTurn hr fun x _ r hr => C54_box env o fuel _ _ r hr
      unfold validateBox at h
      rcases superboxTypes_cases.1 hs with e | e | e <;> rw [e] at h <;> simp only at h
      · obtain ⟨⟨n, ts⟩, hw, h⟩ := Outcome.bind_eq_ok.1 h
        cases h
        have := key n ts hw
        rw [← jp2HeaderFinish_chars o n ts] at this
        exact this
      · obtain ⟨⟨n, ts⟩, hw, h⟩ := Outcome.bind_eq_ok.1 h
        cases h
        have := key n ts hw
        have e2 : (resolutionFinish o.verbose n ts).chars = n.chars := by
          unfold resolutionFinish; simp only [testFor_chars]
        rw [← e2] at this
        exact this
      · obtain ⟨⟨n, ts⟩, hw, h⟩ := Outcome.bind_eq_ok.1 h
        cases h
        have := key n ts hw
        have e2 : (uuidInfoFinish o.verbose n ts).chars = n.chars := by
          unfold uuidInfoFinish; simp only [testFor_chars]
        rw [← e2] at this
        exact this
    · by_cases hc : t = ascii "jp2c"
      · subst hc
        unfold validateBox at h
        rw [show boxTypeOf (ascii "jp2c") = .contiguousCodestreamBox from by decide] at h
        simp only at h
        obtain ⟨n, hn, h⟩ := Outcome.bind_eq_ok.1 h
        cases h
        exact .codestream rfl rfl fun siz csiz main sot h1 h2 => C54_codestream _ _ _ _ _ hn h1 _ _ _ _ h2
      · exact .leaf hs hc (by rw [htag]; exact leaf_name h) (box_values h)

theorem rendered_list {env : Env} (hs : Sane env) (es : List Elem) :
    RenderedList env es (makeHumanReadableL env remapTable es) := by
  rw [readableL_map]
  refine ⟨by simp, fun i h h' => ?_⟩
  rw [List.getElem_map]
  exact C40_properties env hs _

/-- C54 (JP2 and JPH files): if the analysis of a file succeeds, the properties in the report are the
elements `raw` made printable: one element for each box of the file, in order, with the values stored in
the file, the boxes inside superboxes and the parts of the codestreams; at most a compression ratio
follows. -/
theorem C54_file {env : Env} (hsane : Sane env) {me : MixEnv} {fs : FS} {fuel : Nat} {o : Options}
    {mix : Nat} {path : PyStr} (hfmt : o.format = .jp2 ∨ o.format = .jph) {rep : Elem}
    (h : checkOneFile env me fs fuel o mix path = .ok rep) (hs : status rep "success" = [.str "True"])
    {bs} (hb : Boxes (bytesRead (fs.read path)) bs) :
    ∃ raw more, RenderedList env (raw ++ more) (contents rep "properties") ∧ ShowsBoxesV env o bs raw ∧
      more.length ≤ 1 ∧ ∀ e ∈ more, e.tag = "compressionRatio" := by
  obtain ⟨info, a, m, h1, h2, h3, rfl⟩ := checkOneFile_ok.1 h
  have hi := fileInfo_tag h1
  have hp : contents (buildReport o info a (extensionOf o mix a m)) "properties" = a.props := by
    unfold contents; rw [(report_parts hi).2.2.2.2.1]; rfl
  rw [hp]
  rcases analyse_cases h2 with ⟨b, fmm, n, h4, h5, rfl⟩ | ⟨e, h4, rfl⟩
  · obtain ⟨rfl, -⟩ := fileToMemoryMap_ok h4
    have h6 : validateJP2 env o fuel (bytesRead (fs.read path)) = .ok n := by
      unfold validateRoot at h5
      rcases hfmt with hf | hf <;> rw [hf] at h5 <;> exact h5
    obtain ⟨⟨n0, types⟩, hw, h6⟩ := Outcome.bind_eq_ok.1 h6
    obtain ⟨rs, hr, rfl, -⟩ := walkBoxes_ok hb hw
    have hc : ∃ more : List Elem, n.chars = (rs.foldl Node.absorb {}).chars ++ more ∧ more.length ≤ 1 ∧
        ∀ e ∈ more, e.tag = "compressionRatio" := by
      simp only [jp2Finish_eq] at h6
      rw [← jp2Mid_chars o (rs.foldl Node.absorb {}) types]
      exact jp2Last_chars h6
    obtain ⟨more, e1, e2, e3⟩ := hc
    refine ⟨(rs.foldl Node.absorb {}).chars, more, ?_, ?_, e2, e3⟩
    · rw [← e1]; exact rendered_list hsane _
    · rw [chars_foldl_absorb]
      exact showsV_inTurn hr fun x _ r hr => C54_box env o _ _ _ r hr
  · unfold status at hs
    rw [(report_parts hi).2.1] at hs
    simp [analysisFailed, Elem.node, Elem.leaf, boolStr, Elem.children] at hs

/-- C54 (bare codestreams): if the analysis of a file that starts with SOC and SIZ succeeds, the properties
in the report are the parts of the codestream, made printable. -/
theorem C54_bare {env : Env} (hsane : Sane env) {me : MixEnv} {fs : FS} {fuel : Nat} {o : Options}
    {mix : Nat} {path : PyStr} (hfmt : o.format = .j2c ∨ o.format = .jhc) {rep : Elem}
    (h : checkOneFile env me fs fuel o mix path = .ok rep) (hs : status rep "success" = [.str "True"])
    (hsoc : sub (bytesRead (fs.read path)) 0 2 = SOC) {siz csiz main sot}
    (hm : MainHeader (bytesRead (fs.read path)) siz csiz main sot) :
    ∃ raw, RenderedList env raw (contents rep "properties") ∧
      ShowsCodestream env o (bytesRead (fs.read path)) siz csiz main sot raw := by
  obtain ⟨info, a, m, h1, h2, h3, rfl⟩ := checkOneFile_ok.1 h
  have hi := fileInfo_tag h1
  have hp : contents (buildReport o info a (extensionOf o mix a m)) "properties" = a.props := by
    unfold contents; rw [(report_parts hi).2.2.2.2.1]; rfl
  rw [hp]
  rcases analyse_cases h2 with ⟨b, fmm, n, h4, h5, rfl⟩ | ⟨e, h4, rfl⟩
  · obtain ⟨rfl, -⟩ := fileToMemoryMap_ok h4
    have h6 : codestream env o fuel (bytesRead (fs.read path)) = .ok n := by
      unfold validateRoot at h5
      rcases hfmt with hf | hf <;> rw [hf] at h5 <;> exact h5
    exact ⟨n.chars, rendered_list hsane _, C54_codestream _ _ _ _ _ h6 hsoc _ _ _ _ hm⟩
  · unfold status at hs
    rw [(report_parts hi).2.1] at hs
    simp [analysisFailed, Elem.node, Elem.leaf, boolStr, Elem.children] at hs

/-! ## The hypotheses are met -/

theorem sane_env0 : Sane Sample.env0 where
  ascii := fun ch h _ => by simp [Sample.env0]; omega
  float := fun f ch h => by
    have : ∀ c ∈ "1.0".toList, 32 ≤ c.toNat ∧ c.toNat ≤ 126 := by decide
    exact this ch h

/-- The sample JP2 file, with superboxes, an unknown box and a codestream, has such a report. -/
example : ∃ rep bs, checkOneFile Sample.env0 Sample.me0 (Sample.fs0 Sample.jp2b) 200 (Sample.opts .jp2) 0 [97] = .ok rep ∧
    status rep "success" = [.str "True"] ∧ Boxes (bytesRead ((Sample.fs0 Sample.jp2b).read [97])) bs := by
  obtain ⟨rep, h, -, hs⟩ := Sample.saysValid_ok Sample.jp2b_report
  obtain ⟨bs, hb⟩ := boxes_exists (bytesRead ((Sample.fs0 Sample.jp2b).read [97]))
  exact ⟨rep, bs, h, hs, hb⟩

/-- The sample codestream has SOC, a main header, and visited tile-parts. -/
example : ∃ n main sot siz csiz ts, codestream Sample.env0 (Sample.opts .j2c) 200 Sample.csBroken = .ok n ∧
    sub Sample.csBroken 0 2 = SOC ∧ MainHeader Sample.csBroken siz csiz main (some sot) ∧
    Visited Sample.csBroken 2 sot ts ∧ ts.length = 2 := by
  have h : Sample.okValid (codestream Sample.env0 (Sample.opts .j2c) 200 Sample.csBroken) = true := by
    decide +kernel
  cases hc : codestream Sample.env0 (Sample.opts .j2c) 200 Sample.csBroken with
  | ok n =>
    refine ⟨n, _, _, _, _, [⟨65, 0, 14, 0, 0⟩, ⟨79, 7, 14, 0, 0⟩], rfl, by decide,
      sample_main (by decide) (by decide) (by decide) (by decide) (by decide) (by decide) (by decide)
      (by decide) (by decide), ?_, rfl⟩
    refine .step (t := ⟨65, 0, 14, 0, 0⟩) ⟨by decide, by decide, by decide, by decide, by decide, by decide⟩
      (by decide) (by decide) ?_
    exact .last (t := ⟨79, 7, 14, 0, 0⟩) ⟨by decide, by decide, by decide, by decide, by decide, by decide⟩
      (.inl (by decide))
  | _ => rw [hc] at h; cases h

end Jpy
