import Verif.Spec.Valid
import Verif.Props.Wrap
import Verif.Props.Exact
import Verif.Props.Packets
import Verif.Props.Uuid
import Verif.Props.Metadata
import Verif.Props.Crashes
/-!
# Valid files

C76: the files that are reported as valid are exactly those of `Spec.ValidFile`, a definition from the bytes alone.
-/

namespace Jpy
open Spec

/-! ## Marker segments -/

theorem segPasses_const {env o csiz m c} {P : Prop} (h : ∀ fuel, Accepted (validateLeaf env o fuel csiz m c) ↔ P) :
    SegPasses env o csiz m c ↔ P := by
  unfold SegPasses
  simp only [h, exists_const]

/-- A field that is at least as long as what there is of the segment, as in every segment of a codestream. -/
def Covered (c : Bytes) : Prop := c.length < 2 ∨ FieldIs c 0 2 (c.length ≤ ·)

theorem covered_of_segAt {b : Bytes} {off : Nat} {m c : Bytes} {n} (h : SegAt b off m c n) : Covered c := by
  by_cases h2 : c.length < 2
  · exact .inl h2
  · refine .inr ?_
    cases h with
    | alone hd => simp at h2
    | seg hd hl => exact C12_hypothesis (.seg hd hl) hd (by omega)
    | noLength => simp at h2

theorem covered_of_segsTo {b stop : Bytes} {off : Nat} {ss e} (h : SegsTo b stop off ss e) :
    ∀ x ∈ ss, Covered x.contents := by
  induction h with
  | found => simp
  | step h1 _ _ ih =>
    intro x hx
    rcases List.mem_cons.1 hx with rfl | hx
    · exact covered_of_segAt h1
    · exact ih x hx
  | broken h1 => intro x hx; rw [List.mem_singleton] at hx; subst hx; exact covered_of_segAt h1

theorem allTrue_chars_plt (fuel c ss) (h : plt fuel c = .ok ss) : allTrue ss = true := by
  unfold plt at h
  obtain ⟨_, _, h⟩ := Outcome.bind_eq_ok.1 h
  cases h; rfl

theorem allTrue_chars_plm (fuel c ss) (h : plm fuel c = .ok ss) : allTrue ss = true := by
  unfold plm at h
  obtain ⟨_, _, h⟩ := Outcome.bind_eq_ok.1 h
  cases h; rfl

theorem plt_passes (env : Env) (o : Options) (csiz) {c : Bytes} (h : Covered c) :
    SegPasses env o csiz PLT c ↔ ¬ OpenEnded c 3 := by
  constructor
  · rintro ⟨fuel, r, hr, -⟩ ho
    rcases h with h | h
    · exact absurd ho.1 (by omega)
    · exact (C12_plt_partial env o csiz c h).1 ⟨fuel, by rw [hr]; simp⟩ ho
  · intro h
    have he := validateLeaf_ends (env := env) (o := o) (csiz := csiz) (m := PLT) (Nat.lt_succ_self c.length)
      (fun _ => h) (fun h => absurd h (by decide))
    have hbt : boxTypeOf PLT = .plt := by decide
    refine ⟨c.length + 1, ?_⟩
    cases hl : plt (c.length + 1) c with
    | ok ss => exact (accepted_leaf_ok env o _ csiz PLT c hbt (ss := ss) hl).2 (allTrue_chars_plt _ _ _ hl)
    | raised e =>
      unfold plt at hl
      cases hi : iplLoop c (bytesToUShortInt (slice c 0 2)) (c.length + 1) 3 with
      | ok es => unfold parseIpl at hl; simp only [hi] at hl; cases hl
      | raised e' => exact absurd hi (iplLoop_quiet _ _ _ _ _)
      | timeout => unfold parseIpl at hl; simp only [hi] at hl; cases hl
    | timeout => exact absurd ((validateLeaf_timeout hbt).2 hl) he

theorem plm_passes (env : Env) (o : Options) (csiz) {c : Bytes} (h : Covered c) :
    SegPasses env o csiz PLM c ↔ ¬ OpenEnded c 4 := by
  constructor
  · rintro ⟨fuel, r, hr, -⟩ ho
    rcases h with h | h
    · exact absurd ho.1 (by omega)
    · exact (C12_plm_partial env o csiz c h).1 ⟨fuel, by rw [hr]; simp⟩ ho
  · intro h
    have he := validateLeaf_ends (env := env) (o := o) (csiz := csiz) (m := PLM) (Nat.lt_succ_self c.length)
      (fun h => absurd h (by decide)) (fun _ => h)
    have hbt : boxTypeOf PLM = .plm := by decide
    refine ⟨c.length + 1, ?_⟩
    cases hl : plm (c.length + 1) c with
    | ok ss => exact (accepted_leaf_ok env o _ csiz PLM c hbt (ss := ss) hl).2 (allTrue_chars_plm _ _ _ hl)
    | raised e =>
      unfold plm at hl
      cases hi : iplLoop c (bytesToUShortInt (slice c 0 2)) (c.length + 1) 4 with
      | ok es => unfold parseIpl at hl; simp only [hi] at hl; cases hl
      | raised e' => exact absurd hi (iplLoop_quiet _ _ _ _ _)
      | timeout => unfold parseIpl at hl; simp only [hi] at hl; cases hl
    | timeout => exact absurd ((validateLeaf_timeout hbt).2 hl) he

theorem untested_passes (env : Env) (o : Options) (csiz) (c : Bytes) {m} (h : m = TLM ∨ m = PPM ∨ m = PPT) :
    SegPasses env o csiz m c := by
  rcases h with rfl | rfl | rfl
  · exact ⟨0, (accepted_leaf_ok env o 0 csiz TLM c (t := .tlm) (by decide) (ss := []) rfl).2 rfl⟩
  · exact ⟨0, (accepted_leaf_ok env o 0 csiz PPM c (t := .ppm) (by decide) (ss := []) rfl).2 rfl⟩
  · exact ⟨0, (accepted_leaf_ok env o 0 csiz PPT c (t := .ppt) (by decide) (ss := []) rfl).2 rfl⟩

macro "seg_case" e:term "," f:term : tactic =>
  `(tactic| (
      refine Iff.trans ($e:term) ?_
      constructor
      · intro hh
        constructor <;> intro h' <;> first | exact absurd h' (by decide) | exact hh
      · intro hh; exact $f hh))

/-- The verdict on a marker segment of a header. -/
theorem segPasses_iff (env : Env) (o : Options) (csiz : Nat) {m c : Bytes} (hc : Covered c)
    (hm : m ∈ mainSegments ∨ m ∈ tilePartSegments) :
    SegPasses env o (some csiz) m c ↔ SegOk env.catC o.format csiz m c := by
  have key : m ∈ [COD, COC, QCD, QCC, RGN, POC, CRG, COM, CAP, PRF, CPF, TLM, PLM, PPM, PLT, PPT] := by
    simp only [mainSegments, tilePartSegments, List.mem_cons, List.not_mem_nil, or_false] at hm ⊢
    grind
  simp only [List.mem_cons, List.not_mem_nil, or_false] at key
  rcases key with rfl | rfl | rfl | rfl | rfl | rfl | rfl | rfl | rfl | rfl | rfl | rfl | rfl | rfl | rfl | rfl
  · seg_case segPasses_const (fun fuel => C27_cod env o fuel _ c), (fun h => h.cod rfl)
  · seg_case segPasses_const (fun fuel => C27_coc env o fuel _ c), (fun h => h.coc rfl)
  · seg_case segPasses_const (fun fuel => C28_qcd env o fuel _ c), (fun h => h.qcd rfl)
  · seg_case segPasses_const (fun fuel => C28_qcc env o fuel _ c), (fun h => h.qcc rfl)
  · seg_case segPasses_const (fun fuel => C29_rgn env o fuel _ c), (fun h => h.rgn rfl)
  · seg_case segPasses_const (fun fuel => C29_poc env o fuel _ c), (fun h => h.poc rfl)
  · seg_case segPasses_const (fun fuel => C29_crg env o fuel _ c), (fun h => h.crg rfl)
  · seg_case segPasses_const (fun fuel => C30_com env o fuel _ c), (fun h => h.com rfl)
  · seg_case segPasses_const (fun fuel => C31_cap_exact env o fuel _ c), (fun h => h.cap rfl)
  · seg_case segPasses_const (fun fuel => C32_prf_accepted env o fuel _ c), (fun h => h.prf rfl)
  · seg_case segPasses_const (fun fuel => C32_cpf_accepted env o fuel _ c), (fun h => h.cpf rfl)
  · refine ⟨fun _ => ?_, fun _ => untested_passes env o _ c (.inl rfl)⟩
    constructor <;> intro h' <;> exact absurd h' (by decide)
  · seg_case plm_passes env o _ hc, (fun h => h.plm rfl)
  · refine ⟨fun _ => ?_, fun _ => untested_passes env o _ c (.inr (.inl rfl))⟩
    constructor <;> intro h' <;> exact absurd h' (by decide)
  · seg_case plt_passes env o _ hc, (fun h => h.plt rfl)
  · refine ⟨fun _ => ?_, fun _ => untested_passes env o _ c (.inr (.inr rfl))⟩
    constructor <;> intro h' <;> exact absurd h' (by decide)

theorem segsPass_iff (env : Env) (o : Options) (csiz : Nat) {handled : List Bytes} {ss : List FoundSeg}
    (hh : handled = mainSegments ∨ handled = tilePartSegments) (hc : ∀ x ∈ ss, Covered x.contents) :
    SegsPass env o csiz handled ss ↔ SegsOk env.catC o.format csiz handled ss := by
  have e : ∀ x ∈ ss, x.marker ∈ handled → (SegPasses env o (some csiz) x.marker x.contents ↔
      SegOk env.catC o.format csiz x.marker x.contents) := by
    intro x hx hm
    refine segPasses_iff env o csiz (hc x hx) ?_
    rcases hh with rfl | rfl
    · exact .inl hm
    · exact .inr hm
  exact ⟨fun h x hx hm => (e x hx hm).1 (h x hx hm), fun h x hx hm => (e x hx hm).2 (h x hx hm)⟩

/-! ## Codestreams -/

theorem tilePartValid_iff (env : Env) (o : Options) (csiz : Nat) (b : Bytes) (t : TilePartInfo) :
    t.Ok env o csiz b ↔ t.Valid env.catC o.format csiz b := by
  constructor
  · intro h
    obtain ⟨ss, k, h1, h2, h3⟩ := h.header
    exact ⟨h.at_, h.index, h.length, h.part,
      ⟨ss, k, h1, (segsPass_iff env o csiz (.inr rfl) (covered_of_segsTo h1)).1 h2, h3⟩, h.next⟩
  · intro h
    obtain ⟨ss, k, h1, h2, h3⟩ := h.header
    exact ⟨h.at_, h.index, h.length, h.part,
      ⟨ss, k, h1, (segsPass_iff env o csiz (.inr rfl) (covered_of_segsTo h1)).2 h2, h3⟩, h.next⟩

theorem sizPasses_iff (env : Env) (o : Options) (csiz) (c : Bytes) :
    SegPasses env o csiz SIZ c ↔ SizOk o.format c ∧ FieldIs c 2 2 RsizDefined :=
  segPasses_const fun fuel => C26_siz_partial env o fuel csiz c

/-- C76 (codestreams): a codestream passes exactly when it is valid by the definition of `Spec/Valid.lean`. -/
theorem C76_codestream (env : Env) (o : Options) (b : Bytes) :
    CodestreamPasses env o b ↔ CodestreamValid env.catC o.format b := by
  rw [C23_codestream]
  constructor
  · rintro ⟨p, h⟩
    exact ⟨p, ⟨h.soc, h.sizAt, (sizPasses_iff env o _ _).1 h.sizPasses, h.csiz, h.mainAt,
      (segsPass_iff env o _ (.inl rfl) (covered_of_segsTo h.mainAt)).1 h.mainPasses, h.cod, h.qcd, h.cap, h.tiles,
      h.visited, fun t ht => (tilePartValid_iff env o _ b t).1 (h.tpsOk t ht), h.indices, h.declared, h.coc, h.qcc,
      h.eoc⟩⟩
  · rintro ⟨p, h⟩
    exact ⟨p, ⟨h.soc, h.sizAt, (sizPasses_iff env o _ _).2 h.siz, h.csiz, h.mainAt,
      (segsPass_iff env o _ (.inl rfl) (covered_of_segsTo h.mainAt)).2 h.main, h.cod, h.qcd, h.cap, h.tiles,
      h.visited, fun t ht => (tilePartValid_iff env o _ b t).2 (h.tps t ht), h.indices, h.declared, h.coc, h.qcc,
      h.eoc⟩⟩

/-! ## Boxes -/

theorem boxPasses_const {env o t p} {P : Prop} (h : ∀ fuel, Accepted (validateBox env o (fuel + 1) t p) ↔ P) :
    BoxPasses env o t p ↔ P := by
  constructor
  · rintro ⟨fuel, hf⟩
    cases fuel with
    | zero => obtain ⟨r, hr, -⟩ := hf; cases hr
    | succ fuel => exact (h fuel).1 hf
  · intro hp
    exact ⟨1, (h 0).2 hp⟩

macro "leaf_case" e:term "," f:term : tactic =>
  `(tactic| (
      refine Iff.trans ($e:term) ?_
      constructor
      · intro hh
        constructor <;> first
          | exact ⟨by decide, fun h' => absurd h' (by decide)⟩
          | (intro h'; first | exact absurd h' (by decide) | exact hh)
      · intro hh; exact $f hh))

macro "cut_case" h:term : tactic =>
  `(tactic| exact ⟨fun hh => ($h hh).elim, fun hh => (hh.cutOff.1 (by decide)).elim⟩)

theorem segPasses_none {env o t} (c : Bytes) {bt : BoxType} (hb : boxTypeOf t = bt) (hl : bt.isLeaf = true) :
    BoxPasses env o t c ↔ SegPasses env o none t c := by
  constructor
  · rintro ⟨fuel, hf⟩
    cases fuel with
    | zero => obtain ⟨r, hr, -⟩ := hf; cases hr
    | succ fuel => exact ⟨fuel, by rwa [validateBox_leaf env o fuel t c hb hl] at hf⟩
  · rintro ⟨fuel, hf⟩
    exact ⟨fuel + 1, by rwa [validateBox_leaf env o fuel t c hb hl]⟩

theorem fieldIs_nil {off n P} (h : FieldIs [] off (n + 1) P) : False := by
  obtain ⟨v, hv, -⟩ := h
  simp [uint] at hv

theorem crash_seg {env o t e} {c : Bytes} (h : ∀ fuel, validateLeaf env o fuel none t c = .raised e) :
    ¬ SegPasses env o none t c := by
  rintro ⟨fuel, r, hr, -⟩
  rw [h] at hr; cases hr

/-- The verdict on a box that is no superbox and no codestream. -/
theorem leafPasses_iff (env : Env) (o : Options) {t p : Bytes} (hs : t ∉ superboxTypes) (hc : t ≠ ascii "jp2c")
    (hcut : t.length < 4 → p = []) :
    BoxPasses env o t p ↔ LeafOk (fun x => (env.parseXml x).isSome = true) o.format t p := by
  have hkey : ∀ {k : Bytes} {bt : BoxType}, typeMap.lookup k = some bt → bt ≠ .unknownBox → boxTypeOf t = bt → t = k :=
    fun h1 h2 h3 => (boxTypeOf_iff h1 h2 t).1 h3
  cases hb : boxTypeOf t
  case jp2HeaderBox => exact absurd (hkey (k := ascii "jp2h") (by decide) (by decide) hb ▸ by decide) hs
  case resolutionBox => exact absurd (hkey (k := ascii "res ") (by decide) (by decide) hb ▸ by decide) hs
  case uuidInfoBox => exact absurd (hkey (k := ascii "uinf") (by decide) (by decide) hb ▸ by decide) hs
  case contiguousCodestreamBox => exact absurd (hkey (k := ascii "jp2c") (by decide) (by decide) hb) hc
  case signatureBox =>
    cases hkey (k := ascii "jP  ") (by decide) (by decide) hb
    leaf_case boxPasses_const (fun fuel => C16_signature env o fuel p), (fun h => h.signature rfl)
  case fileTypeBox =>
    cases hkey (k := ascii "ftyp") (by decide) (by decide) hb
    leaf_case boxPasses_const (fun fuel => C16_ftyp env o fuel p), (fun h => h.fileType rfl)
  case imageHeaderBox =>
    cases hkey (k := ascii "ihdr") (by decide) (by decide) hb
    leaf_case boxPasses_const (fun fuel => C19_ihdr_accepted env o fuel p), (fun h => h.imageHeader rfl)
  case bitsPerComponentBox =>
    cases hkey (k := ascii "bpcc") (by decide) (by decide) hb
    leaf_case boxPasses_const (fun fuel => C21_bpcc env o fuel p), (fun h => h.bitsPerComponent rfl)
  case colourSpecificationBox =>
    cases hkey (k := ascii "colr") (by decide) (by decide) hb
    leaf_case boxPasses_const (fun fuel => C35_colr_accepted env o fuel p), (fun h => h.colour rfl)
  case paletteBox =>
    cases hkey (k := ascii "pclr") (by decide) (by decide) hb
    leaf_case boxPasses_const (fun fuel => C36_palette env o fuel p), (fun h => h.palette rfl)
  case componentMappingBox =>
    cases hkey (k := ascii "cmap") (by decide) (by decide) hb
    leaf_case boxPasses_const (fun fuel => C36_cmap env o fuel p), (fun h => h.componentMapping rfl)
  case channelDefinitionBox =>
    cases hkey (k := ascii "cdef") (by decide) (by decide) hb
    leaf_case boxPasses_const (fun fuel => C36_cdef env o fuel p), (fun h => h.channels rfl)
  case captureResolutionBox =>
    cases hkey (k := ascii "resc") (by decide) (by decide) hb
    leaf_case boxPasses_const (fun fuel => C34_res env o fuel p _ (.inl rfl)), (fun h => h.resolution (.inl rfl))
  case displayResolutionBox =>
    cases hkey (k := ascii "resd") (by decide) (by decide) hb
    leaf_case boxPasses_const (fun fuel => C34_res env o fuel p _ (.inr rfl)), (fun h => h.resolution (.inr rfl))
  case xmlBox =>
    cases hkey (k := ascii "xml ") (by decide) (by decide) hb
    leaf_case C65_xml_box env o p, (fun h => h.xml rfl)
  case uuidBox =>
    cases hkey (k := ascii "uuid") (by decide) (by decide) hb
    leaf_case boxPasses_const (fun fuel => C37_uuid env o fuel p), (fun h => h.uuid rfl)
  case uuidListBox =>
    cases hkey (k := ascii "ulst") (by decide) (by decide) hb
    leaf_case boxPasses_const (fun fuel => C37_ulst env o fuel p), (fun h => h.uuidList rfl)
  case urlBox =>
    cases hkey (k := ascii "url ") (by decide) (by decide) hb
    leaf_case boxPasses_const (fun fuel => C38_url env o fuel p), (fun h => h.url rfl)
  case intellectualPropertyBox =>
    cases hkey (k := ascii "jp2i") (by decide) (by decide) hb
    refine ⟨fun _ => ?_, fun _ => ⟨1, (accepted_box_ok env o 0 _ p hb rfl (ss := []) rfl).2 rfl⟩⟩
    constructor <;> first
      | exact ⟨by decide, fun h' => absurd h' (by decide)⟩
      | (intro h'; exact absurd h' (by decide))
  case unknownBox =>
    have hne : ∀ {k : Bytes} {bt : BoxType}, typeMap.lookup k = some bt → bt ≠ .unknownBox → t ≠ k := by
      rintro k bt h1 h2 rfl
      exact h2 (boxTypeOf_marker h1 ▸ hb)
    refine ⟨fun _ => ?_, fun _ => ?_⟩
    · constructor <;> first
        | exact ⟨fun hm => by
            have key : ∀ m ∈ [SIZ, CAP, PRF, COD, COC, QCD, QCC, RGN, POC, CRG, COM, SOT],
              boxTypeOf m ≠ .unknownBox := by decide
            exact key t hm hb, fun h' => by subst h'; exact absurd hb (by decide)⟩
        | (intro h'; exfalso; first
            | (subst h'; revert hb; decide)
            | (rcases h' with rfl | rfl <;> (revert hb; decide)))
    · exact ⟨1, (accepted_box_ok env o 0 t p hb rfl (ss := unknownBox env t) rfl).2 rfl⟩
  case siz =>
    cases hkey (k := SIZ) (by decide) (by decide) hb
    cases hcut (by decide)
    rw [segPasses_none [] hb rfl]
    cut_case (fun h => fieldIs_nil ((sizPasses_iff env o none []).1 h).2)
  case cod =>
    cases hkey (k := COD) (by decide) (by decide) hb
    cases hcut (by decide)
    refine (segPasses_none [] hb rfl).trans ((segPasses_const fun fuel => C27_cod env o fuel none []).trans ?_)
    cut_case (fun h => fieldIs_nil h.1)
  case qcd =>
    cases hkey (k := QCD) (by decide) (by decide) hb
    cases hcut (by decide)
    refine (segPasses_none [] hb rfl).trans ((segPasses_const fun fuel => C28_qcd env o fuel none []).trans ?_)
    cut_case (fun h => fieldIs_nil h.1)
  case com =>
    cases hkey (k := COM) (by decide) (by decide) hb
    cases hcut (by decide)
    refine (segPasses_none [] hb rfl).trans ((segPasses_const fun fuel => C30_com env o fuel none []).trans ?_)
    cut_case (fun (h : ComOk env.catC []) => fieldIs_nil h)
  case prf =>
    cases hkey (k := PRF) (by decide) (by decide) hb
    cases hcut (by decide)
    refine (segPasses_none [] hb rfl).trans ((segPasses_const fun fuel => C32_prf_accepted env o fuel none []).trans ?_)
    cut_case (fun h => fieldIs_nil h.1)
  case cap =>
    cases hkey (k := CAP) (by decide) (by decide) hb
    cases hcut (by decide)
    refine (segPasses_none [] hb rfl).trans ((segPasses_const fun fuel => C31_cap_exact env o fuel none []).trans ?_)
    have : ¬ (CapOk o.format [] ∨ (([] : Bytes).length < 6 ∧ uint [] 0 2 = some 56)) := by
      rintro (h | h)
      · obtain ⟨p, hp, -⟩ := h
        simp [uint] at hp
      · exact absurd h.2 (by decide)
    cut_case this
  case cpf =>
    cases hkey (k := CPF) (by decide) (by decide) hb
    cases hcut (by decide)
    refine (segPasses_none [] hb rfl).trans ((segPasses_const fun fuel => C32_cpf_accepted env o fuel none []).trans ?_)
    constructor
    · intro hh
      constructor <;> first
        | exact ⟨by decide, fun _ => by
            cases hf : o.format.isHT with
            | false => rfl
            | true => exact (fieldIs_nil (hh hf)).elim⟩
        | (intro h'; exact absurd h' (by decide))
    · intro hh hf
      rw [hh.cutOff.2 rfl] at hf; cases hf
  case coc =>
    cases hkey (k := COC) (by decide) (by decide) hb
    rw [segPasses_none p hb rfl]
    cut_case (crash_seg (e := .typeError) fun _ => rfl)
  case rgn =>
    cases hkey (k := RGN) (by decide) (by decide) hb
    rw [segPasses_none p hb rfl]
    cut_case (crash_seg (e := .typeError) fun _ => rfl)
  case qcc =>
    cases hkey (k := QCC) (by decide) (by decide) hb
    rw [segPasses_none p hb rfl]
    cut_case (crash_seg (e := .typeError) fun _ => rfl)
  case poc =>
    cases hkey (k := POC) (by decide) (by decide) hb
    rw [segPasses_none p hb rfl]
    cut_case (crash_seg (e := .typeError) fun _ => rfl)
  case crg =>
    cases hkey (k := CRG) (by decide) (by decide) hb
    rw [segPasses_none p hb rfl]
    cut_case (crash_seg (e := .typeError) fun _ => rfl)
  case tilePart =>
    cases hkey (k := SOT) (by decide) (by decide) hb
    have : ¬ BoxPasses env o SOT p := by
      rintro ⟨fuel, r, hr, -⟩
      cases fuel with
      | zero => cases hr
      | succ fuel => unfold validateBox at hr; rw [hb] at hr; cases hr
    cut_case this
  case plm =>
    cases hkey (k := PLM) (by decide) (by decide) hb
    cases hcut (by decide)
    rw [segPasses_none [] hb rfl, plm_passes env o none (.inl (by decide))]
    refine ⟨fun _ => ?_, fun _ h => absurd h.1 (by decide)⟩
    constructor <;> first
      | exact ⟨by decide, fun h' => absurd h' (by decide)⟩
      | (intro h'; exact absurd h' (by decide))
  case plt =>
    cases hkey (k := PLT) (by decide) (by decide) hb
    cases hcut (by decide)
    rw [segPasses_none [] hb rfl, plt_passes env o none (.inl (by decide))]
    refine ⟨fun _ => ?_, fun _ h => absurd h.1 (by decide)⟩
    constructor <;> first
      | exact ⟨by decide, fun h' => absurd h' (by decide)⟩
      | (intro h'; exact absurd h' (by decide))
  case tlm =>
    cases hkey (k := TLM) (by decide) (by decide) hb
    rw [segPasses_none p hb rfl]
    refine ⟨fun _ => ?_, fun _ => untested_passes env o none p (.inl rfl)⟩
    constructor <;> first
      | exact ⟨by decide, fun h' => absurd h' (by decide)⟩
      | (intro h'; exact absurd h' (by decide))
  case ppm =>
    cases hkey (k := PPM) (by decide) (by decide) hb
    rw [segPasses_none p hb rfl]
    refine ⟨fun _ => ?_, fun _ => untested_passes env o none p (.inr (.inl rfl))⟩
    constructor <;> first
      | exact ⟨by decide, fun h' => absurd h' (by decide)⟩
      | (intro h'; exact absurd h' (by decide))
  case ppt =>
    cases hkey (k := PPT) (by decide) (by decide) hb
    rw [segPasses_none p hb rfl]
    refine ⟨fun _ => ?_, fun _ => untested_passes env o none p (.inr (.inr rfl))⟩
    constructor <;> first
      | exact ⟨by decide, fun h' => absurd h' (by decide)⟩
      | (intro h'; exact absurd h' (by decide))

theorem boxValid_aux (env : Env) (o : Options) : ∀ (k : Nat) (t p : Bytes), p.length < k → (t.length < 4 → p = []) →
    (BoxPasses env o t p ↔ BoxValid (fun x => (env.parseXml x).isSome = true) env.catC o.format t p)
  | 0, _, _, h, _ => by omega
  | k + 1, t, p, hk, hcut => by
    have ih : ∀ {bs}, Boxes p bs → ∀ x ∈ bs, (BoxPasses env o x.type x.payload ↔
        BoxValid (fun x => (env.parseXml x).isSome = true) env.catC o.format x.type x.payload) := by
      intro bs hbs x hx
      obtain ⟨-, h2, n, hn⟩ := boxesFrom_mem hbs hx
      exact boxValid_aux env o k x.type x.payload (by omega) (boxAt_short_type hn)
    have n1 : ascii "jp2h" ≠ ascii "res " := by decide
    have n2 : ascii "jp2h" ≠ ascii "uinf" := by decide
    have n3 : ascii "res " ≠ ascii "uinf" := by decide
    by_cases hs : t ∈ superboxTypes
    · simp only [superboxTypes, List.mem_cons, List.not_mem_nil, or_false] at hs
      rcases hs with rfl | rfl | rfl
      · rw [C18_header]
        constructor
        · rintro ⟨x, rest, h1, h2, h3⟩
          exact .header h1 (fun y hy => (ih h1 y hy).1 (h2 y hy)) h3
        · intro h
          generalize ht : ascii "jp2h" = t at h
          cases h with
          | leaf h1 => subst ht; exact absurd (by decide) h1
          | header h1 h2 h3 => exact ⟨_, _, h1, fun y hy => (ih h1 y hy).2 (h2 y hy), h3⟩
          | resolution => exact absurd ht (by decide)
          | uuidInfo => exact absurd ht (by decide)
          | codestream => exact absurd ht (by decide)
      · rw [C34_superbox]
        constructor
        · rintro ⟨bs, h1, h2, h3⟩
          exact .resolution h1 (fun y hy => (ih h1 y hy).1 (h2 y hy)) h3
        · intro h
          generalize ht : ascii "res " = t at h
          cases h with
          | leaf h1 => subst ht; exact absurd (by decide) h1
          | resolution h1 h2 h3 => exact ⟨_, h1, fun y hy => (ih h1 y hy).2 (h2 y hy), h3⟩
          | header => exact absurd ht (by decide)
          | uuidInfo => exact absurd ht (by decide)
          | codestream => exact absurd ht (by decide)
      · rw [C37_uinf]
        constructor
        · rintro ⟨bs, h1, h2, h3⟩
          exact .uuidInfo h1 (fun y hy => (ih h1 y hy).1 (h2 y hy)) h3
        · intro h
          generalize ht : ascii "uinf" = t at h
          cases h with
          | leaf h1 => subst ht; exact absurd (by decide) h1
          | uuidInfo h1 h2 h3 => exact ⟨_, h1, fun y hy => (ih h1 y hy).2 (h2 y hy), h3⟩
          | header => exact absurd ht (by decide)
          | resolution => exact absurd ht (by decide)
          | codestream => exact absurd ht (by decide)
    · by_cases hc : t = ascii "jp2c"
      · subst hc
        rw [jp2c_passes, C76_codestream]
        constructor
        · exact .codestream
        · intro h
          generalize ht : ascii "jp2c" = t at h
          cases h with
          | leaf h1 h2 => exact absurd ht.symm h2
          | codestream h => exact h
          | header => exact absurd ht (by decide)
          | resolution => exact absurd ht (by decide)
          | uuidInfo => exact absurd ht (by decide)
      · rw [leafPasses_iff env o hs hc hcut]
        constructor
        · exact .leaf hs hc
        · intro h
          cases h with
          | leaf _ _ h => exact h
          | header => exact absurd (by decide) hs
          | resolution => exact absurd (by decide) hs
          | uuidInfo => exact absurd (by decide) hs
          | codestream => exact absurd rfl hc

/-- C76 (boxes): a box of a file, or of a superbox, passes exactly when it is valid by the definition of
`Spec/Valid.lean`. -/
theorem C76_box (env : Env) (o : Options) {b : Bytes} {bs : List FoundBox} (hb : Boxes b bs) {x : FoundBox}
    (hx : x ∈ bs) : BoxPasses env o x.type x.payload ↔
      BoxValid (fun x => (env.parseXml x).isSome = true) env.catC o.format x.type x.payload := by
  obtain ⟨-, -, n, hn⟩ := boxesFrom_mem hb hx
  exact boxValid_aux env o _ _ _ (Nat.lt_succ_self _) (boxAt_short_type hn)

theorem layoutOk_change {P Q : Bytes → Bytes → Prop} {b : Bytes} {l : Layout} (h : l.Ok P b)
    (hpq : ∀ x ∈ l.sig :: l.ft :: l.rest, P x.type x.payload → Q x.type x.payload) : l.Ok Q b :=
  ⟨h.boxes, fun x hx => hpq x hx (h.passes x hx), h.sig, h.ft, h.hd, h.cs, h.oneSig, h.oneFt, h.oneHd, h.firstCs,
    h.header, h.siz, h.ipr, h.image⟩

/-- C76: the analysis of file contents ends with all tests passed if and only if the contents are a valid file of the
format asked for, by a definition from the bytes alone. -/
theorem C76_file (env : Env) (o : Options) (b : Bytes) :
    FileValid env o b ↔ ValidFile (fun x => (env.parseXml x).isSome = true) env.catC o.format b := by
  have hboxes : (o.format = .jp2 ∨ o.format = .jph) → (FileValid env o b ↔
      ∃ l : Layout, l.Ok (BoxValid (fun x => (env.parseXml x).isSome = true) env.catC o.format) b) := by
    intro hf
    rw [C17_layout env o b hf]
    constructor
    · rintro ⟨l, hl⟩
      exact ⟨l, layoutOk_change hl fun x hx => (C76_box env o hl.boxes hx).1⟩
    · rintro ⟨l, hl⟩
      exact ⟨l, layoutOk_change hl fun x hx => (C76_box env o hl.boxes hx).2⟩
  have hcs : (o.format = .j2c ∨ o.format = .jhc) → (FileValid env o b ↔ CodestreamValid env.catC o.format b) := by
    intro hf
    rw [C23_file env o b hf, C76_codestream]
  cases hf : o.format with
  | jp2 => rw [hboxes (.inl hf), hf]; rfl
  | jph => rw [hboxes (.inr hf), hf]; rfl
  | j2c => rw [hcs (.inl hf), hf]; rfl
  | jhc => rw [hcs (.inr hf), hf]; rfl
  | other s =>
    constructor
    · rintro ⟨fuel, n, h, -⟩
      unfold validateRoot at h
      rw [hf] at h
      cases h
    · intro h; cases h

/-- C76 (report): a file that can be read is reported as valid, by a run that is given enough time, if and only if it
is a valid file of the format asked for. -/
theorem C76_report (env : Env) (me : MixEnv) (fs : FS) (o : Options) (path : PyStr) {b : Bytes}
    (hr : fs.read path = .data b) (hs : ∃ n, fs.getsize path = .ok n) (hm : ∃ t, fs.modified path = .ok t) :
    (∃ fuel, ReportedValid env me fs fuel o 0 path) ↔
      ValidFile (fun x => (env.parseXml x).isSome = true) env.catC o.format b := by
  rw [← C76_file]
  constructor
  · rintro ⟨fuel, h⟩
    have := reported_fileValid h
    rwa [hr] at this
  · intro h
    obtain ⟨f0, h0⟩ := reported_of_fileValid (me := me) hr hs hm h
    exact ⟨f0, h0 f0 (Nat.le_refl _)⟩

/-- C76 (verdict): every report says that the file is valid if and only if the file could be read and is a valid file
of the format asked for, with or without MIX output. -/
theorem C76_verdict (env : Env) (me : MixEnv) (fs : FS) (fuel : Nat) (o : Options) (mix : Nat) (path : PyStr)
    (rep : Elem) (h : checkOneFile env me fs fuel o mix path = .ok rep) :
    verdict rep = some (.str "True") ↔ (∀ e, fs.read path ≠ .error e) ∧
      ValidFile (fun x => (env.parseXml x).isSome = true) env.catC o.format (bytesRead (fs.read path)) := by
  rw [← C76_file]
  constructor
  · intro hv
    refine ⟨fun e he => ?_, reported_fileValid ⟨rep, h, hv⟩⟩
    obtain ⟨info, a, m, h1, h2, h3, rfl⟩ := checkOneFile_ok.1 h
    rw [verdict_eq (fileInfo_tag h1)] at hv
    rcases analyse_cases h2 with ⟨b, fmm, n, h4, -, rfl⟩ | ⟨e, -, rfl⟩
    · unfold fileToMemoryMap at h4
      rw [he] at h4
      cases h4
    · exact absurd hv (by show ¬ some (PyVal.str (boolStr false)) = _; decide)
  · rintro ⟨hr, f0, n0, hn0, hv0⟩
    have hsafe := validateRoot_ok_safe hn0
    have hs := (C41_partial env me fs fuel o mix path rep h).2 ⟨hr, hsafe⟩
    obtain ⟨info, a, m, h1, h2, h3, rfl⟩ := checkOneFile_ok.1 h
    rw [verdict_eq (fileInfo_tag h1)]
    rcases analyse_cases h2 with ⟨b, fmm, n, h4, h5, rfl⟩ | ⟨e, -, rfl⟩
    · have hb := fileToMemoryMap_bytes h4
      subst hb
      have e1 := Le.ok (validateRoot_le env o (Nat.le_add_right fuel f0) _) h5
      have e2 := Le.ok (validateRoot_le env o (Nat.le_add_left f0 fuel) _) hn0
      rw [e1] at e2
      cases e2
      show some (PyVal.str (boolStr n0.isValid)) = _
      rw [(isValid_iff n0).2 hv0]
      rfl
    · exfalso
      obtain ⟨-, p2, -⟩ := report_parts (o := o) (a := analysisFailed e) (mix := mix) (m := m) (fileInfo_tag h1)
      unfold status at hs
      rw [p2] at hs
      simp [analysisFailed, boolStr, Elem.node, Elem.leaf] at hs

/-- C76 (what the verdict depends on): the format, which texts are XML and which characters are control characters,
and nothing else of the options or of the Python library. -/
theorem C76_depends (env env' : Env) (o o' : Options) (b : Bytes) (hf : o.format = o'.format)
    (hx : ∀ x, (env.parseXml x).isSome = (env'.parseXml x).isSome) (hc : ∀ c, env.catC c = env'.catC c) :
    FileValid env o b ↔ FileValid env' o' b := by
  rw [C76_file, C76_file, hf]
  have e1 : (fun x => (env.parseXml x).isSome = true) = fun x => (env'.parseXml x).isSome = true := by
    funext x; rw [hx]
  have e2 : env.catC = env'.catC := funext hc
  rw [e1, e2]

/-- There are valid files of both kinds, and contents that are not a valid file. -/
example : ValidFile (fun x => (Sample.env0.parseXml x).isSome = true) Sample.env0.catC .jp2 Sample.jp2 :=
  (C76_file Sample.env0 (Sample.opts .jp2) _).1 (fileValid_of 100 (by decide +kernel))
example : ¬ ValidFile (fun x => (Sample.env0.parseXml x).isSome = true) Sample.env0.catC .j2c [] :=
  fun h => not_fileValid_of (env := Sample.env0) (o := Sample.opts .j2c) (b := []) 10 (by decide +kernel)
    ((C76_file Sample.env0 (Sample.opts .j2c) []).2 h)

end Jpy
