import Verif.Lemmas.Sample
import Verif.Lemmas.File
import Verif.Props.Runs
import Verif.Props.Codestream
/-!
# Valid files: C16 to C23

About every file that `checkOneFile` reports as valid. `bytesRead (fs.read path)` are the contents of
the file.
-/

set_option linter.unusedSimpArgs false

namespace Jpy
open Spec

section
variable {env : Env} {me : MixEnv} {fs : FS} {fuel : Nat} {o : Options} {mix : Nat} {path : PyStr}

/-- A report of validity means that the analysis of the contents ended without failed test. -/
theorem reported_valid (h : ReportedValid env me fs fuel o mix path) :
    ∃ n, validateRoot env o fuel (bytesRead (fs.read path)) = .ok n ∧ n.isValid = true := by
  obtain ⟨rep, h, hv⟩ := h
  obtain ⟨info, a, m, h1, h2, h3, rfl⟩ := checkOneFile_ok.1 h
  rw [verdict_eq (fileInfo_tag h1)] at hv
  rcases analyse_cases h2 with ⟨b, fmm, n, h4, h5, rfl⟩ | ⟨e, -, rfl⟩
  · have hb : b = bytesRead (fs.read path) := by
      unfold fileToMemoryMap at h4
      split at h4 <;> first | cases h4 | skip
      all_goals rename_i hr; rw [hr]; rfl
    subst hb
    refine ⟨n, h5, ?_⟩
    simpa [analysisOf, boolStr_true] using hv
  · simp [analysisFailed, boolStr] at hv

/-- In particular the contents are valid. -/
theorem reported_fileValid (h : ReportedValid env me fs fuel o mix path) :
    FileValid env o (bytesRead (fs.read path)) := by
  obtain ⟨n, h, hv⟩ := reported_valid h
  exact ⟨fuel, n, h, (isValid_iff n).1 hv⟩

end

/-- C17 (characterisation): a file is valid as JP2 or JPH exactly when its boxes pass and it has the
layout of the specification. -/
theorem C17_layout (env : Env) (o : Options) (b : Bytes) (hfmt : o.format = .jp2 ∨ o.format = .jph) :
    FileValid env o b ↔ ∃ l : Layout, l.Ok (BoxPasses env o) b := by
  have hr : ∀ fuel, validateRoot env o fuel b = validateJP2 env o fuel b := by
    intro fuel; unfold validateRoot; rcases hfmt with h | h <;> rw [h]
  constructor
  · rintro ⟨fuel, n, h, hv⟩
    rw [hr] at h
    exact jp2_forward hfmt h ((isValid_iff n).2 hv)
  · rintro ⟨l, hl⟩
    obtain ⟨fuel, n, h, hv⟩ := jp2_backward hfmt hl
    exact ⟨fuel, n, (hr fuel).trans h, (isValid_iff n).1 hv⟩

/-- C23 (file): a file is valid as a codestream exactly when the codestream passes. -/
theorem C23_file (env : Env) (o : Options) (b : Bytes) (hfmt : o.format = .j2c ∨ o.format = .jhc) :
    FileValid env o b ↔ CodestreamPasses env o b := by
  have hr : ∀ fuel, validateRoot env o fuel b = codestream env o fuel b := by
    intro fuel; unfold validateRoot; rcases hfmt with h | h <;> rw [h]
  unfold FileValid CodestreamPasses
  simp only [hr]

/-! ## What the layout gives -/

theorem layout_header {P : Bytes → Bytes → Prop} {b : Bytes} {l : Layout} (hl : l.Ok P b)
    (hi : l.ih.type = ascii "ihdr") : HeaderOf b (l.ih :: l.hrest) l.ih.payload := by
  refine ⟨_, l.hd, l.ih, hl.boxes, ⟨l.sig :: l.ft :: l.pre, l.mid ++ l.cs :: l.post, rfl, hl.hd, ?_⟩,
    hl.header, ⟨[], l.hrest, rfl, hi, fun ⟨_, h, _⟩ => nomatch h⟩, rfl⟩
  intro h
  rcases has_cons.1 h with h | h
  · rw [hl.sig] at h; exact absurd h (by decide)
  · rcases has_cons.1 h with h | h
    · rw [hl.ft] at h; exact absurd h (by decide)
    · exact hl.oneHd.1 h

theorem layout_cs {P : Bytes → Bytes → Prop} {b : Bytes} {l : Layout} (hl : l.Ok P b) :
    CodestreamOf b l.cs.payload := by
  refine ⟨_, l.cs, hl.boxes, ⟨l.sig :: l.ft :: (l.pre ++ l.hd :: l.mid), l.post, ?_, hl.cs, ?_⟩, rfl⟩
  · simp [Layout.rest]
  intro h
  rcases has_cons.1 h with h | h
  · rw [hl.sig] at h; exact absurd h (by decide)
  · rcases has_cons.1 h with h | h
    · rw [hl.ft] at h; exact absurd h (by decide)
    · rcases has_append.1 h with h | h
      · exact hl.firstCs.1 h
      · rcases has_cons.1 h with h | h
        · rw [hl.hd] at h; exact absurd h (by decide)
        · exact hl.firstCs.2 h

theorem passes_cs {env : Env} {o : Options} {p : Bytes} (h : BoxPasses env o (ascii "jp2c") p) :
    CodestreamPasses env o p := by
  obtain ⟨k, r, hr, hn⟩ := h
  obtain ⟨k', hc⟩ := jp2c_result hr
  exact ⟨k', r.node, hc, hn⟩

theorem mem_boxes {l : Layout} : l.sig ∈ l.sig :: l.ft :: l.rest ∧ l.ft ∈ l.sig :: l.ft :: l.rest ∧
    l.hd ∈ l.sig :: l.ft :: l.rest ∧ l.cs ∈ l.sig :: l.ft :: l.rest := by
  simp [Layout.rest]

/-- Passing the tests for a box without fuel. -/
theorem passes_of {env : Env} {o : Options} {t p : Bytes} {Q : Prop}
    (hq : ∀ fuel, Accepted (validateBox env o (fuel + 1) t p) ↔ Q) : BoxPasses env o t p ↔ Q := by
  constructor
  · rintro ⟨k, h⟩
    cases k with
    | zero => obtain ⟨r, hr, -⟩ := h; cases hr
    | succ k => exact (hq k).1 h
  · intro h
    exact ⟨1, (hq 0).2 h⟩

/-- The parts of a valid JP2 or JPH file. -/
structure Parts (env : Env) (o : Options) (b : Bytes) (l : Layout) (p : CodestreamParts) : Prop where
  ok : l.Ok (BoxPasses env o) b
  hpass : ∀ x ∈ l.ih :: l.hrest, BoxPasses env o x.type x.payload
  header : HeaderOk o.format l.ih l.hrest
  ihdr : IhdrOthersOk l.ih.payload
  cs : p.Ok env o l.cs.payload
  siz : p.siz = l.siz
  sizOk : SizOk o.format l.siz

theorem valid_parts {env : Env} {o : Options} {b : Bytes} (hfmt : o.format = .jp2 ∨ o.format = .jph)
    (h : FileValid env o b) : ∃ l p, Parts env o b l p := by
  obtain ⟨l, hl⟩ := (C17_layout env o b hfmt).1 h
  have hh := hl.passes l.hd mem_boxes.2.2.1
  rw [hl.hd] at hh
  obtain ⟨ih, rest, hb, hp, hok⟩ := (C18_header env o l.hd.payload).1 hh
  obtain ⟨rfl, rfl⟩ : l.ih = ih ∧ l.hrest = rest := by simpa using boxes_unique hl.header hb
  have hc := hl.passes l.cs mem_boxes.2.2.2
  rw [hl.cs] at hc
  obtain ⟨p, hpk⟩ := (C23_codestream env o l.cs.payload).1 (passes_cs hc)
  obtain ⟨n, hs⟩ := hl.siz
  have esiz := (segAt_unique hpk.sizAt hs).2.1
  refine ⟨l, p, hl, hp, hok, ?_, hpk, esiz, ?_⟩
  · have := hp l.ih (by simp)
    rw [hok.1] at this
    exact (passes_of fun fuel => C19_ihdr_accepted env o fuel l.ih.payload).1 this
  · obtain ⟨k, hk⟩ := hpk.sizPasses
    rw [← esiz]
    exact ((C26_siz_partial env o k none p.siz).1 hk).1

section
variable {env : Env} {me : MixEnv} {fs : FS} {fuel : Nat} {o : Options} {mix : Nat} {path : PyStr}
  (hfmt : o.format = .jp2 ∨ o.format = .jph) (h : ReportedValid env me fs fuel o mix path)
include hfmt h

/-- C16: a file reported valid as JP2 or JPH starts with the signature box and a file type box with the
brand of the format, minor version 0 and that brand in its compatibility list. -/
theorem C16_file : ∃ sig ft rest, Boxes (bytesRead (fs.read path)) (sig :: ft :: rest) ∧
    sig.type = ascii "jP  " ∧ SignatureOk sig.payload ∧
    ft.type = ascii "ftyp" ∧ FtypOk o.format ft.payload := by
  obtain ⟨l, p, hp⟩ := valid_parts hfmt (reported_fileValid h)
  refine ⟨l.sig, l.ft, l.rest, hp.ok.boxes, hp.ok.sig, ?_, hp.ok.ft, ?_⟩
  · have := hp.ok.passes l.sig mem_boxes.1
    rw [hp.ok.sig] at this
    exact (passes_of fun fuel => C16_signature env o fuel _).1 this
  · have := hp.ok.passes l.ft mem_boxes.2.1
    rw [hp.ok.ft] at this
    exact (passes_of fun fuel => C16_ftyp env o fuel _).1 this

/-- C17: a file reported valid has exactly one signature, file type and JP2 header box and a codestream
box, and the JP2 header box comes after the first two boxes and before every codestream box. -/
theorem C17_order : ∃ bs, Boxes (bytesRead (fs.read path)) bs ∧
    number bs "jP  " = 1 ∧ number bs "ftyp" = 1 ∧ number bs "jp2h" = 1 ∧ 1 ≤ number bs "jp2c" ∧
    ∃ (i : Nat) (hd : FoundBox), bs[i]? = some hd ∧ hd.type = ascii "jp2h" ∧ 2 ≤ i ∧
      ∀ (j : Nat) (cs : FoundBox), bs[j]? = some cs → cs.type = ascii "jp2c" → i < j := by
  obtain ⟨l, p, hp⟩ := valid_parts hfmt (reported_fileValid h)
  have hl := hp.ok
  refine ⟨_, hl.boxes, ?_, ?_, ?_, ?_, l.pre.length + 2, l.hd, ?_, hl.hd, by omega, ?_⟩
  · rw [number_cons_eq hl.sig, number_cons_ne (by rw [hl.ft]; decide), number_zero.2 hl.oneSig]
  · rw [number_cons_ne (by rw [hl.sig]; decide), number_cons_eq hl.ft, number_zero.2 hl.oneFt]
  · rw [number_cons_ne (by rw [hl.sig]; decide), number_cons_ne (by rw [hl.ft]; decide), Layout.rest,
      number_append, number_zero.2 hl.oneHd.1, number_cons_eq hl.hd, number_zero.2 hl.oneHd.2]
  · have : ¬ number (l.sig :: l.ft :: l.rest) "jp2c" = 0 := by
      rw [number_zero]
      exact fun hn => hn ⟨l.cs, mem_boxes.2.2.2, hl.cs⟩
    omega
  · simp [Layout.rest]
  · intro j cs hj hcs
    refine Classical.byContradiction fun hn => ?_
    have hno : ¬ Has (l.sig :: l.ft :: (l.pre ++ [l.hd])) "jp2c" := fun h => by
      rcases has_cons.1 h with h | h
      · rw [hl.sig] at h; exact absurd h (by decide)
      · rcases has_cons.1 h with h | h
        · rw [hl.ft] at h; exact absurd h (by decide)
        · rcases has_append.1 h with h | h
          · exact hl.firstCs.1 h
          · rcases has_cons.1 h with h | ⟨_, h, _⟩
            · rw [hl.hd] at h; exact absurd h (by decide)
            · cases h
    refine hno ⟨cs, ?_, hcs⟩
    have e : l.sig :: l.ft :: l.rest = (l.sig :: l.ft :: (l.pre ++ [l.hd])) ++ (l.mid ++ l.cs :: l.post) := by
      simp [Layout.rest]
    rw [e, List.getElem?_append_left (by simp; omega)] at hj
    exact List.mem_of_getElem? hj

/-- C18: the JP2 header box of a file reported valid is well-formed for the format. -/
theorem C18_file : ∃ ih hrest, HeaderOf (bytesRead (fs.read path)) (ih :: hrest) ih.payload ∧
    HeaderOk o.format ih hrest := by
  obtain ⟨l, p, hp⟩ := valid_parts hfmt (reported_fileValid h)
  exact ⟨l.ih, l.hrest, layout_header hp.ok hp.header.1, hp.header⟩

/-- C20, C21 together: the image header of a file reported valid describes the same image as the SIZ
segment of its first codestream. -/
theorem C20_same_image : ∃ hs ih cs siz, HeaderOf (bytesRead (fs.read path)) hs ih ∧
    CodestreamOf (bytesRead (fs.read path)) cs ∧ SizOf cs siz ∧ SizOk o.format siz ∧
    IhdrOthersOk ih ∧ SameImage hs ih siz := by
  obtain ⟨l, p, hp⟩ := valid_parts hfmt (reported_fileValid h)
  exact ⟨_, _, _, l.siz, layout_header hp.ok hp.header.1, layout_cs hp.ok, ⟨hp.cs.soc, hp.ok.siz⟩,
    hp.sizOk, hp.ihdr, hp.ok.image⟩

/-- C20: height and width of the image header equal Ysiz - YOsiz and Xsiz - XOsiz of the codestream, and
neither is zero. -/
theorem C20_dimensions : ∃ hs ih cs siz h w x y x0 y0,
    HeaderOf (bytesRead (fs.read path)) hs ih ∧
    CodestreamOf (bytesRead (fs.read path)) cs ∧ SizOf cs siz ∧
    uint ih 0 4 = some h ∧ uint ih 4 4 = some w ∧
    uint siz 4 4 = some x ∧ uint siz 8 4 = some y ∧ uint siz 12 4 = some x0 ∧ uint siz 16 4 = some y0 ∧
    h = y - y0 ∧ w = x - x0 ∧ y0 < y ∧ x0 < x := by
  obtain ⟨hs, ih, cs, siz, h1, h2, h3, -, ⟨-, ⟨h', e1, p1⟩, ⟨w', e2, p2⟩, -⟩,
    hh, w, nc, x, y, x0, y0, bpc, g1, g2, -, -, g3, g4, g5, g6, g7, g8, -⟩ := C20_same_image hfmt h
  rw [g1] at e1; cases e1
  rw [g2] at e2; cases e2
  exact ⟨hs, ih, cs, siz, _, _, x, y, x0, y0, h1, h2, h3, g1, g2, g3, g4, g5, g6, by omega, by omega,
    by omega, by omega⟩

/-- C21: the number of components of the image header is Csiz, and the sign and depth declared for every
component, in the image header or for the value 255 in the bits per component box, are those of the
codestream, with a depth of 1 to 38. -/
theorem C21_components : ∃ hs ih cs siz n bpc,
    HeaderOf (bytesRead (fs.read path)) hs ih ∧
    CodestreamOf (bytesRead (fs.read path)) cs ∧ SizOf cs siz ∧
    uint ih 8 2 = some n ∧ uint siz 36 2 = some n ∧ uint ih 10 1 = some bpc ∧
    (∀ i < n, ∃ s, uint siz (38 + 3 * i) 1 = some s ∧ s % 128 + 1 ≤ 38 ∧
      (bpc ≠ 255 → bpc = s) ∧
      (bpc = 255 → ∃ x ∈ hs, x.type = ascii "bpcc" ∧ x.payload.length = n ∧ uint x.payload i 1 = some s)) := by
  obtain ⟨hs, ih, cs, siz, h1, h2, h3, ⟨-, -, -, -, -, -, -, -, -, ⟨c, g, -, -, -, h4⟩⟩, -,
    hh, w, nc, x, y, x0, y0, bpc, -, -, g1, g2, -, -, -, -, -, -, g3, g4, g5⟩ := C20_same_image hfmt h
  rw [g3] at g; cases g
  refine ⟨hs, ih, cs, siz, _, bpc, h1, h2, h3, g1, g3, g2, fun i hi => ?_⟩
  obtain ⟨⟨s, e1, e2⟩, -⟩ := h4 i hi
  refine ⟨s, e1, e2, fun hb => ?_, fun hb => ?_⟩
  · have := g4 hb i hi
    rw [e1] at this; cases this; rfl
  · obtain ⟨x, hx, ht, hlen, hv⟩ := g5 hb
    exact ⟨x, hx, ht, hlen, by rw [← hv i hi, e1]⟩

/-- C19 (file): the image header of a file reported valid conforms, including its bits per component
byte, although the test of that byte alone accepts everything (`C19_ihdr_false`): it is compared with
the codestream. -/
theorem C19_file : ∃ hs ih, HeaderOf (bytesRead (fs.read path)) hs ih ∧ IhdrOk ih := by
  obtain ⟨hs, ih, cs, siz, h1, h2, h3, ⟨-, -, -, -, -, -, -, -, -, ⟨c, g, -, -, -, h4⟩⟩, hI,
    hh, w, nc, x, y, x0, y0, bpc, -, -, g1, g2, -, -, -, -, -, -, g3, g4, g5⟩ := C20_same_image hfmt h
  rw [g3] at g; cases g
  refine ⟨hs, ih, h1, hI, bpc, g2, ?_⟩
  by_cases hb : bpc = 255
  · exact .inr hb
  · obtain ⟨-, -, -, ⟨n, en, hn, -⟩, -⟩ := hI
    rw [g1] at en; cases en
    obtain ⟨⟨s, e1, e2⟩, -⟩ := h4 0 (by omega)
    have := g4 hb 0 (by omega)
    rw [e1] at this; cases this
    exact .inl e2

/-- C22: a file reported valid whose image header declares intellectual property has a jp2i box. -/
theorem C22_ipr : ∃ hs ih bs, HeaderOf (bytesRead (fs.read path)) hs ih ∧
    Boxes (bytesRead (fs.read path)) bs ∧ (FieldIs ih 13 1 (· = 1) → Has bs "jp2i") := by
  obtain ⟨l, p, hp⟩ := valid_parts hfmt (reported_fileValid h)
  refine ⟨_, _, _, layout_header hp.ok hp.header.1, hp.ok.boxes, fun hi => ?_⟩
  obtain ⟨x, hx, ht⟩ := hp.ok.ipr hi
  exact ⟨x, by simp [hx], ht⟩

end

/-! ## Concrete cases -/

/-- C16–C22: `Sample.jp2b` is reported valid, as is the file `Sample.jph`. -/
example : ((Sample.opts .jp2).format = .jp2 ∨ (Sample.opts .jp2).format = .jph) ∧
    ReportedValid Sample.env0 Sample.me0 (Sample.fs0 Sample.jp2b) 200 (Sample.opts .jp2) 0 [97] :=
  ⟨.inl rfl, Sample.jp2b_valid⟩
example : ((Sample.opts .jph).format = .jp2 ∨ (Sample.opts .jph).format = .jph) ∧
    ReportedValid Sample.env0 Sample.me0 (Sample.fs0 Sample.jph) 200 (Sample.opts .jph) 0 [97] :=
  let ⟨rep, h, hv, _⟩ := Sample.saysValid_ok Sample.jph_report
  ⟨.inr rfl, rep, h, hv⟩

/-- C17_layout, C23_file: the two sides of the equivalences hold for these files. -/
example : FileValid Sample.env0 (Sample.opts .jp2) Sample.jp2b := reported_fileValid Sample.jp2b_valid
example : FileValid Sample.env0 (Sample.opts .j2c) Sample.cs2 :=
  let ⟨rep, h, hv, _⟩ := Sample.saysValid_ok Sample.cs2_report
  reported_fileValid (env := Sample.env0) (me := Sample.me0) (fs := Sample.fs0 Sample.cs2) (fuel := 200) (mix := 0)
    (path := [97]) ⟨rep, h, hv⟩

end Jpy
