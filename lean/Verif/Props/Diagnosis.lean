import Verif.Props.Rules
import Verif.Props.SegmentRules
import Verif.Spec.Sample
/-! # C56: every failed test names the rule that is violated -/

namespace Jpy
open Spec

/-- Being well-formed XML, as judged by the XML parser of the environment. -/
def parses (env : Env) (d : Bytes) : Prop := (env.parseXml d).isSome = true

theorem diagnosed_leaf {env : Env} {o : Options} {fuel : Nat} {t p : Bytes} {r : BoxResult} {bt : BoxType}
    {rs : List Rule} (h : validateBox env o fuel t p = .ok r) (ht : boxTypeOf t = bt)
    (hl : bt.isLeaf = true)
    (hd : ∀ fuel ss, leaf env o fuel none bt t p = .ok ss → Diag ss rs) : Diagnosed r.node.tests rs := by
  cases fuel with
  | zero => cases h
  | succ fuel =>
    obtain ⟨ss, h1, rfl⟩ := (validateBox_ok ht hl).1 h
    exact diagnosed_run (hd fuel ss h1)

/-- C56 (boxes): the failed tests of a box are exactly those whose rule is violated by its payload. -/
theorem C56_box (env : Env) (o : Options) (fuel : Nat) (t p : Bytes) (r : BoxResult)
    (hl : t.length = 4) (hs : t ∉ superboxTypes) (hc : t ≠ ascii "jp2c")
    (h : validateBox env o fuel t p = .ok r) :
    Diagnosed r.node.tests (boxRules (parses env) o.format t p) := by
  unfold boxRules
  by_cases e0 : t = ascii "jP  "
  · rw [if_pos e0]; subst t
    exact diagnosed_leaf (bt := .signatureBox) h (by decide) rfl (by rintro _ _ ⟨⟩; exact diag_signature p)
  rw [if_neg e0]
  by_cases e1 : t = ascii "ftyp"
  · rw [if_pos e1]; subst t
    exact diagnosed_leaf (bt := .fileTypeBox) h (by decide) rfl (by rintro _ _ ⟨⟩; exact diag_ftyp _ p)
  rw [if_neg e1]
  by_cases e2 : t = ascii "ihdr"
  · rw [if_pos e2]; subst t
    exact diagnosed_leaf (bt := .imageHeaderBox) h (by decide) rfl (by rintro _ _ ⟨⟩; exact diag_ihdr p)
  rw [if_neg e2]
  by_cases e3 : t = ascii "bpcc"
  · rw [if_pos e3]; subst t
    exact diagnosed_leaf (bt := .bitsPerComponentBox) h (by decide) rfl (by rintro _ _ ⟨⟩; exact diag_bpcc p)
  rw [if_neg e3]
  by_cases e4 : t = ascii "colr"
  · rw [if_pos e4]; subst t
    exact diagnosed_leaf (bt := .colourSpecificationBox) h (by decide) rfl (by rintro _ _ ⟨⟩; exact diag_colr _ p)
  rw [if_neg e4]
  by_cases e5 : t = ascii "pclr"
  · rw [if_pos e5]; subst t
    exact diagnosed_leaf (bt := .paletteBox) h (by decide) rfl (by rintro _ _ ⟨⟩; exact diag_palette p)
  rw [if_neg e5]
  by_cases e6 : t = ascii "cmap"
  · rw [if_pos e6]; subst t
    exact diagnosed_leaf (bt := .componentMappingBox) h (by decide) rfl (by rintro _ _ ⟨⟩; exact diag_cmap p)
  rw [if_neg e6]
  by_cases e7 : t = ascii "cdef"
  · rw [if_pos e7]; subst t
    exact diagnosed_leaf (bt := .channelDefinitionBox) h (by decide) rfl (by rintro _ _ ⟨⟩; exact diag_cdef _ p)
  rw [if_neg e7]
  by_cases e8 : t = ascii "resc"
  · rw [if_pos e8]; subst t
    exact diagnosed_leaf (bt := .captureResolutionBox) h (by decide) rfl fun _ ss hss => diag_res _ p ss hss
  rw [if_neg e8]
  by_cases e9 : t = ascii "resd"
  · rw [if_pos e9]; subst t
    exact diagnosed_leaf (bt := .displayResolutionBox) h (by decide) rfl fun _ ss hss => diag_res _ p ss hss
  rw [if_neg e9]
  by_cases e10 : t = ascii "xml "
  · rw [if_pos e10]; subst t
    exact diagnosed_leaf (bt := .xmlBox) h (by decide) rfl (by
      rintro _ _ ⟨⟩; exact diag_xmlSteps env _ p _ Iff.rfl)
  rw [if_neg e10]
  by_cases e11 : t = ascii "uuid"
  · rw [if_pos e11]; subst t
    exact diagnosed_leaf (bt := .uuidBox) h (by decide) rfl fun _ ss hss => diag_uuid env _ p ss hss
  rw [if_neg e11]
  by_cases e12 : t = ascii "ulst"
  · rw [if_pos e12]; subst t
    exact diagnosed_leaf (bt := .uuidListBox) h (by decide) rfl fun _ ss hss => diag_ulst p ss hss
  rw [if_neg e12]
  by_cases e13 : t = ascii "url "
  · rw [if_pos e13]; subst t
    exact diagnosed_leaf (bt := .urlBox) h (by decide) rfl (by rintro _ _ ⟨⟩; exact diag_url p)
  rw [if_neg e13]
  by_cases hi : t = ascii "jp2i"
  · subst t
    exact diagnosed_leaf (bt := .intellectualPropertyBox) h (by decide) rfl (by rintro _ _ ⟨⟩; exact diag_nil)
  · have hu : boxTypeOf t = .unknownBox := by
      unfold boxTypeOf
      have : typeMap.lookup t = none := by
        rw [List.lookup_eq_none_iff]
        intro q hq
        have key : ∀ p ∈ typeMap, p.1.length = 4 → p.1 ∈ [ascii "jP  ", ascii "ftyp", ascii "ihdr",
          ascii "bpcc", ascii "colr", ascii "pclr", ascii "cmap", ascii "cdef", ascii "resc", ascii "resd",
          ascii "xml ", ascii "uuid", ascii "ulst", ascii "url ", ascii "jp2i", ascii "jp2c"] ++
          superboxTypes := by decide
        by_cases he : t = q.1
        · exfalso
          have := key q hq (he ▸ hl)
          rw [← he] at this
          rcases List.mem_append.1 this with this | this
          · simp only [List.mem_cons, e0, e1, e2, e3, e4, e5, e6, e7, e8, e9, e10, e11, e12, e13, hi, hc,
              false_or, List.not_mem_nil] at this
          · exact hs this
        · simpa using he
      rw [this]; rfl
    exact diagnosed_leaf (bt := .unknownBox) h hu rfl (by rintro _ _ ⟨⟩; exact diag_none rfl)

/-! ## Marker segments -/

theorem testsOf_plm {fuel c ss} (h : plm fuel c = .ok ss) : testsOf ss = [] := by
  obtain ⟨x, _, h⟩ := Outcome.bind_eq_ok.1 h
  cases h; rfl

theorem testsOf_plt {fuel c ss} (h : plt fuel c = .ok ss) : testsOf ss = [] := by
  obtain ⟨x, _, h⟩ := Outcome.bind_eq_ok.1 h
  cases h; rfl

theorem diagnosed_seg {env : Env} {o : Options} {fuel : Nat} {csiz : Option Int} {m c : Bytes}
    {r : BoxResult} (bt : BoxType)
    {rs : List Rule} (h : validateLeaf env o fuel csiz m c = .ok r) (ht : boxTypeOf m = bt)
    (hd : ∀ ss, leaf env o fuel csiz bt m c = .ok ss → Diag ss rs) : Diagnosed r.node.tests rs := by
  obtain ⟨ss, h1, rfl⟩ := (validateLeaf_ok ht).1 h
  exact diagnosed_run (hd ss h1)

/-- C56 (marker segments): the failed tests of a marker segment are exactly those whose rule is violated by
its bytes, given the number of components where it matters. -/
theorem C56_segment (env : Env) (o : Options) (fuel : Nat) (csiz : Int) (m c : Bytes) (r : BoxResult)
    (hm : m ∈ SIZ :: (mainSegments ++ tilePartSegments))
    (h : validateLeaf env o fuel (some csiz) m c = .ok r) :
    Diagnosed r.node.tests (segRules env.catC o.format csiz m c) := by
  unfold segRules
  by_cases e0 : m = SIZ
  · rw [if_pos e0]; subst m
    exact diagnosed_seg .siz h (by decide) fun ss hss => diag_siz _ c ss hss
  rw [if_neg e0]
  by_cases e1 : m = COD
  · rw [if_pos e1]; subst m
    exact diagnosed_seg .cod h (by decide) (by rintro _ ⟨⟩; exact diag_cod _ c)
  rw [if_neg e1]
  by_cases e2 : m = COC
  · rw [if_pos e2]; subst m
    exact diagnosed_seg .coc h (by decide) fun ss hss => diag_coc _ csiz c ss hss
  rw [if_neg e2]
  by_cases e3 : m = RGN
  · rw [if_pos e3]; subst m
    exact diagnosed_seg .rgn h (by decide) fun ss hss => diag_rgn _ csiz c ss hss
  rw [if_neg e3]
  by_cases e4 : m = QCD
  · rw [if_pos e4]; subst m
    exact diagnosed_seg .qcd h (by decide) (by rintro _ ⟨⟩; exact diag_qcd c)
  rw [if_neg e4]
  by_cases e5 : m = QCC
  · rw [if_pos e5]; subst m
    exact diagnosed_seg .qcc h (by decide) fun ss hss => diag_qcc csiz c ss hss
  rw [if_neg e5]
  by_cases e6 : m = POC
  · rw [if_pos e6]; subst m
    exact diagnosed_seg .poc h (by decide) fun ss hss => diag_poc csiz c ss hss
  rw [if_neg e6]
  by_cases e7 : m = CRG
  · rw [if_pos e7]; subst m
    exact diagnosed_seg .crg h (by decide) fun ss hss => diag_crg csiz c ss hss
  rw [if_neg e7]
  by_cases e8 : m = COM
  · rw [if_pos e8]; subst m
    exact diagnosed_seg .com h (by decide) (by rintro _ ⟨⟩; exact diag_com env c)
  rw [if_neg e8]
  by_cases e9 : m = CAP
  · rw [if_pos e9]; subst m
    exact diagnosed_seg .cap h (by decide) (by rintro _ ⟨⟩; exact diag_cap _ c)
  rw [if_neg e9]
  by_cases e10 : m = PRF
  · rw [if_pos e10]; subst m
    exact diagnosed_seg .prf h (by decide) (by rintro _ ⟨⟩; exact diag_prf c)
  rw [if_neg e10]
  by_cases e11 : m = CPF
  · rw [if_pos e11]; subst m
    exact diagnosed_seg .cpf h (by decide) (by rintro _ ⟨⟩; exact diag_cpf _ c)
  rw [if_neg e11]
  have hm' : m = TLM ∨ m = PLM ∨ m = PLT ∨ m = PPM ∨ m = PPT := by
    have key : ∀ m ∈ SIZ :: (mainSegments ++ tilePartSegments), m ∈ [SIZ, COD, COC, RGN, QCD, QCC, POC, CRG,
      COM, CAP, PRF, CPF, TLM, PLM, PLT, PPM, PPT] := by decide
    have := key m hm
    simpa only [List.mem_cons, e0, e1, e2, e3, e4, e5, e6, e7, e8, e9, e10, e11, false_or,
      List.not_mem_nil, or_false] using this
  rcases hm' with rfl | rfl | rfl | rfl | rfl
  · exact diagnosed_seg .tlm h (by decide) (by rintro _ ⟨⟩; exact diag_nil)
  · exact diagnosed_seg .plm h (by decide) fun ss hss => diag_none (testsOf_plm hss)
  · exact diagnosed_seg .plt h (by decide) fun ss hss => diag_none (testsOf_plt hss)
  · exact diagnosed_seg .ppm h (by decide) (by rintro _ ⟨⟩; exact diag_nil)
  · exact diagnosed_seg .ppt h (by decide) (by rintro _ ⟨⟩; exact diag_nil)

/-! ## The hypotheses are met -/

/-- An image header box with a payload of one byte: validation ends and the test of the length fails. -/
example : ∃ r, validateBox Sample.env0 (Sample.opts .jp2) 5 (ascii "ihdr") [0] = .ok r ∧
    (ascii "ihdr").length = 4 ∧ ascii "ihdr" ∉ superboxTypes ∧ ascii "ihdr" ≠ ascii "jp2c" ∧
    Failed r.node.tests "boxLengthIsValid" := by
  refine ⟨_, rfl, by decide, by decide, by decide, ?_⟩
  exact (failed_run _ _ (imageHeaderBox [0])).2 (by decide +kernel)

/-- A QCD segment of an image with three components, with a wrong length field: validation ends and the
test of the length fails. -/
example : ∃ r, validateLeaf Sample.env0 (Sample.opts .jp2) 5 (some 3) QCD [0, 3, 32, 8] = .ok r ∧
    QCD ∈ SIZ :: (mainSegments ++ tilePartSegments) ∧ Failed r.node.tests "lqcdIsValid" := by
  refine ⟨_, rfl, by decide, ?_⟩
  exact (failed_run _ _ (qcd [0, 3, 32, 8])).2 (by decide +kernel)

end Jpy
