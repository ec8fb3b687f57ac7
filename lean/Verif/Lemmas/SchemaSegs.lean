import Verif.Lemmas.Schema
/-! # Schema validity of the elements for resolutions, XML and marker segments -/

set_option linter.unusedSimpArgs false
set_option linter.unusedVariables false

namespace Jpy
open Spec Xsd

variable {env : Env} {s : Bool}

/-- A value below `10^15`. -/
def SmallFloat (f : PyFloat) : Prop := f.num.natAbs < 10 ^ 15 * f.den.natAbs

theorem small_inch {f : PyFloat} (h : SmallFloat f) : SmallFloat (resPerInch f) := by
  unfold SmallFloat resPerInch at *
  simp only [Int.natAbs_mul]
  rw [show (254 : Int).natAbs = 254 from rfl, show (10000 : Int).natAbs = 10000 from rfl]
  omega

theorem sm_res (hf : FloatText env) {x n1 n2 n3 n4 n5 n6 n7 n8 n9 n10 : String}
    (e1 : "vR" ++ x ++ "N" = n1) (e2 : "vR" ++ x ++ "D" = n2) (e3 : "hR" ++ x ++ "N" = n3)
    (e4 : "hR" ++ x ++ "D" = n4) (e5 : "vR" ++ x ++ "E" = n5) (e6 : "hR" ++ x ++ "E" = n6)
    (e7 : "vRes" ++ x ++ "InPixelsPerMeter" = n7) (e8 : "hRes" ++ x ++ "InPixelsPerMeter" = n8)
    (e9 : "vRes" ++ x ++ "InPixelsPerInch" = n9) (e10 : "hRes" ++ x ++ "InPixelsPerInch" = n10)
    (hi : ∀ n ∈ [n1, n2, n3, n4, n5, n6], n ∈ integerNames)
    (hr : ∀ n ∈ [n7, n8, n9, n10], n ∈ resolutionNames)
    {c ss} (h : resolutionLeaf x c = .ok ss)
    (hv : s = true → SmallFloat (resPerMeter (bytesToUShortInt (slice c 0 2)) (bytesToUShortInt (slice c 2 4))
      (bytesToSignedChar (slice c 8 9))))
    (hh : s = true → SmallFloat (resPerMeter (bytesToUShortInt (slice c 4 6)) (bytesToUShortInt (slice c 6 8))
      (bytesToSignedChar (slice c 9 10)))) :
    SM env s (sequence [el n1, el n2, el n3, el n4, el n5, el n6, el n7, el n8, el n9, el n10]) ss := by
  unfold resolutionLeaf at h
  rw [e1, e2, e3, e4, e5, e6, e7, e8, e9, e10] at h
  simp only [] at h
  split at h
  · cases h
  · split at h
    · cases h
    · cases h
      apply sm_test
      refine sm_int (hi _ (by simp)) (sm_test ?_)
      refine sm_int (hi _ (by simp)) (sm_test ?_)
      refine sm_int (hi _ (by simp)) (sm_test ?_)
      refine sm_int (hi _ (by simp)) (sm_test ?_)
      refine sm_int (hi _ (by simp)) (sm_test ?_)
      refine sm_int (hi _ (by simp)) (sm_test ?_)
      refine sm_char (leafOk_res (hr _ (by simp)) hf _ hv) ?_
      refine sm_char (leafOk_res (hr _ (by simp)) hf _ hh) ?_
      refine sm_char (leafOk_res (hr _ (by simp)) hf _ fun e => small_inch (hv e)) ?_
      refine sm_char (leafOk_res (hr _ (by simp)) hf _ fun e => small_inch (hh e)) ?_
      exact sm_nil

theorem sm_resc (hf : FloatText env) {c ss} (h : resolutionLeaf "c" c = .ok ss)
    (hv : s = true → SmallFloat (resPerMeter (bytesToUShortInt (slice c 0 2)) (bytesToUShortInt (slice c 2 4))
      (bytesToSignedChar (slice c 8 9))))
    (hh : s = true → SmallFloat (resPerMeter (bytesToUShortInt (slice c 4 6)) (bytesToUShortInt (slice c 6 8))
      (bytesToSignedChar (slice c 9 10)))) :
    SM env s (sequence
      [ el "vRcN", el "vRcD", el "hRcN", el "hRcD", el "vRcE", el "hRcE",
        el "vRescInPixelsPerMeter", el "hRescInPixelsPerMeter", el "vRescInPixelsPerInch",
        el "hRescInPixelsPerInch" ]) ss :=
  sm_res hf (by decide +kernel) (by decide +kernel) (by decide +kernel) (by decide +kernel) (by decide +kernel)
    (by decide +kernel) (by decide +kernel) (by decide +kernel) (by decide +kernel) (by decide +kernel)
    (by decide +kernel) (by decide +kernel) h hv hh

theorem sm_resd (hf : FloatText env) {c ss} (h : resolutionLeaf "d" c = .ok ss)
    (hv : s = true → SmallFloat (resPerMeter (bytesToUShortInt (slice c 0 2)) (bytesToUShortInt (slice c 2 4))
      (bytesToSignedChar (slice c 8 9))))
    (hh : s = true → SmallFloat (resPerMeter (bytesToUShortInt (slice c 4 6)) (bytesToUShortInt (slice c 6 8))
      (bytesToSignedChar (slice c 9 10)))) :
    SM env s (sequence
      [ el "vRdN", el "vRdD", el "hRdN", el "hRdD", el "vRdE", el "hRdE",
        el "vResdInPixelsPerMeter", el "hResdInPixelsPerMeter", el "vResdInPixelsPerInch",
        el "hResdInPixelsPerInch" ]) ss :=
  sm_res hf (by decide +kernel) (by decide +kernel) (by decide +kernel) (by decide +kernel) (by decide +kernel)
    (by decide +kernel) (by decide +kernel) (by decide +kernel) (by decide +kernel) (by decide +kernel)
    (by decide +kernel) (by decide +kernel) h hv hh

theorem sm_any (e : Elem) : SM env s (opt .any) [.elem e] := .left .any

theorem sm_xml (nx d) : SM env s (opt .any) (xmlSteps env nx d) := by
  unfold xmlSteps
  split
  · exact sm_any _
  · refine sm_tests ?_ rfl
    split
    · split
      · exact sm_any _
      · exact .right .empty
    · exact .right .empty

theorem sm_uuid {nx c ss} (h : uuidBox env nx c = .ok ss) : SM env s (opt .any) ss := by
  unfold uuidBox at h
  obtain ⟨u, h1, h⟩ := Outcome.bind_eq_ok.1 h
  cases h
  refine sm_test ?_
  split
  · exact sm_xml _ _
  · exact Matches.left (.any (e := .leaf "uuid" _))

theorem sm_siz {fmt c ss} (h : siz fmt c = .ok ss)
    (hs : s = true → rangeLen (bytesToUShortInt (slice c 36 38)) ≠ 0) : SM env s (sequence
      [ el "lsiz", el "rsiz", el "capability", el "xsiz", el "ysiz", el "xOsiz", el "yOsiz",
        el "xTsiz", el "yTsiz", el "xTOsiz", el "yTOsiz", el "numberOfTiles", el "csiz",
        atLeastOnce s
          (sequence [el "ssizSign", el "ssizDepth", el "xRsiz", el "yRsiz"]) ]) ss := by
  unfold siz at h
  simp only [] at h
  split at h
  · cases h
  · cases h
    refine sm_cat (l1 := [ el "lsiz", el "rsiz", el "capability", el "xsiz", el "ysiz", el "xOsiz", el "yOsiz",
        el "xTsiz", el "yTsiz", el "xTOsiz", el "yTOsiz", el "numberOfTiles", el "csiz" ]) ?_
      (sm_last (sm_loop (fun x => ?_) (fun h => range_ne (by have := hs h; omega))))
    · flat
      sm
      split
      · flat
        sm
      · split <;> flat <;> sm
    · sm

theorem sm_cap (fmt c) : SM env s (sequence
      [ el "lcap", .star (el "pcapPart"), opt (el "htCodeBlocks"), opt (el "htSets"),
        opt (el "htRegion"), opt (el "htHomogeneous"), opt (el "htReversible"),
        opt (el "htB") ]) (cap fmt c) := by
  unfold cap
  simp only []
  flat
  sm
  refine sm_append (sm_starMap (f := fun p : Nat => .int p) (fun x => leafOk_int (by decide +kernel) _) _) ?_
  sm
  split
  · sm
    split
    · sm
    · iterate 6 apply sm_skip
      sm
  · iterate 6 apply sm_skip
    sm

theorem profileLoop_chars (c nm b n st) : charsOf (profileLoop c nm b n st).2 = [] := by
  unfold profileLoop
  have : ∀ (l : List Nat) (acc : Int × List Step), charsOf acc.2 = [] →
      charsOf (l.foldl (fun (acc : Int × List Step) i =>
        let p := bytesToUShortInt (slice c 2 4)
        (acc.1 + p * 2 ^ (16 * i),
         if i = n ∧ b then acc.2 ++ [ .test nm (decide (p ≠ 0)) ] else acc.2)) acc).2 = [] := by
    intro l
    induction l with
    | nil => intro acc h; exact h
    | cons x l ih =>
      intro acc h
      refine ih _ ?_
      simp only []
      split
      · rw [charsOf_append, h]; rfl
      · exact h
  exact this _ _ rfl

theorem sm_quiet {r a ss} (ha : charsOf a = []) (h : SM env s r ss) : SM env s r (a ++ ss) := by
  unfold SM
  rw [charsOf_append, ha]
  exact h

theorem sm_prf (c) : SM env s (sequence [el "lprf", el "PRFnum"]) (prf c) := by
  unfold prf
  simp only []
  flat
  sm
  refine sm_quiet (profileLoop_chars _ _ _ _ _) ?_
  sm

theorem sm_cpf (fmt c) : SM env s (sequence [el "lcpf", el "CPFnum"]) (cpf fmt c) := by
  unfold cpf
  simp only []
  flat
  sm
  split <;> flat <;> sm <;> refine sm_quiet (profileLoop_chars _ _ _ _ _) ?_ <;> sm

theorem leafOk_pow {t : String} (ht : t = "codeBlockWidth" ∨ t = "codeBlockHeight") (hf : FloatText env) (e : Int)
    (h : s = true → 0 ≤ e) : LeafOk env s t (pow2 e) := by
  have hl : (schema s).lookup t = some (.text (if s then .integer else .double)) ∧
      remapTable.lookup t = none := by
    rcases ht with rfl | rfl <;> cases s <;> decide +kernel
  refine .text hl.1 ?_
  unfold pow2
  by_cases h0 : 0 ≤ e
  · rw [if_pos h0, readable_int hl.2]
    cases s with
    | true => exact isInteger_int _
    | false => exact isDouble_of_decimal (isDecimal_of_integer (isInteger_int _))
  · rw [if_neg h0, sm_readable_flt hl.2]
    cases s with
    | true => exact absurd (h rfl) h0
    | false => exact hf.double _

theorem sm_precincts (c off p l) :
    SM env s (sequence [.star (sequence [el "precinctSizeX", el "precinctSizeY"])]) (precinctSteps c off p l) := by
  unfold precinctSteps
  refine sm_last ?_
  split
  · refine sm_star (fun x => ?_) _
    sm
  · refine sm_star (fun x => ?_) _
    sm

theorem sm_codeBlocks (hf : FloatText env) (fmt c) (off : Int)
    (hs : s = true → 0 ≤ bytesToUnsignedChar (slice c off (off + 1)) + 2 ∧
      0 ≤ bytesToUnsignedChar (slice c (off + 1) (off + 2)) + 2) :
    SM env s (sequence [ el "codeBlockWidth", el "codeBlockHeight", el "codingBypass",
      opt (el "resetOnBoundaries"), el "termOnEachPass", el "vertCausalContext",
      opt (el "predTermination"), opt (el "segmentationSymbols"), el "transformation" ])
      (codeBlockSteps fmt c off) := by
  unfold codeBlockSteps
  simp only []
  generalize (if fmt.isHT then decide (maskAt _ 6 2 = 64) else false) = ht
  flat
  refine sm_char (leafOk_pow (.inl rfl) hf _ fun h => (hs h).1) ?_
  sm
  refine sm_char (leafOk_pow (.inr rfl) hf _ fun h => (hs h).2) ?_
  cases ht
  · simp only [Bool.not_false, if_pos]
    flat
    sm
  · simp only [Bool.not_true, Bool.false_eq_true, if_false]
    flat
    sm
    apply sm_skip
    sm
    apply sm_skip
    apply sm_skip
    sm

theorem sm_cod (hf : FloatText env) (fmt c)
    (hs : s = true → 0 ≤ bytesToUnsignedChar (slice c 8 9) + 2 ∧
      0 ≤ bytesToUnsignedChar (slice c 9 10) + 2) :
    SM env s (sequence
      ([ el "lcod", el "precincts", el "sop", el "eph", el "order", el "layers",
         el "multipleComponentTransformation" ] ++ codingStyle)) (cod fmt c) := by
  unfold cod
  simp only []
  refine sm_cat (l1 := [ el "lcod", el "precincts", el "sop", el "eph", el "order", el "layers",
         el "multipleComponentTransformation", el "levels", el "codeBlockWidth", el "codeBlockHeight",
         el "codingBypass", opt (el "resetOnBoundaries"), el "termOnEachPass", el "vertCausalContext",
         opt (el "predTermination"), opt (el "segmentationSymbols"), el "transformation" ]) ?_
    (sm_precincts _ _ _ _)
  refine sm_cat (l1 := [ el "lcod", el "precincts", el "sop", el "eph", el "order", el "layers",
         el "multipleComponentTransformation", el "levels" ]) ?_ (sm_codeBlocks hf fmt c 8 hs)
  sm

theorem sm_coc (hf : FloatText env) {fmt cs c ss} (h : coc fmt cs c = .ok ss)
    (hs : s = true → ∀ n, cs = some n → 0 ≤ bytesToUnsignedChar (slice c ((compIndex c n).2.2 + 2) ((compIndex c n).2.2 + 3)) + 2 ∧
      0 ≤ bytesToUnsignedChar (slice c ((compIndex c n).2.2 + 3) ((compIndex c n).2.2 + 4)) + 2) :
    SM env s (sequence ([ el "lcoc", el "ccoc", el "precincts" ] ++ codingStyle)) ss := by
  unfold coc withCsiz at h
  split at h
  · cases h
  · rename_i n
    have hs := fun e => hs e n rfl
    generalize hc : compIndex c n = ci at hs
    obtain ⟨cc, ok, off⟩ := ci
    simp only [hc] at h hs
    cases h
    refine sm_cat (l1 := [ el "lcoc", el "ccoc", el "precincts", el "levels", el "codeBlockWidth", el "codeBlockHeight",
         el "codingBypass", opt (el "resetOnBoundaries"), el "termOnEachPass", el "vertCausalContext",
         opt (el "predTermination"), opt (el "segmentationSymbols"), el "transformation" ]) ?_
      (sm_precincts _ _ _ _)
    have hcb := sm_codeBlocks (s := s) hf fmt c (off + 2) fun e => by
      have := hs e
      rw [show off + 2 + 1 = off + 3 by omega, show off + 2 + 2 = off + 4 by omega]
      exact this
    refine sm_cat (l1 := [ el "lcoc", el "ccoc", el "precincts", el "levels" ]) ?_ hcb
    sm

theorem sm_rgn {fmt cs c ss} (h : rgn fmt cs c = .ok ss) :
    SM env s (sequence [el "lrgn", el "crgn", el "roiStyle", el "roiShift"]) ss := by
  unfold rgn withCsiz at h
  split at h
  · cases h
  · simp only [] at h
    cases h
    sm

theorem sm_alt1 {a b : Re} {ss} (h : SM env s a ss) : SM env s (.alt a b) ss := .left h
theorem sm_alt2 {a b : Re} {ss} (h : SM env s b ss) : SM env s (.alt a b) ss := .right h

theorem sm_quant (c q l off) : SM env s (sequence [stepSizes]) (quantSteps c q l off) := by
  refine sm_last ?_
  unfold quantSteps stepSizes
  split
  · rw [map_flatMap]
    have hx : ∀ i : Nat, SM env s (el "epsilon") ([.char "epsilon" (.int (low (shr (bytesToUnsignedChar
        (slice c (off + i) (off + i + 1))) 3) 5))] : List Step) := fun i =>
      sm_one (leafOk_int (by decide +kernel) _)
    cases hn : List.range (rangeLen l) with
    | nil => exact sm_alt2 .nil
    | cons y ys =>
      rw [List.flatMap_cons]
      exact sm_alt1 (sm_seq (hx y) (sm_star hx ys))
  · refine sm_alt2 ?_
    have h2 : ∀ sp : Int, SM env s (sequence [el "mu", el "epsilon"])
        ([.char "mu" (.int (low sp 11)), .char "epsilon" (.int (low (shr sp 11) 5))] : List Step) := fun sp => by sm
    split
    · have := sm_star (s := s) (env := env) (r := sequence [el "mu", el "epsilon"])
        (fun _ : Unit => h2 (bytesToUShortInt (slice c off (off + 2)))) [()]
      simpa using this
    · split
      · exact sm_star (fun i => h2 _) _
      · exact .nil

theorem sm_qcd (c) : SM env s (sequence [el "lqcd", el "qStyle", el "guardBits", stepSizes]) (qcd c) := by
  unfold qcd
  simp only []
  flat
  sm
  exact sm_quant _ _ _ _

theorem sm_qcc {cs c ss} (h : qcc cs c = .ok ss) :
    SM env s (sequence [el "lqcc", el "cqcc", el "qStyle", el "guardBits", stepSizes]) ss := by
  unfold qcc withCsiz at h
  split at h
  · cases h
  · simp only [] at h
    cases h
    flat
    sm
    exact sm_quant _ _ _ _

theorem sm_poc {cs c ss} (h : poc cs c = .ok ss)
    (hs : s = true → ∀ n, cs = some n → rangeLen (intDiv (bytesToUShortInt (slice c 0 2) - 2)
      (if n < 257 then 7 else 9)) ≠ 0) : SM env s (sequence
      [ el "lpoc", atLeastOnce s (sequence
        [ el "rspoc", el "cspoc", el "lyepoc", el "repoc", el "cepoc", el "order" ]) ]) ss := by
  unfold poc withCsiz at h
  split at h
  · cases h
  · rename_i n
    have hs := fun e => hs e n rfl
    simp only [] at h
    cases h
    flat
    sm
    refine sm_last (sm_loop (fun x => ?_) (fun h => range_ne (by have := hs h; omega)))
    unfold pocEntry
    sm

theorem sm_crg {cs c ss} (h : crg cs c = .ok ss) (hs : s = true → ∀ n, cs = some n → rangeLen n ≠ 0) :
    SM env s (sequence [el "lcrg", atLeastOnce s (sequence [el "xcrg", el "ycrg"])]) ss := by
  unfold crg withCsiz at h
  split at h
  · cases h
  · rename_i n
    have hs := fun e => hs e n rfl
    simp only [] at h
    cases h
    flat
    sm
    refine sm_last (sm_loop (fun x => ?_) (fun h => range_ne (by have := hs h; omega)))
    sm

theorem sm_com (c) : SM env s (sequence [el "lcom", el "rcom", opt (el "comment")]) (com env c) := by
  unfold com
  simp only []
  generalize (if bytesToUShortInt (slice c 2 4) = 0 then _ else _ : Bool × PyVal) = cv
  obtain ⟨ok, v⟩ := cv
  simp only []
  cases ok
  · simp only [Bool.false_eq_true, if_false]
    flat
    sm
    apply sm_skip
    sm
  · simp only [if_true]
    flat
    sm

theorem sm_sot (c) : SM env s (sequence [el "lsot", el "isot", el "psot", el "tpsot", el "tnsot"]) (sot c) := by
  unfold sot
  sm

theorem sm_plm {fuel c ss} (h : plm fuel c = .ok ss) :
    SM env s (sequence [el "lplm", el "zplm", el "nplm", el "iplm"]) ss := by
  unfold plm at h
  obtain ⟨u, h1, h⟩ := Outcome.bind_eq_ok.1 h
  cases h
  sm

theorem sm_plt {fuel c ss} (h : plt fuel c = .ok ss) :
    SM env s (sequence [el "lplt", el "zplt", el "iplt"]) ss := by
  unfold plt at h
  obtain ⟨u, h1, h⟩ := Outcome.bind_eq_ok.1 h
  cases h
  sm

end Jpy
