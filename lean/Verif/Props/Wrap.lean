import Verif.Lemmas.Wrap
import Verif.Props.Generate
import Verif.Props.FileRules
import Verif.Props.Unknown
/-!
# A codestream in a file and by itself

C58: the verdict on a codestream does not depend on whether it is analysed as the contents of a codestream
box or as a file of its own, and neither do the tests and properties reported for it.
-/

namespace Jpy
open Spec

theorem bareFormat_cases {f f'} (h : BareFormat f f') : (f = .jp2 ∨ f = .jph) ∧ (f' = .j2c ∨ f' = .jhc) := by
  cases h <;> simp

theorem jp2c_passes (env : Env) (o : Options) (p : Bytes) :
    BoxPasses env o (ascii "jp2c") p ↔ CodestreamPasses env o p := by
  constructor
  · rintro ⟨k, r, hr, hv⟩
    obtain ⟨k', hk⟩ := jp2c_result hr
    exact ⟨k', r.node, hk, hv⟩
  · rintro ⟨k, nd, hk, hv⟩
    refine ⟨k + 1, ⟨"contiguousCodestreamBox", nd, none⟩, ?_, hv⟩
    have hbt : boxTypeOf (ascii "jp2c") = .contiguousCodestreamBox := by decide
    unfold validateBox
    rw [hbt, hk]
    rfl

theorem codestreamPasses_bare (env : Env) (o : Options) {f} (h : BareFormat o.format f) (p : Bytes) :
    CodestreamPasses env o p ↔ CodestreamPasses env (withFormat o f) p := by
  constructor
  · rintro ⟨k, n, hn, hv⟩
    have hr := codestream_bare env o h k p
    rw [hn] at hr
    generalize hx : codestream env (withFormat o f) k p = x at hr
    cases hr with
    | ok hs => exact ⟨k, _, hx, by rw [hs.tests]; exact hv⟩
  · rintro ⟨k, n, hn, hv⟩
    have hr := codestream_bare env o h k p
    rw [hn] at hr
    generalize hx : codestream env o k p = x at hr
    cases hr with
    | ok hs => exact ⟨k, _, hx, by rw [← hs.tests]; exact hv⟩

/-- C58: a codestream box of a JP2 file passes exactly when its contents are a valid codestream file, and
likewise for JPH. -/
theorem C58_codestream (env : Env) (o : Options) {f : Format} (h : BareFormat o.format f) (p : Bytes) :
    BoxPasses env o (ascii "jp2c") p ↔ FileValid env (withFormat o f) p := by
  rw [jp2c_passes, codestreamPasses_bare env o h, C23_file env (withFormat o f) p (bareFormat_cases h).2]

/-- C58 (extraction): every codestream taken out of a valid file is a valid codestream file. -/
theorem C58_extract (env : Env) (o : Options) {f : Format} (h : BareFormat o.format f) {b : Bytes}
    (hv : FileValid env o b) {bs} (hb : Boxes b bs) {x} (hx : x ∈ bs) (ht : x.type = ascii "jp2c") :
    FileValid env (withFormat o f) x.payload := by
  obtain ⟨l, hl⟩ := (C17_layout env o b (bareFormat_cases h).1).1 hv
  rw [← C58_codestream env o h, ← ht]
  have e := boxes_unique hb hl.boxes
  exact hl.passes x (e ▸ hx)

/-! ## Wrapping -/

theorem map_pairs_cons {bs : List FoundBox} {t p : Bytes} {l}
    (h : bs.map (fun x => (x.type, x.payload)) = (t, p) :: l) :
    ∃ x bs', bs = x :: bs' ∧ x.type = t ∧ x.payload = p ∧ bs'.map (fun x => (x.type, x.payload)) = l := by
  obtain ⟨x, bs', rfl, e, hm⟩ := List.map_eq_cons_iff.1 h
  simp only [Prod.mk.injEq] at e
  exact ⟨x, bs', rfl, e.1, e.2, hm⟩

theorem ihdr_wrap {w h nc : Nat} (hh : h < 2 ^ 32) (hw : w < 2 ^ 32) (hn : nc < 2 ^ 16) {c : Bytes}
    (hc : c = beBytes 4 h ++ beBytes 4 w ++ beBytes 2 nc ++ [255, 7, 0, 0]) :
    c.length = 14 ∧ uint c 0 4 = some h ∧ uint c 4 4 = some w ∧ uint c 8 2 = some nc ∧ uint c 10 1 = some 255 ∧
      uint c 11 1 = some 7 ∧ uint c 12 1 = some 0 ∧ uint c 13 1 = some 0 := by
  have l4 : ∀ v, (beBytes 4 v).length = 4 := length_beBytes 4
  have l2 : ∀ v, (beBytes 2 v).length = 2 := length_beBytes 2
  refine ⟨by simp [hc, l4, l2], ?_, ?_, ?_, ?_, ?_, ?_, ?_⟩
  · exact uint_beBytes (pre := []) (post := beBytes 4 w ++ beBytes 2 nc ++ [255, 7, 0, 0]) (by simp [hc]) rfl (by omega)
  · exact uint_beBytes (pre := beBytes 4 h) (post := beBytes 2 nc ++ [255, 7, 0, 0]) (by simp [hc]) (by simp [l4]) (by omega)
  · exact uint_beBytes (pre := beBytes 4 h ++ beBytes 4 w) (post := [255, 7, 0, 0]) (by simp [hc]) (by simp [l4]) (by omega)
  · exact uint_part (pre := beBytes 4 h ++ beBytes 4 w ++ beBytes 2 nc) (c := [255, 7, 0, 0]) (post := []) (k := 0)
      (by simp [hc]) (by simp [l4, l2]) (by decide)
  · exact uint_part (pre := beBytes 4 h ++ beBytes 4 w ++ beBytes 2 nc) (c := [255, 7, 0, 0]) (post := []) (k := 1)
      (by simp [hc]) (by simp [l4, l2]) (by decide)
  · exact uint_part (pre := beBytes 4 h ++ beBytes 4 w ++ beBytes 2 nc) (c := [255, 7, 0, 0]) (post := []) (k := 2)
      (by simp [hc]) (by simp [l4, l2]) (by decide)
  · exact uint_part (pre := beBytes 4 h ++ beBytes 4 w ++ beBytes 2 nc) (c := [255, 7, 0, 0]) (post := []) (k := 3)
      (by simp [hc]) (by simp [l4, l2]) (by decide)

/-- C58 (wrapping): the smallest file around a codestream is valid exactly when the codestream is, as a file of
its own, and the image area it announces is not empty. -/
theorem C58_wrap (env : Env) (o : Options) {f : Format} (h : BareFormat o.format f) {siz cs b : Bytes}
    (hz : SizOf cs siz) (hw : WrapsCodestream o.format siz cs b) :
    FileValid env o b ↔ FileValid env (withFormat o f) cs ∧ ImageNotEmpty siz := by
  obtain ⟨x, y, x0, y0, nc, ihdr, bpcc, hd, h1, h2, h3, h4, h5, hih, hbl, hbp, heh, heb⟩ := hw
  obtain ⟨bs, hb, hm⟩ := (C10_roundtrip heb).1
  obtain ⟨hs, hhb, hhm⟩ := (C10_roundtrip heh).1
  obtain ⟨sig, bs, rfl, es1, es2, hm⟩ := map_pairs_cons hm
  obtain ⟨ft, bs, rfl, ef1, ef2, hm⟩ := map_pairs_cons hm
  obtain ⟨hdx, bs, rfl, eh1, eh2, hm⟩ := map_pairs_cons hm
  obtain ⟨csx, bs, rfl, ec1, ec2, hm⟩ := map_pairs_cons hm
  obtain rfl := List.map_eq_nil_iff.1 hm
  obtain ⟨ih, hs, rfl, ei1, ei2, hhm⟩ := map_pairs_cons hhm
  obtain ⟨bp, hs, rfl, eb1, eb2, hhm⟩ := map_pairs_cons hhm
  obtain ⟨cl, hs, rfl, el1, el2, hhm⟩ := map_pairs_cons hhm
  obtain rfl := List.map_eq_nil_iff.1 hhm
  have hfmt := (bareFormat_cases h).1
  have bx := uint_lt h1
  have b_y := uint_lt h2
  have bn := uint_lt h5
  obtain ⟨i0, i1, i2, i3, i4, i5, i6, i7⟩ := ihdr_wrap (c := ihdr) (w := x - x0) (h := y - y0) (nc := nc)
    (by omega) (by omega) (by omega) hih
  constructor
  · intro hv
    refine ⟨?_, ?_⟩
    · have := C58_extract env o h hv hb (x := csx) (by simp) ec1
      rwa [ec2] at this
    · obtain ⟨l, hl⟩ := (C17_layout env o b hfmt).1 hv
      have e := boxes_unique hb hl.boxes
      have hp : BoxPasses env o (ascii "jp2h") hd := by
        have := hl.passes hdx (e ▸ by simp)
        rwa [eh1, eh2] at this
      obtain ⟨ih', rest', hb', hp', -⟩ := (C18_header env o hd).1 hp
      have e' := boxes_unique hhb hb'
      have := hp' ih (e' ▸ by simp)
      rw [ei1, ei2] at this
      obtain ⟨-, ⟨v, g1, g2⟩, ⟨w, g3, g4⟩, -⟩ := (passes_of fun fuel => C19_ihdr_accepted env o fuel _).1 this
      rw [i1] at g1; rw [i2] at g3
      cases g1; cases g3
      exact ⟨x, y, x0, y0, h1, h2, h3, h4, by omega, by omega⟩
  · rintro ⟨hv, x', y', x0', y0', k1, k2, k3, k4, hx, hy⟩
    rw [h1] at k1; rw [h2] at k2; rw [h3] at k3; rw [h4] at k4
    cases k1; cases k2; cases k3; cases k4
    have hcs : BoxPasses env o (ascii "jp2c") cs := (C58_codestream env o h cs).2 hv
    obtain ⟨parts, hok⟩ := (C23_codestream env o cs).1 ((jp2c_passes env o cs).1 hcs)
    obtain ⟨-, ns, hns⟩ := hz
    have hsame : parts.siz = siz := (segAt_unique hok.sizAt hns).2.1
    obtain ⟨k, hk⟩ := hok.sizPasses
    have hsok := ((C26_siz_partial env o k none parts.siz).1 hk).1
    rw [hsame] at hsok
    obtain ⟨n, q1, q2, q3, -, q4⟩ := hsok.2.2.2.2.2.2.2.2.2
    rw [h5] at q1; cases q1
    have hbpcc : BpccOk bpcc := by
      intro v hv
      obtain ⟨i, hi, rfl⟩ := List.getElem_of_mem hv
      have hi' : i < nc := by omega
      obtain ⟨⟨d, hd1, hd2⟩, -⟩ := q4 i hi'
      have := hbp i hi'
      rw [hd1, uint_getElem hi] at this
      cases this
      exact hd2
    rw [C17_layout env o b hfmt]
    have hheader : BoxPasses env o (ascii "jp2h") hd := by
      refine (C18_header env o hd).2 ⟨ih, [bp, cl], hhb, ?_, ?_⟩
      · intro z hz
        simp only [List.mem_cons, List.not_mem_nil, or_false] at hz
        rcases hz with rfl | rfl | rfl
        · rw [ei1, ei2]
          refine (passes_of fun fuel => C19_ihdr_accepted env o fuel _).2 ⟨i0, ⟨_, i1, by omega⟩, ⟨_, i2, by omega⟩,
            ⟨_, i3, q2, q3⟩, ⟨_, i5, rfl⟩, ⟨_, i6, by omega⟩, ⟨_, i7, by omega⟩⟩
        · rw [eb1, eb2]; exact (passes_of fun fuel => C21_bpcc env o fuel _).2 hbpcc
        · rw [el1, el2]
          refine (passes_of fun fuel => C35_colr_accepted env o fuel _).2 ⟨⟨0, rfl, rfl⟩, ⟨0, rfl, rfl⟩, 1, rfl, ?_,
            fun _ => ⟨rfl, 17, by decide, by decide⟩, (fun e => nomatch e), (fun e => nomatch e)⟩
          rcases hfmt with e | e <;> rw [e] <;> simp [methodsOf]
      · have hcolr : Has [ih, bp, cl] "colr" := ⟨cl, by simp, el1⟩
        have nn : ∀ t, ascii t ≠ ascii "ihdr" → ascii t ≠ ascii "bpcc" → ascii t ≠ ascii "colr" →
            ¬ Has [ih, bp, cl] t ∧ number [ih, bp, cl] t = 0 := by
          intro t n1 n2 n3
          refine ⟨?_, ?_⟩
          · simp only [has_cons, ei1, eb1, el1]
            rintro (e | e | e | ⟨_, e, _⟩)
            · exact n1 e.symm
            · exact n2 e.symm
            · exact n3 e.symm
            · cases e
          · rw [number_cons_ne (by rw [ei1]; exact n1.symm), number_cons_ne (by rw [eb1]; exact n2.symm),
              number_cons_ne (by rw [el1]; exact n3.symm)]
            rfl
        refine ⟨ei1, ?_, ?_, ?_, ?_, ?_, ?_, ?_, ?_, fun _ => hcolr, fun _ _ => hcolr, fun _ hn => absurd hcolr hn,
          fun _ => ⟨bp, by simp, eb1⟩⟩
        · simp only [has_cons, eb1, el1]
          rintro (e | e | ⟨_, e, _⟩)
          · exact absurd e (by decide)
          · exact absurd e (by decide)
          · cases e
        · rw [number_cons_ne (by rw [ei1]; decide)]
          unfold number
          rw [List.filter_cons, List.filter_cons, eb1, el1, if_pos (by decide), if_neg (by decide)]
          simp
        · rw [(nn "pclr" (by decide) (by decide) (by decide)).2]; omega
        · rw [(nn "cmap" (by decide) (by decide) (by decide)).2]; omega
        · rw [(nn "cdef" (by decide) (by decide) (by decide)).2]; omega
        · rw [(nn "res " (by decide) (by decide) (by decide)).2]; omega
        · exact iff_of_false (nn "pclr" (by decide) (by decide) (by decide)).1
            (nn "cmap" (by decide) (by decide) (by decide)).1
        · refine ⟨[ih, bp], [cl], [], rfl, ?_, ?_, ?_⟩
          · simp only [has_cons, ei1, eb1]
            rintro (e | e | ⟨_, e, _⟩)
            · exact absurd e (by decide)
            · exact absurd e (by decide)
            · cases e
          · intro z hz; rw [List.mem_singleton.1 hz]; exact el1
          · rintro ⟨_, e, _⟩; cases e
    refine ⟨⟨sig, ft, [], hdx, [], csx, [], ih, [bp, cl], siz⟩, ?_⟩
    have none : ∀ t : String, ¬ Has [] t := by rintro t ⟨_, e, _⟩; cases e
    constructor
    · exact hb
    · intro z hz
      simp only [Layout.rest, List.nil_append, List.mem_cons, List.not_mem_nil, or_false] at hz
      rcases hz with rfl | rfl | rfl | rfl
      · rw [es1, es2]; exact (passes_of fun fuel => C16_signature env o fuel _).2 rfl
      · rw [ef1, ef2]
        refine (passes_of fun fuel => C16_ftyp env o fuel _).2 ?_
        rcases hfmt with e | e <;> rw [e]
        all_goals
          refine ⟨by decide, ⟨0, by decide, rfl⟩, ?_⟩
          intro br hbr
          cases hbr
          exact ⟨by decide, 0, by decide, by decide⟩
      · rw [eh1, eh2]; exact hheader
      · rw [ec1, ec2]; exact hcs
    · exact es1
    · exact ef1
    · exact eh1
    · exact ec1
    · simp only [Layout.rest, List.nil_append, has_cons, eh1, ec1]
      rintro (e | e | e)
      · exact absurd e (by decide)
      · exact absurd e (by decide)
      · exact none _ e
    · simp only [Layout.rest, List.nil_append, has_cons, eh1, ec1]
      rintro (e | e | e)
      · exact absurd e (by decide)
      · exact absurd e (by decide)
      · exact none _ e
    · refine ⟨none _, ?_⟩
      simp only [List.nil_append, has_cons, ec1]
      rintro (e | e)
      · exact absurd e (by decide)
      · exact none _ e
    · exact ⟨none _, none _⟩
    · simp only [eh2]; exact hhb
    · simp only [ec2]; exact ⟨_, hns⟩
    · intro hi
      simp only [ei2] at hi
      obtain ⟨v, hv1, hv2⟩ := hi
      rw [i7] at hv1; cases hv1; cases hv2
    · simp only [ei2]
      refine ⟨y - y0, x - x0, nc, x, y, x0, y0, 255, i1, i2, i3, i4, h1, h2, h3, h4, by omega, by omega, h5,
        fun e => absurd rfl e, fun _ => ⟨bp, by simp, eb1, by rw [eb2]; exact hbl, ?_⟩⟩
      intro i hi
      rw [eb2]; exact (hbp i hi).symm

theorem sizSeg_length {c : Bytes} {n : Nat} (h : ∀ i < n, SizComponentOk c (38 + 3 * i)) :
    ∀ i < n, 38 + 3 * i < c.length := by
  intro i hi
  obtain ⟨⟨d, hd, -⟩, -⟩ := h i hi
  have := uint_some_le hd
  omega

theorem encodes_short {t p : Bytes} (hp : p.length + 8 < 2 ^ 32) :
    EncodesBox t p (beBytes 4 (8 + p.length) ++ t ++ p) :=
  .short (length_beBytes _ _) (be_beBytes (by omega))

/-- C58 (wrapping is possible): around every valid codestream file there is such a file. -/
theorem C58_wrappable (env : Env) (o : Options) {f : Format} (h : BareFormat o.format f) {cs : Bytes}
    (hv : FileValid env (withFormat o f) cs) : ∃ siz b, SizOf cs siz ∧ WrapsCodestream o.format siz cs b := by
  rw [← C58_codestream env o h, jp2c_passes, C23_codestream] at hv
  obtain ⟨p, hok⟩ := hv
  obtain ⟨k, hk⟩ := hok.sizPasses
  obtain ⟨-, ⟨x, h1, -⟩, ⟨y, h2, -⟩, ⟨x0, h3, -⟩, ⟨y0, h4, -⟩, -, -, -, -, n, h5, n1, n2, -, hc⟩ :=
    ((C26_siz_partial env o k none p.siz).1 hk).1
  have hlen := sizSeg_length hc
  let bpcc : Bytes := (List.range n).map fun i => (p.siz[38 + 3 * i]?).getD 0
  let ihdr : Bytes := beBytes 4 (y - y0) ++ beBytes 4 (x - x0) ++ beBytes 2 n ++ [255, 7, 0, 0]
  have hbl : bpcc.length = n := by simp [bpcc]
  have hil : ihdr.length = 14 := by simp [ihdr, length_beBytes]
  have e1 := encodes_short (t := ascii "ihdr") (p := ihdr) (by omega)
  have e2 := encodes_short (t := ascii "bpcc") (p := bpcc) (by omega)
  have e3 := encodes_short (t := ascii "colr") (p := [1, 0, 0, 0, 0, 0, 17]) (by decide)
  have e4 := EncodesBoxes.cons rfl e1 (.cons rfl e2 (.cons rfl e3 .nil))
  generalize hhd : (_ ++ _ : Bytes) = hd at e4
  have hhl : hd.length < 20000 := by
    have a1 : (ascii "ihdr").length = 4 := rfl
    have a2 : (ascii "bpcc").length = 4 := rfl
    have a3 : (ascii "colr").length = 4 := rfl
    rw [← hhd]
    simp only [List.length_append, length_beBytes, hbl, hil, List.length_nil, List.length_cons, a1, a2, a3]
    omega
  have e5 := encodes_short (t := ascii "jP  ") (p := [0x0d, 0x0a, 0x87, 0x0a]) (by decide)
  have e6 := encodes_short (t := ascii "ftyp") (p := wrapBrand o.format ++ [0, 0, 0, 0] ++ wrapBrand o.format)
    (by have := bareFormat_cases h; rcases this.1 with e | e <;> rw [e] <;> decide)
  have e7 := encodes_short (t := ascii "jp2h") (p := hd) (by omega)
  have e8 := EncodesBoxes.cons rfl e5 (.cons rfl e6 (.cons rfl e7 (.toEnd (t := ascii "jp2c") (p := cs) rfl)))
  refine ⟨p.siz, _, ⟨hok.soc, _, hok.sizAt⟩, x, y, x0, y0, n, ihdr, bpcc, hd, h1, h2, h3, h4, h5, rfl, hbl, ?_, e4, e8⟩
  intro i hi
  rw [uint_getElem (by omega), uint_getElem (hlen i hi)]
  simp only [bpcc, List.getElem_map, List.getElem_range, List.getElem?_eq_getElem (hlen i hi), Option.getD_some]

/-! ## Reports -/

theorem report_node {env : Env} {me : MixEnv} {fs : FS} {fuel : Nat} {o : Options} {mix : Nat} {path : PyStr}
    {rep : Elem} (h : checkOneFile env me fs fuel o mix path = .ok rep)
    (hs : status rep "success" = [.str "True"]) : ∃ n,
      validateRoot env o fuel (bytesRead (fs.read path)) = .ok n ∧
      contents rep "tests" = makeHumanReadableL env [] n.tests ∧
      contents rep "properties" = makeHumanReadableL env remapTable n.chars := by
  obtain ⟨info, a, m, h1, h2, h3, rfl⟩ := checkOneFile_ok.1 h
  have hi := fileInfo_tag h1
  have hp : contents (buildReport o info a (extensionOf o mix a m)) "tests" = a.tests := by
    unfold contents; rw [(report_parts hi).2.2.2.1]; rfl
  have hq : contents (buildReport o info a (extensionOf o mix a m)) "properties" = a.props := by
    unfold contents; rw [(report_parts hi).2.2.2.2.1]; rfl
  rw [hp, hq]
  rcases analyse_cases h2 with ⟨b, fmm, n, h4, h5, rfl⟩ | ⟨e, h4, rfl⟩
  · obtain ⟨rfl, -⟩ := fileToMemoryMap_ok h4
    exact ⟨n, h5, rfl, rfl⟩
  · unfold status at hs
    rw [(report_parts hi).2.1] at hs
    simp [analysisFailed, Elem.node, Elem.leaf, boolStr, Elem.children] at hs

theorem inside_append (a b : List Elem) : insideCodestreams (a ++ b) = insideCodestreams a ++ insideCodestreams b := by
  unfold insideCodestreams; rw [List.filter_append, List.flatMap_append]

theorem inside_other {a : List Elem} (h : ∀ e ∈ a, e.tag ≠ "contiguousCodestreamBox") : insideCodestreams a = [] := by
  unfold insideCodestreams
  rw [List.filter_eq_nil_iff.2 fun e he => by simpa using h e he]
  rfl

theorem inside_testFor (v : Bool) (n : Node) (name : String) (r : Bool) (h : name ≠ "contiguousCodestreamBox") :
    insideCodestreams (n.testFor v name r).tests = insideCodestreams n.tests := by
  rw [testFor_tests, inside_append, inside_other (a := testElems v [(name, r)]), List.append_nil]
  intro e he
  unfold testElems at he
  obtain ⟨x, hx, rfl⟩ := List.mem_map.1 he
  rw [List.mem_singleton.1 (List.mem_filter.1 hx).1]
  exact h

theorem inside_testIf (v : Bool) (n : Node) (c : Bool) (name : String) (r : Bool) (h : name ≠ "contiguousCodestreamBox") :
    insideCodestreams (n.testIf v c name r).tests = insideCodestreams n.tests := by
  unfold Node.testIf
  split
  · exact inside_testFor v n name r h
  · rfl

theorem inside_jp2Mid (o : Options) (n : Node) (types : List Bytes) :
    insideCodestreams (jp2Mid o n types).tests = insideCodestreams n.tests := by
  unfold jp2Mid
  simp only []
  iterate 6 rw [inside_testFor _ _ _ _ (by decide)]
  rw [inside_testIf _ _ _ _ _ (by decide)]
  iterate 4 rw [inside_testFor _ _ _ _ (by decide)]

theorem inside_siz {o : Options} {nb : Int} {n m : Node} {ih sz}
    (h : sizConsistency o nb n ih sz = .ok m) : insideCodestreams m.tests = insideCodestreams n.tests := by
  unfold sizConsistency at h
  obtain ⟨_, _, h⟩ := Outcome.bind_eq_ok.1 h
  obtain ⟨_, _, h⟩ := Outcome.bind_eq_ok.1 h
  obtain ⟨_, _, h⟩ := Outcome.bind_eq_ok.1 h
  obtain ⟨_, _, h⟩ := Outcome.bind_eq_ok.1 h
  obtain ⟨⟨_, _⟩, _, h⟩ := Outcome.bind_eq_ok.1 h
  simp only at h
  split at h
  · obtain ⟨ds, _, h⟩ := Outcome.bind_eq_ok.1 h
    obtain ⟨hh, _, h⟩ := Outcome.bind_eq_ok.1 h
    obtain ⟨ww, _, h⟩ := Outcome.bind_eq_ok.1 h
    cases h
    show insideCodestreams (Node.testFor _ _ _ _).tests = _
    iterate 5 rw [inside_testFor _ _ _ _ (by decide)]
  · cases h
    iterate 5 rw [inside_testFor _ _ _ _ (by decide)]

theorem inside_jp2Last {o : Options} {nb : Int} {n m : Node} (h : jp2Last o nb n = .ok m) :
    insideCodestreams m.tests = insideCodestreams n.tests := by
  unfold jp2Last at h
  split at h
  · exact inside_siz h
  · cases h; rfl

theorem inside_readable (env : Env) (tbl) (es : List Elem) :
    insideCodestreams (makeHumanReadableL env tbl es) = makeHumanReadableL env tbl (insideCodestreams es) := by
  induction es with
  | nil => rfl
  | cons e es ih =>
    obtain ⟨t, a, x, c, z⟩ := e
    rw [show Elem.mk t a x c z :: es = [Elem.mk t a x c z] ++ es from rfl, readableL_map, List.map_append, ← readableL_map,
      ← readableL_map, inside_append, ih, inside_append, readableL_map env tbl (_ ++ _), List.map_append,
      ← readableL_map, ← readableL_map]
    congr 1
    unfold insideCodestreams
    simp only [makeHumanReadableL, makeHumanReadable, List.filter_cons, List.filter_nil]
    show List.flatMap _ (if (t == "contiguousCodestreamBox") = true then _ else _) =
      makeHumanReadableL env tbl (List.flatMap _ (if (t == "contiguousCodestreamBox") = true then _ else _))
    split
    · simp [Elem.children]
    · rfl

/-- What the results of boxes say about codestream boxes. -/
theorem inside_results (rs : List BoxResult) :
    insideCodestreams (rs.flatMap fun r => entry r.tag r.node.tests) =
      (rs.filter fun r => r.tag == "contiguousCodestreamBox").flatMap (fun r => r.node.tests) ∧
    insideCodestreams (rs.map (·.charsElem)) =
      (rs.filter fun r => r.tag == "contiguousCodestreamBox").flatMap (fun r => r.node.chars) := by
  induction rs with
  | nil => exact ⟨rfl, rfl⟩
  | cons r rs ih =>
    rw [List.flatMap_cons, inside_append, ih.1, List.map_cons,
      show r.charsElem :: rs.map (·.charsElem) = [r.charsElem] ++ rs.map (·.charsElem) from rfl, inside_append, ih.2,
      List.filter_cons]
    constructor
    · split
      · rename_i ht
        rw [List.flatMap_cons]
        congr 1
        cases hn : r.node.tests with
        | nil => rfl
        | cons t ts =>
          show ((List.filter _ [Elem.mk r.tag [] .none (t :: ts)])).flatMap _ = _
          rw [List.filter_cons]
          simp [Elem.tag, Elem.children, ht]
      · rename_i ht
        rw [inside_other, List.nil_append]
        intro e he
        cases hn : r.node.tests with
        | nil => rw [hn] at he; cases he
        | cons t ts =>
          rw [hn] at he
          rw [List.mem_singleton.1 he]
          exact fun e => ht (by rw [← e]; exact beq_self_eq_true _)
    · split
      · rename_i ht
        rw [List.flatMap_cons]
        congr 1
        show ((List.filter _ [Elem.mk r.tag [] .none r.node.chars])).flatMap _ = _
        rw [List.filter_cons]
        simp [Elem.tag, Elem.children, ht]
      · rename_i ht
        rw [inside_other, List.nil_append]
        intro e he
        rw [List.mem_singleton.1 he]
        exact fun e => ht (by rw [← e]; exact beq_self_eq_true _)

/-- C58 (reports): if a file has one codestream box, the report on that codestream as a file of its own lists
the tests and the properties that the report on the file lists for the codestream box; at most a compression
ratio follows the properties. -/
theorem C58_report {env : Env} {me : MixEnv} {fs fs' : FS} {fuel fuel' : Nat} {o : Options} {mix mix' : Nat}
    {path path' : PyStr} {f : Format} (hf : BareFormat o.format f) {rep rep' : Elem}
    (h : checkOneFile env me fs fuel o mix path = .ok rep) (hs : status rep "success" = [.str "True"])
    (h' : checkOneFile env me fs' fuel' (withFormat o f) mix' path' = .ok rep')
    (hs' : status rep' "success" = [.str "True"])
    {bs x} (hb : Boxes (bytesRead (fs.read path)) bs)
    (hx : (bs.filter fun x => x.type == ascii "jp2c") = [x]) (hp : bytesRead (fs'.read path') = x.payload) :
    contents rep' "tests" = insideCodestreams (contents rep "tests") ∧
    ∃ more, contents rep' "properties" = insideCodestreams (contents rep "properties") ++ more ∧
      more.length ≤ 1 ∧ ∀ e ∈ more, e.tag = "compressionRatio" := by
  obtain ⟨n, h1, h2, h3⟩ := report_node h hs
  obtain ⟨n', h1', h2', h3'⟩ := report_node h' hs'
  obtain ⟨hfmt, hfmt'⟩ := bareFormat_cases hf
  have h4 : validateJP2 env o fuel (bytesRead (fs.read path)) = .ok n := by
    unfold validateRoot at h1
    rcases hfmt with e | e <;> rw [e] at h1 <;> exact h1
  have h4' : codestream env (withFormat o f) fuel' x.payload = .ok n' := by
    rw [← hp]
    unfold validateRoot at h1'
    rcases hfmt' with rfl | rfl <;> exact h1'
  obtain ⟨⟨n0, types⟩, hw, h4⟩ := Outcome.bind_eq_ok.1 h4
  obtain ⟨rs, hr, rfl, -⟩ := walkBoxes_ok hb hw
  simp only [jp2Finish_eq] at h4
  obtain ⟨more, hm1, hm2, hm3⟩ := jp2Last_chars h4
  rw [jp2Mid_chars, chars_foldl_absorb] at hm1
  have ht := inside_jp2Last h4
  rw [inside_jp2Mid, foldl_absorb_tests] at ht
  have hfil := inTurn_filter hr (p := fun x => x.type == ascii "jp2c") (q := fun r => r.tag == "contiguousCodestreamBox")
    (fun x r hv => validateBox_tag_iff hv (k := ascii "jp2c") (bt := .contiguousCodestreamBox) (by decide) (by decide))
  rw [hx] at hfil
  obtain ⟨r, hv, hfil⟩ := Outcome.bind_eq_ok.1 hfil
  obtain ⟨_, hnil, hfil⟩ := Outcome.bind_eq_ok.1 hfil
  cases hnil
  have hfil : [r] = rs.filter fun r => r.tag == "contiguousCodestreamBox" := Outcome.ok.inj hfil
  obtain ⟨i1, i2⟩ := inside_results rs
  rw [← hfil] at i1 i2
  have hxt : x.type = ascii "jp2c" := by
    have : x ∈ bs.filter fun x => x.type == ascii "jp2c" := by rw [hx]; simp
    exact eq_of_beq (List.mem_filter.1 this).2
  simp only [hxt] at hv
  obtain ⟨k, hk⟩ := jp2c_result hv
  have g1 := (codestream_le env o (Nat.le_max_left k fuel') x.payload).ok hk
  have g2 := (codestream_le env (withFormat o f) (Nat.le_max_right k fuel') x.payload).ok h4'
  have hrel := codestream_bare env o hf (max k fuel') x.payload
  rw [g1, g2] at hrel
  cases hrel with
  | ok hsame =>
    refine ⟨?_, ?_⟩
    · rw [h2, h2', inside_readable, ht, hsame.tests]
      show _ = makeHumanReadableL env [] (insideCodestreams ([] ++ _))
      rw [List.nil_append, i1]
      simp
    · have hin : insideCodestreams n.chars = r.node.chars := by
        rw [hm1, inside_append, inside_append, i2, inside_other (a := more) (fun e he => by rw [hm3 e he]; decide)]
        show insideCodestreams [] ++ _ ++ [] = _
        simp [insideCodestreams]
      rw [h3, h3', inside_readable, hin]
      rcases hsame.chars with e | ⟨v, e⟩
      · exact ⟨[], by rw [e, List.append_nil], by simp, by simp⟩
      · refine ⟨makeHumanReadableL env remapTable [.leaf "compressionRatio" v], ?_, ?_, ?_⟩
        · rw [e, readableL_map, List.map_append, ← readableL_map, ← readableL_map]
        · rw [readableL_map]; simp
        · intro d hd
          rw [readableL_map, List.mem_map] at hd
          obtain ⟨z, hz, rfl⟩ := hd
          rw [readable_tag, List.mem_singleton.1 hz]; rfl

/-! ## An empty image -/

/-- The condition on the image area in `C58_wrap` is not met by every codestream the tool calls valid: one
whose horizontal offset equals its width (table A.9 requires it to be less) is reported valid, and no file
around it is. -/
theorem C58_empty_image : ∃ env o f cs siz, BareFormat o.format f ∧ FileValid env (withFormat o f) cs ∧
    SizOf cs siz ∧ ¬ ImageNotEmpty siz ∧ ∀ b, WrapsCodestream o.format siz cs b → ¬ FileValid env o b := by
  have hv : FileValid Sample.env0 (withFormat (Sample.opts .jp2) .j2c) Sample.csNoArea :=
    fileValid_of 200 (by decide +kernel)
  have hz : SizOf Sample.csNoArea (sub Sample.csNoArea 4 41) := by
    refine ⟨by decide +kernel, some 45, ?_⟩
    have := SegAt.seg (b := Sample.csNoArea) (off := 2) (L := 41) (by decide +kernel) (by decide +kernel)
    exact this
  have hn : ¬ ImageNotEmpty (sub Sample.csNoArea 4 41) := by
    rintro ⟨x, y, x0, y0, h1, -, h3, -, h, -⟩
    have e1 : uint (sub Sample.csNoArea 4 41) 4 4 = some 1 := by decide +kernel
    have e3 : uint (sub Sample.csNoArea 4 41) 12 4 = some 1 := by decide +kernel
    rw [e1] at h1; rw [e3] at h3
    cases h1; cases h3
    omega
  exact ⟨Sample.env0, Sample.opts .jp2, .j2c, Sample.csNoArea, _, .jp2, hv, hz, hn,
    fun b hb h => hn ((C58_wrap Sample.env0 (Sample.opts .jp2) .jp2 hz hb).1 h).2⟩

/-! ## The hypotheses are met -/

/-- A valid codestream with two tiles and three components: as a box and as a file. -/
example : BoxPasses Sample.env0 (Sample.opts .jp2) (ascii "jp2c") Sample.cs2 :=
  (C58_codestream _ _ .jp2 _).2 (fileValid_of 200 (by decide +kernel))

/-- A codestream that is not valid, as a box and as a file. -/
example : ¬ BoxPasses Sample.env0 (Sample.opts .jp2) (ascii "jp2c") (Sample.cs2 ++ [0]) :=
  fun h => not_fileValid_of 200 (by decide +kernel) ((C58_codestream _ _ .jp2 _).1 h)

/-- The boxes of the sample JPH file. -/
theorem jph_boxes : Boxes Sample.jph [⟨0, ascii "jP  ", [0x0d, 0x0a, 0x87, 0x0a]⟩,
    ⟨12, ascii "ftyp", ascii "jph " ++ Sample.be32 0 ++ ascii "jph "⟩, ⟨32, ascii "jp2h", headerWith []⟩,
    ⟨77, ascii "jp2c", Sample.cs15⟩] :=
  boxes_of 10 (by decide +kernel)

/-- A file whose codestream is extracted. -/
example : FileValid Sample.env0 (withFormat (Sample.opts .jph) .jhc) Sample.cs15 :=
  C58_extract Sample.env0 (Sample.opts .jph) .jph (fileValid_of 200 (by decide +kernel)) jph_boxes
    (x := ⟨77, ascii "jp2c", Sample.cs15⟩) (by simp) rfl

/-- Two reports and a file with one codestream box as in `C58_report`. -/
example : ∃ rep rep' x, Sample.reportOf (Sample.opts .jph) 0 Sample.jph = .ok rep ∧
    status rep "success" = [.str "True"] ∧ Sample.reportOf (withFormat (Sample.opts .jph) .jhc) 0 Sample.cs15 = .ok rep' ∧
    status rep' "success" = [.str "True"] ∧
    ∃ bs, Boxes Sample.jph bs ∧ (bs.filter fun x => x.type == ascii "jp2c") = [x] ∧ x.payload = Sample.cs15 := by
  obtain ⟨rep, h, -, hs⟩ := Sample.saysValid_ok Sample.jph_report
  obtain ⟨rep', h', -, hs'⟩ := Sample.saysValid_ok
    (x := Sample.reportOf (withFormat (Sample.opts .jph) .jhc) 0 Sample.cs15) (by decide +kernel)
  exact ⟨rep, rep', ⟨77, ascii "jp2c", Sample.cs15⟩, h, hs, h', hs', _, jph_boxes, by
    simp only [List.filter_cons, List.filter_nil]
    rw [if_neg (by decide), if_neg (by decide), if_neg (by decide), if_pos (by decide)], rfl⟩

/-- Files around a codestream with an offset are valid, and there are such files. -/
example : ∃ siz b, WrapsCodestream .jp2 siz Sample.csOffset b ∧ FileValid Sample.env0 (Sample.opts .jp2) b := by
  have hv : FileValid Sample.env0 (withFormat (Sample.opts .jp2) .j2c) Sample.csOffset :=
    fileValid_of 200 (by decide +kernel)
  obtain ⟨siz, b, hz, hb⟩ := C58_wrappable Sample.env0 (Sample.opts .jp2) .jp2 hv
  refine ⟨siz, b, hb, (C58_wrap Sample.env0 (Sample.opts .jp2) .jp2 hz hb).2 ⟨hv, ?_⟩⟩
  have hs : siz = sub Sample.csOffset 4 41 := by
    obtain ⟨-, n, hn⟩ := hz
    have := SegAt.seg (b := Sample.csOffset) (off := 2) (L := 41) (by decide +kernel) (by decide +kernel)
    exact (segAt_unique hn this).2.1
  subst hs
  exact ⟨2, 2, 0, 1, by decide +kernel, by decide +kernel, by decide +kernel, by decide +kernel, by omega, by omega⟩

end Jpy
