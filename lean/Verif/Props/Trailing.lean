import Verif.Spec.Trailing
import Verif.Props.PacketData
import Verif.Props.TileOrder
import Verif.Props.Wrap
import Verif.Props.Complete
import Verif.Props.Shows
/-!
# Data after the end of an image (C72)
-/

namespace Jpy
open Spec hiding reported

theorem last_two {b : Bytes} (h : 2 ≤ b.length) :
    slice b ((b.length : Int) - 2) b.length = sub b (b.length - 2) 2 :=
  slice_at b (b.length - 2) 2 (by omega) (by omega)

theorem append_agree (b tail : Bytes) {i : Nat} (h : i < b.length) : (b ++ tail)[i]? = b[i]? :=
  List.getElem?_append_left h

/-- What follows a codestream that says where it ends has no influence, if the last two bytes are the same. -/
theorem codestream_tail (env : Env) (o : Options) (fuel : Nat) {b tail : Bytes} (h : SelfDelimiting b)
    (hf : ¬ (o.format = .j2c ∨ o.format = .jhc)) (he : EndsWithEOC b) (he' : EndsWithEOC (b ++ tail)) :
    codestream env o fuel (b ++ tail) = codestream env o fuel b := by
  obtain ⟨siz, csiz, main, sot, ts, hsoc, hm, hc, ht⟩ := h
  refine codestream_agree env o fuel hsoc hm hc (fun i hi => append_agree _ _ ?_) (fun u hu => ⟨?_, ?_⟩) ?_ (.inl hf)
  · obtain ⟨t, hmem, hst⟩ : ∃ t ∈ ts, t.start = sot := by
      have hsot := (segsTo_end hm.segs.choose_spec.2).2
      cases hc with
      | done h => exact absurd hsot h
      | @last t => exact ⟨t, by simp, rfl⟩
      | @step t ts' => exact ⟨t, by simp, rfl⟩
    have := (ht t hmem).2.1
    omega
  · intro ss e hs i _ hi
    obtain ⟨-, -, ss', k, hs', hk⟩ := ht u hu
    obtain ⟨-, rfl⟩ := segsTo_unique hs hs'
    have := hi k rfl
    exact append_agree _ _ (by omega)
  · intro _ i _ hi
    have := (ht u hu).2.1
    exact append_agree _ _ (by omega)
  · rw [last_two he.1, last_two he'.1, he.2, he'.2]

/-- C72 (codestreams): data after the end of a valid codestream whose tile-parts declare their lengths are not
looked at: whatever they are, the result is valid if and only if its last two bytes are EOC. -/
theorem C72_exact (env : Env) (o : Options) {b : Bytes} (h : SelfDelimiting b) (hv : CodestreamPasses env o b)
    (tail : Bytes) : CodestreamPasses env o (b ++ tail) ↔ EndsWithEOC (b ++ tail) := by
  have heoc : ∀ {b}, CodestreamPasses env o b → EndsWithEOC b := fun h => by
    obtain ⟨p, hp⟩ := (C23_codestream env o _).1 h
    exact hp.eoc
  refine ⟨heoc, fun he' => ?_⟩
  have key : ∀ o' : Options, ¬ (o'.format = .j2c ∨ o'.format = .jhc) → CodestreamPasses env o' b →
      CodestreamPasses env o' (b ++ tail) := by
    rintro o' hf ⟨fuel, n, hn, hp⟩
    exact ⟨fuel, n, by rw [codestream_tail env o' fuel h hf (heoc hv) he', hn], hp⟩
  by_cases hf : o.format = .j2c ∨ o.format = .jhc
  · have go : ∀ {w f}, BareFormat w f → o.format = f → CodestreamPasses env o (b ++ tail) := by
      intro w f hb e
      have ho : o = withFormat (withFormat o w) f := by rw [← e]; rfl
      rw [ho, ← codestreamPasses_bare env (withFormat o w) hb]
      refine key _ ?_ ?_
      · show ¬ (w = _ ∨ w = _)
        cases hb <;> decide
      · rw [codestreamPasses_bare env (withFormat o w) hb, ← ho]
        exact hv
    rcases hf with hf | hf
    · exact go .jp2 hf
    · exact go .jph hf
  · exact key o hf hv

/-- C72 is false: a second codestream, or anything else that ends with EOC, after a valid codestream file is
accepted. -/
theorem C72_concat (env : Env) (o : Options) {b b2 : Bytes} (h : SelfDelimiting b) (hv : CodestreamPasses env o b)
    (he : EndsWithEOC b2) : CodestreamPasses env o (b ++ b2) := by
  refine (C72_exact env o h hv b2).2 ⟨by have := he.1; simp; omega, ?_⟩
  have e : (b ++ b2).length - 2 = b.length + (b2.length - 2) := by
    have := he.1
    rw [List.length_append]; omega
  rw [e, sub_append_right]
  exact he.2

/-- C72 (reports): the report on the longer file has the same tests, the same warnings and the same properties,
except for the compression ratio: it says nothing about the data after the end. -/
theorem C72_report {env : Env} {me : MixEnv} {fs fs' : FS} {fuel : Nat} {o : Options} {mix mix' : Nat}
    {path path' : PyStr} (hf : o.format = .j2c ∨ o.format = .jhc) {b tail : Bytes} (h : SelfDelimiting b)
    (he : EndsWithEOC b) (he' : EndsWithEOC (b ++ tail)) (hr : fs.read path = .data b)
    (hr' : fs'.read path' = .data (b ++ tail)) {rep rep' : Elem}
    (hc : checkOneFile env me fs fuel o mix path = .ok rep) (hs : status rep "success" = [.str "True"])
    (hc' : checkOneFile env me fs' fuel o mix' path' = .ok rep') (hs' : status rep' "success" = [.str "True"]) :
    contents rep' "tests" = contents rep "tests" ∧ contents rep' "warnings" = contents rep "warnings" ∧
    SameButRatio (contents rep "properties") (contents rep' "properties") := by
  have hne : b ≠ [] := by rintro rfl; exact absurd he.1 (by decide)
  have hne' : b ++ tail ≠ [] := by simp [hne]
  have get : ∀ {fs : FS} {mix path b rep}, fs.read path = .data b → b ≠ [] →
      checkOneFile env me fs fuel o mix path = .ok rep → status rep "success" = [.str "True"] →
      ∃ n, codestream env o fuel b = .ok n ∧ contents rep "tests" = makeHumanReadableL env [] n.tests ∧
        contents rep "warnings" = makeHumanReadableL env [] n.warnings ∧
        contents rep "properties" = makeHumanReadableL env remapTable n.chars := by
    intro fs mix path b rep hr hne hc hs
    obtain ⟨info, a, m, h1, h2, h3, rfl⟩ := checkOneFile_ok.1 hc
    obtain ⟨-, p1, -, p3, p4, p5, -⟩ := report_parts (fileInfo_tag h1) (o := o) (a := a) (mix := mix) (m := m)
    have hok : status (buildReport o info a (extensionOf o mix a m)) "success" = [.str (boolStr a.success)] := by
      unfold status; rw [p1]
      cases a.failure <;> simp [Elem.node, Elem.leaf, Elem.children, Elem.tag, Elem.text]
    unfold contents
    rw [p3, p4, p5]
    rcases analyse_cases h2 with ⟨b', fmm, n, h4, h5, rfl⟩ | ⟨e, -, rfl⟩
    · have : b' = b ∧ fmm = [] := by
        unfold fileToMemoryMap at h4
        rw [hr] at h4
        cases b with
        | nil => exact absurd rfl hne
        | cons x xs => cases h4; exact ⟨rfl, rfl⟩
      obtain ⟨rfl, rfl⟩ := this
      refine ⟨n, ?_, rfl, ?_, rfl⟩
      · rw [← h5]; unfold validateRoot; rcases hf with h | h <;> rw [h]
      · show makeHumanReadableL env [] (n.warnings ++ []) = _
        rw [List.append_nil]
    · rw [hs] at hok
      exact absurd hok (by simp [analysisFailed, boolStr])
  obtain ⟨n, hn, t1, t2, t3⟩ := get hr hne hc hs
  obtain ⟨n', hn', t1', t2', t3'⟩ := get hr' hne' hc' hs'
  have go : ∀ {w f}, BareFormat w f → o.format = f → n'.tests = n.tests ∧ n'.warnings = n.warnings ∧
      ∃ common r r', n.chars = common ++ r ∧ n'.chars = common ++ r' ∧ r.length ≤ 1 ∧ r'.length ≤ 1 ∧
        ∀ e ∈ r ++ r', ∃ v, e = .leaf "compressionRatio" v := by
    intro w f hb e
    have ho : o = withFormat (withFormat o w) f := by rw [← e]; rfl
    have hw : ¬ ((withFormat o w).format = .j2c ∨ (withFormat o w).format = .jhc) := by
      show ¬ (w = _ ∨ w = _)
      cases hb <;> decide
    have h1 := codestream_bare env (withFormat o w) hb fuel b
    have h2 := codestream_bare env (withFormat o w) hb fuel (b ++ tail)
    rw [← ho, hn] at h1
    rw [← ho, hn', codestream_tail env _ fuel h hw he he'] at h2
    generalize hx : codestream env (withFormat o w) fuel b = X at h1 h2
    cases h1 with
    | @ok m _ h1 =>
      cases h2 with
      | ok h2 =>
        refine ⟨by rw [h1.tests, h2.tests], by rw [h1.warnings, h2.warnings], m.chars, ?_⟩
        rcases h1.chars with c1 | ⟨v1, c1⟩ <;> rcases h2.chars with c2 | ⟨v2, c2⟩
        · exact ⟨[], [], by simpa using c1, by simpa using c2, by simp, by simp, by simp⟩
        · exact ⟨[], [_], by simpa using c1, c2, by simp, by simp, fun e he => ⟨v2, by simpa using he⟩⟩
        · exact ⟨[_], [], c1, by simpa using c2, by simp, by simp, fun e he => ⟨v1, by simpa using he⟩⟩
        · exact ⟨[_], [_], c1, c2, by simp, by simp, fun e he => by
            rcases (by simpa using he : e = _ ∨ e = _) with rfl | rfl
            · exact ⟨v1, rfl⟩
            · exact ⟨v2, rfl⟩⟩
  have hall : n'.tests = n.tests ∧ n'.warnings = n.warnings ∧
      ∃ common r r', n.chars = common ++ r ∧ n'.chars = common ++ r' ∧ r.length ≤ 1 ∧ r'.length ≤ 1 ∧
        ∀ e ∈ r ++ r', ∃ v, e = .leaf "compressionRatio" v := by
    rcases hf with hf | hf
    · exact go .jp2 hf
    · exact go .jph hf
  obtain ⟨a1, a2, common, r, r', a3, a4, a5, a6, a7⟩ := hall
  refine ⟨by rw [t1, t1', a1], by rw [t2, t2', a2], _, _, _, by rw [t3, a3, readableL_append],
    by rw [t3', a4, readableL_append], ?_, ?_, ?_⟩
  · rw [readableL_map, List.length_map]; exact a5
  · rw [readableL_map, List.length_map]; exact a6
  · rw [readableL_map, readableL_map, ← List.map_append]
    intro e he
    obtain ⟨e', hm, rfl⟩ := List.mem_map.1 he
    obtain ⟨v, rfl⟩ := a7 e' hm
    rw [readable_tag]; rfl

/-- C72 (inside files): the same holds for data after the end of a codestream inside its box: they may be added
to a valid JP2 or JPH file, if the result ends with EOC. -/
theorem C72_inside (env : Env) (o : Options) (hfmt : o.format = .jp2 ∨ o.format = .jph) {n : Nat} {pre : Bytes}
    (h : WholeBoxes n pre) {p e e' tail : Bytes} (hp : SelfDelimiting p) (he : EncodesBox (ascii "jp2c") p e)
    (ht : EndsWithEOC (p ++ tail)) (he' : EncodesBox (ascii "jp2c") (p ++ tail) e') (post : Bytes)
    (hv : FileValid env o (pre ++ e ++ post)) : FileValid env o (pre ++ e' ++ post) := by
  have hpass : CodestreamPasses env o p := by
    obtain ⟨bs, hbs⟩ := boxes_exists post
    obtain ⟨bs1, hb1, hm1⟩ := boxes_one (by decide) he post hbs
    obtain ⟨ps, -, hps⟩ := boxes_whole h
    obtain ⟨bs2, hb2, hm2⟩ := hps [] (e ++ post) bs1 hb1
    have hb2 : Boxes (pre ++ e ++ post) bs2 := by simpa [Boxes] using hb2
    exact (jp2c_passes env o p).1 (fileValid_passes hfmt hv hb2 (by rw [hm2, hm1]; simp))
  obtain ⟨siz, csiz, main, sot, ts, hsoc, hm, hc, htp⟩ := id hp
  obtain ⟨first, hsiz, hmain⟩ := hm.segs
  have hlen : first + 2 ≤ p.length := by
    have h1 := (segsTo_end hmain)
    have h2 := congrArg List.length h1.2
    rw [length_sub, show (SOT : Bytes).length = 2 from rfl] at h2
    have := h1.1
    omega
  refine C67_file env o hfmt h he he' (siz := siz) ⟨hsoc, _, hsiz⟩ ⟨?_, some first, ?_⟩ ((C72_exact env o hp hpass tail).2 ht) post hv
  · rw [sub_append_left _ _ (by omega), hsoc]
  · exact segAt_congr hsiz fun i _ hi => append_agree _ _ (by omega)

/-- C72 (partial): a JP2 or JPH file that is a sequence of complete boxes is not valid when another valid file
follows it. What is missing: files whose last box extends to the end, and data that are not a valid file. -/
theorem C72_files_partial (env : Env) (o : Options) (hfmt : o.format = .jp2 ∨ o.format = .jph) {n : Nat} {b b2 : Bytes}
    (h : WholeBoxes n b) (hv : FileValid env o b) (hv2 : FileValid env o b2) : ¬ FileValid env o (b ++ b2) := by
  intro hv3
  obtain ⟨l1, h1⟩ := (C17_layout env o b hfmt).1 hv
  obtain ⟨l2, h2⟩ := (C17_layout env o b2 hfmt).1 hv2
  obtain ⟨l3, h3⟩ := (C17_layout env o (b ++ b2) hfmt).1 hv3
  obtain ⟨ps, -, hps⟩ := boxes_whole h
  obtain ⟨bs1, hb1, hm1⟩ := hps [] [] [] (.done (Nat.le_refl 0))
  obtain ⟨bs2, hb2, hm2⟩ := hps [] b2 _ h2.boxes
  have e1 := boxes_unique (show Boxes b bs1 by simpa [Boxes] using hb1) h1.boxes
  have e2 := boxes_unique (show Boxes (b ++ b2) bs2 by simpa [Boxes] using hb2) h3.boxes
  subst e1 e2
  have hps' : ps = (l1.sig :: l1.ft :: l1.rest).map sh := by simpa using hm1.symm
  rw [hps'] at hm2
  have hm3 : l3.rest.map sh = (l1.rest.map sh) ++ (l2.sig :: l2.ft :: l2.rest).map sh := by
    have := congrArg (List.drop 2) hm2
    simpa using this
  have : sh l2.sig ∈ l3.rest.map sh := by rw [hm3]; simp
  obtain ⟨x, hx, ex⟩ := List.mem_map.1 this
  refine h3.oneSig ⟨x, hx, ?_⟩
  have : x.type = l2.sig.type := congrArg Prod.fst ex
  rw [this, h2.sig]

theorem showsBoxesV_mem {env : Env} {o : Options} {y : FoundBox} : ∀ {bs : List FoundBox} {raw : List Elem},
    ShowsBoxesV env o bs raw → y ∈ bs → ∃ e ∈ raw, ShowsBoxV env o y.type y.payload e
  | _, _, .nil, h => nomatch h
  | _, _, .cons ha hr, h => by
    rcases List.mem_cons.1 h with rfl | h
    · exact ⟨_, List.mem_cons_self .., ha⟩
    · obtain ⟨e, he, hs⟩ := showsBoxesV_mem hr h
      exact ⟨e, List.mem_cons_of_mem _ he, hs⟩

/-- C72 (JP2 and JPH files): after a valid file that consists of complete boxes, data are accepted exactly if they are
boxes that pass their tests, none of them a signature, file type or JP2 header box. -/
theorem C72_boxes (env : Env) (o : Options) (hfmt : o.format = .jp2 ∨ o.format = .jph) {n : Nat} {b more : Bytes}
    (h : WholeBoxes n b) (hv : FileValid env o b) {bs : List FoundBox} (hb : Boxes more bs) :
    FileValid env o (b ++ more) ↔ ∀ x ∈ bs, BoxPasses env o x.type x.payload ∧
      x.type ≠ ascii "jP  " ∧ x.type ≠ ascii "ftyp" ∧ x.type ≠ ascii "jp2h" := by
  obtain ⟨l1, h1⟩ := (C17_layout env o b hfmt).1 hv
  obtain ⟨ps, -, hps⟩ := boxes_whole h
  obtain ⟨bs1, hb1, hm1⟩ := hps [] [] [] (.done (Nat.le_refl 0))
  obtain ⟨bs2, hb2, hm2⟩ := hps [] more _ hb
  have e1 := boxes_unique (show Boxes b bs1 by simpa [Boxes] using hb1) h1.boxes
  have hb2' : Boxes (b ++ more) bs2 := by simpa [Boxes] using hb2
  subst e1
  have hps' : ps = (l1.sig :: l1.ft :: l1.rest).map sh := by simpa using hm1.symm
  rw [hps'] at hm2
  constructor
  · intro hv3 x hx
    obtain ⟨l3, h3⟩ := (C17_layout env o (b ++ more) hfmt).1 hv3
    have e2 := boxes_unique hb2' h3.boxes
    subst e2
    have hr : l3.rest.map sh = l1.rest.map sh ++ bs.map sh := by
      have := congrArg (List.drop 2) hm2
      simpa using this
    have hx' : sh x ∈ l3.rest.map sh := by
      rw [hr]; exact List.mem_append_right _ (List.mem_map.2 ⟨x, hx, rfl⟩)
    obtain ⟨y, hy, ey⟩ := List.mem_map.1 hx'
    have et : y.type = x.type := congrArg Prod.fst ey
    have ep : y.payload = x.payload := congrArg Prod.snd ey
    refine ⟨?_, fun e => h3.oneSig ⟨y, hy, et.trans e⟩, fun e => h3.oneFt ⟨y, hy, et.trans e⟩, fun e => ?_⟩
    · rw [← et, ← ep]; exact h3.passes y (by simp [hy])
    · have n1 : number l1.rest "jp2h" ≥ 1 := by
        have : l1.hd ∈ l1.rest.filter fun x => x.type == ascii "jp2h" := by
          simp [Layout.rest, h1.hd]
        exact List.length_pos_of_mem this
      have nm : ∀ l : List FoundBox, number l "jp2h" = ((l.map sh).filter fun x => x.1 == ascii "jp2h").length := by
        intro l; simp [number, List.filter_map, sh, Function.comp_def]
      have n2 : number bs "jp2h" ≥ 1 := by
        have : x ∈ bs.filter fun x => x.type == ascii "jp2h" := by simp [hx, e]
        exact List.length_pos_of_mem this
      have n3 : number l3.rest "jp2h" = number l1.rest "jp2h" + number bs "jp2h" := by
        rw [nm, nm, nm, hr]; simp
      have hz : ∀ l : List FoundBox, ¬ Has l "jp2h" → number l "jp2h" = 0 := by
        intro l hl
        simp only [number, List.length_eq_zero_iff, List.filter_eq_nil_iff]
        intro y hy e; exact hl ⟨y, hy, by simpa using e⟩
      have n4 : number l3.rest "jp2h" = 1 := by
        have z1 := hz _ h3.oneHd.1
        have z2 := hz _ h3.oneHd.2
        simp only [number] at z1 z2 ⊢
        rw [Layout.rest, List.filter_append, List.length_append, z1, List.filter_cons, h3.hd]
        simp only [beq_self_eq_true, if_true, List.length_cons, z2]
      omega
  · intro hx
    simp only [Layout.rest, List.map_cons, List.map_append, List.cons_append, List.append_assoc] at hm2
    obtain ⟨sig', r1, rfl, es, hm2⟩ := List.map_eq_cons_iff.1 hm2
    obtain ⟨ft', r2, rfl, ef, hm2⟩ := List.map_eq_cons_iff.1 hm2
    obtain ⟨pre', r3, rfl, ep, hm2⟩ := List.map_eq_append_iff.1 hm2
    obtain ⟨hd', r4, rfl, eh, hm2⟩ := List.map_eq_cons_iff.1 hm2
    obtain ⟨mid', r5, rfl, em, hm2⟩ := List.map_eq_append_iff.1 hm2
    obtain ⟨cs', r6, rfl, ec, hm2⟩ := List.map_eq_cons_iff.1 hm2
    have nb : ∀ {t : String}, (∀ x ∈ bs, x.type ≠ ascii t) → ∀ {l l' : List FoundBox}, l'.map sh = l.map sh ++ bs.map sh →
        ¬ Has l t → ¬ Has l' t := by
      intro t ht l l' e hn hh
      obtain ⟨p, hp⟩ := (has_sh _ _).1 hh
      rw [e] at hp
      rcases List.mem_append.1 hp with hp | hp
      · exact hn ((has_sh _ _).2 ⟨p, hp⟩)
      · obtain ⟨x, hx', e'⟩ := List.mem_map.1 hp
        exact ht x hx' (congrArg Prod.fst e')
    have ns : ∀ {t : String} {l l' : List FoundBox}, l'.map sh = l.map sh → ¬ Has l t → ¬ Has l' t := by
      intro t l l' e hn hh
      exact hn ((has_sh _ _).2 (e ▸ (has_sh _ _).1 hh))
    have er : (pre' ++ hd' :: (mid' ++ cs' :: r6)).map sh = l1.rest.map sh ++ bs.map sh := by
      simp [Layout.rest, ep, eh, em, ec, hm2]
    have er2 : (mid' ++ cs' :: r6).map sh = (l1.mid ++ l1.cs :: l1.post).map sh ++ bs.map sh := by
      simp [em, ec, hm2]
    have ty : ∀ {x y : FoundBox}, sh x = sh y → x.type = y.type := fun e => congrArg Prod.fst e
    have pl : ∀ {x y : FoundBox}, sh x = sh y → x.payload = y.payload := fun e => congrArg Prod.snd e
    refine (C17_layout env o _ hfmt).2 ⟨⟨sig', ft', pre', hd', mid', cs', r6, l1.ih, l1.hrest, l1.siz⟩,
      hb2', ?_, (ty es).trans h1.sig, (ty ef).trans h1.ft, (ty eh).trans h1.hd, (ty ec).trans h1.cs,
      nb (fun x h => (hx x h).2.1) er h1.oneSig, nb (fun x h => (hx x h).2.2.1) er h1.oneFt,
      ⟨ns ep h1.oneHd.1, nb (fun x h => (hx x h).2.2.2) er2 h1.oneHd.2⟩, ⟨ns ep h1.firstCs.1, ns em h1.firstCs.2⟩,
      ?_, ?_, ?_, h1.image⟩
    · intro y hy
      have hy' : sh y ∈ (sig' :: ft' :: (pre' ++ hd' :: (mid' ++ cs' :: r6))).map sh := List.mem_map.2 ⟨y, hy, rfl⟩
      rw [List.map_cons, List.map_cons, er, es, ef, ← List.cons_append, ← List.cons_append, ← List.map_cons, ← List.map_cons] at hy'
      rcases List.mem_append.1 hy' with hy' | hy'
      · obtain ⟨z, hz, ez⟩ := List.mem_map.1 hy'
        rw [← ty ez, ← pl ez]; exact h1.passes z hz
      · obtain ⟨z, hz, ez⟩ := List.mem_map.1 hy'
        rw [← ty ez, ← pl ez]; exact (hx z hz).1
    · show Boxes hd'.payload _
      rw [pl eh]; exact h1.header
    · show ∃ n, SegAt cs'.payload 2 SIZ l1.siz n
      rw [pl ec]; exact h1.siz
    · intro hf
      obtain ⟨p, hp⟩ := (has_sh _ _).1 (h1.ipr hf)
      refine (has_sh _ _).2 ⟨p, ?_⟩
      show _ ∈ (pre' ++ hd' :: (mid' ++ cs' :: r6)).map sh
      rw [er]; exact List.mem_append_left _ hp

/-- C72 (JP2 and JPH files): what follows is reported: after a valid file of complete boxes, each box that follows has
an element in the properties, with its stored values. -/
theorem C72_shown {env : Env} (hsane : Sane env) {me : MixEnv} {fs : FS} {fuel : Nat} {o : Options} {mix : Nat}
    {path : PyStr} (hfmt : o.format = .jp2 ∨ o.format = .jph) {n : Nat} {b more : Bytes} (hw : WholeBoxes n b)
    (hr : fs.read path = .data (b ++ more)) {rep : Elem} (h : checkOneFile env me fs fuel o mix path = .ok rep)
    (hs : status rep "success" = [.str "True"]) {bs : List FoundBox} (hb : Boxes more bs) :
    ∃ raw, RenderedList env raw (contents rep "properties") ∧ ∀ x ∈ bs, ∃ e ∈ raw, ShowsBoxV env o x.type x.payload e := by
  obtain ⟨ps, -, hps⟩ := boxes_whole hw
  obtain ⟨bs2, hb2, hm2⟩ := hps [] more _ hb
  have hb2' : Boxes (bytesRead (fs.read path)) bs2 := by
    rw [hr]; simpa [Boxes, bytesRead] using hb2
  obtain ⟨raw, rest, h1, h2, -, -⟩ := C54_file hsane hfmt h hs hb2'
  refine ⟨_, h1, fun x hx => ?_⟩
  have : sh x ∈ bs2.map sh := by rw [hm2]; exact List.mem_append_right _ (List.mem_map.2 ⟨x, hx, rfl⟩)
  obtain ⟨y, hy, ey⟩ := List.mem_map.1 this
  have et : y.type = x.type := congrArg Prod.fst ey
  have ep : y.payload = x.payload := congrArg Prod.snd ey
  rw [← et, ← ep]
  obtain ⟨e, he, hs⟩ := showsBoxesV_mem h2 hy
  exact ⟨e, List.mem_append_left _ he, hs⟩

/-! ## Every conforming codestream is of this kind -/

theorem chain_unique {b : Bytes} {off : Nat} {ts} (h : Chain b off ts) : ∀ {ts'}, Chain b off ts' → ts = ts' := by
  induction h with
  | done hd =>
    intro ts' h'
    cases h' with
    | done => rfl
    | last h1 => exact absurd h1.marker hd
    | step h1 => exact absurd h1.marker hd
  | @last t ht h0 =>
    intro ts' h'
    generalize hs : t.start = s at h'
    cases h' with
    | done hd => exact absurd (hs ▸ ht.marker) hd
    | last h1 => rw [at_unique ht h1 hs]
    | step h1 h2 => rw [at_unique ht h1 hs] at h0; exact absurd h0 h2
  | @step t ts ht h0 hc ih =>
    intro ts' h'
    generalize hs : t.start = s at h'
    cases h' with
    | done hd => exact absurd (hs ▸ ht.marker) hd
    | last h1 h2 => rw [at_unique ht h1 hs] at h0; exact absurd h2 h0
    | step h1 h2 h3 =>
      obtain rfl := at_unique ht h1 hs
      rw [ih h3]

theorem sameButData_refl : ∀ l, SameButData l l
  | [] => .nil
  | t :: l => .cons (data := t.data) rfl (sameButData_refl l)

/-- C72: every conforming codestream says where it ends. -/
theorem gen_selfDelimiting {env : Env} {o : Options} {csiz n : Nat} {g : GenCodestream}
    (h : g.Conforms env.catC o.format csiz n) : SelfDelimiting g.bytes ∧ EndsWithEOC g.bytes := by
  obtain ⟨ss, sot, hm, hss, rfl⟩ := gen_mainHeader h
  obtain ⟨ts, h1, h2, -⟩ := packets_gen h.tiles.2.2 (sameButData_refl g.tps) (b := g.bytes) (b' := g.bytes)
    (pre := SOC ++ SIZ ++ g.siz ++ segBytes g.main) (pre' := SOC ++ SIZ ++ g.siz ++ segBytes g.main)
    (by simp [GenCodestream.bytes]) (by simp [GenCodestream.bytes]) rfl h.tps
  obtain ⟨-, ts', h3, h4⟩ := chain_gen h.tiles.2.2 g.tps (b := g.bytes)
    (pre := SOC ++ SIZ ++ g.siz ++ segBytes g.main) (by simp [GenCodestream.bytes]) h.tps
  obtain rfl := chain_unique h1 h3
  refine ⟨⟨_, _, _, _, ts, ?_, hm, h1, fun t ht => ?_⟩, ?_, ?_⟩
  · exact sub_mid' (x := SOC) (pre := []) (post := SIZ ++ g.siz ++ segBytes g.main ++ g.tps.flatMap GenTilePart.bytes ++ EOC)
      (by simp [GenCodestream.bytes]) rfl rfl
  · obtain ⟨ss, k, hs, hk⟩ := h2 t ht
    have h0 := (h4 t ht).2.1
    have := hk h0
    exact ⟨h0, this.2, ss, k, hs, by omega⟩
  · simp [GenCodestream.bytes, SOC, EOC]
  · refine sub_mid' (x := EOC) (pre := SOC ++ SIZ ++ g.siz ++ segBytes g.main ++ g.tps.flatMap GenTilePart.bytes)
      (post := []) (by simp [GenCodestream.bytes]) ?_ rfl
    simp [GenCodestream.bytes, EOC]
    omega

/-- C72 (conforming codestreams): whatever data that end with EOC are appended to a conforming codestream file, the
file is still reported valid. -/
theorem C72_conforming {env : Env} {me : MixEnv} {fs : FS} {o : Options} {path : PyStr} {csiz n : Nat}
    (hf : o.format = .j2c ∨ o.format = .jhc) {g : GenCodestream} (h : g.Conforms env.catC o.format csiz n)
    {more : Bytes} (he : EndsWithEOC more) (hr : fs.read path = .data (g.bytes ++ more))
    (hs : ∃ n, fs.getsize path = .ok n) (hm : ∃ t, fs.modified path = .ok t) :
    ∃ f0, ∀ fuel ≥ f0, ReportedValid env me fs fuel o 0 path :=
  reported_of_fileValid hr hs hm ((C23_file env o _ hf).2
    (C72_concat env o (gen_selfDelimiting h).1 (C50_codestream env o h) he))

/-! ## Concrete cases -/

/-- Images of all sizes are written as codestreams that say where they end. -/
example {i : Image} (h : i.Ok) : SelfDelimiting i.codestream.bytes ∧ EndsWithEOC i.codestream.bytes :=
  gen_selfDelimiting (env := Sample.env0) (o := Sample.opts .j2c) (image_conforms h _ (.inr rfl))

/-- `C72_conforming` at work: a text and an EOC marker after the codestream of any image. -/
example {i : Image} (h : i.Ok) (me : MixEnv) : ∃ f0, ∀ fuel ≥ f0, ReportedValid Sample.env0 me
    (Sample.fs0 (i.codestream.bytes ++ (ascii "not an image" ++ EOC))) fuel (Sample.opts .j2c) 0 [97] :=
  C72_conforming (.inl rfl) (image_conforms h _ (.inr rfl)) ⟨by decide, by decide⟩ rfl ⟨_, rfl⟩ ⟨_, rfl⟩

/-- `C72_inside` at work: the same in a valid JP2 file. -/
example {i : Image} (h : i.Ok) {pre e e' post : Bytes} {n : Nat} (hw : WholeBoxes n pre)
    (he : EncodesBox (ascii "jp2c") i.codestream.bytes e)
    (he' : EncodesBox (ascii "jp2c") (i.codestream.bytes ++ EOC) e')
    (hv : FileValid Sample.env0 (Sample.opts .jp2) (pre ++ e ++ post)) :
    FileValid Sample.env0 (Sample.opts .jp2) (pre ++ e' ++ post) := by
  refine C72_inside _ _ (.inl rfl) hw
    (gen_selfDelimiting (env := Sample.env0) (o := Sample.opts .j2c) (image_conforms h _ (.inr rfl))).1 he ⟨?_, ?_⟩ he' post hv
  · simp [EOC]
  · rw [show (i.codestream.bytes ++ EOC).length - 2 = i.codestream.bytes.length + 0 by simp [EOC], sub_append_right]
    rfl

/-- `C72_files_partial` at work. -/
example : ¬ FileValid Sample.env0 (Sample.opts .jp2) (Sample.jp2 ++ Sample.jp2) :=
  C72_files_partial _ _ (.inl rfl) jp2_whole jp2_fileValid jp2_fileValid

/-- `C72_boxes` at work: a second codestream box, and three bytes that are no box, are accepted; a second JP2 header is
not. -/
example : FileValid Sample.env0 (Sample.opts .jp2) (Sample.jp2 ++ Sample.box "jp2c" Sample.cs1) ∧
    FileValid Sample.env0 (Sample.opts .jp2) (Sample.jp2 ++ [1, 2, 3]) ∧
    ¬ FileValid Sample.env0 (Sample.opts .jp2) (Sample.jp2 ++ Sample.box "jp2h" []) := by
  refine ⟨fileValid_of 100 (by decide +kernel), fileValid_of 100 (by decide +kernel), fun h => ?_⟩
  have := (C72_boxes _ _ (.inl rfl) jp2_whole jp2_fileValid
    (bs := [⟨0, ascii "jp2h", []⟩]) (boxes_of 10 (by decide +kernel))).1 h _ (List.mem_singleton.2 rfl)
  exact this.2.2.2 rfl

open Sample in
/-- Two codestreams one after the other are a valid codestream file; a JP2 file whose last box extends to the end,
followed by another JP2 file, is a valid JP2 file. -/
theorem C72_false : FileValid env0 (opts .j2c) (cs1 ++ cs2) ∧
    FileValid env0 (opts .jp2) (sig ++ ftyp "jp2 " ++ box "jp2h" (ihdr 1 1 1 7 ++ colr 17) ++ be32 0 ++ ascii "jp2c" ++ cs1 ++ jp2) :=
  ⟨fileValid_of 100 (by decide +kernel), fileValid_of 100 (by decide +kernel)⟩

end Jpy
