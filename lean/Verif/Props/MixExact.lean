import Verif.Props.MixOutput
import Verif.Props.MixCapture
import Verif.Spec.Reportable
/-! # C48: exactly which valid files can be described with MIX -/

namespace Jpy
open Spec

theorem xmpOf_or (inXml inUuid : List Elem) :
    (∃ rdf, XmpOf inXml inUuid rdf) ∨ (NoXmpIn inXml ∧ NoXmpIn inUuid) := by
  have key : ∀ docs, (∃ rdf, XmpIn docs rdf) ∨ NoXmpIn docs := by
    intro docs
    cases h : (elemsAt [xmpMeta, rdfRDF] docs).head? with
    | none => exact .inr fun e he => by rw [h] at he; cases he
    | some e =>
      by_cases hc : e.children = []
      · exact .inr fun e' he => by rw [h] at he; cases he; exact hc
      · exact .inl ⟨e.children, hc, by rw [h]; rfl⟩
  rcases key inXml with ⟨r, h⟩ | h1
  · exact .inl ⟨r, .inl h⟩
  · rcases key inUuid with ⟨r, h⟩ | h2
    · exact .inl ⟨r, .inr ⟨h1, h⟩⟩
    · exact .inr ⟨h1, h2⟩

theorem described_readable {env : Env} {cs : List Elem} :
    Described (makeHumanReadableL env remapTable cs) ↔ Described cs := by
  have key : ∀ r : List Elem, (∃ d ∈ makeHumanReadableL env remapTable r, d.tag = nsDescription) ↔
      ∃ d ∈ r, d.tag = nsDescription := by
    intro r
    have h : Elem.findall (makeHumanReadableL env remapTable r) [nsDescription] =
        (Elem.findall r [nsDescription]).map (makeHumanReadable env remapTable) := findall_readable env remapTable _ _
    constructor
    · rintro ⟨d, hd, ht⟩
      have := mem_findall1.2 ⟨hd, ht⟩
      rw [h] at this
      obtain ⟨d', hd', -⟩ := List.mem_map.1 this
      exact ⟨d', mem_findall1.1 hd'⟩
    · rintro ⟨d, hd, ht⟩
      have : makeHumanReadable env remapTable d ∈ Elem.findall (makeHumanReadableL env remapTable r) [nsDescription] := by
        rw [h]; exact List.mem_map_of_mem (mem_findall1.2 ⟨hd, ht⟩)
      exact ⟨_, mem_findall1.1 this⟩
  unfold Described
  rw [findRDF_readable]
  constructor
  · intro h r hr
    exact (key r).1 (h _ (by rw [hr]; rfl))
  · intro h r hr
    obtain ⟨r', hr', rfl⟩ := Option.map_eq_some_iff.1 hr
    exact (key r').2 (h r' hr')

theorem described_props {props : List Elem} :
    Described props ↔ XmpDescribed (insideOf "xmlBox" props) (insideOf "uuidBox" props) := by
  constructor
  · intro h rdf hr
    exact h rdf (findRDF_of hr)
  · intro h r hr
    rcases xmpOf_or (insideOf "xmlBox" props) (insideOf "uuidBox" props) with ⟨rdf, hx⟩ | ⟨h1, h2⟩
    · rw [findRDF_of hx] at hr
      cases hr
      exact h _ hx
    · rw [findRDF_none h1 h2] at hr
      cases hr

theorem rendered_desc {env : Env} {rdf out : List Elem} (hr : RenderedList env rdf out) :
    (∃ d ∈ rdf, d.tag = rdfDescription) ↔ ∃ d ∈ out, d.tag = rdfDescription := by
  have h := rendered_filter (t := rdfDescription) hr
  have hl := h.1
  have key : ∀ l : List Elem, (∃ d ∈ l, d.tag = rdfDescription) ↔ (l.filter fun e => e.tag == rdfDescription).length ≠ 0 := by
    intro l
    rw [Ne, List.length_eq_zero_iff, List.filter_eq_nil_iff]
    constructor
    · rintro ⟨d, hd, ht⟩ hn
      exact hn d hd (beq_iff_eq.2 ht)
    · intro hn
      apply Classical.byContradiction
      intro hc
      exact hn fun e he ht => hc ⟨e, he, beq_iff_eq.1 ht⟩
  rw [key, key, hl]

theorem xmpDescribed_rendered {env : Env} {x x' u u' : List Elem} (hx : RenderedList env x x')
    (hu : RenderedList env u u') : XmpDescribed x u ↔ XmpDescribed x' u' := by
  have fwd : ∀ rdf, XmpOf x u rdf → ∃ rdf', XmpOf x' u' rdf' ∧ RenderedList env rdf rdf' := by
    rintro rdf (hr | ⟨h1, hr⟩)
    · obtain ⟨rdf', h2, h3⟩ := xmpIn_rendered hx hr
      exact ⟨rdf', .inl h2, h3⟩
    · obtain ⟨rdf', h2, h3⟩ := xmpIn_rendered hu hr
      exact ⟨rdf', .inr ⟨noXmpIn_rendered hx h1, h2⟩, h3⟩
  have uniq : ∀ a b : List Elem, XmpOf x' u' a → XmpOf x' u' b → a = b := by
    have one : ∀ {d a b}, XmpIn d a → XmpIn d b → a = b := by
      rintro d a b ⟨-, h1⟩ ⟨-, h2⟩
      rw [h1] at h2
      exact Option.some.inj h2
    have no : ∀ {d a}, XmpIn d a → NoXmpIn d → False := by
      rintro d a ⟨hne, h1⟩ hn
      obtain ⟨e, he, rfl⟩ := Option.map_eq_some_iff.1 h1
      exact hne (hn e he)
    rintro a b (h1 | ⟨h1, h2⟩) (h3 | ⟨h3, h4⟩)
    · exact one h1 h3
    · exact (no h1 h3).elim
    · exact (no h3 h1).elim
    · exact one h2 h4
  constructor
  · intro h r hr
    rcases xmpOf_or x u with ⟨rdf, h1⟩ | ⟨h1, h2⟩
    · obtain ⟨rdf', h2, h3⟩ := fwd rdf h1
      rw [uniq _ _ hr h2]
      exact (rendered_desc h3).1 (h rdf h1)
    · rcases hr with ⟨hne, hr⟩ | ⟨-, hne, hr⟩
      · obtain ⟨e, he, rfl⟩ := Option.map_eq_some_iff.1 hr
        exact absurd (noXmpIn_rendered hx h1 e he) hne
      · obtain ⟨e, he, rfl⟩ := Option.map_eq_some_iff.1 hr
        exact absurd (noXmpIn_rendered hu h2 e he) hne
  · intro h rdf hr
    obtain ⟨rdf', h2, h3⟩ := fwd rdf hr
    exact (rendered_desc h3).2 (h rdf' h2)

/-- The documents in the boxes of a file are always determined. -/
theorem storedDocs_exists (env : Env) (o : Options) (doc : FoundBox → Option Bytes) :
    ∀ bs, ∃ ds, StoredDocs env o doc bs ds
  | [] => ⟨[], .nil⟩
  | x :: bs => by
    obtain ⟨ds, h⟩ := storedDocs_exists env o doc bs
    cases hd : doc x with
    | none => exact ⟨ds, .other hd h⟩
    | some b =>
      have : ∃ es, ShowsXml env o b es := by
        cases hp : env.parseXml b with
        | some d => exact ⟨[d], fun d' e => by rw [hp] at e; cases e; rfl, (fun e => by rw [hp] at e; cases e),
            (fun e => by rw [hp] at e; cases e)⟩
        | none =>
          cases hn : o.nullxml with
          | false => exact ⟨[], (fun d' e => by rw [hp] at e; cases e), (fun _ _ => rfl), (fun _ e => by rw [hn] at e; cases e)⟩
          | true =>
            have hs : ∀ b : Bytes, ∃ s n, b = s ++ List.replicate n 0 ∧ s.getLast? ≠ some 0 := by
              intro b
              generalize hk : b.length = k
              induction k generalizing b with
              | zero =>
                have : b = [] := List.length_eq_zero_iff.1 hk
                subst this
                exact ⟨[], 0, rfl, by simp⟩
              | succ k ih =>
                by_cases hz : b.getLast? = some 0
                · obtain ⟨s, n, h1, h2⟩ := ih b.dropLast (by simp [hk])
                  refine ⟨s, n + 1, ?_, h2⟩
                  obtain ⟨ys, rfl⟩ := List.getLast?_eq_some_iff.1 hz
                  rw [List.dropLast_concat] at h1
                  rw [List.replicate_succ', ← List.append_assoc, ← h1]
                · exact ⟨b, 0, by simp, hz⟩
            obtain ⟨s, n, h1, h2⟩ := hs b
            exact ⟨(env.parseXml s).toList, (fun d' e => by rw [hp] at e; cases e), (fun _ e => by rw [hn] at e; cases e),
              fun _ _ => ⟨s, n, h1, h2, rfl⟩⟩
      obtain ⟨es, hes⟩ := this
      exact ⟨es ++ ds, .here hd hes h⟩

theorem valid_described {env : Env} (hsane : Sane env) {me : MixEnv} {fs : FS} {fuel : Nat} {o : Options}
    {path : PyStr} (hfmt : o.format = .jp2 ∨ o.format = .jph) {rep : Elem}
    (h : checkOneFile env me fs fuel o 0 path = .ok rep) (hv : verdict rep = some (.str "True"))
    {bs : List FoundBox} (hb : Boxes (bytesRead (fs.read path)) bs) {inXml inUuid : List Elem}
    (hx : StoredDocs env o xmlDoc bs inXml) (hu : StoredDocs env o xmpDoc bs inUuid) :
    Described (contents rep "properties") ↔ XmpDescribed inXml inUuid := by
  obtain ⟨raw, more, hr, hshow, -, hmore⟩ := C54_file hsane hfmt h (valid_success h hv) hb
  have hin : ∀ t, t ≠ "compressionRatio" → insideOf t (raw ++ more) = insideOf t raw := by
    intro t ht
    unfold insideOf
    have hnil : more.filter (fun e => e.tag == t) = [] := by
      rw [List.filter_eq_nil_iff]
      intro e he
      rw [hmore e he]
      simpa using ht.symm
    rw [List.filter_append, hnil, List.append_nil]
  have k := xmpDescribed_rendered (rendered_children (rendered_filter (t := "xmlBox") hr))
    (rendered_children (rendered_filter (t := "uuidBox") hr))
  rw [show (List.filter (fun e => e.tag == "xmlBox") (raw ++ more)).flatMap (·.children) =
    insideOf "xmlBox" (raw ++ more) from rfl, hin _ (by decide), inside_xml hshow hx] at k
  rw [show (List.filter (fun e => e.tag == "uuidBox") (raw ++ more)).flatMap (·.children) =
    insideOf "uuidBox" (raw ++ more) from rfl, hin _ (by decide)] at k
  rw [described_props]
  refine Iff.trans k.symm ?_
  have e := elemsAt_filter (u := rdfRDF) (p := []) (inside_uuid hshow hu)
  unfold XmpDescribed XmpOf XmpIn
  rw [e]

/-- C48, exactly when: a JP2 or JPH file reported valid without MIX output is reported valid with MIX output if and only
if its header names a colour space with method 1, 2 or 3 and its XMP, if it has any, has a description. Otherwise
`AttributeError` is raised. -/
theorem C48_exact {env : Env} (hsane : Sane env) {me : MixEnv} {fs : FS} {fuel : Nat} {o : Options} {mix : Nat}
    {path : PyStr} (hfmt : o.format = .jp2 ∨ o.format = .jph) (hmix : mix ≠ 0) (hf : FloatsReadable env me)
    (h : ReportedValid env me fs fuel o 0 path)
    {bs : List FoundBox} (hb : Boxes (bytesRead (fs.read path)) bs) {inXml inUuid : List Elem}
    (hx : StoredDocs env o xmlDoc bs inXml) (hu : StoredDocs env o xmpDoc bs inUuid) :
    (ReportedValid env me fs fuel o mix path ↔
      NamesColourSpace (bytesRead (fs.read path)) ∧ XmpDescribed inXml inUuid) ∧
    (¬ ReportedValid env me fs fuel o mix path → checkOneFile env me fs fuel o mix path = .raised .attributeError) := by
  obtain ⟨rep, h, hv⟩ := h
  have hd := valid_described hsane hfmt h hv hb hx hu
  obtain ⟨info, a, m, h1, h2, -, rfl⟩ := checkOneFile_ok.1 h
  have hi := fileInfo_tag h1
  have hp : contents (buildReport o info a (extensionOf o 0 a m)) "properties" = a.props := by
    unfold contents; rw [(report_parts hi).2.2.2.2.1]; rfl
  rw [hp] at hd
  rw [verdict_eq hi] at hv
  have hval := hv
  simp only [Option.some.injEq, PyVal.str.injEq, boolStr_true] at hval
  rcases analyse_cases h2 with ⟨b, fmm, n, h4, h5, ha⟩ | ⟨e, h4, rfl⟩
  · obtain ⟨rfl, -⟩ := fileToMemoryMap_ok h4
    have hroot : validateRoot env o fuel (bytesRead (fs.read path)) =
        validateJP2 env o fuel (bytesRead (fs.read path)) := by
      unfold validateRoot
      rcases hfmt with hf | hf <;> rw [hf]
    rw [hroot] at h5
    have hnv : n.isValid = true := by rw [ha] at hval; exact hval
    have hprops : a.props = makeHumanReadableL env remapTable n.chars := by rw [ha]; rfl
    obtain ⟨hbase, hcol, -⟩ := valid_base hfmt h5 hnv
    rw [hprops, described_readable] at hd
    have hmo : mixOutput me mix a = (do let m ← generateMix me mix (makeHumanReadableL env remapTable n.chars); Outcome.ok [m]) := by
      unfold mixOutput
      rw [if_pos ⟨hmix, hval⟩, hprops]
    by_cases hc : ShowsColour n.chars ∧ Described n.chars
    · obtain ⟨x, hx⟩ := generateMix_fine (flag := mix) (me := me) (env := env)
        (MixReady.mk hbase hc.1 hc.2) hf
      have hgood : ReportedValid env me fs fuel o mix path := by
        refine ⟨_, checkOneFile_ok.2 ⟨info, a, [x], h1, h2, by rw [hmo, hx]; rfl, rfl⟩, ?_⟩
        rw [verdict_eq hi]
        exact hv
      exact ⟨⟨fun _ => ⟨hcol.1 hc.1, hd.1 hc.2⟩, fun _ => hgood⟩, fun hn => absurd hgood hn⟩
    · have hr := generateMix_raises (flag := mix) (me := me) (env := env) hbase hf hc
      have hraise : checkOneFile env me fs fuel o mix path = .raised .attributeError := by
        unfold checkOneFile
        rw [h1, Outcome.bind_ok, h2, Outcome.bind_ok]
        simp only
        rw [if_pos ⟨hmix, hval⟩, hprops, hr]
        rfl
      refine ⟨⟨?_, ?_⟩, fun _ => hraise⟩
      · rintro ⟨rep', h', -⟩
        rw [hraise] at h'
        cases h'
      · rintro ⟨g1, g2⟩
        exact absurd ⟨hcol.2 g1, hd.2 g2⟩ hc
  · cases hval

theorem findText_absent {cs : List Elem} {t : String} {ts : List String} (h : ∀ e ∈ cs, e.tag ≠ t) :
    ¬ ∃ e, e ∈ Elem.findall cs (t :: ts) := by
  rintro ⟨e, he⟩
  cases ts with
  | nil => exact h e (mem_findall1.1 he).1 (mem_findall1.1 he).2
  | cons u ts =>
    obtain ⟨x, hx, ht, -⟩ := mem_findall2.1 he
    exact h x hx ht

/-- C48 does not extend to codestreams: for every codestream that is reported valid, `checkOneFile` with MIX output
raises `AttributeError`. (The command line switches MIX output off for codestreams.) -/
theorem C48_codestreams {env : Env} {me : MixEnv} {fs : FS} {fuel : Nat} {o : Options} {mix : Nat}
    {path : PyStr} (hfmt : o.format = .j2c ∨ o.format = .jhc) (hmix : mix ≠ 0)
    (h : ReportedValid env me fs fuel o 0 path) : checkOneFile env me fs fuel o mix path = .raised .attributeError := by
  obtain ⟨rep, h, hv⟩ := h
  obtain ⟨info, a, m, h1, h2, -, rfl⟩ := checkOneFile_ok.1 h
  have hi := fileInfo_tag h1
  rw [verdict_eq hi] at hv
  simp only [Option.some.injEq, PyVal.str.injEq, boolStr_true] at hv
  rcases analyse_cases h2 with ⟨b, fmm, n, h4, h5, ha⟩ | ⟨e, h4, rfl⟩
  · have hroot : validateRoot env o fuel b = codestream env o fuel b := by
      unfold validateRoot
      rcases hfmt with hf | hf <;> rw [hf]
    rw [hroot] at h5
    have hnv : n.isValid = true := by rw [ha] at hv; exact hv
    have hprops : a.props = makeHumanReadableL env remapTable n.chars := by rw [ha]; rfl
    have htags : ∀ e ∈ n.chars, e.tag ≠ "fileTypeBox" ∧ e.tag ≠ "contiguousCodestreamBox" := by
      intro e he
      rcases (codestream_elems h5 hnv).1 e he with ⟨m, cs, c, r, hm, hr, rfl⟩ | hm
      · have ht : r.charsElem.tag = (boxTypeOf m).name := validateLeaf_tag hr
        rw [ht]
        have key : ∀ m ∈ mSIZ :: mainMarkers,
            (boxTypeOf m).name ≠ "fileTypeBox" ∧ (boxTypeOf m).name ≠ "contiguousCodestreamBox" := by decide +kernel
        exact key m (by rcases hm with rfl | hm <;> simp [*])
      · have key : ∀ t ∈ ["ppmCount", "plmCount", "tileParts", "compressionRatio"],
            t ≠ "fileTypeBox" ∧ t ≠ "contiguousCodestreamBox" := by decide
        exact key _ hm
    have hbr : Elem.find (makeHumanReadableL env remapTable n.chars) ["fileTypeBox", "br"] = none := by
      rw [find_readable]
      cases hf : Elem.find n.chars ["fileTypeBox", "br"] with
      | none => rfl
      | some e => exact absurd ⟨e, find_mem hf⟩ (findText_absent fun e he => (htags e he).1)
    have hr : generateMix me mix (makeHumanReadableL env remapTable n.chars) = .raised .attributeError := by
      unfold generateMix mixBdoi
      rw [hbr]
      simp only [Outcome.bind_ok]
      rw [findText_missing (findText_absent fun e he => (htags e he).2)]
      rfl
    unfold checkOneFile
    rw [h1, Outcome.bind_ok, h2, Outcome.bind_ok]
    simp only
    rw [if_pos ⟨hmix, hv⟩, hprops, hr]
    rfl
  · cases hv

/-! ## Cases -/

open Sample

theorem noXmpDoc {env : Env} : StoredDocs env (opts .jp2) xmpDoc [⟨0, ascii "jP  ", [0x0d, 0x0a, 0x87, 0x0a]⟩,
    ⟨12, ascii "ftyp", ascii "jp2 " ++ be32 0 ++ ascii "jp2 "⟩, ⟨32, ascii "jp2h", ihdr 1 1 1 7 ++ colr 17⟩,
    ⟨77, ascii "jp2c", cs1⟩, ⟨166, ascii "xml ", ascii "<x/>"⟩] [] :=
  .other (by decide) (.other (by decide) (.other (by decide) (.other (by decide) (.other (by decide) .nil))))

theorem xmlDocIn {env : Env} {d : Elem} (h : env.parseXml (ascii "<x/>") = some d) : StoredDocs env (opts .jp2) xmlDoc
    [⟨0, ascii "jP  ", [0x0d, 0x0a, 0x87, 0x0a]⟩,
    ⟨12, ascii "ftyp", ascii "jp2 " ++ be32 0 ++ ascii "jp2 "⟩, ⟨32, ascii "jp2h", ihdr 1 1 1 7 ++ colr 17⟩,
    ⟨77, ascii "jp2c", cs1⟩, ⟨166, ascii "xml ", ascii "<x/>"⟩] ([d] ++ []) :=
  .other (by decide) (.other (by decide) (.other (by decide) (.other (by decide) (.here (b := ascii "<x/>") rfl
      ⟨(fun _ e => by rw [h] at e; cases e; rfl), (fun e => by rw [h] at e; cases e),
        (fun e => by rw [h] at e; cases e)⟩ .nil))))

/-- A valid file with XMP that has a description: both sides of `C48_exact` hold. -/
example : ReportedValid envXmp me0 (fs0 jp2Xml) 200 (opts .jp2) 1 [97] ∧ NamesColourSpace jp2Xml ∧
    XmpDescribed [.node xmpMeta [.node rdfRDF rdf0]] [] := by
  have hvalid : ∀ mix, mix = 0 ∨ mix = 1 → ReportedValid envXmp me0 (fs0 jp2Xml) 200 (opts .jp2) mix [97] := by
    intro mix hm
    obtain ⟨rep, h, hv, -⟩ := saysValid_ok (x := checkOneFile envXmp me0 (fs0 jp2Xml) 200 (opts .jp2) mix [97])
      (by rcases hm with rfl | rfl <;> decide +kernel)
    exact ⟨rep, h, hv⟩
  exact ⟨hvalid 1 (.inr rfl), ((C48_exact (mix := 1) (me := me0) (env := envXmp) ⟨sane_env0.ascii, sane_env0.float⟩
    (.inl rfl) (by decide) (fun _ _ => ⟨⟨1, rfl⟩, ⟨1, rfl⟩⟩) (hvalid 0 (.inl rfl)) jp2Xml_boxes (xmlDocIn rfl)
    noXmpDoc).1.1 (hvalid 1 (.inr rfl)))⟩

/-- A valid file whose `rdf:RDF` element has something else than a description: neither side holds. -/
example : ReportedValid envRdf me0 (fs0 jp2Xml) 200 (opts .jp2) 0 [97] ∧
    ¬ ReportedValid envRdf me0 (fs0 jp2Xml) 200 (opts .jp2) 1 [97] := by
  have hvalid : ReportedValid envRdf me0 (fs0 jp2Xml) 200 (opts .jp2) 0 [97] := by
    obtain ⟨rep, h, hv, -⟩ := saysValid_ok
      (x := checkOneFile envRdf me0 (fs0 jp2Xml) 200 (opts .jp2) 0 [97]) (by decide +kernel)
    exact ⟨rep, h, hv⟩
  refine ⟨hvalid, fun h => ?_⟩
  have := ((C48_exact (mix := 1) (me := me0) (env := envRdf) ⟨sane_env0.ascii, sane_env0.float⟩ (.inl rfl) (by decide)
    (fun _ _ => ⟨⟨1, rfl⟩, ⟨1, rfl⟩⟩) hvalid jp2Xml_boxes (xmlDocIn rfl) noXmpDoc).1.1 h).2
  obtain ⟨d, hd, ht⟩ := this _ (.inl ⟨by decide, rfl⟩)
  simp only [Elem.node, Elem.children_mk, List.mem_singleton] at hd
  subst hd
  exact absurd ht (by decide)

/-- The codestream of `C48_codestreams` can be the sample codestream. -/
example : ReportedValid env0 me0 (fs0 cs1) 200 (opts .j2c) 0 [97] ∧
    checkOneFile env0 me0 (fs0 cs1) 200 (opts .j2c) 1 [97] = .raised .attributeError := by
  have h : ReportedValid env0 me0 (fs0 cs1) 200 (opts .j2c) 0 [97] := by
    obtain ⟨rep, h, hv, -⟩ := saysValid_ok (x := checkOneFile env0 me0 (fs0 cs1) 200 (opts .j2c) 0 [97]) (by decide +kernel)
    exact ⟨rep, h, hv⟩
  exact ⟨h, C48_codestreams (.inl rfl) (by decide) h⟩

end Jpy
