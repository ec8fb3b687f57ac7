import Verif.Lemmas.Quiet
import Verif.Lemmas.Packets
import Verif.Lemmas.Report
import Verif.Spec.Mix
/-! # The MIX description of a valid file -/

namespace Jpy
open Spec

/-! ## Lookups -/

theorem mem_findall1 {cs : List Elem} {t : String} {e : Elem} :
    e ∈ Elem.findall cs [t] ↔ e ∈ cs ∧ e.tag = t := by
  simp [Elem.findall]

theorem mem_findall2 {cs : List Elem} {t u : String} {ts : List String} {e : Elem} :
    e ∈ Elem.findall cs (t :: u :: ts) ↔ ∃ x ∈ cs, x.tag = t ∧ e ∈ Elem.findall x.children (u :: ts) := by
  rw [Elem.findall]
  · simp only [List.mem_flatMap, List.mem_filter, beq_iff_eq, and_assoc]
  · simp

theorem find_mem {cs p e} (h : Elem.find cs p = some e) : e ∈ Elem.findall cs p :=
  List.mem_of_mem_head? h

theorem find_isSome {cs p e} (h : e ∈ Elem.findall cs p) : ∃ e', Elem.find cs p = some e' := by
  unfold Elem.find
  cases hf : Elem.findall cs p with
  | nil => rw [hf] at h; cases h
  | cons a l => exact ⟨a, rfl⟩

theorem findall_readable (env : Env) (tbl : RemapTable) : ∀ (p : List String) (cs : List Elem),
    Elem.findall (makeHumanReadableL env tbl cs) p = (Elem.findall cs p).map (makeHumanReadable env tbl)
  | [], cs => rfl
  | [t], cs => by
    rw [Elem.findall, Elem.findall, readableL_map, List.filter_map]
    congr 1
    apply List.filter_congr
    intro e _
    simp [readable_tag]
  | t :: u :: ts, cs => by
    rw [Elem.findall, Elem.findall, readableL_map, List.filter_map, List.flatMap_map, List.map_flatMap]
    · have : (cs.filter ((fun x => x.tag == t) ∘ makeHumanReadable env tbl)) = cs.filter (·.tag == t) := by
        apply List.filter_congr
        intro e _
        simp [readable_tag]
      rw [this]
      congr 1
      funext e
      rw [readable_children, findall_readable env tbl (u :: ts)]
    · simp
    · simp

theorem find_readable (env : Env) (tbl : RemapTable) (cs : List Elem) (p : List String) :
    Elem.find (makeHumanReadableL env tbl cs) p = (Elem.find cs p).map (makeHumanReadable env tbl) := by
  unfold Elem.find
  rw [findall_readable, List.head?_map]

theorem readable_text (env : Env) (tbl : RemapTable) (e : Elem) :
    (makeHumanReadable env tbl e).text = readableText env tbl e.tag e.text := by
  cases e; rfl

theorem printable_str {env : Env} {v : PyVal} (h : v ≠ .none) : ∃ s, printable env v = .str s := by
  cases v <;> first | exact absurd rfl h | exact ⟨_, rfl⟩

theorem remapped_ne_none {tbl : RemapTable} {t : String} {v : PyVal} (h : v ≠ .none) : remapped tbl t v ≠ .none := by
  unfold remapped
  split
  · split
    · simp
    · exact h
  · exact h

/-- Every text becomes a string. -/
theorem readable_str {env : Env} {tbl : RemapTable} {e : Elem} (h : e.text ≠ .none) :
    ∃ s, (makeHumanReadable env tbl e).text = .str s := by
  rw [readable_text]
  exact printable_str (remapped_ne_none h)

theorem readable_flt {env : Env} {tbl : RemapTable} {e : Elem} {f : PyFloat} (ht : tbl.lookup e.tag = none)
    (h : e.text = .flt f) : (makeHumanReadable env tbl e).text = .str (env.floatStr f) := by
  rw [readable_text, h]
  unfold readableText remapped
  rw [ht]
  rfl

/-- Values a leaf validator stores under a name. -/
theorem leaf_text {v : Bool} {ss : List Step} {t : String} {e : Elem}
    (h : e ∈ Elem.findall (Node.run v {} ss).chars [t]) : e.text ∈ repOf t ss := by
  rw [← reported_run v ss t]
  exact List.mem_map_of_mem h

theorem leaf_has {v : Bool} {ss : List Step} {t : String} {x : PyVal} (h : x ∈ repOf t ss) :
    ∃ e ∈ Elem.findall (Node.run v {} ss).chars [t], e.text = x := by
  rw [← reported_run v ss t] at h
  exact List.mem_map.1 h

/-! ## What the description needs -/

/-- The properties, before they are made readable, contain what the MIX description looks up. -/
structure MixBase (cs : List Elem) : Prop where
  br : ∀ e ∈ Elem.findall cs ["fileTypeBox", "br"], e.text ≠ .none
  cod : ∀ t ∈ ["transformation", "layers", "levels"],
    ∃ e, e ∈ Elem.findall cs ["contiguousCodestreamBox", "cod", t]
  ratio : ∃ e f, Elem.find cs ["compressionRatio"] = some e ∧ e.text = .flt f
  ihdr : ∀ t ∈ ["width", "height"], ∃ e, e ∈ Elem.findall cs ["jp2HeaderBox", "imageHeaderBox", t]
  icc : ∀ e ∈ Elem.findall cs ["jp2HeaderBox", "colourSpecificationBox", "icc"], ∃ p, e = iccElem p
  enum : ∀ e ∈ Elem.findall cs ["jp2HeaderBox", "colourSpecificationBox", "enumCS"], e.text ≠ .none
  com : ∀ e ∈ Elem.findall cs ["contiguousCodestreamBox", "com", "comment"], e.text ≠ .none
  res : ∀ x ∈ [("captureResolutionBox", "c"), ("displayResolutionBox", "d")],
    ∀ e ∈ Elem.findall cs ["jp2HeaderBox", "resolutionBox", x.1],
      (∃ h f, Elem.find e.children ["hRes" ++ x.2 ++ "InPixelsPerMeter"] = some h ∧ h.text = .flt f) ∧
      (∃ h f, Elem.find e.children ["vRes" ++ x.2 ++ "InPixelsPerMeter"] = some h ∧ h.text = .flt f)
  siz : ∃ e, e ∈ Elem.findall cs ["contiguousCodestreamBox", "siz"]
  sizes : ∀ e ∈ Elem.findall cs ["contiguousCodestreamBox", "siz"],
    (∀ t ∈ ["csiz", "xTsiz", "yTsiz"], ∃ x, x ∈ Elem.findall e.children [t]) ∧
    ∀ x ∈ Elem.findall e.children ["ssizDepth"], x.text ≠ .none

/-- A colour space is shown. -/
def ShowsColour (cs : List Elem) : Prop :=
  (∃ e, e ∈ Elem.findall cs ["jp2HeaderBox", "colourSpecificationBox", "icc"]) ∨
    ∃ e, e ∈ Elem.findall cs ["jp2HeaderBox", "colourSpecificationBox", "enumCS"]

/-- The RDF element that is used has a description. -/
def Described (cs : List Elem) : Prop := ∀ r, findRDF cs = some r → ∃ d ∈ r, d.tag = nsDescription

structure MixReady (cs : List Elem) : Prop extends MixBase cs where
  colour : ShowsColour cs
  rdf : Described cs

/-- The outcome is a value. -/
def Fine {α : Type} (x : Outcome α) : Prop := ∃ a, x = .ok a

theorem Fine.ok {α : Type} (a : α) : Fine (.ok a) := ⟨a, rfl⟩
theorem Fine.bind {α β : Type} {x : Outcome α} {f : α → Outcome β} (h : Fine x) (hf : ∀ a, x = .ok a → Fine (f a)) :
    Fine (x >>= f) := by
  obtain ⟨a, rfl⟩ := h
  exact hf a rfl

section
variable {env : Env} {me : MixEnv} {cs : List Elem} {flag : Nat}

theorem findText_fine {tbl : RemapTable} {p : List String} (h : ∃ e, e ∈ Elem.findall cs p) :
    Fine (findText (makeHumanReadableL env tbl cs) p) := by
  obtain ⟨e, he⟩ := h
  obtain ⟨e', he'⟩ := find_isSome he
  unfold findText
  rw [find_readable, he']
  exact Fine.ok _

/-- A lookup of a text that is there and is not `None`. -/
theorem findText_str {tbl : RemapTable} {p : List String} (h : ∃ e, e ∈ Elem.findall cs p)
    (hs : ∀ e ∈ Elem.findall cs p, e.text ≠ .none) :
    ∃ s, findText (makeHumanReadableL env tbl cs) p = .ok (.str s) := by
  obtain ⟨e, he⟩ := h
  obtain ⟨e', he'⟩ := find_isSome he
  unfold findText
  rw [find_readable, he']
  obtain ⟨s, hs⟩ := readable_str (env := env) (tbl := tbl) (hs e' (find_mem he'))
  exact ⟨s, by rw [Option.map_some]; exact congrArg Outcome.ok hs⟩

theorem findText_flt {tbl : RemapTable} {p : List String} {e : Elem} {f : PyFloat} (h : Elem.find cs p = some e)
    (ht : tbl.lookup e.tag = none) (hf : e.text = .flt f) :
    findText (makeHumanReadableL env tbl cs) p = .ok (.str (env.floatStr f)) := by
  unfold findText
  rw [find_readable, h, Option.map_some]
  exact congrArg Outcome.ok (readable_flt ht hf)

theorem found_tag {cs : List Elem} {t : String} {e : Elem} (h : Elem.find cs [t] = some e) : e.tag = t :=
  (mem_findall1.1 (find_mem h)).2

theorem mixBdoi_fine (h : MixBase cs) (hf : FloatsReadable env me) :
    Fine (mixBdoi me flag (makeHumanReadableL env remapTable cs)) := by
  unfold mixBdoi
  simp only
  have hbr : (∃ e s, Elem.find (makeHumanReadableL env remapTable cs) ["fileTypeBox", "br"] = some e ∧ e.text = .str s) ∨
      Elem.find (makeHumanReadableL env remapTable cs) ["fileTypeBox", "br"] = none := by
    rw [find_readable]
    cases hb : Elem.find cs ["fileTypeBox", "br"] with
    | none => exact .inr rfl
    | some e =>
      obtain ⟨s, hs⟩ := readable_str (env := env) (tbl := remapTable) (h.br e (find_mem hb))
      exact .inl ⟨_, s, rfl, hs⟩
  obtain ⟨e, f, he, hfl⟩ := h.ratio
  have hr := findText_flt (env := env) he (tbl := remapTable) (by rw [found_tag he]; decide) hfl
  obtain ⟨i, hi⟩ := (hf f 1).1
  obtain ⟨j, hj⟩ := (hf f 100).1
  rcases hbr with ⟨e, s, hb, hs⟩ | hb
  all_goals
    rw [hb]
    try simp only [hs, asStr]
    simp only [Outcome.bind_ok]
    refine Fine.bind (findText_fine (h.cod "transformation" (by simp))) fun _ _ => ?_
    rw [hr]
    simp only [Outcome.bind_ok, asText, hi, hj, orValueError]
    split <;> exact Fine.ok _

theorem iccElem_children (p : Bytes) : (iccElem p).children = (Node.run true {} (icc p)).chars := rfl

theorem icc_lookup {t : String} (h : MixBase cs)
    {e : Elem} (he : e ∈ Elem.findall cs ["jp2HeaderBox", "colourSpecificationBox", "icc", t]) :
    ∃ p, e.text ∈ repOf t (icc p) := by
  obtain ⟨x, hx, h1, he⟩ := mem_findall2.1 he
  obtain ⟨y, hy, h2, he⟩ := mem_findall2.1 he
  obtain ⟨z, hz, h3, he⟩ := mem_findall2.1 he
  obtain ⟨p, rfl⟩ := h.icc z (mem_findall2.2 ⟨x, hx, h1, mem_findall2.2 ⟨y, hy, h2, mem_findall1.2 ⟨hz, h3⟩⟩⟩)
  exact ⟨p, leaf_text he⟩

theorem icc_lookup' {t : String} (h : MixBase cs) (ht : ∀ p, ∃ x, x ∈ repOf t (icc p))
    (hi : ∃ e, e ∈ Elem.findall cs ["jp2HeaderBox", "colourSpecificationBox", "icc"]) :
    ∃ e, e ∈ Elem.findall cs ["jp2HeaderBox", "colourSpecificationBox", "icc", t] := by
  obtain ⟨e, he⟩ := hi
  obtain ⟨p, rfl⟩ := h.icc e he
  obtain ⟨x, hx, h1, he⟩ := mem_findall2.1 he
  obtain ⟨y, hy, h2, he⟩ := mem_findall2.1 he
  obtain ⟨hz, h3⟩ := mem_findall1.1 he
  obtain ⟨v, hv⟩ := ht p
  obtain ⟨e', he', -⟩ := leaf_has (v := true) hv
  exact ⟨e', mem_findall2.2 ⟨x, hx, h1, mem_findall2.2 ⟨y, hy, h2, mem_findall2.2 ⟨_, hz, h3, he'⟩⟩⟩⟩

theorem icc_colourSpace (p : Bytes) : repOf "colourSpace" (icc p) = [.bytes (slice p 16 20)] := by
  unfold icc
  rep

theorem icc_description (p : Bytes) : repOf "description" (icc p) = [iccDescription p] := by
  unfold icc
  rep

theorem icc_some (p : Bytes) : ∃ c cs, (iccElem p).children = c :: cs := by
  unfold iccElem
  rw [Elem.children_node]
  cases h : (Node.run true {} (icc p)).chars with
  | cons a l => exact ⟨_, _, rfl⟩
  | nil =>
    obtain ⟨e, he, -⟩ := leaf_has (v := true) (t := "colourSpace") (by rw [icc_colourSpace p]; exact List.mem_singleton.2 rfl)
    rw [h] at he
    cases he

theorem mixPhotometric_fine (h : MixBase cs) (hcol : ShowsColour cs) :
    Fine (mixPhotometric me (makeHumanReadableL env remapTable cs)) := by
  unfold mixPhotometric
  rw [find_readable]
  cases hi : Elem.find cs ["jp2HeaderBox", "colourSpecificationBox", "icc"] with
  | some e =>
    have hm := find_mem hi
    obtain ⟨p, rfl⟩ := h.icc e hm
    obtain ⟨c, l, hc⟩ := icc_some p
    rw [Option.map_some]
    have : ∃ t a x c l z, makeHumanReadable env remapTable (iccElem p) = .mk t a x (c :: l) z := by
      cases he : makeHumanReadable env remapTable (iccElem p) with
      | mk t a x ch z =>
        have := readable_children env remapTable (iccElem p)
        rw [he, hc] at this
        exact ⟨t, a, x, _, _, z, congrArg (Elem.mk t a x · z) this⟩
    obtain ⟨t, a, x, c', l', z', e1⟩ := this
    rw [e1]
    simp only
    obtain ⟨s, hs⟩ := findText_str (env := env) (tbl := remapTable)
      (icc_lookup' h (t := "colourSpace") (fun p => ⟨_, by rw [icc_colourSpace p]; exact List.mem_singleton.2 rfl⟩) ⟨_, hm⟩)
      (fun e he => by
        obtain ⟨p, hp⟩ := icc_lookup h he
        rw [icc_colourSpace, List.mem_singleton] at hp
        rw [hp]; simp)
    rw [hs]
    simp only [Outcome.bind_ok, asStr]
    refine Fine.bind (findText_fine (icc_lookup' h (t := "description")
      (fun p => ⟨_, by rw [icc_description p]; exact List.mem_singleton.2 rfl⟩) ⟨_, hm⟩)) fun _ _ => Fine.ok _
  | none =>
    rw [Option.map_none]
    simp only
    rcases hcol with ⟨e, he⟩ | he
    · obtain ⟨e', he'⟩ := find_isSome he
      rw [hi] at he'; cases he'
    · obtain ⟨s, hs⟩ := findText_str (env := env) (tbl := remapTable) he h.enum
      rw [hs]
      exact Fine.ok _

theorem mixCodec_fine (h : MixBase cs) : Fine (mixCodec (makeHumanReadableL env remapTable cs)) := by
  unfold mixCodec
  rw [find_readable]
  cases hc : Elem.find cs ["contiguousCodestreamBox", "com", "comment"] with
  | none => exact Fine.ok _
  | some e =>
    obtain ⟨s, hs⟩ := readable_str (env := env) (tbl := remapTable) (h.com e (find_mem hc))
    simp only [Option.map_some, hs, asText, Outcome.bind_ok]
    split <;> exact Fine.ok _

theorem siz_lookup (h : MixBase cs) {t : String} (ht : t ∈ ["csiz", "xTsiz", "yTsiz"]) :
    ∃ e, e ∈ Elem.findall cs ["contiguousCodestreamBox", "siz", t] := by
  obtain ⟨e, he⟩ := h.siz
  obtain ⟨e', he'⟩ := (h.sizes e he).1 t ht
  obtain ⟨x, hx, h1, he⟩ := mem_findall2.1 he
  obtain ⟨hz, h3⟩ := mem_findall1.1 he
  exact ⟨e', mem_findall2.2 ⟨x, hx, h1, mem_findall2.2 ⟨e, hz, h3, he'⟩⟩⟩

theorem mixBio_fine (h : MixBase cs) (hcol : ShowsColour cs) : Fine (mixBio me flag (makeHumanReadableL env remapTable cs)) := by
  unfold mixBio
  refine Fine.bind (findText_fine (h.ihdr _ (by simp))) fun _ _ => ?_
  refine Fine.bind (findText_fine (h.ihdr _ (by simp))) fun _ _ => ?_
  refine Fine.bind (mixPhotometric_fine h hcol) fun _ _ => Fine.bind (mixCodec_fine h) fun _ _ => ?_
  refine Fine.bind (findText_fine (siz_lookup h (by simp))) fun _ _ => ?_
  refine Fine.bind (findText_fine (siz_lookup h (by simp))) fun _ _ => ?_
  refine Fine.bind (findText_fine (h.cod _ (by simp))) fun _ _ => ?_
  exact Fine.bind (findText_fine (h.cod _ (by simp))) fun _ _ => Fine.ok _

theorem lookup_mem' {α : Type} {t : String} : ∀ {l : List (String × α)} {m : α}, l.lookup t = some m → (t, m) ∈ l
  | [], m, h => by cases h
  | (k, x) :: l, m, h => by
    rw [List.lookup_cons] at h
    split at h
    · rename_i hk
      cases h
      rw [beq_iff_eq.1 hk]
      exact List.mem_cons_self
    · exact List.mem_cons_of_mem _ (lookup_mem' h)

/-- Values in an RDF element with a description are strings or missing. -/
theorem findValueInRDF_fine {rdf : List Elem} (h : ∃ d ∈ rdf, d.tag = nsDescription) (ns t : String) :
    ∃ v, findValueInRDF (makeHumanReadableL env remapTable rdf) ns t = .ok v ∧ ∀ x, v = some x → ∃ s, x = .str s := by
  unfold findValueInRDF
  rw [find_readable]
  cases he : Elem.find rdf [nsDescription, ns ++ t] with
  | some e =>
    simp only [Option.map_some]
    refine ⟨_, rfl, fun x hx => ?_⟩
    split at hx
    · cases hx
    · rename_i hne
      cases hx
      refine readable_str fun hn => hne ?_
      rw [readable_text, hn]
      unfold readableText remapped
      split
      · rename_i m hm
        have : m.lookup PyVal.none = none := by
          have : ∀ x ∈ remapTable, x.2.lookup PyVal.none = none := by decide +kernel
          exact this (_, m) (lookup_mem' hm)
        rw [this]; rfl
      · rfl
  | none =>
    simp only [Option.map_none]
    obtain ⟨d, hd, ht⟩ := h
    obtain ⟨d', hd'⟩ := find_isSome (mem_findall1.2 ⟨hd, ht⟩)
    rw [find_readable, hd', Option.map_some]
    simp only
    split
    · refine ⟨_, rfl, fun x hx => ?_⟩
      split at hx
      · cases hx
      · cases hx; exact ⟨_, rfl⟩
    · exact ⟨_, rfl, fun x hx => nomatch hx⟩

theorem addIfExist_fine {rdf : List Elem} (h : ∃ d ∈ rdf, d.tag = nsDescription) (ns t dest : String) :
    Fine (addIfExist me (makeHumanReadableL env remapTable rdf) ns t dest) := by
  obtain ⟨v, hv, hs⟩ := findValueInRDF_fine (env := env) h ns t
  unfold addIfExist
  rw [hv, Outcome.bind_ok]
  cases v with
  | none => exact Fine.ok _
  | some x =>
    obtain ⟨s, rfl⟩ := hs x rfl
    exact Fine.ok _

theorem readableL_cons {tbl : RemapTable} (c : Elem) (l : List Elem) :
    ∃ c' l', makeHumanReadableL env tbl (c :: l) = c' :: l' := by rw [makeHumanReadableL]; exact ⟨_, _, rfl⟩

/-- The RDF element that is used is the same before and after descriptions are inserted. -/
theorem findRDF_readable (cs : List Elem) :
    findRDF (makeHumanReadableL env remapTable cs) = (findRDF cs).map (makeHumanReadableL env remapTable) := by
  have key : ∀ e : Elem, ∃ t a x z, makeHumanReadable env remapTable e = .mk t a x (makeHumanReadableL env remapTable e.children) z := by
    intro e
    have hc := readable_children env remapTable e
    cases he : makeHumanReadable env remapTable e with
    | mk t a x c z =>
      rw [he, Elem.children_mk] at hc
      exact ⟨t, a, x, z, by rw [hc]⟩
  unfold findRDF
  rw [find_readable, find_readable]
  have snd : (match Option.map (makeHumanReadable env remapTable) (Elem.find cs ["uuidBox", nsMeta, nsRDF]) with
      | some (.mk _ _ _ (c :: cs) _) => some (c :: cs)
      | _ => none) = Option.map (makeHumanReadableL env remapTable) (match Elem.find cs ["uuidBox", nsMeta, nsRDF] with
      | some (.mk _ _ _ (c :: cs) _) => some (c :: cs)
      | _ => none) := by
    cases Elem.find cs ["uuidBox", nsMeta, nsRDF] with
    | none => rfl
    | some e =>
      obtain ⟨t, a, x, z, h⟩ := key e
      rw [Option.map_some, h]
      obtain ⟨t', a', x', c⟩ := e
      cases c with
      | nil => rw [Elem.children_mk, makeHumanReadableL]; rfl
      | cons c l =>
        obtain ⟨c', l', e⟩ := readableL_cons (env := env) (tbl := remapTable) c l
        rw [Elem.children_mk, e]
        simp only [Option.map_some, e]
  cases Elem.find cs ["xmlBox", nsMeta, nsRDF] with
  | none => exact snd
  | some e =>
    obtain ⟨t, a, x, z, h⟩ := key e
    rw [Option.map_some, h]
    obtain ⟨t', a', x', c⟩ := e
    cases c with
    | nil => rw [Elem.children_mk, makeHumanReadableL]; exact snd
    | cons c l =>
      obtain ⟨c', l', e⟩ := readableL_cons (env := env) (tbl := remapTable) c l
      rw [Elem.children_mk, e]
      simp only [Option.map_some, e]

theorem mixIcm_fine (h : Described cs) : Fine (mixIcm me (makeHumanReadableL env remapTable cs)) := by
  unfold mixIcm
  rw [findRDF_readable]
  cases e : findRDF cs with
  | none => exact Fine.ok _
  | some rdf =>
    have hd := h rdf e
    simp only [Option.map_some]
    refine Fine.bind (addIfExist_fine hd _ _ _) fun _ _ => Fine.bind (addIfExist_fine hd _ _ _) fun _ _ =>
      Fine.bind (addIfExist_fine hd _ _ _) fun _ _ => Fine.bind (addIfExist_fine hd _ _ _) fun _ _ =>
      Fine.bind (addIfExist_fine hd _ _ _) fun _ _ => ?_
    obtain ⟨v, hv, hs⟩ := findValueInRDF_fine (env := env) hd nsXap "CreatorTool"
    rw [hv, Outcome.bind_ok]
    cases v with
    | none => exact Fine.ok _
    | some x =>
      obtain ⟨s, rfl⟩ := hs x rfl
      simp only [asText, Outcome.bind_ok]
      split <;> exact Fine.ok _

theorem mixSpatial_fine (h : MixBase cs) (hf : FloatsReadable env me) :
    Fine (mixSpatial me flag (makeHumanReadableL env remapTable cs)) := by
  have key : ∀ x ∈ [("captureResolutionBox", "c"), ("displayResolutionBox", "d")], ∀ e,
      Elem.find cs ["jp2HeaderBox", "resolutionBox", x.1] = some e → ∃ nx ny s1 s2 : _,
      findText (makeHumanReadable env remapTable e).children ["hRes" ++ x.2 ++ "InPixelsPerMeter"] = .ok (.str s1) ∧
      findText (makeHumanReadable env remapTable e).children ["vRes" ++ x.2 ++ "InPixelsPerMeter"] = .ok (.str s2) ∧
      me.truncScaled s1 100 = some nx ∧ me.truncScaled s2 100 = some ny := by
    intro x hx e he
    obtain ⟨⟨e1, f1, h1, t1⟩, ⟨e2, f2, h2, t2⟩⟩ := h.res x hx e (find_mem he)
    obtain ⟨n1, hn1⟩ := (hf f1 100).2
    obtain ⟨n2, hn2⟩ := (hf f2 100).2
    rw [readable_children]
    have l1 : remapTable.lookup e1.tag = none := by
      rw [found_tag h1]
      simp only [List.mem_cons, List.not_mem_nil, or_false] at hx
      rcases hx with rfl | rfl <;> decide
    have l2 : remapTable.lookup e2.tag = none := by
      rw [found_tag h2]
      simp only [List.mem_cons, List.not_mem_nil, or_false] at hx
      rcases hx with rfl | rfl <;> decide
    exact ⟨n1, n2, _, _, findText_flt h1 l1 t1, findText_flt h2 l2 t2, hn1, hn2⟩
  unfold mixSpatial
  simp only
  rw [find_readable, find_readable]
  cases hc : Elem.find cs ["jp2HeaderBox", "resolutionBox", "captureResolutionBox"] with
  | some e =>
    obtain ⟨nx, ny, s1, s2, h1, h2, h3, h4⟩ := key ("captureResolutionBox", "c") (by simp) e hc
    simp only [Option.map_some]
    rw [h1, h2]
    simp only [Outcome.bind_ok, asText, h3, h4, orValueError]
    exact Fine.ok _
  | none =>
    simp only [Option.map_none]
    cases hd : Elem.find cs ["jp2HeaderBox", "resolutionBox", "displayResolutionBox"] with
    | some e =>
      obtain ⟨nx, ny, s1, s2, h1, h2, h3, h4⟩ := key ("displayResolutionBox", "d") (by simp) e hd
      simp only [Option.map_some]
      rw [h1, h2]
      simp only [Outcome.bind_ok, asText, h3, h4, orValueError]
      exact Fine.ok _
    | none => exact Fine.ok _

theorem asTexts_fine : ∀ {vs : List PyVal}, (∀ v ∈ vs, ∃ s, v = .str s) → Fine (asTexts vs)
  | [], _ => Fine.ok _
  | v :: vs, h => by
    obtain ⟨s, rfl⟩ := h v (by simp)
    exact Fine.bind (Fine.ok _) fun _ _ => Fine.bind (asTexts_fine fun x hx => h x (by simp [hx])) fun _ _ => Fine.ok _

theorem mixIam_fine (h : MixBase cs) (hf : FloatsReadable env me) :
    Fine (mixIam me flag (makeHumanReadableL env remapTable cs)) := by
  unfold mixIam
  refine Fine.bind (mixSpatial_fine h hf) fun _ _ => ?_
  obtain ⟨e, he⟩ := h.siz
  obtain ⟨e', he'⟩ := find_isSome he
  rw [find_readable, he', Option.map_some]
  simp only [Outcome.bind_ok, readable_children]
  obtain ⟨h1, h2⟩ := h.sizes e' (find_mem he')
  split
  · refine Fine.bind (asTexts_fine fun v hv => ?_) fun _ _ =>
      Fine.bind (findText_fine (h1 "csiz" (by simp))) fun _ _ => Fine.ok _
    unfold Elem.findAllText at hv
    rw [findall_readable, List.map_map] at hv
    obtain ⟨x, hx, rfl⟩ := List.mem_map.1 hv
    exact readable_str (h2 x hx)
  · exact Fine.bind (findText_fine (h1 "csiz" (by simp))) fun _ _ => Fine.ok _

theorem generateMix_fine (h : MixReady cs) (hf : FloatsReadable env me) :
    Fine (generateMix me flag (makeHumanReadableL env remapTable cs)) := by
  unfold generateMix
  exact Fine.bind (mixBdoi_fine h.toMixBase hf) fun _ _ => Fine.bind (mixBio_fine h.toMixBase h.colour) fun _ _ =>
    Fine.bind (mixIcm_fine h.rdf) fun _ _ => Fine.bind (mixIam_fine h.toMixBase hf) fun _ _ => Fine.ok _

/-! ## What happens otherwise -/

theorem findText_missing {tbl : RemapTable} {p : List String} (h : ¬ ∃ e, e ∈ Elem.findall cs p) :
    findText (makeHumanReadableL env tbl cs) p = .raised .attributeError := by
  unfold findText
  rw [find_readable]
  cases hf : Elem.find cs p with
  | none => rfl
  | some e => exact absurd ⟨e, find_mem hf⟩ h

theorem mixPhotometric_raises (h : ¬ ShowsColour cs) :
    mixPhotometric me (makeHumanReadableL env remapTable cs) = .raised .attributeError := by
  unfold mixPhotometric
  rw [find_readable]
  cases hi : Elem.find cs ["jp2HeaderBox", "colourSpecificationBox", "icc"] with
  | some e => exact absurd (.inl ⟨e, find_mem hi⟩) h
  | none =>
    simp only [Option.map_none]
    rw [findText_missing fun he => h (.inr he)]
    rfl

theorem mixIcm_raises (h : ¬ Described cs) :
    mixIcm me (makeHumanReadableL env remapTable cs) = .raised .attributeError := by
  unfold mixIcm
  rw [findRDF_readable]
  cases e : findRDF cs with
  | none => exact absurd (fun r hr => by rw [e] at hr; cases hr) h
  | some rdf =>
    have hn : ¬ ∃ d, d ∈ Elem.findall rdf [nsDescription] := by
      rintro ⟨d, hd⟩
      refine h fun r hr => ?_
      rw [e] at hr
      cases hr
      exact ⟨d, (mem_findall1.1 hd).1, (mem_findall1.1 hd).2⟩
    simp only [Option.map_some]
    have : ∀ ns t, findValueInRDF (makeHumanReadableL env remapTable rdf) ns t = .raised .attributeError := by
      intro ns t
      unfold findValueInRDF
      rw [find_readable, find_readable]
      cases h1 : Elem.find rdf [nsDescription, ns ++ t] with
      | some x =>
        obtain ⟨y, hy, ht, -⟩ := mem_findall2.1 (find_mem h1)
        exact absurd ⟨y, mem_findall1.2 ⟨hy, ht⟩⟩ hn
      | none =>
        cases h2 : Elem.find rdf [nsDescription] with
        | some y => exact absurd ⟨y, find_mem h2⟩ hn
        | none => rfl
    unfold addIfExist
    rw [this]
    rfl

/-- The description can be produced if and only if a colour space is shown and the RDF element that is used has a
description; otherwise `AttributeError` is raised. -/
theorem generateMix_raises (h : MixBase cs) (hf : FloatsReadable env me) (hn : ¬ (ShowsColour cs ∧ Described cs)) :
    generateMix me flag (makeHumanReadableL env remapTable cs) = .raised .attributeError := by
  unfold generateMix
  obtain ⟨b, hb⟩ := mixBdoi_fine (flag := flag) h hf
  rw [hb, Outcome.bind_ok]
  by_cases hc : ShowsColour cs
  · have hd : ¬ Described cs := fun hd => hn ⟨hc, hd⟩
    have hbio : Fine (mixBio me flag (makeHumanReadableL env remapTable cs)) := mixBio_fine h hc
    obtain ⟨c, hc⟩ := hbio
    rw [hc, Outcome.bind_ok, mixIcm_raises hd]
    rfl
  · have : mixBio me flag (makeHumanReadableL env remapTable cs) = .raised .attributeError := by
      unfold mixBio
      obtain ⟨w, hw⟩ := findText_fine (env := env) (tbl := remapTable) (h.ihdr "width" (by simp))
      obtain ⟨v, hv⟩ := findText_fine (env := env) (tbl := remapTable) (h.ihdr "height" (by simp))
      rw [hw, Outcome.bind_ok, hv, Outcome.bind_ok, mixPhotometric_raises hc]
      rfl
    rw [this]
    rfl

end

/-! ## Valid files have it -/

/-- An element of the main header comes from a marker segment. -/
def SegElem (env : Env) (o : Options) (f : Nat) (e : Elem) : Prop :=
  ∃ m cs c r, (m = mSIZ ∨ m ∈ mainMarkers) ∧ validateLeaf env o f cs m c = .ok r ∧ e = r.charsElem

/-- The elements collected by the main header loop. -/
structure MainInv (env : Env) (o : Options) (f : Nat) (s : MainState) : Prop where
  all : ∀ e ∈ s.node.chars, SegElem env o f e
  cod : s.foundCOD = true → ∃ e ∈ s.node.chars, e.tag = "cod" ∧ SegElem env o f e

theorem mainStep_inv {env o f n pm b s s'} (h : mainStep (segV env o f) pm (some n) b s = .ok s')
    (hs : MainInv env o f s) : MainInv env o f s' := by
  rw [mainStep_eq] at h
  simp only at h
  split at h
  case isTrue hm =>
    obtain ⟨r, hr, h⟩ := Outcome.bind_eq_ok.1 h
    cases h
    have htag := validateLeaf_tag hr
    have hr : SegElem env o f r.charsElem := ⟨_, _, _, r, .inr hm, hr, rfl⟩
    constructor
    · intro e he
      simp only at he
      split at he
      · unfold Node.absorbPacket at he
        split at he
        · rw [absorb_chars] at he
          rcases List.mem_append.1 he with he | he
          · exact hs.all e he
          · rw [List.mem_singleton.1 he]; exact hr
        · exact hs.all e he
      · rw [absorb_chars] at he
        rcases List.mem_append.1 he with he | he
        · exact hs.all e he
        · rw [List.mem_singleton.1 he]; exact hr
    · intro hc
      simp only at hc ⊢
      split at hc
      · rename_i heq
        rw [if_neg (by rw [heq]; decide), absorb_chars]
        refine ⟨r.charsElem, by simp, ?_, hr⟩
        show r.tag = "cod"
        rw [htag, heq]
        decide
      · obtain ⟨e, he, ht, hse⟩ := hs.cod hc
        refine ⟨e, ?_, ht, hse⟩
        split
        · unfold Node.absorbPacket
          split
          · rw [absorb_chars]; simp [he]
          · exact he
        · rw [absorb_chars]; simp [he]
  case isFalse => cases h; exact ⟨hs.all, hs.cod⟩

theorem mainLoop_inv {env o f n pm b} : ∀ (fuel : Nat) (s s' : MainState),
    mainLoop (segV env o f) pm (some n) b fuel s = .ok s' → MainInv env o f s → MainInv env o f s' := by
  intro fuel
  induction fuel with
  | zero => intro s s' h; cases h
  | succ fuel ih =>
    intro s s' h hs
    unfold mainLoop at h
    split at h
    · obtain ⟨s1, h1, h2⟩ := Outcome.bind_eq_ok.1 h
      exact ih s1 s' h2 (mainStep_inv h1 hs)
    · cases h; exact hs

theorem finish_chars {o : Options} {b : Bytes} {sizChars : List Elem} {nTiles : Int} {node : Node}
    {t : TileState} {n : Node} (h : codestreamFinish o b sizChars nTiles node t = .ok n) :
    ∃ l, n.chars = node.chars ++ l ∧ ∀ e ∈ l, e.tag ∈ ["tileParts", "compressionRatio"] := by
  unfold codestreamFinish at h
  simp only at h
  split at h
  · obtain ⟨depths, h1, h⟩ := Outcome.bind_eq_ok.1 h
    obtain ⟨y, h2, h⟩ := Outcome.bind_eq_ok.1 h
    obtain ⟨y', h3, h⟩ := Outcome.bind_eq_ok.1 h
    obtain ⟨x, h4, h⟩ := Outcome.bind_eq_ok.1 h
    obtain ⟨x', h5, h⟩ := Outcome.bind_eq_ok.1 h
    cases h
    simp only [Node.addChar, testFor_chars, testIf_chars, Node.absorb, List.append_assoc]
    refine ⟨_, rfl, fun e he => ?_⟩
    simp only [List.cons_append, List.nil_append, List.mem_cons, List.not_mem_nil, or_false] at he
    rcases he with rfl | rfl <;> simp [BoxResult.charsElem]
  · cases h
    simp only [Node.addChar, testFor_chars, testIf_chars, Node.absorb, List.append_assoc]
    refine ⟨_, rfl, fun e he => ?_⟩
    simp only [List.mem_singleton] at he
    subst he
    simp [BoxResult.charsElem]

/-- Elements of a valid codestream: its marker segments and a few counts. -/
theorem codestream_elems {env o fuel b n} (h : codestream env o fuel b = .ok n) (hv : n.isValid = true) :
    (∀ e ∈ n.chars, SegElem env o fuel e ∨ e.tag ∈ ["ppmCount", "plmCount", "tileParts", "compressionRatio"]) ∧
    (∃ e ∈ n.chars, e.tag = "cod" ∧ SegElem env o fuel e) ∧
    (∃ e ∈ n.chars, e.tag = "siz" ∧ SegElem env o fuel e) := by
  unfold codestream at h
  simp only at h
  split at h
  case isFalse hm =>
    exfalso
    cases h
    rw [isValid_testFor, decide_eq_false hm] at hv
    simp at hv
  case isTrue hm =>
    obtain ⟨r, hr, h⟩ := Outcome.bind_eq_ok.1 h
    obtain ⟨csiz, -, h⟩ := Outcome.bind_eq_ok.1 h
    obtain ⟨s, hs, h⟩ := Outcome.bind_eq_ok.1 h
    obtain ⟨rsiz, -, h⟩ := Outcome.bind_eq_ok.1 h
    obtain ⟨tiles, -, h⟩ := Outcome.bind_eq_ok.1 h
    obtain ⟨t, -, h⟩ := Outcome.bind_eq_ok.1 h
    rw [hm] at hr
    have hseg : SegElem env o fuel r.charsElem := ⟨_, _, _, r, .inl rfl, hr, rfl⟩
    have hinv := mainLoop_inv _ _ s hs ⟨by
      intro e he
      simp only [absorb_chars, testFor_chars, List.nil_append, List.mem_singleton] at he
      rw [he]; exact hseg, fun hc => nomatch hc⟩
    obtain ⟨rest, hx⟩ := (mainLoop_quiet _ _ _ _ _ _ _ _).2 s hs
    simp only [absorb_chars, testFor_chars, List.nil_append] at hx
    obtain ⟨l, hl, htl⟩ := finish_chars h
    have hcod : s.foundCOD = true := by
      have := ((finish_spec h).2.1 hv).1
      simp only [isValid_testIf, isValid_testFor, Bool.and_eq_true] at this
      exact this.1.1.2
    simp only [testIf_chars, testFor_chars, Node.addChar] at hl
    refine ⟨fun e he => ?_, ?_, ?_⟩
    · rw [hl] at he
      rcases List.mem_append.1 he with he | he
      · rcases List.mem_append.1 he with he | he
        · rcases List.mem_append.1 he with he | he
          · exact .inl (hinv.all e he)
          · rw [List.mem_singleton.1 he]; exact .inr (by simp)
        · rw [List.mem_singleton.1 he]; exact .inr (by simp)
      · have := htl e he
        simp only [List.mem_cons, List.not_mem_nil, or_false] at this
        rcases this with h' | h' <;> rw [h'] <;> exact .inr (by simp)
    · obtain ⟨e, he, h1, h2⟩ := hinv.cod hcod
      exact ⟨e, by rw [hl]; simp [he], h1, h2⟩
    · exact ⟨r.charsElem, by rw [hl, hx]; simp, (siz_text hr).1, hseg⟩

/-- The segment of an element with a given tag. -/
theorem segElem_leaf {env o f e} (h : SegElem env o f e) {bt : BoxType} {s : String} (hs : bt.name = s)
    (hn : ∀ t : BoxType, t.name = s → t = bt) (ht : e.tag = s) :
    ∃ m cs c ss, leaf env o f cs bt m c = .ok ss ∧ e.children = (Node.run o.verbose {} ss).chars := by
  obtain ⟨m, cs, c, r, -, hr, rfl⟩ := h
  have := validateLeaf_tag hr
  have hb := hn (boxTypeOf m) (this.symm.trans ht)
  obtain ⟨ss, h1, rfl⟩ := (validateLeaf_ok hb).1 hr
  exact ⟨m, cs, c, ss, h1, rfl⟩

theorem cod_fields {env o f cs m c ss} (h : leaf env o f cs .cod m c = .ok ss) :
    ∀ t ∈ ["transformation", "layers", "levels"], ∃ x, x ∈ repOf t ss := by
  cases h
  intro t ht
  simp only [List.mem_cons, List.not_mem_nil, or_false] at ht
  apply List.exists_mem_of_ne_nil
  unfold cod codeBlockSteps
  rcases ht with rfl | rfl | rfl
  all_goals
    rep
    simp

theorem com_fields {env o f cs m c ss} (h : leaf env o f cs .com m c = .ok ss) :
    ∀ x ∈ repOf "comment" ss, x ≠ .none := by
  cases h
  unfold com
  intro x hx
  simp only at hx
  split at hx
  · revert hx
    rep
    simp
    intro hx; subst hx; simp
  · split at hx
    · revert hx
      rep
      split
      · simp
        intro hx; subst hx; simp
      · simp
    · revert hx
      rep
      simp

theorem siz_fields {env o f cs m c ss} (h : leaf env o f cs .siz m c = .ok ss) :
    (∀ t ∈ ["csiz", "xTsiz", "yTsiz"], ∃ x, x ∈ repOf t ss) ∧ ∀ x ∈ repOf "ssizDepth" ss, x ≠ .none := by
  simp only [leaf, siz] at h
  split at h
  · cases h
  · cases h
    constructor
    · intro t ht
      simp only [List.mem_cons, List.not_mem_nil, or_false] at ht
      apply List.exists_mem_of_ne_nil
      rcases ht with rfl | rfl | rfl
      all_goals
        rep
        simp
    · intro x hx
      revert hx
      rep
      simp
      intro _ _ hx; subst hx; simp

/-- The statements behind the result of a box that is not a superbox. -/
theorem leafBox_steps {env o f k p r} {bt : BoxType} (h : validateBox env o f k p = .ok r)
    (hk : boxTypeOf k = bt) (hl : bt.isLeaf = true) :
    ∃ f ss, leaf env o f none bt k p = .ok ss ∧ r.node = Node.run o.verbose {} ss := by
  cases f with
  | zero => cases h
  | succ f =>
    obtain ⟨ss, h1, rfl⟩ := (validateBox_ok hk hl).1 h
    exact ⟨f, ss, h1, rfl⟩

theorem res_result {env o fuel p r hs} (h : validateBox env o fuel (ascii "res ") p = .ok r)
    (hb : Boxes p hs) : ∃ k rs, inTurn (fun x : FoundBox => validateBox env o k x.type x.payload) hs = .ok rs ∧
      r.node.chars = rs.map (·.charsElem) := by
  cases fuel with
  | zero => cases h
  | succ fuel =>
    have hbt : boxTypeOf (ascii "res ") = .resolutionBox := by decide
    unfold validateBox at h
    rw [hbt] at h
    obtain ⟨⟨n, types⟩, hw, h⟩ := Outcome.bind_eq_ok.1 h
    cases h
    obtain ⟨rs, h1, rfl, rfl⟩ := walkBoxes_ok hb hw
    refine ⟨fuel, rs, h1, ?_⟩
    have : ∀ (n : Node) types, (resolutionFinish o.verbose n types).chars = n.chars := by
      intro n types
      unfold resolutionFinish
      simp only [testFor_chars, testIf_chars]
    rw [this, chars_foldl_absorb]
    rfl

/-- The result behind an element among the results of a list of boxes. -/
theorem elem_box {env o fuel} {bs : List FoundBox} {rs} {e : Elem}
    (h : inTurn (fun x : FoundBox => validateBox env o fuel x.type x.payload) bs = .ok rs)
    (he : e ∈ rs.map (·.charsElem)) {k : Bytes} {bt : BoxType} (hk : typeMap.lookup k = some bt)
    (hbt : bt ≠ .unknownBox) (ht : e.tag = bt.name) :
    ∃ x ∈ bs, x.type = k ∧ ∃ r ∈ rs, validateBox env o fuel k x.payload = .ok r ∧ e = r.charsElem := by
  obtain ⟨r, hr, rfl⟩ := List.mem_map.1 he
  obtain ⟨x, hx, h1, h2⟩ := box_of_tag h hr hk hbt ht
  exact ⟨x, hx, h1, r, hr, h2, rfl⟩

/-- The element of a box. -/
theorem box_elem {env o fuel} {bs : List FoundBox} {rs} {x : FoundBox}
    (h : inTurn (fun x : FoundBox => validateBox env o fuel x.type x.payload) bs = .ok rs) (hx : x ∈ bs)
    {k : Bytes} {bt : BoxType} (hk : boxTypeOf k = bt) (ht : x.type = k) :
    ∃ r ∈ rs, validateBox env o fuel k x.payload = .ok r ∧ r.tag = bt.name ∧ r.charsElem ∈ rs.map (·.charsElem) := by
  obtain ⟨r, hr, hv⟩ := inTurn_mem h hx
  rw [ht] at hv
  exact ⟨r, hr, hv, by rw [validateBox_tag hv, hk], List.mem_map_of_mem hr⟩

section
variable {env : Env} {o : Options} {fuel : Nat} {bs : List FoundBox} {rs : List BoxResult}
  (hin : inTurn (fun x : FoundBox => validateBox env o fuel x.type x.payload) bs = .ok rs)
include hin

theorem header_elem {e : Elem} {k : Bytes} {bt : BoxType} (hk : typeMap.lookup k = some bt)
    (hbt : bt ≠ .unknownBox) {u : String} (hu : u = bt.name) {ts : List String} {t : String}
    (he : e ∈ Elem.findall (rs.map (·.charsElem)) ("jp2HeaderBox" :: u :: t :: ts)) :
    ∃ hd hs w f r, hd ∈ bs ∧ hd.type = ascii "jp2h" ∧ Boxes hd.payload hs ∧ w ∈ hs ∧ w.type = k ∧
      validateBox env o f k w.payload = .ok r ∧ e ∈ Elem.findall r.node.chars (t :: ts) := by
  obtain ⟨x, hx, h1, he⟩ := mem_findall2.1 he
  obtain ⟨y, hy, h2, he⟩ := mem_findall2.1 he
  obtain ⟨z, hz, hzt, r, -, hv, rfl⟩ := elem_box hin hx (k := ascii "jp2h") (bt := .jp2HeaderBox) (by decide) (by decide) h1
  obtain ⟨hs, hhs⟩ := boxes_exists z.payload
  obtain ⟨f, rs', h', hc⟩ := jp2h_result hv hhs
  have hy : y ∈ r.node.chars := hy
  rw [hc] at hy
  obtain ⟨w, hw, hwt, r', -, hv', rfl⟩ := elem_box h' hy hk hbt (h2.trans hu)
  exact ⟨z, hs, w, f, r', hz, hzt, hhs, hw, hwt, hv', he⟩

theorem hdr_has {hd x : FoundBox} {hs : List FoundBox} (hhd : hd ∈ bs) (ht : hd.type = ascii "jp2h")
    (hb : Boxes hd.payload hs) (hx : x ∈ hs) {k : Bytes} {bt : BoxType} (hk : boxTypeOf k = bt)
    (hxt : x.type = k) {u : String} (hu : u = bt.name) :
    ∃ f r, validateBox env o f k x.payload = .ok r ∧ ∀ t ts e, e ∈ Elem.findall r.node.chars (t :: ts) →
      e ∈ Elem.findall (rs.map (·.charsElem)) ("jp2HeaderBox" :: u :: t :: ts) := by
  obtain ⟨r, -, hv, h1, h2⟩ := box_elem hin hhd (bt := .jp2HeaderBox) (by decide) ht
  obtain ⟨f, rs', h', hc⟩ := jp2h_result hv hb
  obtain ⟨r', -, hv', h1', h2'⟩ := box_elem h' hx hk hxt
  refine ⟨f, r', hv', fun t ts e he => mem_findall2.2 ⟨_, h2, h1, mem_findall2.2 ⟨r'.charsElem, ?_, h1'.trans hu.symm, he⟩⟩⟩
  show _ ∈ r.node.chars
  rw [hc]
  exact h2'

end

theorem colr_elems (fmt : Format) (c : Bytes) :
    (∀ e ∈ charsOf (colourSpecificationBox fmt c), e.tag = "icc" → ∃ p, e = iccElem p) ∧
    (∀ e ∈ charsOf (colourSpecificationBox fmt c), e.tag = "enumCS" → e.text ≠ .none) ∧
    (FieldIs c 0 1 (fun m => m = 1 ∨ m = 2 ∨ m = 3) →
      (∃ e ∈ charsOf (colourSpecificationBox fmt c), e.tag = "icc") ∨
      ∃ e ∈ charsOf (colourSpecificationBox fmt c), e.tag = "enumCS") ∧
    (∀ e ∈ charsOf (colourSpecificationBox fmt c), e.tag = "icc" ∨ e.tag = "enumCS" →
      FieldIs c 0 1 (fun m => m = 1 ∨ m = 2 ∨ m = 3)) := by
  have key : charsOf (colourSpecificationBox fmt c) =
      let meth := bytesToUnsignedChar (slice c 0 1)
      [.leaf "meth" (.int meth), .leaf "prec" (.int (bytesToUnsignedChar (slice c 1 2))),
        .leaf "approx" (.int (bytesToUnsignedChar (slice c 2 3)))] ++
      (if meth = 1 then [.leaf "enumCS" (.int (bytesToUInt (slice c 3 c.length)))]
       else if meth = 2 then [iccElem (slice c 3 c.length)]
       else if meth = 3 then [iccElem (slice c 3 c.length)]
       else if meth = 5 then
        [.leaf "colPrims" (.int (bytesToUShortInt (slice c 3 5))), .leaf "transfC" (.int (bytesToUShortInt (slice c 5 7))),
         .leaf "matCoeffs" (.int (bytesToUShortInt (slice c 7 9))),
         .leaf "vidFRng" (.int (getBitValue (bytesToUnsignedChar (slice c 9 10)) 1))]
       else []) := by
    unfold colourSpecificationBox
    simp only [charsOf_append]
    generalize bytesToUnsignedChar (slice c 0 1) = m
    by_cases h1 : m = 1
    · subst h1; cases fmt <;> rfl
    by_cases h2 : m = 2
    · subst h2; cases fmt <;> rfl
    by_cases h3 : m = 3
    · subst h3; cases fmt <;> rfl
    by_cases h5 : m = 5
    · subst h5; cases fmt <;> rfl
    simp only [if_neg h1, if_neg h2, if_neg h3, if_neg h5]
    cases fmt <;> rfl
  rw [key]
  simp only
  refine ⟨fun e he ht => ?_, fun e he ht => ?_, ?_, fun e he ht => ?_⟩
  · simp only [List.cons_append, List.nil_append, List.mem_cons] at he
    rcases he with rfl | rfl | rfl | he
    · exact absurd ht (by simp [Elem.leaf, iccElem])
    · exact absurd ht (by simp [Elem.leaf, iccElem])
    · exact absurd ht (by simp [Elem.leaf, iccElem])
    · split at he
      · rw [List.mem_singleton.1 he] at ht; exact absurd ht (by simp [Elem.leaf, iccElem])
      · split at he
        · exact ⟨_, List.mem_singleton.1 he⟩
        · split at he
          · exact ⟨_, List.mem_singleton.1 he⟩
          · split at he
            · simp only [List.mem_cons, List.not_mem_nil, or_false] at he
              rcases he with rfl | rfl | rfl | rfl <;> exact absurd ht (by simp [Elem.leaf, iccElem])
            · cases he
  · simp only [List.cons_append, List.nil_append, List.mem_cons] at he
    rcases he with rfl | rfl | rfl | he
    · simp
    · simp
    · simp
    · split at he
      · rw [List.mem_singleton.1 he]; simp
      · split at he
        · rw [List.mem_singleton.1 he] at ht; exact absurd ht (by simp [Elem.leaf, iccElem])
        · split at he
          · rw [List.mem_singleton.1 he] at ht; exact absurd ht (by simp [Elem.leaf, iccElem])
          · split at he
            · simp only [List.mem_cons, List.not_mem_nil, or_false] at he
              rcases he with rfl | rfl | rfl | rfl <;> simp
            · cases he
  · rintro ⟨m, hm, h⟩
    rw [u8_at c 0 (x := 0) (y := 1) rfl rfl, hm]
    simp only [intOf]
    rcases h with rfl | rfl | rfl
    · exact .inr ⟨.leaf "enumCS" (.int (bytesToUInt (slice c 3 c.length))), by simp, rfl⟩
    · exact .inl ⟨iccElem (slice c 3 c.length), by simp, rfl⟩
    · exact .inl ⟨iccElem (slice c 3 c.length), by simp, rfl⟩
  · simp only [List.cons_append, List.nil_append, List.mem_cons] at he
    rw [u8_at c 0 (x := 0) (y := 1) rfl rfl] at he
    cases hm : uint c 0 1 with
    | none =>
      rw [hm] at he
      simp only [intOf] at he
      rcases he with rfl | rfl | rfl | he
      · exact absurd ht (by simp [Elem.leaf])
      · exact absurd ht (by simp [Elem.leaf])
      · exact absurd ht (by simp [Elem.leaf])
      · simp at he
    | some m =>
      refine ⟨m, hm, ?_⟩
      rw [hm, show intOf (some m) = (m : Int) from rfl] at he
      rcases he with rfl | rfl | rfl | he
      · exact absurd ht (by simp [Elem.leaf])
      · exact absurd ht (by simp [Elem.leaf])
      · exact absurd ht (by simp [Elem.leaf])
      · by_cases hall : m = 1 ∨ m = 2 ∨ m = 3
        · exact hall
        · rw [if_neg (by omega), if_neg (by omega), if_neg (by omega)] at he
          by_cases h5 : (m : Int) = 5
          · rw [if_pos h5] at he
            simp only [List.mem_cons, List.not_mem_nil, or_false] at he
            rcases he with rfl | rfl | rfl | rfl <;> exact absurd ht (by simp [Elem.leaf])
          · rw [if_neg h5] at he
            cases he

theorem resolution_elems {x : String} {c : Bytes} {ss} (hx : x = "c" ∨ x = "d") (h : resolutionLeaf x c = .ok ss) :
    (∃ f, repOf ("hRes" ++ x ++ "InPixelsPerMeter") ss = [.flt f]) ∧
    (∃ f, repOf ("vRes" ++ x ++ "InPixelsPerMeter") ss = [.flt f]) := by
  unfold resolutionLeaf at h
  simp only at h
  split at h
  · cases h
  · split at h
    · cases h
    · cases h
      rcases hx with rfl | rfl <;> exact ⟨⟨_, rfl⟩, ⟨_, rfl⟩⟩

/-- The only element of an accepted XML box is the parsed document. -/
theorem xml_elems {env : Env} {nx : Bool} {d : Bytes} (h : allTrue (xmlSteps env nx d) = true) :
    ∃ doc, env.parseXml d = some doc ∧ charsOf (xmlSteps env nx d) = [doc] := by
  rw [allTrue_xmlSteps] at h
  obtain ⟨doc, hd⟩ := Option.isSome_iff_exists.1 h
  refine ⟨doc, hd, ?_⟩
  unfold xmlSteps
  rw [hd]
  rfl

/-- The properties of a valid file contain what the MIX description needs. -/
theorem valid_base {env : Env} {o : Options} {fuel : Nat} {b : Bytes} {n : Node}
    (hfmt : o.format = .jp2 ∨ o.format = .jph)
    (h : validateJP2 env o fuel b = .ok n) (hv : n.isValid = true) : MixBase n.chars ∧
    (ShowsColour n.chars ↔ NamesColourSpace b) ∧
    (∀ bx ∈ ["xmlBox", "uuidBox"], ∀ e ∈ Elem.findall n.chars [bx, nsMeta, nsRDF],
      ∃ d, EmbeddedDocument env b d ∧ d.tag = nsMeta ∧ e ∈ d.children ∧ e.tag = nsRDF) := by
  obtain ⟨l, hl, hh, ww, nc, rs, hin, hnf, hnt, -, -, -, hch⟩ := jp2_forward'' hfmt h hv
  generalize hbs : l.sig :: l.ft :: l.rest = bs at hin
  have hboxes : Boxes b bs := hbs ▸ hl.boxes
  have hne : b ≠ [] := by
    rintro rfl
    have := boxes_unique hboxes (.done (by simp))
    rw [this] at hbs
    cases hbs
  have hhd : l.hd ∈ bs := by rw [← hbs]; simp [Layout.rest]
  have hcs : l.cs ∈ bs := by rw [← hbs]; simp [Layout.rest]
  -- paths that do not start with the compression ratio
  have drop : ∀ t ts e, t ≠ "compressionRatio" →
      (e ∈ Elem.findall n.chars (t :: ts) ↔ e ∈ Elem.findall (rs.map (·.charsElem)) (t :: ts)) := by
    intro t ts e ht
    rw [hch, findall_append, findall_leaf (fun h => ht h.symm), List.append_nil]
  -- codestream boxes
  have code : ∀ e ∈ rs.map (·.charsElem), e.tag = "contiguousCodestreamBox" →
      ∃ f p m, codestream env o f p = .ok m ∧ m.isValid = true ∧ e.children = m.chars := by
    intro e he ht
    obtain ⟨x, -, -, r, hr, hv, rfl⟩ := elem_box hin he (k := ascii "jp2c") (bt := .contiguousCodestreamBox)
      (by decide) (by decide) ht
    obtain ⟨f, hc⟩ := jp2c_result hv
    exact ⟨f, _, _, hc, (isValid_iff _).2 (hnf r hr), rfl⟩
  have seg : ∀ s t e, s ∉ ["ppmCount", "plmCount", "tileParts", "compressionRatio"] →
      e ∈ Elem.findall n.chars ["contiguousCodestreamBox", s, t] →
      ∃ f y, SegElem env o f y ∧ y.tag = s ∧ e ∈ Elem.findall y.children [t] := by
    intro s t e hs he
    rw [drop _ _ _ (by decide)] at he
    obtain ⟨x, hx, h1, he⟩ := mem_findall2.1 he
    obtain ⟨y, hy, h2, he⟩ := mem_findall2.1 he
    obtain ⟨f, p, m, hm, hmv, hxc⟩ := code x hx h1
    rw [hxc] at hy
    rcases (codestream_elems hm hmv).1 y hy with h3 | h3
    · exact ⟨f, y, h3, h2, he⟩
    · rw [h2] at h3; exact absurd h3 hs
  obtain ⟨rc, hrc, hvc, tc, mc⟩ := box_elem hin hcs (bt := .contiguousCodestreamBox) (by decide) hl.cs
  obtain ⟨fc, hcode⟩ := jp2c_result hvc
  obtain ⟨-, ⟨ec, hec, htec, hsec⟩, ⟨ez, hez, htez, hsez⟩⟩ := codestream_elems hcode ((isValid_iff _).2 (hnf rc hrc))
  have hih : l.ih.type = ascii "ihdr" := by
    obtain ⟨ih, rest, hb, -, hok⟩ := (C18_header env o l.hd.payload).1 (by
      have := hl.passes l.hd (by simp [Layout.rest])
      rwa [hl.hd] at this)
    have := boxes_unique hb hl.header
    cases this
    exact hok.1
  have ihead := hdr_has hin hhd hl.hd hl.header (x := l.ih) (by simp) (k := ascii "ihdr") (bt := .imageHeaderBox)
    (by decide) hih (u := "imageHeaderBox") rfl
  refine ⟨?_, ⟨?_, ?_⟩, ?_⟩
  rotate_left
  · -- colour space shown, so it is named
    have named : ∀ t e, t = "icc" ∨ t = "enumCS" →
        e ∈ Elem.findall n.chars ["jp2HeaderBox", "colourSpecificationBox", t] → NamesColourSpace b := by
      intro t e ht he
      rw [drop _ _ _ (by decide)] at he
      obtain ⟨hd, hs, w, f, r, h1, h2, h3, h4, h5, hv, he⟩ := header_elem hin (k := ascii "colr")
        (bt := .colourSpecificationBox) (by decide) (by decide) rfl he
      obtain ⟨f, ss, hss, hr⟩ := leafBox_steps hv (bt := .colourSpecificationBox) (by decide) rfl
      cases hss
      rw [hr, run_chars] at he
      obtain ⟨he, het⟩ := mem_findall1.1 he
      exact ⟨bs, hd, hs, w, hboxes, h1, h2, h3, h4, h5, (colr_elems o.format w.payload).2.2.2 e he (het.symm ▸ ht)⟩
    rintro (⟨e, he⟩ | ⟨e, he⟩)
    · exact named _ e (.inl rfl) he
    · exact named _ e (.inr rfl) he
  · intro hcol
    obtain ⟨bs', hd, hs, x, hb', hhd', hht, hhs, hx, hxt, hm⟩ := hcol
    rw [boxes_unique hb' hboxes] at hhd'
    obtain ⟨f, r, hv, hall⟩ := hdr_has hin hhd' hht hhs hx (k := ascii "colr") (bt := .colourSpecificationBox)
      (u := "colourSpecificationBox") (by decide) hxt rfl
    obtain ⟨f, ss, hss, hr⟩ := leafBox_steps hv (bt := .colourSpecificationBox) (by decide) rfl
    cases hss
    have hc : r.node.chars = charsOf (colourSpecificationBox o.format x.payload) := by rw [hr, run_chars]; rfl
    rcases (colr_elems o.format x.payload).2.2.1 hm with ⟨e, he, ht⟩ | ⟨e, he, ht⟩
    · exact .inl ⟨e, (drop _ _ _ (by decide)).2 (hall _ _ _ (mem_findall1.2 ⟨hc ▸ he, ht⟩))⟩
    · exact .inr ⟨e, (drop _ _ _ (by decide)).2 (hall _ _ _ (mem_findall1.2 ⟨hc ▸ he, ht⟩))⟩
  · intro bx hbx e he
    simp only [List.mem_cons, List.not_mem_nil, or_false] at hbx
    rcases hbx with rfl | rfl
    · rw [drop _ _ _ (by decide)] at he
      obtain ⟨x, hx, h1, he⟩ := mem_findall2.1 he
      obtain ⟨d, hd, h2, he⟩ := mem_findall2.1 he
      obtain ⟨hee, h3⟩ := mem_findall1.1 he
      obtain ⟨y, hy, hyt, r, hr, hv, rfl⟩ := elem_box hin hx (k := ascii "xml ") (bt := .xmlBox)
        (by decide) (by decide) h1
      obtain ⟨f, ss, hss, hrn⟩ := leafBox_steps hv (bt := .xmlBox) (by decide) rfl
      cases hss
      have hok := hnf r hr
      rw [hrn, noFailure_run] at hok
      obtain ⟨doc, h4, h5⟩ := xml_elems hok
      have hd : d ∈ r.node.chars := hd
      rw [hrn, run_chars] at hd
      have hd : d ∈ charsOf (xmlSteps env o.nullxml y.payload) := hd
      rw [h5, List.mem_singleton] at hd
      subst hd
      exact ⟨d, ⟨bs, y, hboxes, hy, .inl ⟨hyt, h4⟩⟩, h2, hee, h3⟩
    · rw [drop _ _ _ (by decide)] at he
      obtain ⟨x, hx, h1, he⟩ := mem_findall2.1 he
      obtain ⟨d, hd, h2, he⟩ := mem_findall2.1 he
      obtain ⟨hee, h3⟩ := mem_findall1.1 he
      obtain ⟨y, hy, hyt, r, hr, hv, rfl⟩ := elem_box hin hx (k := ascii "uuid") (bt := .uuidBox)
        (by decide) (by decide) h1
      obtain ⟨f, ss, hss, hrn⟩ := leafBox_steps hv (bt := .uuidBox) (by decide) rfl
      simp only [leaf, uuidBox] at hss
      obtain ⟨u, -, hss⟩ := Outcome.bind_eq_ok.1 hss
      cases hss
      have hok := hnf r hr
      rw [hrn, noFailure_run, allTrue_test, Bool.and_eq_true] at hok
      have hd : d ∈ r.node.chars := hd
      rw [hrn, run_chars] at hd
      have hd : d ∈ charsOf (if u = "be7acfcb-97a9-42e8-9c71-999491e3afac" then
        xmlSteps env o.nullxml (slice y.payload 16 y.payload.length) else [ Step.char "uuid" (.str u) ]) := hd
      split at hd
      · rename_i hu
        rw [if_pos hu] at hok
        obtain ⟨doc, h4, h5⟩ := xml_elems hok.2
        rw [h5, List.mem_singleton] at hd
        subst hd
        rw [show slice y.payload 16 (y.payload.length : Int) = y.payload.drop 16 from slice_to_end _ 16] at h4
        exact ⟨d, ⟨bs, y, hboxes, hy, .inr ⟨hyt, h4⟩⟩, h2, hee, h3⟩
      · rw [show d = .leaf "uuid" (.str u) from List.mem_singleton.1 hd] at h2
        exact absurd (show "uuid" = nsMeta from h2) (by decide)
  constructor
  case br =>
    intro e he
    rw [drop _ _ _ (by decide)] at he
    obtain ⟨x, hx, h1, he⟩ := mem_findall2.1 he
    obtain ⟨y, -, -, r, -, hv, rfl⟩ := elem_box hin hx (k := ascii "ftyp") (bt := .fileTypeBox)
      (by decide) (by decide) h1
    obtain ⟨f, ss, hss, hr⟩ := leafBox_steps hv (bt := .fileTypeBox) (by decide) rfl
    have he : e ∈ Elem.findall r.node.chars ["br"] := he
    rw [hr] at he
    have := leaf_text he
    cases hss
    have hrep : repOf "br" (fileTypeBox o.format y.payload) = [.bytes (slice y.payload 0 4)] := by
      unfold fileTypeBox
      rcases hfmt with hf | hf <;> rw [hf] <;> rep
    rw [hrep, List.mem_singleton] at this
    rw [this]; simp
  case cod =>
    intro t ht
    obtain ⟨m, cs, c, ss, h1, h2⟩ := segElem_leaf hsec (bt := .cod) rfl (fun t => by cases t <;> decide) htec
    obtain ⟨x, hx⟩ := cod_fields h1 t ht
    obtain ⟨e, he, -⟩ := leaf_has (v := o.verbose) hx
    rw [← h2] at he
    exact ⟨e, (drop _ _ _ (by decide)).2 (mem_findall2.2 ⟨_, mc, tc, mem_findall2.2 ⟨ec, hec, htec, he⟩⟩)⟩
  case ratio =>
    have hfind : ∃ d x y, Elem.find n.chars ["compressionRatio"] =
        some (.leaf "compressionRatio" (compressionRatio b.length d x y)) := by
      rw [hch]
      unfold Elem.find
      rw [findall_append]
      have : Elem.findall (rs.map (·.charsElem)) ["compressionRatio"] = [] := by
        rw [List.eq_nil_iff_forall_not_mem]
        intro e he
        obtain ⟨he, ht⟩ := mem_findall1.1 he
        obtain ⟨r, hr, rfl⟩ := List.mem_map.1 he
        exact hnt r hr ht
      rw [this]
      exact ⟨_, _, _, rfl⟩
    obtain ⟨d, x, y, hfind⟩ := hfind
    have hr : ∃ f, compressionRatio b.length d x y = .flt f := by
      unfold compressionRatio
      rw [if_pos (by
        have : b.length ≠ 0 := by simpa using hne
        omega)]
      exact ⟨_, rfl⟩
    exact ⟨_, hr.choose, hfind, hr.choose_spec⟩
  case ihdr =>
    intro t ht
    obtain ⟨f, r, hv, hall⟩ := ihead
    obtain ⟨f, ss, hss, hr⟩ := leafBox_steps hv (bt := .imageHeaderBox) (by decide) rfl
    cases hss
    have : ∃ x, x ∈ repOf t (imageHeaderBox l.ih.payload) := by
      apply List.exists_mem_of_ne_nil
      simp only [List.mem_cons, List.not_mem_nil, or_false] at ht
      unfold imageHeaderBox
      rcases ht with rfl | rfl
      all_goals rep; simp
    obtain ⟨x, hx⟩ := this
    obtain ⟨e, he, -⟩ := leaf_has (v := o.verbose) hx
    rw [← hr] at he
    exact ⟨e, (drop _ _ _ (by decide)).2 (hall _ _ _ he)⟩
  case icc =>
    intro e he
    rw [drop _ _ _ (by decide)] at he
    obtain ⟨_, _, w, f, r, -, -, -, -, -, hv, he⟩ := header_elem hin (k := ascii "colr") (bt := .colourSpecificationBox) (by decide)
      (by decide) rfl he
    obtain ⟨f, ss, hss, hr⟩ := leafBox_steps hv (bt := .colourSpecificationBox) (by decide) rfl
    cases hss
    rw [hr, run_chars] at he
    obtain ⟨he, ht⟩ := mem_findall1.1 he
    exact (colr_elems o.format w.payload).1 e he ht
  case enum =>
    intro e he
    rw [drop _ _ _ (by decide)] at he
    obtain ⟨_, _, w, f, r, -, -, -, -, -, hv, he⟩ := header_elem hin (k := ascii "colr") (bt := .colourSpecificationBox) (by decide)
      (by decide) rfl he
    obtain ⟨f, ss, hss, hr⟩ := leafBox_steps hv (bt := .colourSpecificationBox) (by decide) rfl
    cases hss
    rw [hr, run_chars] at he
    obtain ⟨he, ht⟩ := mem_findall1.1 he
    exact (colr_elems o.format w.payload).2.1 e he ht
  case com =>
    intro e he
    obtain ⟨f, y, h1, h2, h3⟩ := seg _ _ _ (by decide) he
    obtain ⟨m, cs, c, ss, h4, h5⟩ := segElem_leaf h1 (bt := .com) rfl (fun t => by cases t <;> decide) h2
    rw [h5] at h3
    exact com_fields h4 _ (leaf_text h3)
  case res =>
    intro x hx e he
    rw [drop _ _ _ (by decide)] at he
    obtain ⟨_, _, w, f, r, -, -, -, -, -, hv, he⟩ := header_elem hin (k := ascii "res ") (bt := .resolutionBox) (by decide)
      (by decide) rfl he
    obtain ⟨hs, hhs⟩ := boxes_exists w.payload
    obtain ⟨f, rs', h', hc⟩ := res_result hv hhs
    rw [hc] at he
    obtain ⟨hee, ht⟩ := mem_findall1.1 he
    clear he
    have key : ∃ (y : String) (p : Bytes) (ss : List Step), (y = "c" ∨ y = "d") ∧ y = x.2 ∧
        resolutionLeaf y p = .ok ss ∧ e.children = (Node.run o.verbose {} ss).chars := by
      simp only [List.mem_cons, List.not_mem_nil, or_false] at hx
      rcases hx with rfl | rfl
      · obtain ⟨w, -, -, r', -, hv', rfl⟩ := elem_box h' hee (k := ascii "resc") (bt := .captureResolutionBox)
          (by decide) (by decide) ht
        obtain ⟨f, ss, hss, hr⟩ := leafBox_steps hv' (bt := .captureResolutionBox) (by decide) rfl
        exact ⟨"c", _, ss, .inl rfl, rfl, hss, congrArg Node.chars hr⟩
      · obtain ⟨w, -, -, r', -, hv', rfl⟩ := elem_box h' hee (k := ascii "resd") (bt := .displayResolutionBox)
          (by decide) (by decide) ht
        obtain ⟨f, ss, hss, hr⟩ := leafBox_steps hv' (bt := .displayResolutionBox) (by decide) rfl
        exact ⟨"d", _, ss, .inr rfl, rfl, hss, congrArg Node.chars hr⟩
    obtain ⟨y, p, ss, hy, rfl, hss, hch⟩ := key
    obtain ⟨⟨f1, h1⟩, ⟨f2, h2⟩⟩ := resolution_elems hy hss
    rw [hch]
    have look : ∀ {t v}, repOf t ss = [v] → ∃ e, Elem.find (Node.run o.verbose {} ss).chars [t] = some e ∧ e.text = v := by
      intro t v hv
      obtain ⟨e, he, -⟩ := leaf_has (v := o.verbose) (t := t) (ss := ss) (x := v) (by rw [hv]; simp)
      obtain ⟨e', he'⟩ := find_isSome he
      have := leaf_text (find_mem he')
      rw [hv, List.mem_singleton] at this
      exact ⟨e', he', this⟩
    obtain ⟨e1, g1, g2⟩ := look h1
    obtain ⟨e2, g3, g4⟩ := look h2
    exact ⟨⟨e1, f1, g1, g2⟩, ⟨e2, f2, g3, g4⟩⟩
  case siz =>
    exact ⟨ez, (drop _ _ _ (by decide)).2 (mem_findall2.2 ⟨_, mc, tc, mem_findall1.2 ⟨hez, htez⟩⟩)⟩
  case sizes =>
    intro e he
    rw [drop _ _ _ (by decide)] at he
    obtain ⟨x, hx, h1, he⟩ := mem_findall2.1 he
    obtain ⟨he, h2⟩ := mem_findall1.1 he
    obtain ⟨f, p, m, hm, hmv, hxc⟩ := code x hx h1
    rw [hxc] at he
    rcases (codestream_elems hm hmv).1 e he with h3 | h3
    · obtain ⟨m, cs, c, ss, h4, h5⟩ := segElem_leaf h3 (bt := .siz) rfl (fun t => by cases t <;> decide) h2
      rw [h5]
      obtain ⟨g1, g2⟩ := siz_fields h4
      refine ⟨fun t ht => ?_, fun x hx => g2 _ (leaf_text hx)⟩
      obtain ⟨x, hx⟩ := g1 t ht
      obtain ⟨e, he, -⟩ := leaf_has (v := o.verbose) hx
      exact ⟨e, he⟩
    · rw [h2] at h3; exact absurd h3 (by decide)

/-- Valid files that name a colour space and whose XMP has descriptions have all that is needed. -/
theorem valid_ready {env : Env} {o : Options} {fuel : Nat} {b : Bytes} {n : Node}
    (hfmt : o.format = .jp2 ∨ o.format = .jph)
    (h : validateJP2 env o fuel b = .ok n) (hv : n.isValid = true)
    (hcol : NamesColourSpace b) (hrdf : DescriptionsPresent env b) : MixReady n.chars := by
  obtain ⟨h1, h2, h3⟩ := valid_base hfmt h hv
  refine { h1 with colour := h2.2 hcol, rdf := fun r hr => ?_ }
  have key : ∀ bx ∈ ["xmlBox", "uuidBox"], ∀ t a x c l z, Elem.find n.chars [bx, nsMeta, nsRDF] = some (.mk t a x (c :: l) z) →
      ∃ d ∈ c :: l, d.tag = nsDescription := by
    intro bx hbx t a x c l z hf
    obtain ⟨d, g1, g2, g3, g4⟩ := h3 bx hbx _ (find_mem hf)
    exact hrdf d g1 g2 _ g3 g4 (by simp)
  unfold findRDF at hr
  split at hr
  · rename_i h1
    cases hr
    exact key _ (by simp) _ _ _ _ _ _ h1
  · split at hr
    · rename_i h1
      cases hr
      exact key _ (by simp) _ _ _ _ _ _ h1
    · cases hr

end Jpy
