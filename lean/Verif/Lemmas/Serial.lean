import Verif.Lemmas.Legal
/-! # Reports can be serialised: every text is a string or missing -/

namespace Jpy
open Spec.Xml

/-- `ElementTree.tostring` accepts all texts. -/
def Serial (e : Elem) : Prop := ∀ x ∈ e.iter, serialisable x.text = true

theorem serial_mk {t a x c l} : Serial (.mk t a x c l) ↔ serialisable x = true ∧ ∀ e ∈ c, Serial e := by
  unfold Serial
  rw [Elem.iter]
  constructor
  · intro h
    exact ⟨h _ (List.mem_cons_self ..), fun e he x hx => h x (List.mem_cons_of_mem _ (mem_iter_list.2 ⟨e, he, hx⟩))⟩
  · rintro ⟨h1, h2⟩ x hx
    rcases List.mem_cons.1 hx with rfl | hx
    · exact h1
    · obtain ⟨e, he, hx⟩ := mem_iter_list.1 hx
      exact h2 e he x hx

theorem serial_leaf {t v} (h : serialisable v = true) : Serial (.leaf t v) := serial_mk.2 ⟨h, forall_nil⟩
theorem serial_node {t c} (h : ∀ e ∈ c, Serial e) : Serial (.node t c) := serial_mk.2 ⟨rfl, h⟩
theorem serial_s {t s} : Serial (sLeaf t s) := serial_leaf rfl

mutual
theorem serial_readable {env : Env} (tbl) : ∀ e : Elem, Serial (makeHumanReadable env tbl e)
  | .mk t a x c lt => by
    rw [makeHumanReadable, serial_mk]
    refine ⟨?_, serial_readableL tbl c⟩
    unfold readableText
    cases remapped tbl t x <;> rfl
theorem serial_readableL {env : Env} (tbl) : ∀ es : List Elem, ∀ e ∈ makeHumanReadableL env tbl es, Serial e
  | [] => by rw [makeHumanReadableL]; exact fun _ h => nomatch h
  | e :: es => by
    rw [makeHumanReadableL]
    exact forall_cons (serial_readable tbl e) (serial_readableL tbl es)
end

theorem analyse_serial {env : Env} {fs o fuel path a} (h : analyse env fs o fuel path = .ok a) :
    (∀ e ∈ a.tests, Serial e) ∧ (∀ e ∈ a.props, Serial e) ∧ ∀ e ∈ a.warnings, Serial e := by
  rcases analyse_cases h with ⟨b, fmm, n, -, hn, rfl⟩ | ⟨e, -, rfl⟩
  · exact ⟨serial_readableL _ _, serial_readableL _ _, serial_readableL _ _⟩
  · exact ⟨(fun _ h => nomatch h), (fun _ h => nomatch h), forall_one (serial_leaf rfl)⟩

theorem serial_text {e : Elem} (h : Serial e) : serialisable e.text = true := by
  obtain ⟨t, a, x, c⟩ := e
  exact (serial_mk.1 h).1

theorem serial_children {e : Elem} (h : Serial e) : ∀ x ∈ e.children, Serial x := by
  obtain ⟨t, a, x, c⟩ := e
  exact (serial_mk.1 h).2

theorem serial_findall : ∀ (p : List String) (es : List Elem), (∀ e ∈ es, Serial e) → ∀ e ∈ Elem.findall es p, Serial e
  | [], _, _ => by rw [Elem.findall]; exact forall_nil
  | [t], es, h => by
    rw [Elem.findall]
    exact fun e he => h e (List.mem_filter.1 he).1
  | t :: u :: ts, es, h => by
    rw [Elem.findall]
    · intro e he
      obtain ⟨x, hx, he⟩ := List.mem_flatMap.1 he
      exact serial_findall (u :: ts) _ (serial_children (h x (List.mem_filter.1 hx).1)) e he
    · simp

theorem serial_find {p : List String} {es : List Elem} (h : ∀ e ∈ es, Serial e) {e} (he : Elem.find es p = some e) : Serial e :=
  serial_findall p es h e (List.mem_of_mem_head? he)

theorem serial_findText {p : List String} {es : List Elem} (h : ∀ e ∈ es, Serial e) {v} (hv : findText es p = .ok v) :
    serialisable v = true := by
  unfold findText at hv
  split at hv
  · rename_i e he
    cases hv
    exact serial_text (serial_find h he)
  · cases hv

/-- Walks through an element of the extension. -/
macro "mix_serial" : tactic => `(tactic|
  repeat' first
    | exact forall_nil
    | with_reducible assumption
    | with_reducible exact serial_s
    | with_reducible refine serial_leaf ?_
    | with_reducible refine serial_node ?_
    | with_reducible refine forall_cons ?_ ?_
    | with_reducible refine forall_append ?_ ?_
    | rfl
    | split)

section
variable {me : MixEnv} {flag : Nat} {props : List Elem}

theorem serial_addIf {rdf ns tag dest es} (hv : addIfExist me rdf ns tag dest = .ok es) : ∀ e ∈ es, Serial e := by
  unfold addIfExist at hv
  obtain ⟨v, h1, hv⟩ := ok_of_bind hv
  split at hv
  · obtain ⟨s, h2, hv⟩ := ok_of_bind hv
    cases hv
    exact forall_one serial_s
  · cases hv; exact forall_nil

variable (hp : ∀ e ∈ props, Serial e)
include hp

omit hp in
theorem serial_bdoi {e} (h : mixBdoi me flag props = .ok e) : Serial e := by
  have hff : ∀ f, OkP Serial (do
      let compression ← findText props ["contiguousCodestreamBox", "cod", "transformation"]
      let scheme := if compression = .str "5-3 reversible" then "JPEG 2000 Lossless" else "JPEG 2000 Lossy"
      let ratioText ← findText props ["compressionRatio"]
      let ratio ← asText ratioText
      let ratioElem ←
        if flag = 1 then do
          let v ← orValueError (me.roundScaled ratio 1)
          Outcome.ok (sLeaf "mix:compressionRatio" (toString v))
        else do
          let v ← orValueError (me.roundScaled ratio 100)
          Outcome.ok (Elem.node "mix:compressionRatio"
            [sLeaf "mix:numerator" (toString v), sLeaf "mix:denominator" "100"])
      .ok (.node "mix:BasicDigitalObjectInformation"
        [ .node "mix:FormatDesignation" [sLeaf "mix:formatName" f],
          sLeaf "mix:byteOrder" (if flag = 1 then "big_endian" else "big endian"),
          .node "mix:Compression" [sLeaf "mix:compressionScheme" scheme, ratioElem] ])) := by
    intro f
    simp only []
    ok_walk
    all_goals mix_serial
  unfold mixBdoi at h
  revert h
  generalize e = e'
  revert e'
  change OkP _ _
  simp only []
  split
  · with_reducible refine OkP.bind_ok ?_
    exact hff _
  · with_reducible refine OkP.bind fun s hs => ?_
    with_reducible refine OkP.bind_ok ?_
    exact hff _

theorem serial_photometric {e} (h : mixPhotometric me props = .ok e) : Serial e := by
  unfold mixPhotometric at h
  split at h
  · obtain ⟨_, h1, h⟩ := ok_of_bind h
    obtain ⟨_, h2, h⟩ := ok_of_bind h
    obtain ⟨_, h3, h⟩ := ok_of_bind h
    cases h
    have := serial_findText hp h3
    mix_serial
  · obtain ⟨_, h1, h⟩ := ok_of_bind h
    obtain ⟨_, h2, h⟩ := ok_of_bind h
    cases h
    mix_serial

omit hp in
theorem serial_codec {es} (h : mixCodec props = .ok es) : ∀ e ∈ es, Serial e := by
  unfold mixCodec at h
  split at h
  · cases h; exact forall_nil
  · obtain ⟨t, h1, h⟩ := ok_of_bind h
    split at h
    · cases h
      mix_serial
    · cases h; exact forall_nil

theorem serial_bio {e} (h : mixBio me flag props = .ok e) : Serial e := by
  unfold mixBio at h
  obtain ⟨_, h1, h⟩ := ok_of_bind h
  obtain ⟨_, h2, h⟩ := ok_of_bind h
  obtain ⟨pi, hpi, h⟩ := ok_of_bind h
  obtain ⟨codec, hco, h⟩ := ok_of_bind h
  obtain ⟨_, h3, h⟩ := ok_of_bind h
  obtain ⟨_, h4, h⟩ := ok_of_bind h
  obtain ⟨_, h5, h⟩ := ok_of_bind h
  obtain ⟨_, h6, h⟩ := ok_of_bind h
  cases h
  have := serial_photometric hp hpi
  have := serial_codec hco
  have := serial_findText hp h1
  have := serial_findText hp h2
  have := serial_findText hp h3
  have := serial_findText hp h4
  have := serial_findText hp h5
  have := serial_findText hp h6
  mix_serial

omit hp in
theorem serial_icm {e} (h : mixIcm me props = .ok e) : ∀ x ∈ e.toList, Serial x := by
  unfold mixIcm at h
  split at h
  · cases h; exact forall_nil
  · obtain ⟨_, h1, h⟩ := ok_of_bind h
    obtain ⟨_, h2, h⟩ := ok_of_bind h
    obtain ⟨_, h3, h⟩ := ok_of_bind h
    obtain ⟨_, h4, h⟩ := ok_of_bind h
    obtain ⟨_, h5, h⟩ := ok_of_bind h
    obtain ⟨tv, h6, h⟩ := ok_of_bind h
    have := serial_addIf h1
    have := serial_addIf h2
    have := serial_addIf h3
    have := serial_addIf h4
    have := serial_addIf h5
    clear h1 h2 h3 h4 h5
    revert h
    generalize e = e'
    revert e'
    change OkP (fun e : Option Elem => ∀ x ∈ e.toList, Serial x) _
    simp only []
    split
    · with_reducible refine OkP.bind_ok ?_
      refine OkP.ok (forall_one ?_)
      mix_serial
    · with_reducible refine OkP.bind fun s hs => ?_
      split
      · with_reducible refine OkP.bind_ok ?_
        refine OkP.ok (forall_one ?_)
        mix_serial
      · with_reducible refine OkP.bind_ok ?_
        refine OkP.ok (forall_one ?_)
        mix_serial

omit hp in
theorem serial_spatial {es} (h : mixSpatial me flag props = .ok es) : ∀ e ∈ es, Serial e := by
  unfold mixSpatial at h
  simp only [] at h
  split at h
  · obtain ⟨_, -, h⟩ := ok_of_bind h
    obtain ⟨_, -, h⟩ := ok_of_bind h
    obtain ⟨_, -, h⟩ := ok_of_bind h
    obtain ⟨_, -, h⟩ := ok_of_bind h
    obtain ⟨_, -, h⟩ := ok_of_bind h
    obtain ⟨_, -, h⟩ := ok_of_bind h
    cases h
    mix_serial
  · split at h
    · obtain ⟨_, -, h⟩ := ok_of_bind h
      obtain ⟨_, -, h⟩ := ok_of_bind h
      obtain ⟨_, -, h⟩ := ok_of_bind h
      obtain ⟨_, -, h⟩ := ok_of_bind h
      obtain ⟨_, -, h⟩ := ok_of_bind h
      obtain ⟨_, -, h⟩ := ok_of_bind h
      cases h
      mix_serial
    · cases h; exact forall_nil

theorem serial_iam {e} (h : mixIam me flag props = .ok e) : Serial e := by
  unfold mixIam at h
  obtain ⟨sp, hsp, h⟩ := ok_of_bind h
  have := serial_spatial hsp
  have key : ∀ size : List Elem, (∀ e ∈ size, Serial e) → OkP Serial (do
      let values := Elem.findAllText size ["ssizDepth"]
      let bps ←
        if flag = 1 then do
          let ss ← asTexts values
          Outcome.ok (Elem.node "mix:bitsPerSample"
            [ sLeaf "mix:bitsPerSampleValue" (String.intercalate "," ss),
              sLeaf "mix:bitsPerSampleUnit" "integer" ])
        else Outcome.ok (Elem.node "mix:BitsPerSample"
          (values.map (Elem.leaf "mix:bitsPerSampleValue") ++
            [sLeaf "mix:bitsPerSampleUnit" "integer"]))
      let num ← findText size ["csiz"]
      .ok (.node "mix:ImageAssessmentMetadata"
        (sp ++ [.node "mix:ImageColorEncoding" [bps, .leaf "mix:samplesPerPixel" num]]))) := by
    intro size hsize
    have hv : ∀ v ∈ Elem.findAllText size ["ssizDepth"], serialisable v = true := by
      intro v hv
      obtain ⟨x, h1, rfl⟩ := List.mem_map.1 hv
      exact serial_text (serial_findall _ _ hsize x h1)
    simp only []
    split
    · with_reducible refine OkP.bind fun ss hss => ?_
      with_reducible refine OkP.bind_ok ?_
      refine OkP.bind fun num hnum => OkP.ok ?_
      have := serial_findText hsize hnum
      mix_serial
    · with_reducible refine OkP.bind_ok ?_
      refine OkP.bind fun num hnum => OkP.ok ?_
      have := serial_findText hsize hnum
      have : ∀ x ∈ (Elem.findAllText size ["ssizDepth"]).map (Elem.leaf "mix:bitsPerSampleValue"), Serial x := by
        intro e he
        obtain ⟨v, h1, rfl⟩ := List.mem_map.1 he
        exact serial_leaf (hv v h1)
      mix_serial
  revert h
  generalize e = e'
  revert e'
  change OkP _ _
  simp only []
  split
  · rename_i x hx
    with_reducible refine OkP.bind_ok ?_
    exact key _ (serial_children (serial_find hp hx))
  · exact OkP.bind_raised

theorem serial_mix {m} (h : generateMix me flag props = .ok m) : Serial m := by
  unfold generateMix at h
  obtain ⟨_, h1, h⟩ := ok_of_bind h
  obtain ⟨_, h2, h⟩ := ok_of_bind h
  obtain ⟨_, h3, h⟩ := ok_of_bind h
  obtain ⟨_, h4, h⟩ := ok_of_bind h
  cases h
  have := serial_bdoi h1
  have := serial_bio hp h2
  have := serial_icm h3
  have := serial_iam hp h4
  exact serial_mk.2 ⟨rfl, by mix_serial⟩

end

/-- Every report can be serialised. -/
theorem serial_report {env : Env} {me : MixEnv} {fs : FS} {fuel : Nat} {o : Options} {mix : Nat} {path : PyStr} {rep : Elem}
    (h : checkOneFile env me fs fuel o mix path = .ok rep) : Serial rep := by
  obtain ⟨info, a, mp, h1, h2, h3, rfl⟩ := checkOneFile_ok.1 h
  obtain ⟨ht, hp, hw⟩ := analyse_serial h2
  have hinfo : Serial info := by
    unfold fileInfo at h1
    obtain ⟨size, -, h1⟩ := ok_of_bind h1
    obtain ⟨d, hd, h1⟩ := ok_of_bind h1
    cases h1
    exact serial_node (forall_cons serial_s (forall_cons serial_s (forall_cons serial_s (forall_cons serial_s forall_nil))))
  have hmp : ∀ e ∈ mp, Serial e := by
    unfold mixOutput at h3
    split at h3
    · obtain ⟨m, hmm, h⟩ := ok_of_bind h3
      cases h
      exact forall_one (serial_mix hp hmm)
    · cases h3; exact forall_nil
  unfold buildReport extensionOf
  refine serial_node (forall_append (forall_append ?_ ?_) (forall_one (serial_node hw)))
  · refine forall_cons hinfo (forall_cons (serial_node (forall_cons serial_s ?_)) (forall_cons ?_ (forall_cons (serial_node ht)
      (forall_cons (serial_node hp) forall_nil))))
    · split
      · exact forall_one serial_s
      · exact forall_nil
    · exact serial_mk.2 ⟨rfl, forall_nil⟩
  · split
    · refine forall_one (serial_node ?_)
      split
      · exact hmp
      · exact forall_nil
    · exact forall_nil

end Jpy
