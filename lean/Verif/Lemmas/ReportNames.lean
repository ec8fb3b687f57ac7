import Verif.Lemmas.Named
import Verif.Lemmas.XmlDocument
import Verif.Lemmas.Report
/-! # The names of whole reports -/

namespace Jpy
open Spec.Xml

/-! ## The validated file -/

/-- All elements of a node have names of XML. -/
structure NodeNamed (n : Node) : Prop where
  tests : ∀ e ∈ n.tests, FromXml e
  chars : ∀ e ∈ n.chars, FromXml e
  warnings : ∀ e ∈ n.warnings, FromXml e

theorem forall_append {α} {p : α → Prop} {a b : List α} (ha : ∀ x ∈ a, p x) (hb : ∀ x ∈ b, p x) : ∀ x ∈ a ++ b, p x := by
  intro x hx
  rcases List.mem_append.1 hx with hx | hx
  · exact ha x hx
  · exact hb x hx

theorem forall_one {α} {p : α → Prop} {a : α} (ha : p a) : ∀ x ∈ [a], p x := by
  intro x hx
  cases List.mem_singleton.1 hx
  exact ha

theorem fromXml_appendIf {es : List Elem} {e : Elem} (h : ∀ x ∈ es, FromXml x) (he : FromXml e) :
    ∀ x ∈ Elem.appendIfNotEmpty es e, FromXml x := by
  unfold Elem.appendIfNotEmpty
  split
  · exact forall_append h (forall_one he)
  · exact h

theorem structureTests_named : ∀ t ∈ structureTests, isNCName t.toList = true := by decide +kernel

theorem fromXml_testElems {v ts} (h : ∀ t ∈ ts, isNCName t.1.toList = true) : ∀ e ∈ testElems v ts, FromXml e := by
  intro e he
  obtain ⟨t, ht, rfl⟩ := List.mem_map.1 he
  exact fromXml_leaf (h t (List.mem_filter.1 ht).1) _

theorem nodeNamed_test {v n name r} (h : NodeNamed n) (hn : isNCName name.toList = true) :
    NodeNamed (n.testFor v name r) := by
  refine ⟨?_, ?_, ?_⟩
  · rw [testFor_tests]
    exact forall_append h.tests (fromXml_testElems (forall_one hn))
  · rw [testFor_chars]; exact h.chars
  · rw [testFor_warnings]; exact h.warnings

theorem nodeNamed_run {v ss} (h : Named ss) : NodeNamed (Node.run v {} ss) := by
  refine ⟨?_, ?_, ?_⟩
  · rw [run_tests]
    exact forall_append (fun _ h => nomatch h) (fromXml_testElems (testsOf_named h))
  · rw [run_chars]
    exact forall_append (fun _ h => nomatch h) (charsOf_named h)
  · rw [run_warnings]
    exact forall_append (fun _ h => nomatch h) (warningsOf_named)

theorem nodeNamed_absorb {n : Node} {r : BoxResult} (h : NodeNamed n) (ht : isNCName r.tag.toList = true) (hr : NodeNamed r.node) :
    NodeNamed (n.absorb r) :=
  ⟨fromXml_appendIf h.tests (fromXml_node ht hr.tests), forall_append h.chars (forall_one (fromXml_node ht hr.chars)),
    fromXml_appendIf h.warnings (fromXml_node ht hr.warnings)⟩

theorem nodeNamed_quiet {n : Node} {r : BoxResult} (h : NodeNamed n) (ht : isNCName r.tag.toList = true) (hr : NodeNamed r.node) :
    NodeNamed (n.absorbQuiet r) :=
  ⟨fromXml_appendIf h.tests (fromXml_node ht hr.tests), h.chars,
    fromXml_appendIf h.warnings (fromXml_node ht hr.warnings)⟩

theorem boxName_named (t : BoxType) : isNCName t.name.toList = true := by cases t <;> decide

/-- Names are an invariant of every run. -/
def namedRel (env : Env) (o : Options) (hx : ParsesXml env) : NodeRel env o o where
  R _ n1 n2 := n1 = n2 ∧ NodeNamed n1
  L _ r1 r2 := r1 = r2 ∧ isNCName r1.tag.toList = true ∧ NodeNamed r1.node
  empty _ := ⟨rfl, ⟨(fun _ h => nomatch h), (fun _ h => nomatch h), (fun _ h => nomatch h)⟩⟩
  test name r h hn := by
    obtain ⟨rfl, h⟩ := h
    exact ⟨rfl, nodeNamed_test h (structureTests_named _ hn)⟩
  char name v hn h := by
    obtain ⟨rfl, h⟩ := h
    have : isNCName name.toList = true := by
      revert hn; revert name; decide
    exact ⟨rfl, ⟨h.tests, forall_append h.chars (forall_one (fromXml_leaf this v)), h.warnings⟩⟩
  absorb h hr _ := by
    obtain ⟨rfl, h⟩ := h
    obtain ⟨rfl, ht, hr⟩ := hr
    exact ⟨rfl, nodeNamed_absorb h ht hr⟩
  packet h hr _ := by
    obtain ⟨rfl, h⟩ := h
    obtain ⟨rfl, ht, hr⟩ := hr
    refine ⟨rfl, ?_⟩
    unfold Node.absorbPacket
    split
    · exact nodeNamed_absorb h ht hr
    · exact nodeNamed_quiet h ht hr
  leaf h1 h2 _ _ := by
    rw [h1] at h2
    cases h2
    exact ⟨rfl, boxName_named _, nodeNamed_run (leaf_named hx h1)⟩
  sot c := ⟨rfl, (by decide : isNCName "sot".toList = true), nodeNamed_run (named_sot c)⟩
  super tag ht h := by
    obtain ⟨rfl, h⟩ := h
    have : isNCName tag.toList = true := by revert ht; revert tag; decide
    exact ⟨rfl, this, h⟩
  code h := by obtain ⟨rfl, h⟩ := h; exact ⟨rfl, (by decide : isNCName "contiguousCodestreamBox".toList = true), h⟩
  tile h := by obtain ⟨rfl, h⟩ := h; exact ⟨rfl, (by decide : isNCName "tilePart".toList = true), h⟩
  tiles h := by obtain ⟨rfl, h⟩ := h; exact ⟨rfl, (by decide : isNCName "tileParts".toList = true), h⟩
  look h _ := by rw [h.1]

theorem validateRoot_named {env : Env} {o : Options} (hx : ParsesXml env) {fuel b n} (h : validateRoot env o fuel b = .ok n) :
    NodeNamed n := by
  have := validateRoot_rel (namedRel env o hx) rfl fuel b
  rw [h] at this
  cases this with
  | ok h => exact h.2

/-! ## Printed values -/

mutual
theorem fromXml_readable (env : Env) (tbl) : ∀ e : Elem, FromXml e → FromXml (makeHumanReadable env tbl e)
  | .mk t a x c lt, h => by
    rw [fromXml_mk] at h
    rw [makeHumanReadable, fromXml_mk]
    exact ⟨h.1, fromXml_readableL env tbl c h.2⟩
theorem fromXml_readableL (env : Env) (tbl) : ∀ es : List Elem, (∀ e ∈ es, FromXml e) →
    ∀ e ∈ makeHumanReadableL env tbl es, FromXml e
  | [], _ => by rw [makeHumanReadableL]; exact fun _ h => nomatch h
  | e :: es, h => by
    rw [makeHumanReadableL]
    intro x hx
    rcases List.mem_cons.1 hx with rfl | hx
    · exact fromXml_readable env tbl e (h e (List.mem_cons_self ..))
    · exact fromXml_readableL env tbl es (fun e he => h e (List.mem_cons_of_mem _ he)) x hx
end

theorem analyse_named {env : Env} (hx : ParsesXml env) {fs o fuel path a} (h : analyse env fs o fuel path = .ok a) :
    (∀ e ∈ a.tests, FromXml e) ∧ (∀ e ∈ a.props, FromXml e) ∧ ∀ e ∈ a.warnings, FromXml e := by
  rcases analyse_cases h with ⟨b, fmm, n, -, hn, rfl⟩ | ⟨e, -, rfl⟩
  · have hn := validateRoot_named hx hn
    refine ⟨fromXml_readableL env _ _ hn.tests, fromXml_readableL env _ _ hn.chars,
      fromXml_readableL env _ _ (forall_append hn.warnings ?_)⟩
    intro e he
    obtain ⟨w, -, rfl⟩ := List.mem_map.1 he
    exact fromXml_leaf (by decide) _
  · refine ⟨(fun _ h => nomatch h), (fun _ h => nomatch h), ?_⟩
    exact forall_one (fromXml_leaf (by decide) _)

/-! ## The extension -/

/-- A name of the extension. -/
def isMixName (t : String) : Bool := decide (t.toList.take 4 = "mix:".toList) && isNCName (t.toList.drop 4)

theorem mixName {t : String} (h : isMixName t = true) : ∃ l : String, t = "mix:" ++ l ∧ isNCName l.toList = true := by
  unfold isMixName at h
  rw [Bool.and_eq_true] at h
  refine ⟨String.ofList (t.toList.drop 4), ?_, by rw [String.toList_ofList]; exact h.2⟩
  apply String.ext
  have := List.take_append_drop 4 t.toList
  rw [of_decide_eq_true h.1] at this
  rw [String.toList_append, show (String.ofList (t.toList.drop 4)).toList = t.toList.drop 4 from String.toList_ofList]
  exact this.symm

theorem shape_mixNode {mix t} (h : isMixName t = true) {c} (hc : ∀ e ∈ c, Shaped mix true e) :
    Shaped mix true (.node t c) := by
  unfold Elem.node
  rw [Shaped]
  exact .inr (.inr ⟨rfl, mixName h, rfl, shapeL_iff.2 hc⟩)

theorem shape_mixLeaf {mix t v} (h : isMixName t = true) : Shaped mix true (.leaf t v) := by
  unfold Elem.leaf
  rw [Shaped]
  exact .inr (.inr ⟨rfl, mixName h, rfl, shapeL_iff.2 fun _ h => nomatch h⟩)

theorem shape_mixS {mix t s} (h : isMixName t = true) : Shaped mix true (sLeaf t s) := shape_mixLeaf h

theorem forall_nil {α} {p : α → Prop} : ∀ x ∈ ([] : List α), p x := fun _ h => nomatch h

theorem forall_cons {α} {p : α → Prop} {a : α} {l} (ha : p a) (hl : ∀ x ∈ l, p x) : ∀ x ∈ a :: l, p x := by
  intro x hx
  rcases List.mem_cons.1 hx with rfl | hx
  · exact ha
  · exact hl x hx

/-- A property of the result, if there is one. -/
def OkP {α} (P : α → Prop) (x : Outcome α) : Prop := ∀ a, x = .ok a → P a

theorem OkP.bind {α β} {P : β → Prop} {x : Outcome α} {f : α → Outcome β} (h : ∀ a, x = .ok a → OkP P (f a)) : OkP P (x >>= f) := by
  intro b hb
  obtain ⟨a, ha, hb⟩ := ok_of_bind hb
  exact h a ha b hb

theorem OkP.ok {α} {P : α → Prop} {a : α} (h : P a) : OkP P (.ok a) := by
  intro b hb; cases hb; exact h

theorem OkP.raised {α} {P : α → Prop} {e} : OkP P (.raised e) := fun _ h => nomatch h

theorem OkP.bind_ok {α β} {P : β → Prop} {a : α} {f : α → Outcome β} (h : OkP P (f a)) : OkP P (Outcome.ok a >>= f) :=
  OkP.bind fun b hb => by cases hb; exact h

theorem OkP.bind_raised {α β} {P : β → Prop} {e} {f : α → Outcome β} : OkP P (Outcome.raised e >>= f) :=
  OkP.bind fun _ hb => nomatch hb

/-- Walks through the statements that compute an element of the extension. -/
macro "ok_walk" : tactic => `(tactic|
  repeat' first
    | with_reducible exact OkP.raised
    | with_reducible exact OkP.bind_raised
    | with_reducible refine OkP.bind_ok ?_
    | with_reducible refine OkP.bind fun _ _ => ?_
    | with_reducible refine OkP.ok ?_
    | split)

/-- Walks through an element of the extension. -/
macro "mix_shape" : tactic => `(tactic|
  repeat' first
    | exact forall_nil
    | with_reducible assumption
    | refine shape_mixS (by decide)
    | refine shape_mixLeaf (by decide)
    | refine shape_mixNode (by decide) ?_
    | refine forall_cons ?_ ?_
    | refine forall_append ?_ ?_
    | split)

theorem shape_bdoi {mix me flag props e} (h : mixBdoi me flag props = .ok e) : Shaped mix true e := by
  revert h
  generalize e = e'
  revert e'
  unfold mixBdoi
  change OkP _ _
  simp only []
  ok_walk
  all_goals mix_shape

theorem shape_photometric {mix me props e} (h : mixPhotometric me props = .ok e) : Shaped mix true e := by
  unfold mixPhotometric at h
  split at h
  · obtain ⟨_, -, h⟩ := ok_of_bind h
    obtain ⟨_, -, h⟩ := ok_of_bind h
    obtain ⟨_, -, h⟩ := ok_of_bind h
    cases h
    mix_shape
  · obtain ⟨_, -, h⟩ := ok_of_bind h
    obtain ⟨_, -, h⟩ := ok_of_bind h
    cases h
    mix_shape

theorem shape_codec {mix props es} (h : mixCodec props = .ok es) : ∀ e ∈ es, Shaped mix true e := by
  unfold mixCodec at h
  split at h
  · cases h; mix_shape
  · obtain ⟨_, -, h⟩ := ok_of_bind h
    split at h
    · cases h; mix_shape
    · cases h; mix_shape

theorem shape_bio {mix me flag props e} (h : mixBio me flag props = .ok e) : Shaped mix true e := by
  unfold mixBio at h
  obtain ⟨_, -, h⟩ := ok_of_bind h
  obtain ⟨_, -, h⟩ := ok_of_bind h
  obtain ⟨pi, hpi, h⟩ := ok_of_bind h
  obtain ⟨codec, hco, h⟩ := ok_of_bind h
  obtain ⟨_, -, h⟩ := ok_of_bind h
  obtain ⟨_, -, h⟩ := ok_of_bind h
  obtain ⟨_, -, h⟩ := ok_of_bind h
  obtain ⟨_, -, h⟩ := ok_of_bind h
  cases h
  have := shape_photometric (mix := mix) hpi
  have := shape_codec (mix := mix) hco
  mix_shape

theorem shape_addIf {mix me rdf ns tag dest es} (hd : isMixName dest = true) (h : addIfExist me rdf ns tag dest = .ok es) :
    ∀ e ∈ es, Shaped mix true e := by
  unfold addIfExist at h
  obtain ⟨v, -, h⟩ := ok_of_bind h
  split at h
  · obtain ⟨_, -, h⟩ := ok_of_bind h
    cases h
    exact forall_one (shape_mixS hd)
  · cases h; exact forall_nil

theorem shape_icm {mix me props e} (h : mixIcm me props = .ok e) : ∀ x ∈ e.toList, Shaped mix true x := by
  unfold mixIcm at h
  split at h
  · cases h; exact forall_nil
  · obtain ⟨_, h1, h⟩ := ok_of_bind h
    obtain ⟨_, h2, h⟩ := ok_of_bind h
    obtain ⟨_, h3, h⟩ := ok_of_bind h
    obtain ⟨_, h4, h⟩ := ok_of_bind h
    obtain ⟨_, h5, h⟩ := ok_of_bind h
    obtain ⟨_, -, h⟩ := ok_of_bind h
    have := shape_addIf (mix := mix) (by decide) h1
    have := shape_addIf (mix := mix) (by decide) h2
    have := shape_addIf (mix := mix) (by decide) h3
    have := shape_addIf (mix := mix) (by decide) h4
    have := shape_addIf (mix := mix) (by decide) h5
    clear h1 h2 h3 h4 h5
    revert h
    generalize e = e'
    revert e'
    change OkP (fun e : Option Elem => ∀ x ∈ e.toList, Shaped mix true x) _
    simp only []
    ok_walk
    all_goals
      refine forall_one ?_
      mix_shape

theorem shape_spatial {mix me flag props es} (h : mixSpatial me flag props = .ok es) : ∀ e ∈ es, Shaped mix true e := by
  unfold mixSpatial at h
  simp only [] at h
  split at h
  · obtain ⟨_, -, h⟩ := ok_of_bind h
    obtain ⟨_, -, h⟩ := ok_of_bind h
    obtain ⟨_, -, h⟩ := ok_of_bind h
    obtain ⟨_, -, h⟩ := ok_of_bind h
    obtain ⟨_, -, h⟩ := ok_of_bind h
    obtain ⟨_, -, h⟩ := ok_of_bind h
    cases h
    mix_shape
  · split at h
    · obtain ⟨_, -, h⟩ := ok_of_bind h
      obtain ⟨_, -, h⟩ := ok_of_bind h
      obtain ⟨_, -, h⟩ := ok_of_bind h
      obtain ⟨_, -, h⟩ := ok_of_bind h
      obtain ⟨_, -, h⟩ := ok_of_bind h
      obtain ⟨_, -, h⟩ := ok_of_bind h
      cases h
      mix_shape
    · cases h; exact forall_nil

theorem shape_iam {mix me flag props e} (h : mixIam me flag props = .ok e) : Shaped mix true e := by
  unfold mixIam at h
  obtain ⟨sp, hsp, h⟩ := ok_of_bind h
  have := shape_spatial (mix := mix) hsp
  have hm : ∀ vs : List PyVal, ∀ x ∈ vs.map (Elem.leaf "mix:bitsPerSampleValue"), Shaped mix true x := by
    intro vs e he
    obtain ⟨v, -, rfl⟩ := List.mem_map.1 he
    exact shape_mixLeaf (by decide)
  revert h
  generalize e = e'
  revert e'
  change OkP _ _
  simp only []
  ok_walk
  all_goals
    mix_shape
  all_goals exact hm _

theorem shape_mix {me flag props m b} (h : generateMix me flag props = .ok m) : Shaped (mixSpace flag) b m := by
  unfold generateMix at h
  obtain ⟨_, h1, h⟩ := ok_of_bind h
  obtain ⟨_, h2, h⟩ := ok_of_bind h
  obtain ⟨_, h3, h⟩ := ok_of_bind h
  obtain ⟨_, h4, h⟩ := ok_of_bind h
  cases h
  rw [Shaped]
  refine .inr (.inl ⟨rfl, ⟨_, rfl⟩, shapeL_iff.2 ?_⟩)
  have := shape_bdoi (mix := mixSpace flag) h1
  have := shape_bio (mix := mixSpace flag) h2
  have := shape_icm (mix := mixSpace flag) h3
  have := shape_iam (mix := mixSpace flag) h4
  mix_shape

/-! ## The report -/

theorem shape_node {mix b t c} (h : isNCName t.toList = true) (hc : ∀ e ∈ c, Shaped mix b e) : Shaped mix b (.node t c) := by
  unfold Elem.node
  rw [Shaped]
  exact .inl ⟨.inl h, List.nodup_nil, (fun _ h => nomatch h), shapeL_iff.2 hc⟩

theorem fromXml_fileInfo {fs path info} (h : fileInfo fs path = .ok info) : FromXml info := by
  unfold fileInfo at h
  obtain ⟨_, -, h⟩ := ok_of_bind h
  obtain ⟨_, -, h⟩ := ok_of_bind h
  cases h
  exact fromXml_node (by decide) (forall_cons (fromXml_leaf (by decide) _) (forall_cons (fromXml_leaf (by decide) _)
    (forall_cons (fromXml_leaf (by decide) _) (forall_cons (fromXml_leaf (by decide) _) forall_nil))))

theorem fromXml_toolInfo (s : String) : FromXml (toolInfo s) :=
  fromXml_node (by decide) (forall_cons (fromXml_leaf (by decide) _) (forall_cons (fromXml_leaf (by decide) _) forall_nil))

/-- The shape of every report. -/
theorem shape_report {env : Env} (hx : ParsesXml env) {me fs fuel o mix path rep}
    (h : checkOneFile env me fs fuel o mix path = .ok rep) : Shaped (mixSpace mix) false rep ∧ rep.attrs = [] := by
  obtain ⟨info, a, mp, h1, h2, h3, rfl⟩ := checkOneFile_ok.1 h
  refine ⟨?_, rfl⟩
  unfold mixOutput at h3
  unfold buildReport extensionOf
  obtain ⟨ht, hp, hw⟩ := analyse_named hx h2
  have hmp : ∀ e ∈ mp, Shaped (mixSpace mix) false e := by
    split at h3
    · obtain ⟨m, hm, h⟩ := ok_of_bind h3
      cases h
      exact forall_one (shape_mix hm)
    · cases h3; exact forall_nil
  refine shape_node (by decide) (forall_append (forall_append ?_ ?_) ?_)
  · refine forall_cons (shape_fromXml _ (fromXml_fileInfo h1)) (forall_cons (shape_fromXml _ ?_)
      (forall_cons ?_ (forall_cons (shape_fromXml _ (fromXml_node (by decide) ht))
        (forall_cons (shape_fromXml _ (fromXml_node (by decide) hp)) forall_nil))))
    · refine fromXml_node (by decide) (forall_cons (fromXml_leaf (by decide) _) ?_)
      split
      · exact forall_one (fromXml_leaf (by decide) _)
      · exact forall_nil
    · rw [Shaped]
      refine .inl ⟨.inl (by decide), ?_, ?_, shapeL_iff.2 forall_nil⟩
      · simp
      · exact forall_one ⟨.inl (by decide : isNCName "format".toList = true), (by decide : "format" ≠ "xmlns")⟩
  · split
    · refine forall_one (shape_node (by decide) ?_)
      split
      · exact hmp
      · exact forall_nil
    · exact forall_nil
  · exact forall_one (shape_fromXml _ (fromXml_node (by decide) hw))

end Jpy
