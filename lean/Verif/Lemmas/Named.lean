import Verif.Lemmas.XmlShape
import Verif.Lemmas.Rel
/-! # The names in a report are names of XML -/

namespace Jpy
open Spec.Xml

/-! ## Trees -/

theorem fromXml_mk {t a x c l} : FromXml (.mk t a x c l) ↔
    (ParsedName t ∧ (a.map (·.1)).Nodup ∧ (∀ k ∈ a, ParsedName k.1 ∧ k.1 ≠ "xmlns" ∧ k.2.toList.all isChar = true) ∧
      l.toList.all isChar = true) ∧
      ∀ e ∈ c, FromXml e := by
  unfold FromXml
  rw [Elem.iter]
  constructor
  · intro h
    refine ⟨h _ (List.mem_cons_self ..), fun e he x hx => h x (List.mem_cons_of_mem _ (mem_iter_list.2 ⟨e, he, hx⟩))⟩
  · rintro ⟨h1, h2⟩ x hx
    rcases List.mem_cons.1 hx with rfl | hx
    · exact h1
    · obtain ⟨e, he, hx⟩ := mem_iter_list.1 hx
      exact h2 e he x hx

theorem fromXml_leaf {t : String} (h : isNCName t.toList = true) (v) : FromXml (.leaf t v) :=
  fromXml_mk.2 ⟨⟨.inl h, List.nodup_nil, (fun _ h => nomatch h), rfl⟩, fun _ h => nomatch h⟩

theorem fromXml_node {t : String} (h : isNCName t.toList = true) {c} (hc : ∀ e ∈ c, FromXml e) : FromXml (.node t c) :=
  fromXml_mk.2 ⟨⟨.inl h, List.nodup_nil, (fun _ h => nomatch h), rfl⟩, hc⟩

mutual
theorem shape_fromXml {mix b} : ∀ e : Elem, FromXml e → Shaped mix b e
  | .mk t a x c lt, h => by
    rw [fromXml_mk] at h
    rw [Shaped]
    exact .inl ⟨h.1.1, h.1.2.1, fun k hk => ⟨(h.1.2.2.1 k hk).1, (h.1.2.2.1 k hk).2.1⟩, shapeL_fromXml c h.2⟩
theorem shapeL_fromXml {mix b} : ∀ es : List Elem, (∀ e ∈ es, FromXml e) → ShapedL mix b es
  | [], _ => by rw [ShapedL]; trivial
  | e :: es, h => by
    rw [ShapedL]
    exact ⟨shape_fromXml e (h e (List.mem_cons_self ..)), shapeL_fromXml es fun x hx => h x (List.mem_cons_of_mem _ hx)⟩
end

theorem ok_of_bind {α β : Type} {x : Outcome α} {f : α → Outcome β} {b} (h : (x >>= f) = .ok b) : ∃ a, x = .ok a ∧ f a = .ok b := by
  cases x with
  | ok a => exact ⟨a, rfl, h⟩
  | raised e => cases h
  | timeout => cases h

/-! ## Steps of the leaves -/

/-- The names a statement uses are names of XML. -/
def StepNamed : Step → Prop
  | .test n _ => isNCName n.toList = true
  | .char n _ => isNCName n.toList = true
  | .warn _ => True
  | .elem e => FromXml e

/-- The same for all statements of a list. -/
def Named (ss : List Step) : Prop := ∀ s ∈ ss, StepNamed s

theorem named_nil : Named [] := fun _ h => nomatch h
theorem named_cons {s ss} (h : StepNamed s) (hs : Named ss) : Named (s :: ss) := by
  intro x hx
  rcases List.mem_cons.1 hx with rfl | hx
  · exact h
  · exact hs x hx
theorem named_append {a b} (ha : Named a) (hb : Named b) : Named (a ++ b) := by
  intro x hx
  rcases List.mem_append.1 hx with hx | hx
  · exact ha x hx
  · exact hb x hx
theorem named_flatMap {α} {l : List α} {f : α → List Step} (h : ∀ x, Named (f x)) : Named (l.flatMap f) := by
  intro x hx
  obtain ⟨a, -, hx⟩ := List.mem_flatMap.1 hx
  exact h a x hx
theorem named_map {α} {l : List α} {f : α → Step} (h : ∀ x, StepNamed (f x)) : Named (l.map f) := by
  intro x hx
  obtain ⟨a, -, rfl⟩ := List.mem_map.1 hx
  exact h a

theorem named_test {n r ss} (h : isNCName n.toList = true) (hs : Named ss) : Named (.test n r :: ss) := named_cons h hs
theorem named_char {n v ss} (h : isNCName n.toList = true) (hs : Named ss) : Named (.char n v :: ss) := named_cons h hs
theorem named_warn {m ss} (hs : Named ss) : Named (.warn m :: ss) := named_cons trivial hs
theorem stepNamed_test {n r} (h : isNCName n.toList = true) : StepNamed (.test n r) := h
theorem stepNamed_char {n v} (h : isNCName n.toList = true) : StepNamed (.char n v) := h

/-- Walks through the statements of a leaf. -/
macro "named_steps" : tactic => `(tactic|
  repeat' first
    | exact named_nil
    | refine named_test (by decide) ?_
    | refine named_char (by decide) ?_
    | refine named_append ?_ ?_
    | refine named_flatMap fun _ => ?_
    | refine named_map fun _ => stepNamed_char (by decide)
    | refine named_map fun _ => stepNamed_test (by decide)
    | split)

theorem named_icc (c) : Named (icc c) := by
  unfold icc; simp only []; named_steps

theorem charsOf_named : ∀ {ss : List Step}, Named ss → ∀ e ∈ charsOf ss, FromXml e
  | [], _, _, h => nomatch h
  | .char n v :: ss, hs, e, h => by
    rw [charsOf] at h
    rcases List.mem_cons.1 h with rfl | h
    · exact fromXml_leaf (hs _ (List.mem_cons_self ..)) v
    · exact charsOf_named (fun s h => hs s (List.mem_cons_of_mem _ h)) e h
  | .elem x :: ss, hs, e, h => by
    rw [charsOf] at h
    rcases List.mem_cons.1 h with rfl | h
    · exact hs _ (List.mem_cons_self ..)
    · exact charsOf_named (fun s h => hs s (List.mem_cons_of_mem _ h)) e h
  | .test _ _ :: ss, hs, e, h => charsOf_named (fun s h => hs s (List.mem_cons_of_mem _ h)) e h
  | .warn _ :: ss, hs, e, h => charsOf_named (fun s h => hs s (List.mem_cons_of_mem _ h)) e h

theorem testsOf_named : ∀ {ss : List Step}, Named ss → ∀ p ∈ testsOf ss, isNCName p.1.toList = true
  | [], _, _, h => nomatch h
  | .test n v :: ss, hs, e, h => by
    rw [testsOf] at h
    rcases List.mem_cons.1 h with rfl | h
    · exact hs _ (List.mem_cons_self ..)
    · exact testsOf_named (fun s h => hs s (List.mem_cons_of_mem _ h)) e h
  | .elem x :: ss, hs, e, h => testsOf_named (fun s h => hs s (List.mem_cons_of_mem _ h)) e h
  | .char _ _ :: ss, hs, e, h => testsOf_named (fun s h => hs s (List.mem_cons_of_mem _ h)) e h
  | .warn _ :: ss, hs, e, h => testsOf_named (fun s h => hs s (List.mem_cons_of_mem _ h)) e h

theorem warningsOf_named : ∀ {ss : List Step}, ∀ e ∈ warningsOf ss, FromXml e
  | [], _, h => nomatch h
  | .warn m :: ss, e, h => by
    rw [warningsOf] at h
    rcases List.mem_cons.1 h with rfl | h
    · exact fromXml_leaf (by decide) _
    · exact warningsOf_named (ss := ss) e h
  | .elem x :: ss, e, h => warningsOf_named (ss := ss) e h
  | .char _ _ :: ss, e, h => warningsOf_named (ss := ss) e h
  | .test _ _ :: ss, e, h => warningsOf_named (ss := ss) e h

theorem fromXml_icc (c) : FromXml (iccElem c) := by
  unfold iccElem
  refine fromXml_node (by decide) fun e he => ?_
  rw [run_chars] at he
  rcases List.mem_append.1 he with he | he
  · exact nomatch he
  · exact charsOf_named (named_icc c) e he

theorem named_xml {env : Env} (hx : ParsesXml env) (nx d) : Named (xmlSteps env nx d) := by
  unfold xmlSteps
  split
  · rename_i e he
    exact named_cons (hx _ _ he) (named_test (by decide) named_nil)
  · refine named_append ?_ (named_test (by decide) named_nil)
    split
    · split
      · rename_i e he; exact named_cons (hx _ _ he) named_nil
      · exact named_nil
    · exact named_nil

theorem named_profileLoop (c nm b n st) : Named (profileLoop c nm b n st).2 := by
  have h : ∀ (l : List Nat) (acc : Int × List Step), (∀ i ∈ l, i < n) → Named acc.2 →
      Named (l.foldl (fun (acc : Int × List Step) i =>
        let p := bytesToUShortInt (slice c 2 4)
        (acc.1 + p * 2 ^ (16 * i),
        if i = n ∧ b then acc.2 ++ [.test nm (decide (p ≠ 0))] else acc.2)) acc).2 := by
    intro l
    induction l with
    | nil => intro acc _ h; exact h
    | cons i l ih =>
      intro acc hl h
      rw [List.foldl_cons]
      refine ih _ (fun j hj => hl j (List.mem_cons_of_mem _ hj)) ?_
      have := hl i (List.mem_cons_self ..)
      simp only []
      rw [if_neg (by omega)]
      exact h
  exact h _ _ (fun i hi => List.mem_range.1 hi) named_nil

theorem named_uuidList {c} : ∀ {n off ss}, uuidListLoop c n off = .ok ss → Named ss
  | 0, off, ss, h => by cases h; exact named_nil
  | n + 1, off, ss, h => by
    rw [uuidListLoop] at h
    obtain ⟨u, -, h⟩ := ok_of_bind h
    obtain ⟨r, hr, h⟩ := ok_of_bind h
    cases h
    exact named_char (by decide) (named_uuidList hr)

theorem named_withCsiz {cs f ss} (h : withCsiz cs f = .ok ss) (hf : ∀ n, Named (f n)) : Named ss := by
  unfold withCsiz at h
  split at h
  · cases h
  · cases h; exact hf _

theorem named_signature (c) : Named (signatureBox c) := by unfold signatureBox; named_steps
theorem named_fileType (f c) : Named (fileTypeBox f c) := by unfold fileTypeBox; simp only []; named_steps
theorem named_imageHeader (c) : Named (imageHeaderBox c) := by unfold imageHeaderBox; simp only []; named_steps
theorem named_bpcc (c) : Named (bitsPerComponentBox c) := by unfold bitsPerComponentBox; simp only []; named_steps
theorem named_palette (c) : Named (paletteBox c) := by unfold paletteBox; simp only []; named_steps
theorem named_cmap (c) : Named (componentMappingBox c) := by unfold componentMappingBox; simp only []; named_steps
theorem named_cdef (f c) : Named (channelDefinitionBox f c) := by unfold channelDefinitionBox; simp only []; named_steps
theorem named_url (c) : Named (urlBox c) := by unfold urlBox; simp only []; named_steps
theorem named_cap (f c) : Named (cap f c) := by unfold cap; simp only []; named_steps
theorem named_com (env c) : Named (com env c) := by unfold com; simp only []; named_steps
theorem named_sot (c) : Named (sot c) := by unfold sot; simp only []; named_steps
theorem named_codeBlock (f c o) : Named (codeBlockSteps f c o) := by unfold codeBlockSteps; simp only []; named_steps
theorem named_precinct (c o p l) : Named (precinctSteps c o p l) := by unfold precinctSteps; simp only []; named_steps
theorem named_quant (c q l o) : Named (quantSteps c q l o) := by unfold quantSteps; simp only []; named_steps
theorem named_pocEntry (n c o) : Named (pocEntry n c o) := by unfold pocEntry; simp only []; named_steps
theorem named_cod (f c) : Named (cod f c) :=
  named_append (named_append (by named_steps) (named_codeBlock _ _ _)) (named_precinct _ _ _ _)
theorem named_qcd (c) : Named (qcd c) := named_append (by named_steps) (named_quant _ _ _ _)
theorem named_unknown (env t) : Named (unknownBox env t) := named_char (by decide) (named_warn named_nil)

/-- Every statement of a leaf uses names of XML. -/
theorem leaf_named {env : Env} (hx : ParsesXml env) {o : Options} {fuel csiz t bType c ss}
    (h : leaf env o fuel csiz t bType c = .ok ss) : Named ss := by
  cases t <;> simp only [leaf] at h
  case xmlBox => cases h; exact named_xml hx _ _
  case uuidBox =>
    unfold Jpy.uuidBox at h
    obtain ⟨u, -, h⟩ := ok_of_bind h
    cases h
    refine named_test (by decide) ?_
    split
    · exact named_xml hx _ _
    · exact named_char (by decide) named_nil
  case colourSpecificationBox =>
    cases h
    unfold colourSpecificationBox
    simp only []
    repeat' first
    | exact named_nil
    | refine named_test (by decide) ?_
    | refine named_char (by decide) ?_
    | refine named_cons (fromXml_icc _) ?_
    | refine named_append ?_ ?_
    | split
  case uuidListBox =>
    unfold uuidListBox at h
    obtain ⟨r, hr, h⟩ := ok_of_bind h
    cases h
    exact named_append (by named_steps) (named_uuidList hr)
  case captureResolutionBox | displayResolutionBox =>
    unfold resolutionLeaf at h
    simp only [] at h
    split at h
    · cases h
    · split at h
      · cases h
      · cases h
        named_steps
  case siz =>
    unfold siz at h
    simp only [] at h
    split at h
    · cases h
    · cases h
      named_steps
  case prf =>
    cases h
    unfold prf
    have := named_profileLoop c "pprfIsValid" true (rangeLen (intDiv (bytesToUShortInt (slice c 0 2) - 2) 2)) 4095
    exact named_append (named_append (by named_steps) this) (by named_steps)
  case cpf =>
    cases h
    unfold cpf
    have := named_profileLoop c "pcpfIsValid" o.format.isHT (rangeLen (intDiv (bytesToUShortInt (slice c 0 2) - 2) 2)) (-1)
    exact named_append (named_append (by named_steps) this) (by named_steps)
  case coc =>
    exact named_withCsiz h fun n => named_append (named_append (by named_steps) (named_codeBlock _ _ _)) (named_precinct _ _ _ _)
  case rgn => exact named_withCsiz h fun n => by simp only []; named_steps
  case qcc => exact named_withCsiz h fun n => named_append (by named_steps) (named_quant _ _ _ _)
  case poc => exact named_withCsiz h fun n => named_append (by named_steps) (named_flatMap fun _ => named_pocEntry _ _ _)
  case crg => exact named_withCsiz h fun n => by simp only []; named_steps
  case cod => cases h; exact named_cod _ _
  case qcd => cases h; exact named_qcd _
  case plm =>
    unfold plm at h
    obtain ⟨r, hr, h⟩ := ok_of_bind h
    cases h
    named_steps
  case plt =>
    unfold plt at h
    obtain ⟨r, hr, h⟩ := ok_of_bind h
    cases h
    named_steps
  case unknownBox => cases h; exact named_unknown _ _
  case signatureBox => cases h; exact named_signature _
  case fileTypeBox => cases h; exact named_fileType _ _
  case imageHeaderBox => cases h; exact named_imageHeader _
  case bitsPerComponentBox => cases h; exact named_bpcc _
  case paletteBox => cases h; exact named_palette _
  case componentMappingBox => cases h; exact named_cmap _
  case channelDefinitionBox => cases h; exact named_cdef _ _
  case urlBox => cases h; exact named_url _
  case cap => cases h; exact named_cap _ _
  case com => cases h; exact named_com _ _
  all_goals
    cases h
    exact named_nil

end Jpy
